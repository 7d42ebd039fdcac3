import Verif.Proof.Wake

/-!
# C90: who is served next, and how long the application may sleep

The specification is in `Verif/Spec/Wake.lean`, the model in `Verif/Model/Wake.lean`.
-/

namespace Picoquic.Props
open Picoquic.Splay Picoquic.Spec Picoquic.Wake

/-- The connections of a context with their wake times, in the order of the tree. -/
def wakeEntries (q : Quic) : List (Nat × Nat) := q.tree.root.toList

/-- The state reached by a history. -/
theorem wake_reach {ops : List WakeOp} {q : Quic} {evs : List WakeEvent}
    (h : run Quic.init ops = some (q, evs)) :
    evs = (Agenda.run {} ops).2 ∧ Rel q (Agenda.run {} ops).1 ∧ Good (Agenda.run {} ops).1.turns := by
  obtain ⟨q', h1, h2, h3⟩ := run_spec ops Rel.init Good.nil
  rw [h] at h1
  injection h1 with h1
  injection h1 with h1 h4
  subst h1
  exact ⟨h4, h2, h3⟩

/-- **C90, the list.** Whatever the history of calls, no assertion fails, the events are those of a
scheduler that is a plain list, and the wake list holds each existing connection once, with its last
wake time, earliest first, and in the order in which they were put there when the times are equal. -/
theorem C90_list (ops : List WakeOp) :
    ∃ q, run Quic.init ops = some (q, (Agenda.run {} ops).2) ∧
      wakeEntries q = (Agenda.run {} ops).1.turns ∧
      q.tree.size = (wakeEntries q).length ∧
      q.app = (Agenda.run {} ops).1.alarms ∧ q.stateless = (Agenda.run {} ops).1.packets ∧
      (wakeEntries q).Pairwise (fun a b => a.2 ≤ b.2) ∧
      (wakeEntries q).Pairwise (fun a b => a.1 ≠ b.1) := by
  obtain ⟨q, h1, h2, h3⟩ := run_spec ops Rel.init Good.nil
  refine ⟨q, h1, h2.turns, ?_, h2.alarms, h2.packets, ?_, ?_⟩
  · unfold wakeEntries; rw [h2.turns]; exact h2.size
  · unfold wakeEntries; rw [h2.turns]; exact h3.sorted
  · unfold wakeEntries; rw [h2.turns]; exact h3.once

/-- A history with three connections, two of them at the same time, an alarm and a deletion. -/
example : (Agenda.run {} [.create 1 50, .create 2 20, .create 3 20, .touch 1 20, .alarm 3 10,
    .delete 2, .queue [1, 2], .prepare 30 1500 ⟨.ok, 99, [], true⟩,
    .prepare 30 1500 ⟨.ok, 99, [40], true⟩, .prepare 31 1500 ⟨.error, 70, [], true⟩]).2 =
    [.none, .none, .none, .none, .none, .none, .none, .sent [1, 2], .served 3 1, .served 1 0] := by
  decide +kernel

example : (Agenda.run {} [.create 1 50, .create 2 20, .create 3 20, .touch 1 20, .alarm 3 10,
    .delete 2, .prepare 30 1500 ⟨.ok, 99, [40], true⟩]).1.turns = [(1, 20), (3, 40)] := by
  decide +kernel

/-- **C90, the next wake time** is the smallest of the wake times of all connections, the largest
64 bit number when there is none, and the current time when a packet without connection waits. -/
theorem C90_next_wake (ops : List WakeOp) (q : Quic) (evs : List WakeEvent)
    (h : run Quic.init ops = some (q, evs)) (now : Nat) :
    (q.stateless ≠ [] → nextWake q now = now) ∧
    (q.stateless = [] →
      (∀ e ∈ wakeEntries q, nextWake q now ≤ e.2) ∧
      ((∃ e ∈ wakeEntries q, e.2 = nextWake q now) ∨
        (wakeEntries q = [] ∧ nextWake q now = 2 ^ 64 - 1))) := by
  obtain ⟨_, hr, hg⟩ := wake_reach h
  refine ⟨fun hs => by unfold nextWake; rw [if_pos hs], fun hs => ?_⟩
  have hf := first_turns hr
  have he : wakeEntries q = (Agenda.run {} ops).1.turns := hr.turns
  have hn : nextWake q now = match first q.tree with
      | none => 2 ^ 64 - 1
      | some z => z.x.2 := by unfold nextWake; rw [if_neg (fun h => h hs)]; rfl
  cases ht : (Agenda.run {} ops).1.turns with
  | nil =>
    rw [ht] at hf he
    cases hq : first q.tree with
    | some z => rw [hq] at hf; exact nomatch hf
    | none =>
      rw [hq] at hn
      exact ⟨fun e hm => (by rw [he] at hm; exact absurd hm List.not_mem_nil), .inr ⟨he, hn⟩⟩
  | cons x xs =>
    rw [ht] at hf he
    cases hq : first q.tree with
    | none => rw [hq] at hf; exact nomatch hf
    | some z =>
      rw [hq] at hf hn
      have hx : z.x = x := by simpa using hf
      simp only [hx] at hn
      refine ⟨fun e hm => ?_, .inl ⟨x, by rw [he]; simp, hn.symm⟩⟩
      rw [he] at hm
      rw [hn]
      rcases List.mem_cons.1 hm with rfl | hm
      · exact Nat.le_refl _
      · exact (List.pairwise_cons.1 (ht ▸ hg.sorted)).1 e hm

example : (run Quic.init [.create 1 50, .create 2 20, .touch 1 70]).map (fun x => nextWake x.1 5) =
    some 20 := by
  decide +kernel

/-- **C90, the delay.** If the current time plus the longest delay is less than 2^64, an application
that sleeps for the delay returned does not sleep longer than asked, does not sleep past the wake
time of any connection, does not sleep while a packet without connection waits, and the delay cannot
be longer: it is the longest one, or it ends exactly when a connection is to be woken up, or
somebody is to be served now. -/
theorem C90_delay (ops : List WakeOp) (q : Quic) (evs : List WakeEvent)
    (h : run Quic.init ops = some (q, evs)) (now m : Nat) (hm : now + m < 2 ^ 64) :
    wakeDelay q now m ≤ m ∧
    (q.stateless ≠ [] → wakeDelay q now m = 0) ∧
    (∀ e ∈ wakeEntries q, now + wakeDelay q now m ≤ max now e.2) ∧
    (q.stateless = [] →
      (wakeDelay q now m = m) ∨ (∃ e ∈ wakeEntries q, e.2 = now + wakeDelay q now m) ∨
      (wakeDelay q now m = 0 ∧ ∃ e ∈ wakeEntries q, e.2 ≤ now)) := by
  obtain ⟨h1, h2⟩ := C90_next_wake ops q evs h now
  have hd : wakeDelay q now m = if nextWake q now > now then
      if nextWake q now ≥ now + m then m else nextWake q now - now else 0 := by
    unfold wakeDelay
    simp only [Nat.mod_eq_of_lt hm]
  by_cases hs : q.stateless = []
  · obtain ⟨h3, h4⟩ := h2 hs
    by_cases hc : nextWake q now > now
    · rw [if_pos hc] at hd
      by_cases hc2 : nextWake q now ≥ now + m
      · rw [if_pos hc2] at hd
        refine ⟨by omega, fun hn => absurd hs hn, fun e he => ?_, fun _ => .inl hd⟩
        have := h3 e he
        omega
      · rw [if_neg hc2] at hd
        refine ⟨by omega, fun hn => absurd hs hn, fun e he => ?_, fun _ => ?_⟩
        · have := h3 e he
          omega
        · rcases h4 with ⟨e, he, heq⟩ | ⟨_, hmax⟩
          · exact .inr (.inl ⟨e, he, by omega⟩)
          · exfalso
            simp only [Nat.reducePow] at *
            omega
    · rw [if_neg hc] at hd
      refine ⟨by omega, fun hn => absurd hs hn, fun e he => by omega, fun _ => ?_⟩
      rcases h4 with ⟨e, he, heq⟩ | ⟨_, hmax⟩
      · exact .inr (.inr ⟨hd, e, he, by omega⟩)
      · left
        simp only [Nat.reducePow] at *
        omega
  · have hn := h1 hs
    rw [hn, if_neg (by omega)] at hd
    exact ⟨by omega, fun _ => hd, fun e he => by omega, fun h => absurd h hs⟩

example : (run Quic.init [.create 1 50, .create 2 20]).map
    (fun x => (wakeDelay x.1 5 1000, wakeDelay x.1 5 10)) = some (15, 10) := by decide +kernel

/-- **C90, the delay of one connection**: at most what is asked, not past its wake time, and exactly
its wake time if this comes before the longest delay. -/
theorem C90_delay_cnx (q : Quic) (w now m : Nat) (hm : now + m < 2 ^ 64) :
    cnxWakeDelay q w now m = if q.stateless = [] then min (w - now) m else 0 := by
  unfold cnxWakeDelay
  simp only [Nat.mod_eq_of_lt hm]
  by_cases hs : q.stateless = []
  · rw [if_pos hs, if_neg (show ¬ q.stateless ≠ [] from fun h => h hs)]
    by_cases hc : w > now
    · rw [if_pos hc]
      by_cases hc2 : w ≥ now + m
      · rw [if_pos hc2]; omega
      · rw [if_neg hc2]; omega
    · rw [if_neg hc]; omega
  · rw [if_neg hs, if_pos (show q.stateless ≠ [] from hs), if_neg (by omega)]

/-- **C90, who is served.** At a time other than 0, and when no packet without connection waits: if
a connection is served, it is one whose wake time has come, and no other has an earlier one; nobody
is served only if no wake time has come. -/
theorem C90_earliest (ops : List WakeOp) (q q' : Quic) (evs : List WakeEvent) (now room : Nat)
    (r : Serve) (ev : WakeEvent) (h : run Quic.init ops = some (q, evs)) (hs : q.stateless = [])
    (h0 : now ≠ 0) (hp : prepareNext q now room r = some (q', ev)) :
    (∃ id w n, ev = .served id n ∧ (id, w) ∈ wakeEntries q ∧ w ≤ now ∧
      ∀ e ∈ wakeEntries q, w ≤ e.2) ∨
    (ev = .idle ∧ q' = q ∧ ∀ e ∈ wakeEntries q, now < e.2) := by
  obtain ⟨_, hr, hg⟩ := wake_reach h
  have he : wakeEntries q = (Agenda.run {} ops).1.turns := hr.turns
  have hpk := hr.packets
  rw [hs] at hpk
  obtain ⟨q'', e1, _⟩ := step_spec hr hg (.prepare now room r)
  have e1' : prepareNext q now room r = _ := e1
  rw [hp] at e1'
  injection e1' with e1'
  injection e1' with e2 e3
  have hea := earliest_turns hr now
  simp only [Agenda.step, ← hpk] at e3
  cases ht : (Agenda.run {} ops).1.turns with
  | nil =>
    rw [ht] at e3 hea he
    have hq : q' = q := by
      unfold prepareNext at hp
      rw [hs] at hp
      simp only [hea] at hp
      injection hp with hp; injection hp with hp; exact hp.symm
    exact .inr ⟨e3, hq, fun e hm => by rw [he] at hm; exact absurd hm List.not_mem_nil⟩
  | cons x xs =>
    have hmin : ∀ e ∈ wakeEntries q, x.2 ≤ e.2 := by
      intro e hm
      rw [he, ht] at hm
      rcases List.mem_cons.1 hm with rfl | hm
      · exact Nat.le_refl _
      · exact (List.pairwise_cons.1 (ht ▸ hg.sorted)).1 e hm
    rw [ht] at e3 hea
    by_cases hc : now ≠ 0 ∧ now < x.2
    · simp only [if_pos hc] at e3 hea
      have hq : q' = q := by
        unfold prepareNext at hp
        rw [hs] at hp
        simp only [hea] at hp
        injection hp with hp; injection hp with hp; exact hp.symm
      exact .inr ⟨e3, hq, fun e hm => by have := hmin e hm; omega⟩
    · simp only [if_neg hc] at e3
      exact .inl ⟨x.1, x.2, _, e3, by rw [he, ht]; simp, by omega, hmin⟩

example : (run Quic.init [.create 1 50, .create 2 20, .prepare 30 1500 ⟨.ok, 99, [], true⟩,
    .prepare 30 1500 ⟨.ok, 99, [], true⟩]).map (fun x => x.2) =
    some [.none, .none, .served 2 0, .idle] := by decide +kernel

/-- **C90, at time 0.** The statement of `C90_earliest` fails at time 0: a connection is served
although its wake time has not come, whatever this time is. -/
theorem C90_zero_violated (id t room : Nat) (r : Serve) (ht : 0 < t) :
    ∃ q, run Quic.init [.create id t] = some (q, [.none]) ∧ q.stateless = [] ∧
      wakeEntries q = [(id, t)] ∧ 0 < t ∧
      ∃ q', prepareNext q 0 room r = some (q', .served id 0) := by
  obtain ⟨q, h1, h2, h3⟩ := run_spec [.create id t] Rel.init Good.nil
  refine ⟨q, h1, h2.packets, h2.turns, ht, ?_⟩
  obtain ⟨q', e1, _⟩ := step_spec h2 h3 (.prepare 0 room r)
  refine ⟨q', ?_⟩
  have e1' : prepareNext q 0 room r = _ := e1
  rw [e1']
  have hturn : (Agenda.run {} [.create id t]).1.turns = [(id, t)] := rfl
  have hpk : (Agenda.run {} [.create id t]).1.packets = [] := rfl
  have : ((Agenda.run {} [.create id t]).1.serve id 0 r).2 = 0 := by
    rw [serve_callbacks]
    cases r.again with
    | nil => rfl
    | cons v vs => rfl
  simp only [Agenda.step, hturn, hpk]
  rw [if_neg (by omega), this]

/-- **C90, in time.** Once the time is at least the next wake time, a request is not answered by
"nobody to wake up": the application that has slept for the delay has something to do. -/
theorem C90_ready (ops : List WakeOp) (q q' : Quic) (evs : List WakeEvent) (now room t : Nat)
    (r : Serve) (ev : WakeEvent) (h : run Quic.init ops = some (q, evs))
    (hw : nextWake q t ≤ now) (hlt : now < 2 ^ 64 - 1)
    (hp : prepareNext q now room r = some (q', ev)) : ev ≠ .idle := by
  by_cases hs : q.stateless = []
  · obtain ⟨_, h2⟩ := C90_next_wake ops q evs h t
    obtain ⟨_, h4⟩ := h2 hs
    rcases h4 with ⟨e, he, heq⟩ | ⟨_, hmax⟩
    · by_cases h0 : now = 0
      · intro hi
        subst h0
        unfold prepareNext at hp
        rw [hs] at hp
        obtain ⟨_, hr, hg⟩ := wake_reach h
        have hea := earliest_turns hr 0
        have hen : wakeEntries q = (Agenda.run {} ops).1.turns := hr.turns
        cases ht : (Agenda.run {} ops).1.turns with
        | nil => rw [hen, ht] at he; exact absurd he List.not_mem_nil
        | cons x xs =>
          rw [ht] at hea
          simp only [ne_eq, not_true, false_and, if_false] at hea
          simp only [hea] at hp
          revert hp
          cases preparePacket q x.1 0 r with
          | none => intro hp; exact nomatch hp
          | some y =>
            by_cases hd : r.how = .disconnected
            · simp only [if_pos hd]
              cases (if r.client = true then reinsert y.1 x.1 (2 ^ 64 - 1) else deleteCnx y.1 x.1) with
              | none => intro hp; exact nomatch hp
              | some z => intro hp; injection hp with hp; injection hp with _ hp; rw [hi] at hp; exact nomatch hp
            · simp only [if_neg hd]
              intro hp; injection hp with hp; injection hp with _ hp; rw [hi] at hp; exact nomatch hp
      · rcases C90_earliest ops q q' evs now room r ev h hs h0 hp with ⟨id, w, n, h1, _⟩ | ⟨_, _, h1⟩
        · rw [h1]; exact fun h => nomatch h
        · have := h1 e he
          omega
    · omega
  · cases hq : q.stateless with
    | nil => exact absurd hq hs
    | cons p ps =>
      unfold prepareNext at hp
      rw [hq] at hp
      injection hp with hp
      injection hp with _ hp
      rw [← hp]
      by_cases hl : p.length > room
      · rw [if_pos hl]; exact fun h => nomatch h
      · rw [if_neg hl]; exact fun h => nomatch h

/-- **C90, after it is served** the other connections keep their places and their alarms, and the
connection is to be woken up: at the earlier of its own next time and its alarm, which is off or in
the future; after an error, at its own next time; never (at the largest number) if it is a client
connection that has ended. A server connection that has ended is gone. -/
theorem C90_served (ops : List WakeOp) (q q' : Quic) (evs : List WakeEvent) (now room id n : Nat)
    (r : Serve) (h : run Quic.init ops = some (q, evs))
    (hp : prepareNext q now room r = some (q', .served id n)) :
    (wakeEntries q').filter (fun e => e.1 != id) = (wakeEntries q).filter (fun e => e.1 != id) ∧
    (∀ i, i ≠ id → q'.app i = q.app i) ∧
    (q'.app id = 0 ∨ now < q'.app id) ∧
    (r.how = .ok → (id, if q'.app id = 0 then r.next else min r.next (q'.app id)) ∈ wakeEntries q') ∧
    (r.how = .error → (id, r.next) ∈ wakeEntries q') ∧
    (r.how = .disconnected → r.client = true → (id, 2 ^ 64 - 1) ∈ wakeEntries q') ∧
    (r.how = .disconnected → r.client = false → ∀ e ∈ wakeEntries q', e.1 ≠ id) := by
  obtain ⟨_, hr, hg⟩ := wake_reach h
  have he : wakeEntries q = (Agenda.run {} ops).1.turns := hr.turns
  obtain ⟨q'', e1, e4⟩ := step_spec hr hg (.prepare now room r)
  have e1' : prepareNext q now room r = _ := e1
  rw [hp] at e1'
  injection e1' with e1'
  injection e1' with e2 e3
  subst e2
  generalize hA : (Agenda.run {} ops).1 = s at *
  simp only [Agenda.step] at e3 e4
  cases hpk : s.packets with
  | cons p ps =>
    rw [hpk] at e3
    by_cases hl : p.length ≤ room
    · simp only [if_pos hl] at e3; exact nomatch e3
    · simp only [if_neg hl] at e3; exact nomatch e3
  | nil =>
    rw [hpk] at e3 e4
    cases ht : s.turns with
    | nil => rw [ht] at e3; exact nomatch e3
    | cons x xs =>
      rw [ht] at e3 e4
      by_cases hc : now ≠ 0 ∧ now < x.2
      · simp only [if_pos hc] at e3; exact nomatch e3
      · simp only [if_neg hc] at e3 e4
        injection e3 with e3 _
        subst e3
        have hen : wakeEntries q' = (s.serve x.1 now r).1.turns := e4.turns
        obtain ⟨_, ho, hcase⟩ := serve_turns s x.1 now r
        rw [e4.alarms, hr.alarms, hen, he]
        rcases hcase with ⟨c1, c2, c3, c4⟩ | ⟨c1, c2, t, c3, c4, c5, c6⟩
        · rw [c3]
          refine ⟨others_others x.1 s.turns, ho, .inl c4, ?_, ?_, ?_, ?_⟩
          · intro hh; rw [c1] at hh; exact nomatch hh
          · intro hh; rw [c1] at hh; exact nomatch hh
          · intro _ hh; rw [c2] at hh; exact nomatch hh
          · intro _ _ e hm; exact (mem_others.1 hm).2
        · rw [c3]
          refine ⟨?_, ho, c2, ?_, ?_, ?_, ?_⟩
          · exact (others_inTurn_self x.1 t (others x.1 s.turns)).trans (others_others x.1 s.turns)
          · intro hh; rw [← c6 hh]; exact mem_inTurn.2 (.inl rfl)
          · intro hh; rw [← c4 hh]; exact mem_inTurn.2 (.inl rfl)
          · intro hh _; rw [← c5 hh]; exact mem_inTurn.2 (.inl rfl)
          · intro hh hcl; exact absurd ⟨hh, hcl⟩ c1

example : (run Quic.init [.create 1 50, .create 2 20, .alarm 2 60, .prepare 30 1500 ⟨.ok, 99, [], true⟩]).map
    (fun x => wakeEntries x.1) = some [(1, 50), (2, 60)] := by decide +kernel

/-- **C90, in turn.** A connection that wants to be woken up at `w` and is left alone is served
before more requests have been made at `w` or later than there are connections before it, packets
without connection in the queue, and such packets added since; provided that nobody else asks to be
woken up before `w`. -/
theorem C90_fair_partial (ops1 ops2 : List WakeOp) (q q2 : Quic) (evs1 evs2 : List WakeEvent)
    (b w : Nat) (hw : w < 2 ^ 64) (h : run Quic.init ops1 = some (q, evs1))
    (hb : (b, w) ∈ wakeEntries q) (hp : ∀ op ∈ ops2, Patient b w op)
    (h2 : run q ops2 = some (q2, evs2)) (hn : ∀ n, WakeEvent.served b n ∉ evs2) :
    requests ops2 ≤ ahead b (wakeEntries q) + q.stateless.length + (queued ops2).length := by
  obtain ⟨_, hr, hg⟩ := wake_reach h
  have he : wakeEntries q = (Agenda.run {} ops1).1.turns := hr.turns
  obtain ⟨q3, e1, _, _⟩ := run_spec ops2 hr hg
  rw [h2] at e1
  injection e1 with e1
  injection e1 with _ e1
  have := run_patient hw ops2 _ hg (he ▸ hb) hp (fun n => e1 ▸ hn n)
  unfold rank at this
  rw [he, hr.packets]
  exact this

/-- Two connections before it: it is served by the third request. -/
example : (run Quic.init [.create 1 5, .create 2 6, .create 3 6, .prepare 10 1500 ⟨.ok, 10, [], true⟩,
    .prepare 10 1500 ⟨.ok, 6, [], true⟩, .prepare 10 1500 ⟨.ok, 10, [], true⟩]).map (fun x => x.2) =
    some [.none, .none, .none, .served 1 0, .served 2 0, .served 3 0] := by decide +kernel

/-- Repeats a list of calls for the times `1, 2, ..., n`. -/
def rounds (f : Nat → List WakeOp) : Nat → List WakeOp
  | 0 => []
  | n + 1 => rounds f n ++ f (n + 1)

theorem agenda_run_append (s : Agenda) (a b : List WakeOp) :
    s.run (a ++ b) = (((s.run a).1.run b).1, (s.run a).2 ++ ((s.run a).1.run b).2) := by
  induction a generalizing s with
  | nil => rfl
  | cons op a ih =>
    show ((((s.step op).1.run (a ++ b)).1), (s.step op).2 :: ((s.step op).1.run (a ++ b)).2) = _
    rw [ih]
    rfl

/-- **C90, starved by packets without connection.** The wait is not bounded when such packets keep
coming: if one is queued before each request (a peer that sends packets with an unknown version is
enough), no connection is ever served, whatever the number of requests and however late the
connections are. -/
theorem C90_flood_violated (ops : List WakeOp) (p : List UInt8) (room n : Nat) (r : Serve) (q : Quic)
    (evs : List WakeEvent) (h : run Quic.init ops = some (q, evs)) :
    ∃ q' evs', run q (rounds (fun t => [.queue p, .prepare t room r]) n) = some (q', evs') ∧
      wakeEntries q' = wakeEntries q ∧ ∀ id k, WakeEvent.served id k ∉ evs' := by
  obtain ⟨_, hr, hg⟩ := wake_reach h
  generalize (Agenda.run {} ops).1 = s at hr hg
  obtain ⟨q', h1, h2, h3⟩ := run_spec (rounds (fun t => [.queue p, .prepare t room r]) n) hr hg
  refine ⟨q', _, h1, ?_⟩
  unfold wakeEntries
  rw [h2.turns, hr.turns]
  clear h1 h2 h3 hr hg h
  induction n with
  | zero => exact ⟨rfl, fun id k hm => absurd hm List.not_mem_nil⟩
  | succ n ih =>
    show ((s.run (rounds _ n ++ _)).1.turns = _) ∧ ∀ id k, _ ∉ (s.run (rounds _ n ++ _)).2
    rw [agenda_run_append]
    obtain ⟨i1, i2⟩ := ih
    generalize s.run (rounds (fun t => [.queue p, .prepare t room r]) n) = y at i1 i2
    have key : ∀ a : Agenda, (a.run [.queue p, .prepare (n + 1) room r]).1.turns = a.turns ∧
        ∀ id k, WakeEvent.served id k ∉ (a.run [.queue p, .prepare (n + 1) room r]).2 := by
      intro a
      simp only [Agenda.run, Agenda.step]
      cases hq : a.packets ++ [p] with
      | nil => simp at hq
      | cons x xs =>
        refine ⟨rfl, fun id k hm => ?_⟩
        by_cases hl : x.length ≤ room <;> simp [hl] at hm
    refine ⟨(key y.1).1.trans i1, fun id k hm => ?_⟩
    rcases List.mem_append.1 hm with hm | hm
    · exact i2 id k hm
    · exact (key y.1).2 id k hm

/-- **C90, starved by its own packets.** Nor when something happens to the connection before each
request, as when packets arrive for it: each time it goes to the end of those whose wake time has
come. Here connection 1 always has something to send, and connection 2 is never served. -/
theorem C90_touched_violated (n room : Nat) :
    ∃ q evs, run Quic.init ([.create 1 0, .create 2 0] ++
        rounds (fun t => [.touch 2 t, .prepare t room ⟨.ok, t, [], false⟩]) n) = some (q, evs) ∧
      (2, n) ∈ wakeEntries q ∧ ∀ k, WakeEvent.served 2 k ∉ evs := by
  obtain ⟨q, h1, h2, h3⟩ := run_spec ([.create 1 0, .create 2 0] ++
    rounds (fun t => [.touch 2 t, .prepare t room ⟨.ok, t, [], false⟩]) n) Rel.init Good.nil
  refine ⟨q, _, h1, ?_⟩
  unfold wakeEntries
  rw [h2.turns]
  clear h1 h2 h3
  rw [agenda_run_append]
  have base : (Agenda.run {} [.create 1 0, .create 2 0]) = (⟨[(1, 0), (2, 0)], fun _ => 0, []⟩, [.none, .none]) := rfl
  rw [base]
  suffices hi : ∃ l, ((⟨[(1, 0), (2, 0)], fun _ => 0, []⟩ : Agenda).run
      (rounds (fun t => [.touch 2 t, .prepare t room ⟨.ok, t, [], false⟩]) n)).1 = ⟨l, fun _ => 0, []⟩ ∧
      (l = [(1, n), (2, n)] ∨ l = [(2, n), (1, n)]) ∧
      ∀ k, WakeEvent.served 2 k ∉ ((⟨[(1, 0), (2, 0)], fun _ => 0, []⟩ : Agenda).run
        (rounds (fun t => [.touch 2 t, .prepare t room ⟨.ok, t, [], false⟩]) n)).2 by
    obtain ⟨l, i1, i2, i3⟩ := hi
    refine ⟨?_, fun k hm => ?_⟩
    · show (2, n) ∈ (Agenda.run _ _).1.turns
      rw [i1]
      rcases i2 with h | h <;> rw [h] <;> simp
    · rcases List.mem_append.1 hm with hm | hm
      · simp at hm
      · exact i3 k hm
  induction n with
  | zero => exact ⟨_, rfl, .inl rfl, fun k hm => absurd hm List.not_mem_nil⟩
  | succ n ih =>
    obtain ⟨l, i1, i2, i3⟩ := ih
    have key : (⟨l, fun _ => 0, []⟩ : Agenda).run
        [.touch 2 (n + 1), .prepare (n + 1) room ⟨.ok, n + 1, [], false⟩] =
        (⟨[(2, n + 1), (1, n + 1)], fun _ => 0, []⟩, [.none, .served 1 0]) := by
      have a0 : (timeOf 2 l).isSome = true := by rcases i2 with h | h <;> rw [h] <;> rfl
      have a1 : others 2 l = [(1, n)] := by rcases i2 with h | h <;> rw [h] <;> rfl
      have a2 : inTurn (2, n + 1) [(1, n)] = [(1, n), (2, n + 1)] := by simp [inTurn]
      have a3 : others 1 [(1, n), (2, n + 1)] = [(2, n + 1)] := rfl
      have a4 : inTurn (1, n + 1) [(2, n + 1)] = [(2, n + 1), (1, n + 1)] := by simp [inTurn]
      simp [Agenda.run, Agenda.step, Agenda.move, Agenda.serve, Agenda.ring, a0, a1, a2, a3, a4,
        show ¬ n + 1 < n by omega]
    refine ⟨[(2, n + 1), (1, n + 1)], ?_, .inr rfl, ?_⟩
    · show (Agenda.run _ (rounds _ n ++ _)).1 = _
      rw [agenda_run_append, i1, key]
    · show ∀ k, _ ∉ (Agenda.run _ (rounds _ n ++ _)).2
      rw [agenda_run_append, i1, key]
      intro k hm
      rcases List.mem_append.1 hm with hm | hm
      · exact i3 k hm
      · simp at hm

/-- **C90, the alarm of the application.** In a history in which the time does not go back, no
preparation of a packet fails, `picoquic_close_immediate` is not called and no client connection
ends, no connection sleeps past the alarm that the application has set, nor does the context. -/
theorem C90_alarm_partial (ops : List WakeOp) (q : Quic) (evs : List WakeEvent)
    (h : run Quic.init ops = some (q, evs)) (ht : Timely 0 ops) (id w : Nat)
    (hm : (id, w) ∈ wakeEntries q) (ha : q.app id ≠ 0) :
    w ≤ max (q.app id) (lastCall 0 ops) ∧
    (q.stateless = [] → ∀ now, nextWake q now ≤ max (q.app id) (lastCall 0 ops)) := by
  obtain ⟨_, hr, hg⟩ := wake_reach h
  have hA := run_awake ops 0 {} Good.nil ⟨fun _ _ h => absurd h List.not_mem_nil, fun _ _ => rfl⟩ ht
  have h1 : w ≤ max (q.app id) (lastCall 0 ops) := by
    have := hA.live id w (hr.turns ▸ hm) (hr.alarms ▸ ha)
    rw [hr.alarms]; exact this
  refine ⟨h1, fun hs now => ?_⟩
  have := ((C90_next_wake ops q evs h now).2 hs).1 _ hm
  exact Nat.le_trans this h1

example : Timely 0 [.create 1 0, .alarm 1 500, .prepare 10 1500 ⟨.ok, 9999, [], true⟩, .touch 1 20,
      .prepare 25 1500 ⟨.ok, 9999, [], true⟩] ∧
    (run Quic.init [.create 1 0, .alarm 1 500, .prepare 10 1500 ⟨.ok, 9999, [], true⟩, .touch 1 20,
      .prepare 25 1500 ⟨.ok, 9999, [], true⟩]).map (fun x => wakeEntries x.1) = some [(1, 500)] :=
  ⟨⟨by decide, .inl rfl, by decide, by decide, .inl rfl, trivial⟩, by decide +kernel⟩

/-- **C90, alarms missed.** After a preparation that fails (for instance because the buffer is shorter
than 1200 bytes), after `picoquic_close_immediate`, and when a client connection has ended, the alarm
is still set but the connection sleeps past it: at any time from the alarm to the other time, a
request is answered by "nobody to wake up". -/
theorem C90_alarm_violated (a t now room : Nat) (r : Serve) (ops : List WakeOp)
    (ha : 1 < a) (h1 : a ≤ now) (h2 : now < t)
    (hops : ops = [.create 1 1, .alarm 1 a, .prepare 1 room ⟨.error, t, [], true⟩] ∨
      ops = [.create 1 1, .alarm 1 a, .sleep 1 t] ∨
      (t = 2 ^ 64 - 1 ∧ ops = [.create 1 1, .alarm 1 a, .prepare 1 room ⟨.disconnected, 0, [], true⟩])) :
    ∃ q evs, run Quic.init ops = some (q, evs) ∧ q.app 1 = a ∧ wakeEntries q = [(1, t)] ∧
      prepareNext q now room r = some (q, .idle) := by
  obtain ⟨q, e1, e2, e3⟩ := run_spec ops Rel.init Good.nil
  have key : (Agenda.run {} ops).1.turns = [(1, t)] ∧ (Agenda.run {} ops).1.alarms 1 = a ∧
      (Agenda.run {} ops).1.packets = [] := by
    have hna : ¬ a < 1 := by omega
    have hn1 : ¬ a ≤ 1 := by omega
    rcases hops with h | h | ⟨hT, h⟩
    · rw [h]
      simp [Agenda.run, Agenda.step, Agenda.move, Agenda.serve, Agenda.ring, Agenda.setAlarm, timeOf,
        others, inTurn, hna, hn1]
    · rw [h]
      simp [Agenda.run, Agenda.step, Agenda.move, Agenda.setAlarm, timeOf, others, inTurn, hna]
    · rw [h, hT]
      simp [Agenda.run, Agenda.step, Agenda.move, Agenda.serve, Agenda.ring, Agenda.setAlarm, timeOf,
        others, inTurn, hna, hn1]
  refine ⟨q, _, e1, by rw [e2.alarms]; exact key.2.1, e2.turns.trans key.1, ?_⟩
  have hea := earliest_turns e2 now
  rw [key.1] at hea
  simp only [if_pos (show now ≠ 0 ∧ now < t by omega)] at hea
  unfold prepareNext
  rw [e2.packets, key.2.2]
  simp only [hea]

/-- **C90, the callbacks.** A connection whose alarm has come gets a callback when it is served, and
no other does; if the application sets in each callback a time that has already come, it is called
back again at once: as many times as it does so, and one more. -/
theorem C90_callbacks (ops : List WakeOp) (q q' : Quic) (evs : List WakeEvent) (now room id n : Nat)
    (r : Serve) (h : run Quic.init ops = some (q, evs))
    (hp : prepareNext q now room r = some (q', .served id n)) :
    (0 < n ↔ q.app id ≠ 0 ∧ q.app id ≤ now) ∧ n ≤ r.again.length + 1 ∧
    (q.app id ≠ 0 → q.app id ≤ now → (∀ v ∈ r.again, v ≠ 0 ∧ v ≤ now) → n = r.again.length + 1) := by
  obtain ⟨_, hr, hg⟩ := wake_reach h
  obtain ⟨q'', e1, e4⟩ := step_spec hr hg (.prepare now room r)
  have e1' : prepareNext q now room r = _ := e1
  rw [hp] at e1'
  injection e1' with e1'
  injection e1' with e2 e3
  subst e2
  generalize hA : (Agenda.run {} ops).1 = s at *
  simp only [Agenda.step] at e3
  cases hpk : s.packets with
  | cons p ps =>
    rw [hpk] at e3
    by_cases hl : p.length ≤ room
    · simp only [if_pos hl] at e3; exact nomatch e3
    · simp only [if_neg hl] at e3; exact nomatch e3
  | nil =>
    rw [hpk] at e3
    cases ht : s.turns with
    | nil => rw [ht] at e3; exact nomatch e3
    | cons x xs =>
      rw [ht] at e3
      by_cases hc : now ≠ 0 ∧ now < x.2
      · simp only [if_pos hc] at e3; exact nomatch e3
      · simp only [if_neg hc] at e3
        injection e3 with e3 e5
        subst e3
        rw [serve_callbacks] at e5
        rw [e5, hr.alarms]
        clear e5 e4 e1 hp h hA hr hg hpk ht
        generalize r.again = vs
        induction vs generalizing s with
        | nil =>
          unfold Agenda.ring
          by_cases hd : s.alarms x.1 ≠ 0 ∧ s.alarms x.1 ≤ now
          · rw [if_pos hd]; exact ⟨⟨fun _ => hd, fun _ => Nat.one_pos⟩, Nat.le_refl _, fun _ _ _ => rfl⟩
          · rw [if_neg hd]
            exact ⟨⟨fun h => absurd h (Nat.lt_irrefl _), fun h => absurd h hd⟩, Nat.zero_le _,
              fun ha hb _ => absurd ⟨ha, hb⟩ hd⟩
        | cons v vs ih =>
          unfold Agenda.ring
          by_cases hd : s.alarms x.1 ≠ 0 ∧ s.alarms x.1 ≤ now
          · rw [if_pos hd]
            obtain ⟨i1, i2, i3⟩ := ih ({ s with alarms := fun i => if i = x.1 then 0 else s.alarms i }.setAlarm x.1 v)
            rw [setAlarm_alarms] at i3
            simp only [if_true] at i3
            refine ⟨⟨fun _ => hd, fun _ => Nat.succ_pos _⟩, Nat.succ_le_succ i2, fun _ _ hv => ?_⟩
            have := i3 (hv v (by simp)).1 (hv v (by simp)).2 (fun u hu => hv u (by simp [hu]))
            show _ + 1 = (v :: vs).length + 1
            rw [this]; rfl
          · rw [if_neg hd]
            exact ⟨⟨fun h => absurd h (Nat.lt_irrefl _), fun h => absurd h hd⟩, Nat.zero_le _,
              fun ha hb _ => absurd ⟨ha, hb⟩ hd⟩

example : (run Quic.init [.create 1 0, .alarm 1 5, .prepare 10 1500 ⟨.ok, 99, [7, 9, 40], true⟩]).map
    (fun x => x.2) = some [.none, .none, .served 1 3] := by decide +kernel

/-- **C90, packets without connection** leave the queue in the order in which they were queued, each
once; one is returned as it was queued if it fits in the buffer, and is thrown away if not. -/
theorem C90_packets (ops : List WakeOp) (q : Quic) (evs : List WakeEvent)
    (h : run Quic.init ops = some (q, evs)) :
    leaving evs ++ q.stateless = queued ops ∧
    ∀ p ps now room r, q.stateless = p :: ps →
      ∃ q', prepareNext q now room r = some (q', if p.length ≤ room then .sent p else .dropped p) ∧
        q'.stateless = ps ∧ wakeEntries q' = wakeEntries q := by
  obtain ⟨h1, hr, _⟩ := wake_reach h
  refine ⟨?_, fun p ps now room r hq => ?_⟩
  · rw [h1, hr.packets, run_packets]; rfl
  · refine ⟨{ q with stateless := ps }, ?_, rfl, rfl⟩
    unfold prepareNext
    rw [hq]
    by_cases hl : p.length ≤ room
    · simp only [if_pos hl, if_neg (Nat.not_lt.2 hl)]
    · simp only [if_neg hl, if_pos (Nat.lt_of_not_le hl)]

example : (run Quic.init [.queue [1], .queue [2, 3], .queue [4], .prepare 1 1 ⟨.ok, 1, [], true⟩,
    .prepare 1 1 ⟨.ok, 1, [], true⟩]).map (fun x => (x.2, x.1.stateless)) =
    some ([.none, .none, .none, .sent [1], .dropped [2, 3]], [[4]]) := by decide +kernel

/-- **C90, a creation that fails.** When a connection cannot be created, all the others are lost from
the wake list: the context asks never to be woken up, and a request at any time is answered by
"nobody to wake up", whatever the connections were waiting for. -/
theorem C90_failed_violated (ops : List WakeOp) (q : Quic) (evs : List WakeEvent)
    (_h : run Quic.init ops = some (q, evs)) (hs : q.stateless = []) (id : Nat) :
    ∃ q', failedCreate q id = some q' ∧ wakeEntries q' = [] ∧
      (∀ now, nextWake q' now = 2 ^ 64 - 1) ∧
      ∀ now room r, prepareNext q' now room r = some (q', .idle) := by
  refine ⟨{ q with tree := ⟨.nil, q.tree.size - 1⟩ }, rfl, rfl, fun now => ?_, fun now room r => ?_⟩
  · unfold nextWake
    rw [if_neg (fun h => h hs)]
    rfl
  · unfold prepareNext
    simp only [hs]
    rfl

example : (run Quic.init [.create 1 50, .create 2 20, .create 3 30]).bind
    (fun x => (failedCreate x.1 4).map (fun q => (wakeEntries x.1, wakeEntries q, q.tree.size))) =
    some ([(2, 20), (3, 30), (1, 50)], [], 2) := by decide +kernel

end Picoquic.Props
