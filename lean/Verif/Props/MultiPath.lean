import Verif.Spec.MultiPath
import Verif.Proof.MultiPath

/-!
# Property C96: data go on a path that may be used, and abandoning a path is safe

See `Verif/Spec/MultiPath.lean` for what a user knows of a path and which ones are to be preferred.
-/

namespace Picoquic.Props

open Picoquic.MultiPath Picoquic.Spec

/-- What a user knows of a path. -/
def viewPath (p : PathX) : PathView := ⟨p.verified, p.demoted, p.backup, p.retransmit⟩

/-- What a user knows of the paths. -/
def viewPaths (ps : List PathX) : List PathView := ps.map viewPath

/-- Nothing but data is due on the paths: no path failed validation, no challenge or response waits, and no path with
losses waits for a probe. -/
def NoControl (c : Cond) (ps : List PathX) : Prop :=
  ∀ p ∈ ps, p.failed = false ∧ c.control p.id = false ∧
    ¬ (p.verified = true ∧ p.retransmit > 0 ∧ c.ready = true ∧ c.idle p.id = true)

/-- Counters and times are not the largest 64-bit value. -/
def Counters (ps : List PathX) : Prop := ∀ p ∈ ps, p.retransmit < 2 ^ 64 - 1 ∧ p.lastSent < 2 ^ 64 - 1

theorem best_view {ps : List PathX} {p : PathX} (hp : p ∈ ps) : BestPath (viewPaths ps) (viewPath p) ↔ Best ps p := by
  constructor
  · rintro ⟨h1, h2, h3⟩
    exact ⟨hp, h1, fun q hq hu => h2 (viewPath q) (List.mem_map.2 ⟨q, hq, rfl⟩) hu,
      fun hb q hq hu hqb => h3 hb (viewPath q) (List.mem_map.2 ⟨q, hq, rfl⟩) hu hqb⟩
  · rintro ⟨_, h1, h2, h3⟩
    refine ⟨h1, ?_, ?_⟩
    · intro w hw hu
      obtain ⟨q, hq, rfl⟩ := List.mem_map.1 hw
      exact h2 q hq hu
    · intro hb w hw hu hwb
      obtain ⟨q, hq, rfl⟩ := List.mem_map.1 hw
      exact h3 hb q hq hu hwb

/-- Two paths at least, one that may be used, and nothing but data due: the packet goes on a path to prefer, unless
each of those is not a backup and has to wait for pacing; then path 0 is chosen.
Missing: with all of them waiting, path 0 is not always one to prefer, see `C96_backup_violated`. -/
theorem C96_choice_partial (now : Nat) (c : Cond) (ps : List PathX) (hq : NoControl c ps) (hl : 2 ≤ ps.length)
    (hb : Counters ps) (hu : ∃ p ∈ ps, UsablePath (viewPath p)) :
    (∃ p, ps[(select true now c ps).2]? = some p ∧ BestPath (viewPaths ps) (viewPath p)) ∨
    ((select true now c ps).2 = 0 ∧
      ∀ p ∈ ps, BestPath (viewPaths ps) (viewPath p) → p.backup = false ∧ c.paced p.id = false) := by
  rcases select_best (multi := true) (now := now) hq hl hb hu with ⟨p, hp, h⟩ | ⟨h0, h⟩
  · exact Or.inl ⟨p, hp, (best_view (List.mem_of_getElem? hp)).2 h⟩
  · exact Or.inr ⟨h0, fun p hp hbest => h p ((best_view hp).1 hbest)⟩

/-- In particular, if one of the paths to prefer may send, the packet goes on a path to prefer. -/
theorem C96_sends (now : Nat) (c : Cond) (ps : List PathX) (hq : NoControl c ps) (hl : 2 ≤ ps.length)
    (hb : Counters ps) (hu : ∃ p ∈ ps, BestPath (viewPaths ps) (viewPath p) ∧ c.paced p.id = true) :
    ∃ p, ps[(select true now c ps).2]? = some p ∧ BestPath (viewPaths ps) (viewPath p) := by
  obtain ⟨q, hqm, hqb, hqp⟩ := hu
  rcases C96_choice_partial now c ps hq hl hb ⟨q, hqm, hqb.1⟩ with h | ⟨_, h⟩
  · exact h
  · have := (h q hqm hqb).2
    rw [hqp] at this
    cases this

/-- Conditions for examples: pacing allows the given paths, all have room. -/
def pacedOnly (l : List Nat) (ack : Bool) : Cond :=
  { control := fun _ => false, paced := fun n => decide (n ∈ l), room := fun _ => true, idle := fun _ => false,
    datagram := fun _ => false, affinity := none, ackNeeded := ack, ready := true }

/-- Three paths: the first is for backup. -/
def threePaths : List PathX :=
  [{ id := 0, verified := true, backup := true }, { id := 1, verified := true, lastSent := 7 },
   { id := 2, verified := true, lastSent := 3 }]

/-- Not satisfied: when the two paths that are not for backup wait for pacing, the packet goes on the backup path,
although none of the paths has had a loss. -/
theorem C96_backup_violated :
    ∃ (c : Cond) (ps : List PathX), NoControl c ps ∧ 2 ≤ ps.length ∧ Counters ps ∧
      (∃ p ∈ ps, UsablePath (viewPath p) ∧ p.backup = false) ∧
      ∃ p, ps[(select true 9 c ps).2]? = some p ∧ p.backup = true ∧ ¬ BestPath (viewPaths ps) (viewPath p) := by
  refine ⟨pacedOnly [0] false, threePaths, ?_, by decide, ?_, ⟨{ id := 1, verified := true, lastSent := 7 }, by decide,
    ⟨rfl, rfl⟩, rfl⟩, { id := 0, verified := true, backup := true }, by decide, rfl, ?_⟩
  · intro p hp
    simp only [threePaths, List.mem_cons, List.not_mem_nil, or_false] at hp
    rcases hp with rfl | rfl | rfl <;> exact ⟨rfl, rfl, fun h => absurd h.2.1 (by decide)⟩
  · intro p hp
    simp only [threePaths, List.mem_cons, List.not_mem_nil, or_false] at hp
    rcases hp with rfl | rfl | rfl <;> exact ⟨by decide, by decide⟩
  · rintro ⟨_, _, h⟩
    exact absurd (h rfl (viewPath { id := 1, verified := true, lastSent := 7 }) (by simp [viewPaths, threePaths])
      ⟨rfl, rfl⟩ rfl) (by decide)

/-- Stream data that no path is bound to, no acknowledgement and no datagram: if a path to prefer is ready (pacing and
congestion window), the packet goes on one that is ready and was used least recently. -/
theorem C96_oldest (now : Nat) (c : Cond) (ps : List PathX) (hq : NoControl c ps) (hl : 2 ≤ ps.length)
    (hb : Counters ps) (hack : c.ackNeeded = false) (haff : c.affinity = none) (hd : ∀ p ∈ ps, c.datagram p.id = false)
    (hex : ∃ p ∈ ps, BestPath (viewPaths ps) (viewPath p) ∧ p.backup = false ∧ c.paced p.id = true ∧ c.room p.id = true) :
    ∃ p, ps[(select true now c ps).2]? = some p ∧ BestPath (viewPaths ps) (viewPath p) ∧ p.backup = false ∧
      c.paced p.id = true ∧ c.room p.id = true ∧
      ∀ q ∈ ps, BestPath (viewPaths ps) (viewPath q) → q.backup = false → c.paced q.id = true → c.room q.id = true →
        p.lastSent ≤ q.lastSent := by
  obtain ⟨p0, hm, h1, h2⟩ := hex
  obtain ⟨_, p, hp, g1, g2, g3, g4, g5⟩ := select_oldest (multi := true) (now := now) hq hl hb hack haff hd
    ⟨p0, (best_view hm).1 h1, h2⟩
  exact ⟨p, hp, (best_view (List.mem_of_getElem? hp)).2 g1, g2, g3, g4,
    fun q hqm hqb => g5 q ((best_view hqm).1 hqb)⟩

example : (select true 9 (pacedOnly [0, 1, 2] false) threePaths).2 = 2 := by decide

/-- Data that are bound to a path, by the affinity of the next stream or because the path has datagrams to send: if
such a path is one to prefer and is ready, the packet goes on such a path. -/
theorem C96_affinity (now : Nat) (c : Cond) (ps : List PathX) (hq : NoControl c ps) (hl : 2 ≤ ps.length)
    (hb : Counters ps) (hack : c.ackNeeded = false)
    (hex : ∃ p ∈ ps, BestPath (viewPaths ps) (viewPath p) ∧ p.backup = false ∧ c.paced p.id = true ∧
      c.room p.id = true ∧ (c.affinity = some p.id ∨ c.datagram p.id = true)) :
    ∃ p, ps[(select true now c ps).2]? = some p ∧ BestPath (viewPaths ps) (viewPath p) ∧ p.backup = false ∧
      c.paced p.id = true ∧ c.room p.id = true ∧ (c.affinity = some p.id ∨ c.datagram p.id = true) := by
  obtain ⟨p0, hm, h1, h2⟩ := hex
  obtain ⟨p, hp, g1, g2⟩ := select_affinity (multi := true) (now := now) hq hl hb hack ⟨p0, (best_view hm).1 h1, h2⟩
  exact ⟨p, hp, (best_view (List.mem_of_getElem? hp)).2 g1, g2⟩

example : (select true 9 { pacedOnly [0, 1, 2] false with affinity := some 1 } threePaths).2 = 1 := by decide

/-- Packets are sent at increasing times from `t` on. -/
def TimesFrom (t : Nat) : List (Nat × Cond) → Prop
  | [] => True
  | e :: es => t ≤ e.1 ∧ e.1 < 2 ^ 64 - 1 ∧ TimesFrom (e.1 + 1) es

theorem times_increasing (es : List (Nat × Cond)) : ∀ t, TimesFrom t es → Increasing t es := by
  induction es with
  | nil => intro _ _; trivial
  | cons e es ih => intro t h; exact ⟨h.1, h.2.1, ih _ h.2.2⟩

/-- All the paths are validated, not abandoned, not for backup, without losses, and were used before `t`. -/
def InOrder (ps : List PathX) (t : Nat) : Prop :=
  ∀ p ∈ ps, p.verified = true ∧ p.failed = false ∧ p.demoted = false ∧ p.backup = false ∧ p.retransmit = 0 ∧
    p.lastSent < t

/-- Only stream data that no path is bound to. -/
def OnlyData (c : Cond) : Prop :=
  (∀ n, c.control n = false) ∧ (∀ n, c.datagram n = false) ∧ c.affinity = none ∧ c.ackNeeded = false

/-- Paths take turns: for every sequence of packets, if path `i` is chosen twice and path `j` could have sent all that
time, then path `j` is chosen in between. -/
theorem C96_turns (ps : List PathX) (t : Nat) (e : Nat × Cond) (es : List (Nat × Cond)) (hh : InOrder ps t)
    (hl : 2 ≤ ps.length) (ht : TimesFrom t (e :: es)) (hd : ∀ x ∈ e :: es, OnlyData x.2)
    {i j : Nat} {p : PathX} (hj : ps[j]? = some p) (hij : i ≠ j)
    (hready : ∀ x ∈ e :: es, x.2.paced p.id = true ∧ x.2.room p.id = true) {between later : List Nat}
    (hc : choices ps (e :: es) = i :: (between ++ i :: later)) : j ∈ between := by
  obtain ⟨now, c⟩ := e
  obtain ⟨ht0, hmax, ht'⟩ := ht
  have hh0 : Healthy ps now := healthy_mono hh ht0
  obtain ⟨⟨q, hq, _⟩, hst⟩ := sendStep_turn hh0 hmax hl (hd _ List.mem_cons_self) hj (hready _ List.mem_cons_self)
  unfold choices at hc
  simp only [List.cons.injEq] at hc
  obtain ⟨hci, hcr⟩ := hc
  rw [hst] at hcr
  rw [hci] at hcr hq
  refine choices_turn es (ps.modify i (fun p => { p with lastSent := now })) (now + 1) now i j
    { q with lastSent := now } p (healthy_modify hh0 i) (by rw [List.length_modify]; exact hl)
    (times_increasing es _ ht') (fun x hx => hd x (List.mem_cons_of_mem _ hx)) (modify_get_same _ hq) ?_ (Nat.le_refl _)
    (hh0 p (List.mem_of_getElem? hj)).2.2.2.2.2 (fun x hx => hready x (List.mem_cons_of_mem _ hx)) between later hcr
  rw [modify_get_other _ hij]
  exact hj

example : choices [{ id := 0, verified := true }, { id := 1, verified := true }, { id := 2, verified := true }]
    [(1, pacedOnly [0, 1, 2] false), (2, pacedOnly [0, 1, 2] false), (3, pacedOnly [0, 2] false),
     (4, pacedOnly [0, 1, 2] false)] = [0, 1, 2, 0] := by decide

/-- Not satisfied: an acknowledgement is needed, and the path with the shortest delay may send, but the other path is
chosen: that the first one may send is only noticed if it was used less recently than the paths before it. In the
other order of the paths, the right one is chosen. -/
theorem C96_ack_violated :
    ∃ (c : Cond) (p q : PathX), c.ackNeeded = true ∧ UsablePath (viewPath p) ∧ UsablePath (viewPath q) ∧
      p.backup = false ∧ q.backup = false ∧ p.retransmit = 0 ∧ q.retransmit = 0 ∧ q.rttMin < p.rttMin ∧
      c.paced q.id = true ∧ c.room q.id = true ∧ (select true 30 c [p, q]).2 = 0 ∧ (select true 30 c [q, p]).2 = 0 :=
  ⟨pacedOnly [0, 1] true, { id := 0, verified := true, rttMin := 50, lastSent := 10 },
    { id := 1, verified := true, rttMin := 20, lastSent := 20 }, rfl, ⟨rfl, rfl⟩, ⟨rfl, rfl⟩, rfl, rfl, rfl, rfl,
    by decide, rfl, rfl, by decide, by decide⟩

/-- The measures of the events are 64-bit values that are not the largest. -/
def OpsOk (ops : List PathOp) : Prop :=
  ∀ o ∈ ops, match (generalizing := false) o with
    | .measure _ r _ s _ => r < 2 ^ 64 - 1 ∧ s < 2 ^ 64 - 1
    | _ => True

/-- The paths after a history that begins with the path of the handshake. -/
def pathsAfter (ops : List PathOp) : List PathX := runOps [{ id := 0, verified := true }] ops

theorem pathsAfter_ok {ops : List PathOp} (h : OpsOk ops) : PathsOk (pathsAfter ops) := by
  refine runOps_ok ops _ ⟨?_, ?_⟩ ?_
  · intro p hp _; rw [List.mem_singleton] at hp; subst hp; rfl
  · intro p hp; rw [List.mem_singleton] at hp; subst hp; exact ⟨by decide, by decide⟩
  · intro o ho
    have := h o ho
    cases o <;> first | trivial | exact this

/-- After every history, a path that was not abandoned has a connection ID, and the packet goes on a path that was not
abandoned or on the first path. So there is a header if the first path was not abandoned.
Missing: that the first path is never abandoned, see `C96_crash_violated`. -/
theorem C96_header_partial (ops : List PathOp) (h : OpsOk ops) (now : Nat) (c : Cond) :
    (∀ p ∈ pathsAfter ops, p.demoted = false → p.hasCid = true) ∧
    ((∃ p, (select true now c (pathsAfter ops)).1[0]? = some p ∧ p.demoted = false) →
      headerOk (select true now c (pathsAfter ops)).1 (select true now c (pathsAfter ops)).2 = true) := by
  have hok := pathsAfter_ok h
  refine ⟨hok.cid, ?_⟩
  rintro ⟨p, hp, hd⟩
  obtain ⟨h1, h2⟩ := select_ok (multi := true) (now := now) (c := c) hok
  have hpc := h1.cid p (List.mem_of_getElem? hp) hd
  unfold headerOk
  rcases h2 with h2 | ⟨q, hq, hqd⟩
  · rw [h2, hp]; simp [hpc]
  · rw [hp, hq]; simp [hpc, h1.cid q (List.mem_of_getElem? hq) hqd]

/-- If another path than the first is abandoned, or if the first one is and the second was not, then the first path is
one that was not abandoned.
Missing: the same if the second path was abandoned, see `C96_crash_violated`. -/
theorem C96_first_partial (ops : List PathOp) (h : OpsOk ops) (now i : Nat) {p : PathX}
    (h0 : (pathsAfter ops)[0]? = some p) (hd : p.demoted = false)
    (hi : i ≠ 0 ∨ ∃ q, (pathsAfter ops)[1]? = some q ∧ q.demoted = false) :
    ∃ p', (demote true now (pathsAfter ops) i)[0]? = some p' ∧ p'.demoted = false := by
  have hok := pathsAfter_ok h
  generalize pathsAfter ops = ps at h0 hi hok
  have hcid := hok.cid p (List.mem_of_getElem? h0) hd
  match ps, h0, hi with
  | a :: l, h0, hi =>
    simp only [List.getElem?_cons_zero, Option.some.injEq] at h0
    subst h0
    cases i with
    | succ i =>
      rcases demote_cases true now (a :: l) (i + 1) with he | ⟨_, _, _, _, _, he | he | ⟨h1, _⟩⟩
      · rw [he]; exact ⟨a, rfl, hd⟩
      · rw [he, List.set_cons_succ]; exact ⟨a, rfl, hd⟩
      · rw [he, List.set_cons_succ]; exact ⟨a, rfl, hd⟩
      · cases h1
    | zero =>
      rcases hi with hi | ⟨q, hq, hqd⟩
      · exact absurd rfl hi
      · match l, hq with
        | b :: l, hq =>
          simp only [List.getElem?_cons_succ, List.getElem?_cons_zero, Option.some.injEq] at hq
          subst hq
          refine ⟨b, ?_, hqd⟩
          unfold demote
          cases hs : a.abandonSent <;> simp [hd, hcid, hs, List.modify]

example : ((pathsAfter [.add 1, .validate 1 true false])[0]?.map (·.demoted) = some false) ∧
    ((pathsAfter [.add 1, .validate 1 true false])[1]?.map (·.demoted) = some false) ∧
    ((demote true 5 (pathsAfter [.add 1, .validate 1 true false]) 0).map (fun p => (p.id, p.demoted)) =
      [(1, false), (0, true)]) := by decide

/-- Not satisfied: the peer abandons the second path and then the first. Whatever the other paths are, and whatever is
to be sent, the next packet uses the connection ID of a path that has none: a NULL pointer. -/
theorem C96_crash_violated (a b : PathX) (rest : List PathX) (ha : a.demoted = false) (hac : a.hasCid = true)
    (hb : b.demoted = false) (hbs : b.abandonSent = false) (t t' now : Nat) (c : Cond) :
    headerOk (select true now c (demote true t' (demote true t (a :: b :: rest) 1) 0)).1
      (select true now c (demote true t' (demote true t (a :: b :: rest) 1) 0)).2 = false := by
  apply select_broken
  have h1 : demote true t (a :: b :: rest) 1 =
      a :: { b with demoted := true, demotionTime := t + 3 * b.timer, hasCid := false, abandonSent := true } :: rest := by
    simp [demote, hb, hbs, List.modify]
  rw [h1]
  have h2 : ∃ l, demote true t'
      (a :: { b with demoted := true, demotionTime := t + 3 * b.timer, hasCid := false, abandonSent := true } :: rest) 0 =
      { b with demoted := true, demotionTime := t + 3 * b.timer, hasCid := false, abandonSent := true } :: l := by
    cases hs : a.abandonSent <;> exact ⟨_, by simp [demote, ha, hac, hs, List.modify]; rfl⟩
  obtain ⟨l, hl⟩ := h2
  rw [hl]
  exact ⟨_, l, rfl, rfl, rfl⟩

/-- A history that leads there: three paths, all validated, and two frames of the peer. -/
example : (let ps := pathsAfter [.add 1, .validate 1 true false, .add 2, .validate 2 true false,
      .measure 1 0 10 0 100, .peerAbandons 1 5, .peerAbandons 0 6, .clean 7 (fun _ => false)]
    let r := select true 8 (pacedOnly [0, 1, 2] false) ps
    (ps.map (fun p => (p.id, p.demoted, p.hasCid)), r.2, headerOk r.1 r.2)) =
    ([(1, true, false), (2, false, true)], 1, false) := by decide

/-- Not satisfied: if the peer abandons all the paths, all of them are deleted after some time, and the first path of an
empty list is used. -/
theorem C96_none_left_violated : ∃ ops, OpsOk ops ∧ pathsAfter ops = [] :=
  ⟨[.add 1, .validate 1 true false, .peerAbandons 1 5, .peerAbandons 0 6, .clean 7 (fun _ => false)],
    by intro o ho; simp at ho; rcases ho with rfl | rfl | rfl | rfl | rfl <;> trivial, by decide⟩

/-- Deletion: if no path failed or was left unused, exactly the paths that were abandoned and whose time has come are
deleted, and the others keep their order. -/
theorem C96_clean (now : Nat) (stale : Nat → Bool) (ps : List PathX) (hl : 2 ≤ ps.length)
    (h : ∀ p ∈ ps, p.demoted = true ∨ (p.failed = false ∧ stale p.id = false)) :
    clean true now stale ps = ps.filter (fun p => !(p.demoted && decide (p.demotionTime ≤ now))) := by
  obtain ⟨D, hD⟩ := cleanLoop_filter (multi := true) (now := now) (stale := stale) ps [] [] h
  simp only [List.length_nil, List.nil_append, Nat.add_zero] at hD
  unfold clean
  dsimp only
  rw [if_pos ⟨rfl, by omega⟩, Nat.sub_zero, hD]
  dsimp only
  rw [List.take_left']
  · rfl
  · rfl

example : (clean true 9 (fun _ => false) [{ id := 0, demoted := true, demotionTime := 4 }, { id := 1 },
    { id := 2, demoted := true, demotionTime := 12 }, { id := 3, demoted := true, demotionTime := 9 }, { id := 4 }]).map
    (·.id) = [1, 2, 4] := by decide

end Picoquic.Props
