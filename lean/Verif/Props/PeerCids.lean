import Verif.Spec.PeerCids
import Verif.Proof.PeerCidsOld
/-!
# C31: the connection IDs issued by the peer

The stash never has two connection IDs for one sequence number nor the reverse, a conflicting frame closes the
connection and a repetition of a stored connection ID changes nothing. The claim that the connection IDs below
'retire prior to' are not used is false: `C31_late_violated` (a frame which arrives after the one which retires
it), `C31_old_tuple_violated` (an address tuple other than the first one). The claim that repetitions are
harmless is false once the connection ID was retired: `C31_repeat_violated`, `C31_dangling_violated`. The
partial theorems say what holds otherwise.
-/

namespace Picoquic.Props
open Picoquic Picoquic.Spec Picoquic.PeerCids

/-- The events used as examples: connection IDs 1 and 2, the second with 'retire prior to' 2. -/
def cidSecret (n : UInt8) : Bytes := List.replicate 16 n
def cid0 : NewCid := ⟨0, 0, [7, 7, 7, 7], cidSecret 10⟩
def cid1 : NewCid := ⟨1, 0, [1, 1, 1, 1], cidSecret 11⟩
def cid2 : NewCid := ⟨2, 0, [2, 2, 2, 2], cidSecret 12⟩
def cid2r : NewCid := ⟨2, 2, [2, 2, 2, 2], cidSecret 12⟩
def cidStart : State := init [7, 7, 7, 7] (cidSecret 10) 8 false false

/-- **C31, one to one.** Whatever frames and other events happen, no sequence number has two connection IDs in
the stash and no connection ID has two sequence numbers. -/
theorem C31_one_to_one {c0 sec : Bytes} {limit : Nat} {rd ld : Bool} {evs : List Event} {s : State}
    (h : run (init c0 sec limit rd ld) evs = .ok s) : OneToOne s.stash :=
  (keys_of_run h).apart.imp (fun h => ⟨h.2.1, h.2.2.1⟩)

example : ∃ s, run cidStart [.newCid cid1, .newTuple, .newCid cid2r, .newCid cid2r, .ackRetire 0] = .ok s ∧
    (s.stash.map (·.seq)) = [1, 2] := ⟨_, rfl, rfl⟩

theorem firstEntry_of_destination {s : State} {e : Entry} (h : destination s 0 = .ok e) : firstEntry s = some e := by
  unfold destination at h
  unfold firstEntry
  cases ht : s.tuples with
  | nil => rw [ht] at h; cases h
  | cons a rest =>
    rw [ht] at h
    simp only [List.getElem?_cons_zero] at h
    dsimp only
    cases hl : lookup s.stash a with
    | none => rw [hl] at h; cases h
    | some x => rw [hl] at h; rw [Outcome.ok.inj h]

/-- **C31, conflicts.** A frame with the sequence number or the connection ID of a stored one, but which is not
a repetition of it, closes the connection with an error. -/
theorem C31_conflict {c0 sec : Bytes} {limit : Nat} {rd ld : Bool} {evs : List Event} {s : State}
    (h : run (init c0 sec limit rd ld) evs = .ok s) {first : Entry} (hf : destination s 0 = .ok first)
    {e : Entry} (he : e ∈ s.stash) {f : NewCid} (hc : Contradicts e f) :
    step s (.newCid f) = .error formatError ∨ step s (.newCid f) = .error violation := by
  have k := keys_of_run h
  show decodeNew s f = _ ∨ decodeNew s f = _
  unfold decodeNew
  by_cases h0 : f.retirePrior > f.seq
  · rw [if_pos h0]; exact Or.inl rfl
  · rw [if_neg h0]
    by_cases h1 : f.cid.length > 20
    · rw [if_pos h1]; exact Or.inr rfl
    · rw [if_neg h1]
      unfold PeerCids.add
      by_cases h2 : f.cid.length = 0 ∨ f.cid.length > 20
      · rw [if_pos h2]; exact Or.inl rfl
      · rw [if_neg h2, firstEntry_of_destination hf]
        dsimp only
        by_cases h3 : first.cid.length = 0
        · rw [if_pos h3]; exact Or.inr rfl
        · rw [if_neg h3, scan_conflict k.apart he hc]
          exact Or.inr rfl

example : ∃ s first e, run cidStart [.newCid cid1] = .ok s ∧ destination s 0 = .ok first ∧ e ∈ s.stash ∧
    Contradicts e ⟨1, 0, [1, 1, 1, 2], cidSecret 11⟩ :=
  ⟨_, _, _, rfl, rfl, List.mem_cons_of_mem _ List.mem_cons_self, Or.inl rfl, by
    rintro ⟨_, h, _⟩
    exact absurd h (by decide +kernel)⟩

/-- **C31, repetitions.** The repetition of the frame of a stored connection ID changes nothing. -/
theorem C31_repeat {c0 sec : Bytes} {limit : Nat} {rd ld : Bool} {evs : List Event} {s : State}
    (h : run (init c0 sec limit rd ld) evs = .ok s) {first : Entry} (hf : destination s 0 = .ok first)
    {e : Entry} (he : e ∈ s.stash) {f : NewCid} (hs : SameCid e f)
    (hlen : 1 ≤ f.cid.length ∧ f.cid.length ≤ 20) (hp : f.retirePrior ≤ f.seq)
    (hr : f.retirePrior ≤ retirePriorTo evs) : step s (.newCid f) = .ok s := by
  have k := keys_of_run h
  have hb := retireBefore_of_run h
  have hfirst := firstEntry_of_destination hf
  have hfl : first.cid.length ≠ 0 := by
    intro hh
    have h1 := (k.empty first (firstEntry_mem hfirst).1).mp (List.length_eq_zero_iff.mp hh)
    have h2 := (k.empty e he).mpr h1
    rw [hs.2.1] at h2
    rw [h2] at hlen
    exact absurd hlen.1 (by decide)
  show decodeNew s f = _
  unfold decodeNew
  rw [if_neg (Nat.not_lt.mpr hp), if_neg (Nat.not_lt.mpr hlen.2)]
  unfold PeerCids.add
  rw [if_neg (by omega), hfirst]
  dsimp only
  rw [if_neg hfl, scan_duplicate k.apart he hs]
  dsimp only
  rw [if_neg (by rw [hb]; omega)]

example : ∃ s first e, run cidStart [.newCid cid1, .newCid cid2r] = .ok s ∧ destination s 0 = .ok first ∧
    e ∈ s.stash ∧ SameCid e cid2r ∧ cid2r.retirePrior ≤ retirePriorTo [.newCid cid1, .newCid cid2r] :=
  ⟨_, _, _, rfl, rfl, List.mem_cons_of_mem _ (List.mem_cons_of_mem _ List.mem_cons_self), ⟨rfl, rfl, rfl⟩, by
    decide +kernel⟩

/-- **C31, no use of connection IDs below 'retire prior to'** (partial). If no frame announces a sequence number
below the 'retire prior to' of an earlier frame, a connection ID below the largest 'retire prior to' received
never comes into use. Missing: frames out of order (`C31_late_violated`), and the end of the use on address
tuples other than the first one (`C31_old_tuple_violated`). -/
theorem C31_not_below_partial {c0 sec : Bytes} {limit : Nat} {rd ld : Bool} (hc0 : c0 ≠ []) {evs : List Event}
    {ev : Event} {s s' : State} (hn : NoLate (evs ++ [ev])) (h : run (init c0 sec limit rd ld) evs = .ok s)
    (hs : step s ev = .ok s') {q : Nat} (hu : InUse s' q) : InUse s q ∨ retirePriorTo (evs ++ [ev]) ≤ q := by
  have k := keys_of_run h
  have o := old_of_run hc0 (noLate_prefix hn) h
  have h1 := old_step hc0 k o (by
    intro f hf
    rw [retireBefore_of_run h]
    exact hn evs f [] (by rw [hf])) hs
  have hrb : s'.retireBefore = retirePriorTo (evs ++ [ev]) := by
    rw [step_retireBefore hs, retireBefore_of_run h, retirePriorTo_append]
  rw [inUse_iff (k.step hs)] at hu
  rcases h1.2 q hu with h | h
  · exact Or.inl ((inUse_iff k q).mpr h)
  · exact Or.inr (by rw [← hrb]; exact h)

example : ∃ s s', run cidStart [.newCid cid1, .newTuple] = .ok s ∧ step s (.newCid cid2r) = .ok s' ∧
    InUse s' 2 ∧ retirePriorTo ([.newCid cid1, .newTuple] ++ [.newCid cid2r]) = 2 :=
  ⟨_, _, rfl, rfl, ⟨0, _, rfl, rfl⟩, by decide +kernel⟩

/-- **C31, 'retire prior to' on the first tuple** (partial). When a frame increases 'retire prior to', the
connection either uses on its first address tuple a connection ID not below it from then on, or closes with an
error, or is being demoted. Missing: the other address tuples (`C31_old_tuple_violated`). -/
theorem C31_first_tuple_partial {c0 sec : Bytes} {limit : Nat} {rd ld : Bool} (hc0 : c0 ≠ []) {evs : List Event}
    {s s' : State} {f : NewCid} (h : run (init c0 sec limit rd ld) evs = .ok s)
    (hs : step s (.newCid f) = .ok s') (hr : retirePriorTo evs < f.retirePrior) (hd : s.demoted = false)
    {e : Entry} (he : destination s' 0 = .ok e) : f.retirePrior ≤ e.seq := by
  have k := keys_of_run h
  obtain ⟨_, s1, ha, ⟨_, hr'⟩ | ⟨hlt, _⟩⟩ := decodeNew_ok hs
  · have k1 := k.add ha
    have hd1 : s1.demoted = false := by
      obtain ⟨_, _, h1 | ⟨h1, _⟩⟩ := add_ok ha <;> rw [h1] <;> exact hd
    obtain ⟨om, _⟩ := old_markOld k1 f.retirePrior
    have km := k1.sub (map_key_markOld f.retirePrior s1.stash)
    obtain ⟨first, hf, h1 | ⟨h1, h2⟩⟩ := removeNotBefore_ok hr'
    · exact first_renew (s := { s1 with retireBefore := f.retirePrior
                                        stash := (markOld f.retirePrior s1.stash).1
                                        retires := s1.retires ++ (markOld f.retirePrior s1.stash).2 })
        hc0 km om h1 he
    · have he' := firstEntry_of_destination he
      rw [h1] at he'
      rw [hf] at he'
      rw [← Option.some.inj he']
      have hne : first.cid ≠ [] := fun hh => hc0 ((km.empty first (firstEntry_mem hf).1).mp hh)
      have hl : first.cid.length > 0 := List.length_pos_iff.mpr hne
      apply Classical.byContradiction
      intro hlt
      exact h2 ⟨by omega, hl, hd1⟩
  · exfalso
    have : s1.retireBefore = s.retireBefore := by
      obtain ⟨_, _, h1 | ⟨h1, _⟩⟩ := add_ok ha <;> rw [h1]
    rw [this, retireBefore_of_run h] at hlt
    exact hlt hr

example : ∃ s s' e, run cidStart [.newCid cid1, .newTuple] = .ok s ∧ step s (.newCid cid2r) = .ok s' ∧
    retirePriorTo [.newCid cid1, .newTuple] < cid2r.retirePrior ∧ destination s' 0 = .ok e ∧ e.seq = 2 :=
  ⟨_, _, _, rfl, rfl, by decide +kernel, rfl, rfl⟩

/-- **C31, no use of freed connection IDs** (partial). If no frame announces again a sequence number for which a
RETIRE_CONNECTION_ID frame was sent, the connection never reads a connection ID after it is freed. Missing:
such frames, `C31_dangling_violated`. -/
theorem C31_not_dangling_partial {c0 sec : Bytes} {limit : Nat} {rd ld : Bool} (hc0 : c0 ≠ []) {evs : List Event}
    (hn : NoReannounce (init c0 sec limit rd ld) evs) :
    run (init c0 sec limit rd ld) evs ≠ .dangling ∧
      ∀ s, run (init c0 sec limit rd ld) evs = .ok s → ∀ i, destination s i ≠ .dangling := by
  refine ⟨?_, ?_⟩
  · have hgen : ∀ n (evs : List Event), evs.length = n → NoReannounce (init c0 sec limit rd ld) evs →
        run (init c0 sec limit rd ld) evs ≠ .dangling := by
      intro n
      induction n with
      | zero =>
        intro evs hl _ hd
        rw [List.length_eq_zero_iff.mp hl] at hd
        cases hd
      | succ n ih =>
        intro evs hl hn hd
        have hne : evs ≠ [] := by
          intro hh
          rw [hh] at hl
          cases hl
        have hsp := List.dropLast_concat_getLast hne
        generalize hA : evs.dropLast = A at hsp
        generalize hE : evs.getLast hne = E at hsp
        subst hsp
        have hlA : A.length = n := by
          rw [List.length_append, List.length_singleton] at hl
          omega
        rw [run_snoc] at hd
        cases hr : run (init c0 sec limit rd ld) A with
        | ok s1 =>
          rw [hr] at hd
          refine step_not_dangling (safe_of_run hc0 (noReannounce_prefix hn) hr) (keys_of_run hr) E ?_ hd
          intro f hf
          exact hn A f [] s1 (by rw [hf]) hr
        | error c => rw [hr] at hd; cases hd
        | dangling => exact ih A hlA (noReannounce_prefix hn) hr
    exact hgen evs.length evs rfl hn
  · intro s h i hd
    have k := keys_of_run h
    have i1 := safe_of_run hc0 hn h
    unfold destination at hd
    cases ht : s.tuples[i]? with
    | none => rw [ht] at hd; cases hd
    | some a =>
      rw [ht] at hd
      dsimp only at hd
      obtain ⟨e, he, ha, _⟩ := i1.ptr a (List.mem_of_getElem? ht)
      rw [← ha, lookup_of_mem k.apart he] at hd
      cases hd

/-- The hypothesis is met by a history where a connection ID is retired. -/
example : NoReannounce cidStart [.newCid cid1, .renewed, .newCid cid2, .ackRetire 0] := by
  intro before f after s heq hr
  match before, heq with
  | [], heq =>
    injection heq with h1 h2
    injection h1 with h1
    subst h1
    have := Outcome.ok.inj hr
    subst this
    exact Or.inl (by decide +kernel)
  | [a], heq => injection heq with h1 h2; injection h2 with h2 h3; cases h2
  | [a, b], heq =>
    injection heq with h1 h2
    injection h2 with h2 h3
    injection h3 with h3 h4
    injection h3 with h3
    subst h1 h2 h3
    have hrun : run cidStart [.newCid cid1, .renewed] = .ok s := hr
    have : cid2.seq ∉ s.retires := by
      have h' : (match run cidStart [.newCid cid1, .renewed] with
          | .ok s => decide (cid2.seq ∈ s.retires) | _ => true) = false := by decide +kernel
      rw [hrun] at h'
      exact of_decide_eq_false h'
    exact Or.inl this
  | [a, b, c], heq =>
    injection heq with h1 h2; injection h2 with h2 h3; injection h3 with h3 h4; injection h4 with h4 h5; cases h4
  | a :: b :: c :: d :: rest, heq =>
    injection heq with h1 h2; injection h2 with h2 h3; injection h3 with h3 h4; injection h4 with h4 h5
    cases rest <;> cases h5

/-- **C31, late frames.** A connection ID announced after the frame which asks to retire it comes into use. -/
theorem C31_late_violated : ∃ (evs : List Event) (s : State), run cidStart evs = .ok s ∧
    retirePriorTo evs = 2 ∧ ∃ e, destination s 1 = .ok e ∧ e.seq = 1 :=
  ⟨[.newCid cid2r, .newCid cid1, .newTuple], _, rfl, by decide +kernel, _, rfl, rfl⟩

/-- **C31, other tuples.** An address tuple which is not the first one goes on using the connection ID which the
peer asked to retire. -/
theorem C31_old_tuple_violated : ∃ (evs : List Event) (s : State), run cidStart evs = .ok s ∧
    retirePriorTo evs = 2 ∧ ∃ e, destination s 1 = .ok e ∧ e.seq = 1 :=
  ⟨[.newCid cid1, .newTuple, .newCid cid2r], _, rfl, by decide +kernel, _, rfl, rfl⟩

/-- **C31, repetitions after retirement.** The repetition of a frame makes the connection use again a connection
ID which it had retired, and the peer had acknowledged it. -/
theorem C31_repeat_violated : ∃ (evs : List Event) (s s' : State), run cidStart (.newCid cid1 :: evs) = .ok s ∧
    1 ∉ s.stash.map (·.seq) ∧ run s [.newCid cid1, .newTuple] = .ok s' ∧
    ∃ e, destination s' 1 = .ok e ∧ e.seq = 1 :=
  ⟨[.newCid cid2, .renewed, .renewed, .ackRetire 1], _, _, rfl, by decide +kernel, rfl, _, rfl, rfl⟩

/-- **C31, use of freed memory.** A connection ID retired, announced again and used again is freed by the
acknowledgement of the first RETIRE_CONNECTION_ID frame: the next packet reads freed memory. -/
theorem C31_dangling_violated : ∃ (evs : List Event) (s : State), run cidStart evs = .ok s ∧
    destination s 0 = .dangling :=
  ⟨[.newCid cid1, .renewed, .loseRetire 0, .ackRetire 0, .newCid cid0, .renewed, .ackRetire 0], _, rfl, rfl⟩

/-- **C31, deleted tuples.** The connection ID of an address tuple which was deleted is never retired, although
nothing uses it and the peer asked to retire it. -/
theorem C31_deleted_tuple_violated : ∃ (evs : List Event) (s : State), run cidStart evs = .ok s ∧
    retirePriorTo evs = 2 ∧ ¬ InUse s 1 ∧ 1 ∈ s.stash.map (·.seq) ∧ 1 ∉ s.retires := by
  refine ⟨[.newCid cid1, .newTuple, .deleteTuple 0, .newCid cid2r], _, rfl, by decide +kernel, ?_,
    by decide +kernel, by decide +kernel⟩
  intro hu
  have hu' := (inUse_iff (keys_of_run (rfl : run (init [7, 7, 7, 7] (cidSecret 10) 8 false false)
    [.newCid cid1, .newTuple, .deleteTuple 0, .newCid cid2r] = _)) 1).mp hu
  revert hu'
  unfold Used
  decide +kernel

end Picoquic.Props
