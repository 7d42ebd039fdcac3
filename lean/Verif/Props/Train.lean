import Verif.Proof.Train
/-!
# Properties of the filling of the send buffer (C71)
-/

namespace Picoquic.Props
open Picoquic.Train Picoquic.Spec

/-- **C71, buffer (partial).** For all behaviours of the connection which keep to the room they are given: nothing is written, and no
room is granted, behind the end of the buffer of the application, if the buffer has at least the size of the MTU and, for a
train, no MTU probe is sent; or if all packets are 1-RTT packets, for every size of the buffer and with probes. Missing: the
other cases, where it is false. -/
theorem C71_in_buffer_partial (c : Call σ) (s : σ) (r : Filled σ) (fits : FitsRoom c)
    (cases : (c.mtu ≤ c.bufferMax ∧ (c.train = true → NoProbe c)) ∨ OnlyOneRtt c)
    (h : prepareTrain c s = some r) :
    r.sendLength ≤ c.bufferMax ∧ ∀ room ∈ r.rooms, room.1 + room.2 ≤ c.bufferMax := by
  unfold prepareTrain at h
  split at h
  · cases h
  · cases h
    refine fill_bounds fits cases _ _ _ _ (Nat.zero_le _) ?_
    rcases cases with ⟨h, _⟩ | h
    · exact .inr ⟨rfl, by omega⟩
    · exact .inl h

/-- **C71, train.** For all behaviours which keep to their room, with and without MTU probes: the bytes cut every
`send_msg_size` bytes are exactly the datagrams which were made. -/
theorem C71_train (c : Call σ) (s : σ) (r : Filled σ) (fits : FitsRoom c) (ht : c.train = true) (hm : 0 < c.mtu)
    (h : prepareTrain c s = some r) :
    r.sizes.filter (· ≠ 0) = cutEvery r.msgSize r.sendLength r.sendLength := by
  unfold prepareTrain at h
  split at h
  · cases h
  · cases h
    obtain ⟨total, h1, -, -, h4⟩ := fill_train fits ht (c.bufferMax + 2) s 0 c.mtu hm (Nat.le_refl _) (.inl rfl)
    rw [h1, Nat.zero_add]
    exact h4 total (Nat.le_refl _)

/-- **C71, MTU.** When no probe is sent, every datagram has at most the size of the MTU. -/
theorem C71_mtu (c : Call σ) (s : σ) (r : Filled σ) (fits : FitsRoom c) (hn : NoProbe c) (h : prepareTrain c s = some r) :
    ∀ n ∈ r.sizes, n ≤ c.mtu := by
  unfold prepareTrain at h
  split at h
  · cases h
  · cases h
    exact fill_mtu fits hn _ _ _ _

/-- **C71, end.** The loops end by themselves: the bounds on the number of turns have no effect. -/
theorem C71_ends (c : Call σ) (s : σ) (fits : FitsRoom c) (hm : 0 < c.mtu) :
    (∀ first turns, c.mtu + 2 ≤ turns → makeDatagram c first turns s 0 = makeDatagram c first (c.mtu + 2) s 0) ∧
    (∀ turns, c.bufferMax + 2 ≤ turns → fill c turns s 0 c.mtu = fill c (c.bufferMax + 2) s 0 c.mtu) :=
  ⟨fun first turns h => makeDatagram_fuel0 c first turns (c.mtu + 2) s h (Nat.le_refl _),
    fun turns h => fill_fuel fits turns (c.bufferMax + 2) s 0 c.mtu hm (by omega) (by omega) (by omega) (by omega)⟩

/-- A connection which first sends `probe` bytes if it is not zero, then a packet of 300 bytes with a long header, then
fills the room with another one. -/
def tnPrepare (probe : Nat) : Nat → Nat → Nat × Seg
  | 0, room => if probe = 0 then (2, ⟨true, min room 300, min room 300, false⟩)
      else (1, ⟨true, min room probe, min room probe, true⟩)
  | 1, room => (2, ⟨true, min room 300, min room 300, false⟩)
  | 2, room => (3, ⟨true, room, room, false⟩)
  | n + 3, _ => (n + 3, ⟨true, 0, 0, false⟩)

def tnCall (bufferMax mtu probe : Nat) (train : Bool) : Call Nat :=
  { bufferMax := bufferMax, mtu := mtu, train := train, dontCoalesce := false, prepare := tnPrepare probe }

theorem tnFits (bufferMax mtu probe : Nat) (train : Bool) : FitsRoom (tnCall bufferMax mtu probe train) := by
  intro s room
  show (tnPrepare probe s room).2.length ≤ room
  match s with
  | 0 =>
    show (if probe = 0 then (2, (⟨true, min room 300, min room 300, false⟩ : Seg)) else (1, ⟨true, min room probe, min room probe, true⟩)).2.length ≤ room
    by_cases hp : probe = 0
    · rw [if_pos hp]; exact Nat.min_le_left _ _
    · rw [if_neg hp]; exact Nat.min_le_left _ _
  | 1 => exact Nat.min_le_left _ _
  | 2 => exact Nat.le_refl _
  | n + 3 => exact Nat.zero_le _

/-- The datagram with two packets. -/
theorem tnDatagram (c : Call σ) (first : Nat) (s s2 s3 : σ) (h2 : 556 ≤ c.mtu) (hd : c.dontCoalesce = false)
    (hp : c.prepare s first = (s2, ⟨true, 300, 300, false⟩))
    (hp2 : c.prepare s2 (c.mtu - 300) = (s3, ⟨true, c.mtu - 300, c.mtu - 300, false⟩)) :
    (makeDatagram c first (c.mtu + 2) s 0).size = c.mtu ∧ (makeDatagram c first (c.mtu + 2) s 0).ok = true := by
  obtain ⟨k, hk⟩ : ∃ k, c.mtu = k + 1 := ⟨c.mtu - 1, by omega⟩
  have n1 : ¬(0 < 300 ∧ c.mtu < 300 + MIN_SEGMENT_SIZE) := by unfold MIN_SEGMENT_SIZE; omega
  have n2 : 0 < 300 + (c.mtu - 300) ∧ c.mtu < 300 + (c.mtu - 300) + MIN_SEGMENT_SIZE := by unfold MIN_SEGMENT_SIZE; omega
  have p3 : (0 : Nat) < 300 := by decide
  rw [show c.mtu + 2 = k + 1 + 1 + 1 by omega]
  rw [makeDatagram_step, if_neg (fun h => Nat.lt_irrefl 0 h.1), if_neg (Nat.lt_irrefl 0), hp]
  dsimp only
  rw [if_pos rfl, if_neg (by rw [hd]; simp)]
  dsimp only
  rw [Nat.zero_add, makeDatagram_step, if_neg n1, if_pos p3, hp2]
  dsimp only
  rw [if_pos rfl, if_neg (by rw [hd]; simp; omega)]
  dsimp only
  rw [makeDatagram_step, if_pos n2]
  exact ⟨by dsimp only; omega, rfl⟩

/-- **C71, small buffers (violated).** A buffer of 1200 bytes is accepted. But for every buffer smaller than the MTU there
are packets which keep to their room, and which are written behind the end of the buffer: with and without trains. -/
theorem C71_small_buffer_violated (bufferMax mtu : Nat) (h1 : 1200 ≤ bufferMax) (h2 : bufferMax < mtu) (train : Bool) :
    ∃ c : Call Nat, c.bufferMax = bufferMax ∧ c.mtu = mtu ∧ c.train = train ∧ FitsRoom c ∧ NoProbe c ∧
      ∃ r, prepareTrain c 0 = some r ∧ bufferMax < r.sendLength := by
  let c : Call Nat := { tnCall bufferMax mtu 0 train with
    prepare := fun s room => tnPrepare 0 s (min room mtu) }
  refine ⟨c, rfl, rfl, rfl, ?_, ?_, ?_⟩
  · intro s room
    have : (tnPrepare 0 s (min room mtu)).2.length ≤ min room mtu := tnFits bufferMax mtu 0 train s (min room mtu)
    have h : min room mtu ≤ room := Nat.min_le_left _ _
    exact Nat.le_trans this h
  · intro s room
    have : (tnPrepare 0 s (min room mtu)).2.length ≤ min room mtu := tnFits bufferMax mtu 0 train s (min room mtu)
    have h : min room mtu ≤ mtu := Nat.min_le_right _ _
    exact Nat.le_trans this h
  · have hb : c.bufferMax = bufferMax := rfl
    have ht : c.train = train := rfl
    have hm : c.mtu = mtu := rfl
    have hd : ∀ first, 300 ≤ first → (makeDatagram c first (mtu + 2) 0 0).size = mtu := by
      intro first hf
      have hp : c.prepare 0 first = (2, ⟨true, 300, 300, false⟩) := by
        show (2, (⟨true, min (min first mtu) 300, min (min first mtu) 300, false⟩ : Seg)) = _
        rw [Nat.min_eq_right (show 300 ≤ min first mtu by rw [Nat.min_def]; split <;> omega)]
      have hp2 : c.prepare 2 (mtu - 300) = (3, ⟨true, mtu - 300, mtu - 300, false⟩) := by
        show (3, (⟨true, min (mtu - 300) mtu, min (mtu - 300) mtu, false⟩ : Seg)) = _
        rw [Nat.min_eq_left (by omega)]
      exact (tnDatagram c first 0 2 3 (by omega) rfl hp hp2).1
    refine ⟨_, by unfold prepareTrain; rw [if_neg (by rw [hb]; unfold MIN_BUFFER; omega)], ?_⟩
    obtain ⟨first, d, e1, e2, e3⟩ := fill_step c (c.bufferMax + 1) 0 0 c.mtu
    rw [if_neg (by rintro ⟨_, _, h, _⟩; omega)] at e2
    have hsz : d.size = mtu := by rw [e1, hm]; exact hd first (by rw [e2, hb]; omega)
    rw [show c.bufferMax + 2 = c.bufferMax + 1 + 1 from rfl, e3]
    by_cases t : (!c.train) = true
    · rw [if_pos t]; dsimp only; omega
    · rw [if_neg t, if_neg (by rw [hsz, hm]; omega), if_pos (by rw [hsz, hm, hb]; omega)]
      dsimp only; omega

/-- **C71, probes (violated).** With a train, a buffer which is larger than the MTU does not help when the first datagram is an
MTU probe behind which less than the MTU is left: two packets with long headers are written behind the end. -/
theorem C71_probe_violated (bufferMax mtu probe : Nat) (h1 : 1200 ≤ bufferMax) (h2 : 556 ≤ mtu) (h3 : mtu < probe)
    (h4 : probe + 300 ≤ bufferMax) (h5 : bufferMax < probe + mtu) :
    ∃ r, prepareTrain (tnCall bufferMax mtu probe true) 0 = some r ∧ bufferMax < r.sendLength := by
  refine ⟨_, by unfold prepareTrain; rw [if_neg (by show ¬(bufferMax < MIN_BUFFER); unfold MIN_BUFFER; omega)], ?_⟩
  have hb : (tnCall bufferMax mtu probe true).bufferMax = bufferMax := rfl
  have hm : (tnCall bufferMax mtu probe true).mtu = mtu := rfl
  have ht : (tnCall bufferMax mtu probe true).train = true := rfl
  obtain ⟨first, d, e1, e2, e3⟩ := fill_step (tnCall bufferMax mtu probe true) (bufferMax + 1) 0 0 mtu
  rw [if_neg (by rintro ⟨_, _, h, _⟩; omega), hb] at e2
  have hd : d = ⟨1, probe, true, [(0, first)]⟩ := by
    rw [e1, hm, show mtu + 2 = mtu + 1 + 1 from rfl, makeDatagram_step, if_neg (fun h => Nat.lt_irrefl 0 h.1), if_neg (Nat.lt_irrefl 0)]
    have hp : (tnCall bufferMax mtu probe true).prepare 0 first = (1, ⟨true, probe, probe, true⟩) := by
      show (if probe = 0 then (2, (⟨true, min first 300, min first 300, false⟩ : Seg)) else (1, ⟨true, min first probe, min first probe, true⟩)) = _
      rw [if_neg (by omega), Nat.min_eq_right (by omega)]
    rw [hp]
    dsimp only
    rw [if_pos rfl, if_pos (.inr (.inl rfl)), Nat.zero_add]
  rw [hb, hm, show bufferMax + 2 = bufferMax + 1 + 1 from rfl, e3, hd, ht, if_neg (by decide)]
  dsimp only
  rw [if_neg (by omega), if_neg (by omega), if_neg (by decide)]
  dsimp only
  rw [if_pos h3, Nat.zero_add]
  obtain ⟨first', d', e1', e2', e3'⟩ := fill_step (tnCall bufferMax mtu probe true) bufferMax 1 probe probe
  have hf' : 300 ≤ first' := by
    rw [e2', hb]
    split <;> omega
  obtain ⟨s1, -⟩ := tnDatagram (tnCall bufferMax mtu probe true) first' 1 2 3 h2 rfl
    (by
      show (2, (⟨true, min first' 300, min first' 300, false⟩ : Seg)) = _
      rw [Nat.min_eq_right hf']) rfl
  rw [← e1', hm] at s1
  rw [e3', ht, if_neg (by decide), if_pos (by omega)]
  dsimp only
  omega

/-- Non-vacuity: a train of several datagrams with a short last one. -/
def tnTrain : Call Nat :=
  { bufferMax := 5000, mtu := 1300, train := true, dontCoalesce := false
    prepare := fun n room => (n + 1, if n < 2 then ⟨true, min room 1300, min room 1300, true⟩ else if n = 2 then ⟨true, min room 77, min room 77, true⟩
      else ⟨true, 0, 0, true⟩) }

example : FitsRoom tnTrain ∧ NoProbe tnTrain ∧ OnlyOneRtt tnTrain := by
  have hl : ∀ s room, (tnTrain.prepare s room).2.length ≤ room ∧ (tnTrain.prepare s room).2.length ≤ 1300 ∧
      (tnTrain.prepare s room).2.oneRtt = true := by
    intro s room
    simp only [tnTrain]
    split
    · exact ⟨Nat.min_le_left _ _, Nat.min_le_right _ _, rfl⟩
    · split
      · exact ⟨Nat.min_le_left _ _, Nat.le_trans (Nat.min_le_right _ _) (by decide), rfl⟩
      · exact ⟨Nat.zero_le _, Nat.zero_le _, rfl⟩
  exact ⟨fun s r => (hl s r).1, fun s r => (hl s r).2.1, fun s r => (hl s r).2.2⟩

example : (prepareTrain tnTrain 0).map (fun r => (r.sizes, r.sendLength, r.msgSize)) = some ([1300, 1300, 77], 2677, 1300) ∧
    cutEvery 1300 2677 2677 = [1300, 1300, 77] := by
  refine ⟨by decide +kernel, by decide +kernel⟩

/-- The case of a buffer of 1200 bytes with the initial MTU for IPv6, 1232 bytes. -/
example : ∃ c : Call Nat, c.bufferMax = 1200 ∧ c.mtu = 1232 ∧ FitsRoom c ∧ ∃ r, prepareTrain c 0 = some r ∧ 1200 < r.sendLength := by
  obtain ⟨c, h1, h2, -, h3, -, h4⟩ := C71_small_buffer_violated 1200 1232 (by decide) (by decide) false
  exact ⟨c, h1, h2, h3, h4⟩

end Picoquic.Props
