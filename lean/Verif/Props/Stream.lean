import Verif.Proof.StreamOrder
/-!
# C10 to C14: reception of streams

The specification is in `Verif.Spec.ByteStream`. `run p (initial max0) ops` is the connection and the
application callbacks after the operations `ops`: STREAM and RESET_STREAM frames on any stream, in any
order, and local operations. `eventsOn id` selects the callbacks of one stream.
-/

namespace Picoquic.Props
open Picoquic Picoquic.StreamInput Picoquic.Spec

/-- The callbacks of stream `id` after `ops`. -/
abbrev callbacks (p : Params) (max0 : Nat) (ops : List Op) (id : Nat) : List Event :=
  eventsOn id (run p (initial max0) ops).2

/-- Parameters for the examples: four streams, 100 bytes each. -/
def exParams : Params := ⟨fun id => decide (id < 4), fun _ => 100, fun _ => false⟩

/-! ## C10 -/

/-- C10, any peer: the byte delivered at position `i` is a byte that was received at position `i`. -/
theorem C10_delivered_bytes_were_received (p : Params) (max0 : Nat) (ops : List Op) (id : Nat) :
    Agree (Carries ops id) 0 (dataOf (callbacks p max0 ops id)) := by
  have h := run_gen (Carries ops id) p max0 id ops (by
    intro offset fin bytes h i x hx
    exact ⟨offset, fin, bytes, h, by omega, by rw [show offset + i - offset = i by omega]; exact hx⟩)
  obtain ⟨n, d, h1, _⟩ := h.acc
  exact (accept_spec h1).2.1

/-- C10: if the data received agrees with a byte stream `S`, what is delivered is a prefix of `S`. -/
theorem C10_delivers_a_prefix (S : Nat → UInt8) (p : Params) (max0 : Nat) (ops : List Op) (id : Nat)
    (hS : ∀ offset fin bytes, Op.frame id offset fin bytes ∈ ops → bytes = slice S offset bytes.length) :
    ∃ n, dataOf (callbacks p max0 ops id) = slice S 0 n := by
  have h := run_gen (fun i x => x = S i) p max0 id ops (by
    intro offset fin bytes h
    rw [hS offset fin bytes h]; exact slice_agree S _ _)
  obtain ⟨n, d, h1, _⟩ := h.acc
  exact ⟨_, agree_eq_slice (accept_spec h1).2.1⟩

/-- C10: delivery never moves backwards, whatever comes next. -/
theorem C10_never_moves_backwards (p : Params) (max0 : Nat) (ops more : List Op) (id : Nat) :
    ∃ es, callbacks p max0 (ops ++ more) id = callbacks p max0 ops id ++ es := by
  refine ⟨eventsOn id (run p (run p (initial max0) ops).1 more).2, ?_⟩
  unfold callbacks
  rw [run_append, eventsOn_append]

/-- C10: with a correct sender of `S`, and an application that reads the stream, as long as the
connection is not in error, the delivered data is exactly the prefix of `S` up to the first byte not
received. -/
theorem C10_delivers_up_to_first_missing (S : Nat → UInt8) (F : Option Nat) (p : Params) (max0 : Nat)
    (ops : List Op) (id : Nat) (hh : Honest S F ops id) (hr : Reading ops id)
    (he : (run p (initial max0) ops).1.error = none) :
    ∃ n, dataOf (callbacks p max0 ops id) = slice S 0 n ∧ (∀ i, i < n → Received ops id i) ∧
      ¬ Received ops id n := by
  have h := run_hon (fun i x => x = S i) F p max0 id ops (by
    intro offset fin bytes h
    obtain ⟨h1, h2, h3⟩ := hh.1 offset fin bytes h
    exact ⟨by rw [h1]; exact slice_agree S _ _, h2, h3⟩) hh.2 he
  obtain ⟨a1, a2, _⟩ := accept_spec (h.read hr).2
  have hs := agree_eq_slice a2
  refine ⟨_, hs, ?_, ?_⟩
  · intro i hi
    exact (h.inv.cov i).1 (Or.inl (by omega))
  · intro hrec
    rcases (h.inv.cov _).2 hrec with h1 | ⟨c, hc, h1, _⟩
    · omega
    · have := h.inv.ahead c hc
      omega

/-- Out of order, overlapping and repeated frames: the case meets the hypotheses. -/
def exStream : Nat → UInt8 := fun i => UInt8.ofNat (i + 65)
def exOps : List Op :=
  [.frame 0 4 false (slice exStream 4 3), .frame 0 1 false (slice exStream 1 5),
   .frame 1 0 true (slice exStream 7 2), .frame 0 9 true (slice exStream 9 1),
   .frame 0 0 false (slice exStream 0 3), .frame 0 4 false (slice exStream 4 3)]

example : Honest exStream (some 10) exOps 0 ∧ Reading exOps 0 ∧
    (run exParams (initial 1000) exOps).1.error = none ∧
    dataOf (callbacks exParams 1000 exOps 0) = slice exStream 0 7 := by
  refine ⟨⟨?_, ?_⟩, ?_, ?_, ?_⟩
  · intro offset fin bytes h
    simp only [exOps, List.mem_cons, Op.frame.injEq, List.not_mem_nil, or_false] at h
    rcases h with ⟨_, rfl, rfl, rfl⟩ | ⟨_, rfl, rfl, rfl⟩ | ⟨h, _⟩ | ⟨_, rfl, rfl, rfl⟩ | ⟨_, rfl, rfl, rfl⟩ |
      ⟨_, rfl, rfl, rfl⟩
    · exact ⟨rfl, by intro f hf; cases hf; decide, by intro h; cases h⟩
    · exact ⟨rfl, by intro f hf; cases hf; decide, by intro h; cases h⟩
    · cases h
    · exact ⟨rfl, by intro f hf; cases hf; decide, by intro h; rfl⟩
    · exact ⟨rfl, by intro f hf; cases hf; decide, by intro h; cases h⟩
    · exact ⟨rfl, by intro f hf; cases hf; decide, by intro h; cases h⟩
  · intro f h; simp [exOps] at h
  · simp [Reading, exOps]
  · decide +kernel
  · decide +kernel

/-! ## C11 -/

/-- C11, any peer: the end of the stream is signalled at most once. -/
theorem C11_fin_at_most_once (p : Params) (max0 : Nat) (ops : List Op) (id : Nat) :
    finCount (callbacks p max0 ops id) ≤ 1 := by
  have h := run_gen (fun _ _ => True) p max0 id ops (by intro _ _ _ _ _ _ _; trivial)
  obtain ⟨n, d, h1, _⟩ := h.acc
  have := (accept_spec h1).2.2
  unfold callbacks
  cases d <;> simp at this <;> omega

theorem accept_split {A : Nat → UInt8 → Prop} {es fs : List Event} {n n' : Nat} {d d' : Bool}
    (h : Accept A n d (es ++ fs) n' d') : ∃ m e, Accept A n d es m e ∧ Accept A m e fs n' d' := by
  induction es generalizing n d with
  | nil => exact ⟨n, d, ⟨rfl, rfl⟩, h⟩
  | cons e es ih =>
    cases e with
    | data b =>
      obtain ⟨m, e, h1, h2⟩ := ih h.2.2.2
      exact ⟨m, e, ⟨h.1, h.2.1, h.2.2.1, h1⟩, h2⟩
    | fin b =>
      obtain ⟨m, e, h1, h2⟩ := ih h.2.2
      exact ⟨m, e, ⟨h.1, h.2.1, h1⟩, h2⟩
    | reset =>
      obtain ⟨m, e, h1, h2⟩ := ih h
      exact ⟨m, e, h1, h2⟩

/-- C11, any peer: no data is delivered after the end of stream was signalled. -/
theorem C11_no_data_after_fin (p : Params) (max0 : Nat) (ops : List Op) (id : Nat)
    (before after : List Event) (b : Bytes) (h : callbacks p max0 ops id = before ++ .fin b :: after) :
    ∀ e ∈ after, e = .reset := by
  have hg := run_gen (fun _ _ => True) p max0 id ops (by intro _ _ _ _ _ _ _; trivial)
  obtain ⟨n, d, h1, _⟩ := hg.acc
  unfold callbacks at h
  rw [h] at h1
  obtain ⟨m, e, _, h2⟩ := accept_split h1
  exact accept_after_end h2.2.2

/-- C11: with a correct sender and an application that reads the stream, the end of stream has been
signalled if and only if a FIN was received and every byte up to the final size was; then every byte up
to the final size was delivered. -/
theorem C11_fin_exactly_when_complete (S : Nat → UInt8) (F : Option Nat) (p : Params) (max0 : Nat)
    (ops : List Op) (id : Nat) (hh : Honest S F ops id) (hr : Reading ops id)
    (he : (run p (initial max0) ops).1.error = none) :
    (finCount (callbacks p max0 ops id) = 1 ↔
      (FinReceived ops id ∧ ∃ f, F = some f ∧ ∀ i, i < f → Received ops id i)) ∧
    (finCount (callbacks p max0 ops id) = 1 →
      ∃ f, F = some f ∧ dataOf (callbacks p max0 ops id) = slice S 0 f) := by
  have h := run_hon (fun i x => x = S i) F p max0 id ops (by
    intro offset fin bytes h
    obtain ⟨h1, h2, h3⟩ := hh.1 offset fin bytes h
    exact ⟨by rw [h1]; exact slice_agree S _ _, h2, h3⟩) hh.2 he
  obtain ⟨a1, a2, a3⟩ := accept_spec (h.read hr).2
  have hs := agree_eq_slice a2
  unfold callbacks
  generalize sOf p (run p (initial max0) ops).1 id = s at *
  generalize eventsOn id (run p (initial max0) ops).2 = ev at *
  have hsig : finCount ev = 1 ↔ s.finSignalled = true := by
    cases hf : s.finSignalled with
    | true => rw [hf] at a3; simp at a3; simp [a3]
    | false => rw [hf] at a3; simp at a3; simp [a3]
  rw [hsig]
  refine ⟨⟨?_, ?_⟩, ?_⟩
  · intro h1
    obtain ⟨h2, h3⟩ := h.inv.base.sig h1
    refine ⟨h.fin.1 h2, s.finOffset, h.finEq h2, ?_⟩
    intro i hi
    exact (h.inv.cov i).1 (Or.inl (by omega))
  · rintro ⟨h1, f, h2, h3⟩
    have h4 := h.fin.2 h1
    have h5 := h.finEq h4
    rw [h2] at h5
    simp only [Option.some.injEq] at h5
    apply h.tight h4
    have hle := h.inv.base.le
    by_cases hlt : s.consumed < f
    · rcases (h.inv.cov _).2 (h3 _ hlt) with h6 | ⟨c, hc, h6, _⟩
      · omega
      · have := h.inv.ahead c hc; omega
    · omega
  · intro h1
    obtain ⟨h2, h3⟩ := h.inv.base.sig h1
    refine ⟨s.finOffset, h.finEq h2, ?_⟩
    rw [hs]; congr 1; omega

/-- The FIN may come first: it is signalled when the last gap is filled. -/
example :
    let ops : List Op := exOps ++ [.frame 0 6 false (slice exStream 6 4)]
    finCount (callbacks exParams 1000 exOps 0) = 0 ∧ finCount (callbacks exParams 1000 ops 0) = 1 ∧
    dataOf (callbacks exParams 1000 ops 0) = slice exStream 0 10 := by decide +kernel

/-! ## C12 -/

/-- C12 does not hold: a FIN that sets the final size below data already received is accepted, and so
is a RESET_STREAM, and so is data past the final size announced by a RESET_STREAM. Each of these is a
FINAL_SIZE_ERROR in the specification of the protocol. -/
theorem C12_final_size_violated :
    -- ten bytes, then FIN at position 5
    (let r := run exParams (initial 1000) [.frame 0 0 false (slice exStream 0 10), .frame 0 0 true (slice exStream 0 5)]
     r.1.error = none ∧ finCount (eventsOn 0 r.2) = 0) ∧
    -- ten bytes, then a reset with final size 5
    (run exParams (initial 1000) [.frame 0 0 false (slice exStream 0 10), .reset 0 5]).1.error = none ∧
    -- a reset with final size 5, then bytes 5 to 9, which are delivered
    (let r := run exParams (initial 1000) [.frame 0 0 false (slice exStream 0 5), .reset 0 5,
        .frame 0 5 false (slice exStream 5 5)]
     r.1.error = none ∧ dataOf (eventsOn 0 r.2) = slice exStream 0 10) := by
  decide +kernel

/-- A STREAM frame on a stream that exists or can be created, and is not closed, is processed. -/
theorem frame_exact (p : Params) (max0 : Nat) (ops : List Op) (id offset : Nat) (fin : Bool) (bytes : Bytes)
    (he : (run p (initial max0) ops).1.error = none)
    (hid : id ∈ (run p (initial max0) ops).1.ids ∨ p.mayCreate id = true)
    (hd : (sOf p (run p (initial max0) ops).1 id).deleted = false) :
    (run p (initial max0) (ops ++ [.frame id offset fin bytes])).1.error =
      (streamNetworkInput (run p (initial max0) ops).1.maxdataLocal (run p (initial max0) ops).1.dataReceived
        (sOf p (run p (initial max0) ops).1 id) offset fin bytes).error ∧
    callbacks p max0 (ops ++ [.frame id offset fin bytes]) id = callbacks p max0 ops id ++
      (streamNetworkInput (run p (initial max0) ops).1.maxdataLocal (run p (initial max0) ops).1.dataReceived
        (sOf p (run p (initial max0) ops).1 id) offset fin bytes).events := by
  have hI := run_cinv p max0 ops
  unfold callbacks
  rw [run_snoc, eventsOn_append, eventsOn_map]
  generalize (run p (initial max0) ops).1 = c at *
  have h := onFrame_exact (f := fun m d s => streamNetworkInput m d s offset fin bytes) hI hid hd
  have hst : step p c (.frame id offset fin bytes) =
      onFrame p c id (fun m d s => streamNetworkInput m d s offset fin bytes) := by
    simp only [step, he]; rfl
  rw [hst, h.1]
  exact ⟨h.2.2, by simp [Op.id]⟩

/-- The same for RESET_STREAM. -/
theorem reset_exact (p : Params) (max0 : Nat) (ops : List Op) (id final : Nat)
    (he : (run p (initial max0) ops).1.error = none)
    (hid : id ∈ (run p (initial max0) ops).1.ids ∨ p.mayCreate id = true)
    (hd : (sOf p (run p (initial max0) ops).1 id).deleted = false) :
    (run p (initial max0) (ops ++ [.reset id final])).1.error =
      (streamReset (run p (initial max0) ops).1.maxdataLocal (run p (initial max0) ops).1.dataReceived
        (sOf p (run p (initial max0) ops).1 id) final).error ∧
    callbacks p max0 (ops ++ [.reset id final]) id = callbacks p max0 ops id ++
      (streamReset (run p (initial max0) ops).1.maxdataLocal (run p (initial max0) ops).1.dataReceived
        (sOf p (run p (initial max0) ops).1 id) final).events := by
  have hI := run_cinv p max0 ops
  unfold callbacks
  rw [run_snoc, eventsOn_append, eventsOn_map]
  generalize (run p (initial max0) ops).1 = c at *
  have h := onFrame_exact (f := fun m d s => streamReset m d s final) hI hid hd
  have hst : step p c (.reset id final) = onFrame p c id (fun m d s => streamReset m d s final) := by
    simp only [step, he]; rfl
  rw [hst, h.1]
  exact ⟨h.2.2, by simp [Op.id]⟩

/-- C12, the part that holds after a FIN: once a FIN was accepted and while the stream exists, a STREAM
frame with data past the highest offset received, or a FIN elsewhere, or a RESET_STREAM with another final
size, is a FINAL_SIZE_ERROR, and nothing is delivered. What is missing: the final size can be below data
already received (`C12_final_size_violated`), in which case it is the highest offset that counts. -/
theorem C12_after_fin_partial (p : Params) (max0 : Nat) (ops : List Op) (id : Nat)
    (he : (run p (initial max0) ops).1.error = none) (hf : FinReceived ops id)
    (hd : (sOf p (run p (initial max0) ops).1 id).deleted = false) :
    (∀ offset fin bytes, offset + bytes.length > highest ops id ∨
        (fin = true ∧ offset + bytes.length ≠ highest ops id) →
      (run p (initial max0) (ops ++ [.frame id offset fin bytes])).1.error = some FINAL_OFFSET_ERROR ∧
      callbacks p max0 (ops ++ [.frame id offset fin bytes]) id = callbacks p max0 ops id) ∧
    (∀ final, final ≠ highest ops id →
      (run p (initial max0) (ops ++ [.reset id final])).1.error = some FINAL_OFFSET_ERROR ∧
      callbacks p max0 (ops ++ [.reset id final]) id = callbacks p max0 ops id) := by
  obtain ⟨b1, b2, _⟩ := (run_hist p max0 id ops he).eq hd
  have hlim := sOf_lim (p := p) id (run_cinv p max0 ops)
  have hfr := b2.2 hf
  have hmem : id ∈ (run p (initial max0) ops).1.ids := by
    by_cases hm : id ∈ (run p (initial max0) ops).1.ids
    · exact hm
    · unfold sOf at hfr; rw [if_neg hm] at hfr; cases hfr
  refine ⟨?_, ?_⟩
  · intro offset fin bytes hbad
    obtain ⟨x1, x2⟩ := frame_exact p max0 ops id offset fin bytes he (Or.inl hmem) hd
    rw [x1, x2]
    have hc := streamNetworkInput_cases (run p (initial max0) ops).1.maxdataLocal
      (run p (initial max0) ops).1.dataReceived _ offset fin bytes hlim
    simp only at hc
    rcases hc with ⟨e1, e2, _⟩ | ⟨_, _, _, _, e5, _⟩ | ⟨_, _, _, _, e5, _⟩
    · exact ⟨e1, by rw [e2, List.append_nil]⟩
    · rw [hfr] at e5; cases e5
    · have := e5 hfr
      rw [b1] at this
      rcases hbad with h | ⟨h1, h2⟩
      · omega
      · exact absurd (this.2 h1) h2
  · intro final hbad
    obtain ⟨x1, x2⟩ := reset_exact p max0 ops id final he (Or.inl hmem) hd
    rw [x1, x2]
    have hc : streamReset (run p (initial max0) ops).1.maxdataLocal
        (run p (initial max0) ops).1.dataReceived (sOf p (run p (initial max0) ops).1 id) final =
        ⟨(run p (initial max0) ops).1.dataReceived, sOf p (run p (initial max0) ops).1 id, [], some FINAL_OFFSET_ERROR⟩ := by
      unfold streamReset
      rw [if_pos]
      simp [hfr, b1, hbad]
    rw [hc]
    exact ⟨rfl, by simp⟩

/-- C12, the part that holds after a RESET_STREAM: another RESET_STREAM with another final size is a
FINAL_SIZE_ERROR. What is missing: STREAM frames that contradict the final size are accepted
(`C12_final_size_violated`). -/
theorem C12_after_reset_partial (p : Params) (max0 : Nat) (ops : List Op) (id final final' : Nat)
    (he : (run p (initial max0) ops).1.error = none) (hf : Op.reset id final ∈ ops)
    (hd : (sOf p (run p (initial max0) ops).1 id).deleted = false) (hne : final' ≠ highest ops id) :
    (run p (initial max0) (ops ++ [.reset id final'])).1.error = some FINAL_OFFSET_ERROR ∧
    callbacks p max0 (ops ++ [.reset id final']) id = callbacks p max0 ops id := by
  obtain ⟨b1, _, b3⟩ := (run_hist p max0 id ops he).eq hd
  have hfr := b3.2 ⟨final, hf⟩
  have hmem : id ∈ (run p (initial max0) ops).1.ids := by
    by_cases hm : id ∈ (run p (initial max0) ops).1.ids
    · exact hm
    · unfold sOf at hfr; rw [if_neg hm] at hfr; cases hfr
  obtain ⟨x1, x2⟩ := reset_exact p max0 ops id final' he (Or.inl hmem) hd
  rw [x1, x2]
  have hc : streamReset (run p (initial max0) ops).1.maxdataLocal
      (run p (initial max0) ops).1.dataReceived (sOf p (run p (initial max0) ops).1 id) final' =
      ⟨(run p (initial max0) ops).1.dataReceived, sOf p (run p (initial max0) ops).1 id, [], some FINAL_OFFSET_ERROR⟩ := by
    unfold streamReset
    rw [if_pos]
    simp [hfr, b1, hne]
  rw [hc]
  exact ⟨rfl, by simp⟩

example :
    let r := run exParams (initial 1000) exOps
    r.1.error = none ∧ FinReceived exOps 0 ∧ (sOf exParams r.1 0).deleted = false ∧
    highest exOps 0 = 10 := by
  refine ⟨by decide +kernel, ⟨9, slice exStream 9 1, by simp [exOps]⟩, by decide +kernel, by decide +kernel⟩

example :
    let ops : List Op := [.frame 0 0 false (slice exStream 0 5), .reset 0 7]
    let r := run exParams (initial 1000) ops
    r.1.error = none ∧ (sOf exParams r.1 0).deleted = false ∧ highest ops 0 = 7 := by decide +kernel

/-! ## C13 -/

/-- C13: a STREAM frame that extends past the limit last advertised for the stream (`maxdataLocal`) puts
the connection in error and delivers nothing. The error is FLOW_CONTROL_ERROR, unless the frame
contradicts a known final size. -/
theorem C13_frame_past_stream_limit (p : Params) (max0 : Nat) (ops : List Op) (id offset : Nat) (fin : Bool)
    (bytes : Bytes) (he : (run p (initial max0) ops).1.error = none)
    (hid : id ∈ (run p (initial max0) ops).1.ids ∨ p.mayCreate id = true)
    (hd : (sOf p (run p (initial max0) ops).1 id).deleted = false)
    (hbad : offset + bytes.length > (sOf p (run p (initial max0) ops).1 id).maxdataLocal) :
    callbacks p max0 (ops ++ [.frame id offset fin bytes]) id = callbacks p max0 ops id ∧
    ((run p (initial max0) (ops ++ [.frame id offset fin bytes])).1.error = some FLOW_CONTROL_ERROR ∨
      (FinReceived ops id ∧
        (run p (initial max0) (ops ++ [.frame id offset fin bytes])).1.error = some FINAL_OFFSET_ERROR)) := by
  obtain ⟨_, b2, _⟩ := (run_hist p max0 id ops he).eq hd
  have hlim := sOf_lim (p := p) id (run_cinv p max0 ops)
  obtain ⟨x1, x2⟩ := frame_exact p max0 ops id offset fin bytes he hid hd
  rw [x1, x2]
  have hc := streamNetworkInput_cases (run p (initial max0) ops).1.maxdataLocal
    (run p (initial max0) ops).1.dataReceived _ offset fin bytes hlim
  simp only at hc
  rcases hc with ⟨e1, e2, _, _, e3, _⟩ | ⟨e1, e2, _⟩ | ⟨_, _, e3, _⟩
  · exact ⟨by rw [e2, List.append_nil], Or.inr ⟨b2.1 e3, e1⟩⟩
  · exact ⟨by rw [e2, List.append_nil], Or.inl e1⟩
  · omega

/-- C13: the same for the final size of a RESET_STREAM frame. -/
theorem C13_reset_past_stream_limit (p : Params) (max0 : Nat) (ops : List Op) (id final : Nat)
    (he : (run p (initial max0) ops).1.error = none)
    (hid : id ∈ (run p (initial max0) ops).1.ids ∨ p.mayCreate id = true)
    (hd : (sOf p (run p (initial max0) ops).1 id).deleted = false)
    (hbad : final > (sOf p (run p (initial max0) ops).1 id).maxdataLocal) :
    callbacks p max0 (ops ++ [.reset id final]) id = callbacks p max0 ops id ∧
    ((run p (initial max0) (ops ++ [.reset id final])).1.error = some FLOW_CONTROL_ERROR ∨
      ((FinReceived ops id ∨ ∃ f, Op.reset id f ∈ ops) ∧
        (run p (initial max0) (ops ++ [.reset id final])).1.error = some FINAL_OFFSET_ERROR)) := by
  obtain ⟨_, b2, b3⟩ := (run_hist p max0 id ops he).eq hd
  have hlim := sOf_lim (p := p) id (run_cinv p max0 ops)
  obtain ⟨x1, x2⟩ := reset_exact p max0 ops id final he hid hd
  rw [x1, x2]
  have hc := streamReset_cases (run p (initial max0) ops).1.maxdataLocal
    (run p (initial max0) ops).1.dataReceived _ final hlim
  simp only at hc
  rcases hc with ⟨e1, e2, _, _, e3, _⟩ | ⟨e1, e2, _⟩ | ⟨_, _, e3, _⟩
  · refine ⟨by rw [e2, List.append_nil], Or.inr ⟨?_, e1⟩⟩
    rcases e3 with e3 | e3
    · exact Or.inl (b2.1 e3)
    · exact Or.inr (b3.1 e3)
  · exact ⟨by rw [e2, List.append_nil], Or.inl e1⟩
  · omega

/-- The number of bytes delivered is at most the highest offset charged. -/
theorem delivered_le_finOffset (p : Params) (max0 : Nat) (ops : List Op) (id : Nat) :
    (dataOf (callbacks p max0 ops id)).length ≤ (sOf p (run p (initial max0) ops).1 id).finOffset := by
  have h := run_gen (fun _ _ => True) p max0 id ops (by intro _ _ _ _ _ _ _; trivial)
  obtain ⟨n, d, h1, h2, _⟩ := h.acc
  obtain ⟨R, hR⟩ := h.inv
  have := (accept_spec h1).1
  have := hR.base.le
  unfold callbacks
  omega

/-- C13: whatever the peer sends, the application is never given more bytes of a stream than the limit
advertised for it. -/
theorem C13_delivered_within_stream_limit (p : Params) (max0 : Nat) (ops : List Op) (id : Nat) :
    (dataOf (callbacks p max0 ops id)).length ≤ (sOf p (run p (initial max0) ops).1 id).maxdataLocal :=
  Nat.le_trans (delivered_le_finOffset p max0 ops id) (sOf_lim id (run_cinv p max0 ops))

example : (run exParams (initial 1000) (exOps ++ [.frame 3 60 false (slice exStream 0 41)])).1.error =
    some FLOW_CONTROL_ERROR := by decide +kernel
example : (run exParams (initial 1000) (exOps ++ [.frame 3 60 false (slice exStream 0 40)])).1.error =
    none := by decide +kernel

/-! ## C14 -/

/-- C14: as long as the connection is not in error, the data charged against the connection limit
(`dataReceived`) is the sum over the streams of the highest offset received on each, closed streams
counting for the offset they had when closed; and it is within the limit, which is the initial limit plus
the increases announced since. -/
theorem C14_total_is_sum_of_highest (p : Params) (max0 : Nat) (ops : List Op)
    (he : (run p (initial max0) ops).1.error = none) :
    let c := (run p (initial max0) ops).1
    (∃ top : Nat → Nat, c.dataReceived = (c.ids.map top).sum ∧ c.ids.Nodup ∧
      ∀ id ∈ c.ids, top id ≤ highest ops id ∧
        ((c.get id).deleted = false → top id = highest ops id)) ∧
    c.dataReceived ≤ connLimit max0 ops := by
  intro c
  have hI : CInv c := run_cinv p max0 ops
  refine ⟨⟨fun id => (c.get id).finOffset, hI.sum, hI.nodup, ?_⟩, ?_⟩
  · intro id hid
    have hs : sOf p c id = c.get id := by unfold sOf; rw [if_pos hid]
    have hh : Hist ops id (sOf p c id) := run_hist p max0 id ops he
    rw [hs] at hh
    exact ⟨hh.le, fun h => (hh.eq h).1⟩
  · have := hI.le
    rw [show c.maxdataLocal = connLimit max0 ops from run_maxdata p max0 ops] at this
    exact this

theorem sum_le_sum (l : List Nat) (f g : Nat → Nat) (h : ∀ x ∈ l, f x ≤ g x) :
    (l.map f).sum ≤ (l.map g).sum := by
  induction l with
  | nil => simp
  | cons a l ih =>
    simp only [List.map_cons, List.sum_cons]
    have := h a (by simp)
    have := ih (fun x hx => h x (by simp [hx]))
    omega

/-- C14: whatever the peer sends, on any number of streams, the application is never given more bytes in
total than the connection limit. -/
theorem C14_delivered_within_connection_limit (p : Params) (max0 : Nat) (ops : List Op) (ids : List Nat)
    (hnd : ids.Nodup) :
    (ids.map (fun id => (dataOf (callbacks p max0 ops id)).length)).sum ≤ connLimit max0 ops := by
  have hI := run_cinv p max0 ops
  rw [← run_maxdata p max0 ops]
  refine Nat.le_trans (sum_le_sum ids _ _ (fun id _ => delivered_le_finOffset p max0 ops id)) ?_
  refine Nat.le_trans ?_ hI.le
  rw [hI.sum]
  unfold charged
  generalize (run p (initial max0) ops).1 = c at *
  have hnd2 := hI.nodup
  clear hI
  -- streams that do not exist count for nothing, the others are counted once
  unfold sOf
  generalize c.get = get at *
  generalize c.ids = js at *
  induction ids generalizing js with
  | nil => simp
  | cons a l ih =>
    rw [List.nodup_cons] at hnd
    simp only [List.map_cons, List.sum_cons]
    by_cases ha : a ∈ js
    · rw [if_pos ha]
      have h1 := ih hnd.2 (js.erase a) (hnd2.erase a)
      have h2 : (js.map (fun id => (get id).finOffset)).sum =
          (get a).finOffset + ((js.erase a).map (fun id => (get id).finOffset)).sum := by
        have := List.perm_cons_erase ha
        rw [(this.map _).sum_nat]
        simp
      have h3 : (l.map (fun id => (if id ∈ js then get id else ({ maxdataLocal := p.initialMax id, sendClosed := p.receiveOnly id } : Stream)).finOffset)) =
          (l.map (fun id => (if id ∈ js.erase a then get id else ({ maxdataLocal := p.initialMax id, sendClosed := p.receiveOnly id } : Stream)).finOffset)) := by
        apply List.map_congr_left
        intro x hx
        have hxa : x ≠ a := by intro h; rw [h] at hx; exact hnd.1 hx
        simp only [List.mem_erase_of_ne hxa]
      rw [h3, h2]
      omega
    · rw [if_neg ha]
      have h1 := ih hnd.2 js hnd2
      simp only [Nat.zero_add]
      exact h1

/-- C14: a STREAM frame whose new bytes exceed what is left of the connection limit puts the connection
in error and delivers nothing. -/
theorem C14_frame_past_connection_limit (p : Params) (max0 : Nat) (ops : List Op) (id offset : Nat) (fin : Bool)
    (bytes : Bytes) (he : (run p (initial max0) ops).1.error = none)
    (hid : id ∈ (run p (initial max0) ops).1.ids ∨ p.mayCreate id = true)
    (hd : (sOf p (run p (initial max0) ops).1 id).deleted = false)
    (hbad : (run p (initial max0) ops).1.dataReceived + (offset + bytes.length - highest ops id) >
      connLimit max0 ops) :
    (run p (initial max0) (ops ++ [.frame id offset fin bytes])).1.error ≠ none ∧
    callbacks p max0 (ops ++ [.frame id offset fin bytes]) id = callbacks p max0 ops id := by
  obtain ⟨b1, _, _⟩ := (run_hist p max0 id ops he).eq hd
  have hI := run_cinv p max0 ops
  have hlim := sOf_lim (p := p) id hI
  obtain ⟨x1, x2⟩ := frame_exact p max0 ops id offset fin bytes he hid hd
  rw [x1, x2]
  have hc := streamNetworkInput_cases (run p (initial max0) ops).1.maxdataLocal
    (run p (initial max0) ops).1.dataReceived _ offset fin bytes hlim
  simp only at hc
  rcases hc with ⟨e1, e2, _⟩ | ⟨e1, e2, _⟩ | ⟨_, _, _, e4, _⟩
  · exact ⟨by rw [e1]; simp, by rw [e2, List.append_nil]⟩
  · exact ⟨by rw [e1]; simp, by rw [e2, List.append_nil]⟩
  · exfalso
    rw [b1, run_maxdata] at e4
    have h0 := hI.le
    rw [run_maxdata] at h0
    by_cases h : offset + bytes.length > highest ops id
    · have := e4 h; omega
    · omega

example : (run exParams (initial 12) exOps).1.error = none ∧ (run exParams (initial 12) exOps).1.dataReceived = 12 ∧
    (run exParams (initial 12) (exOps ++ [.frame 2 0 false [1]])).1.error = some FLOW_CONTROL_ERROR ∧
    (run exParams (initial 12) (exOps ++ [.raiseConn 1, .frame 2 0 false [1]])).1.error = none := by
  decide +kernel

end Picoquic.Props
