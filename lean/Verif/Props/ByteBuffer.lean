import Verif.Spec.ByteBuffer
import Verif.Proof.ByteBuffer

/-!
# C102: What is written to a byte stream is read from it
-/

namespace Picoquic.Props

open Picoquic.ByteBuffer Picoquic.Spec

/-- Writing stays in the buffer: whatever is written wherever, no byte outside of it is touched, its size stays, and what is
before the position is not changed. -/
theorem C102_write_within (s : ByteBuffer.Stream) (h : InBuffer s) (i : ByteBuffer.Item) :
    ∃ ok t, ByteBuffer.write s i = some (ok, t) ∧ InBuffer t ∧ t.data.length = s.data.length ∧
      s.ptr ≤ t.ptr ∧ t.data.take s.ptr = s.data.take s.ptr := by
  have hw := write_wrote s i h
  by_cases hl : (enc i).length ≤ s.data.length - s.ptr
  · have h1 := h.1
    refine ⟨_, _, hw.fits hl, splice_in s _ h hl, splice_length s _ (by omega), ?_, splice_take s _ h.1⟩
    show s.ptr ≤ s.ptr + _
    omega
  · obtain ⟨d, e, e1, e2⟩ := hw.full (by omega)
    have h1 := h.1
    have h2 := h.2
    exact ⟨_, _, e, ⟨Nat.le_refl _, by simp only; omega⟩, e1, by simp only; omega, e2⟩

/-- Reading stays in the buffer: whatever it contains and whatever is asked for, no byte outside of the buffer, nor of the
space of the caller, is touched; the buffer is not changed, and the position moves forward in it. -/
theorem C102_read_within (s : ByteBuffer.Stream) (h : InBuffer s) (k : ByteBuffer.Kind) :
    ∃ i t, ByteBuffer.read s k = some (i, t) ∧ t.data = s.data ∧ s.ptr ≤ t.ptr ∧ t.ptr ≤ s.data.length :=
  read_reads s k h

/-- Writing succeeds exactly if what is written fits. -/
theorem C102_fits (s : ByteBuffer.Stream) (h : InBuffer s) (l : List ByteBuffer.Item) (hl : ∀ i ∈ l, InRange i) :
    ∃ t, ByteBuffer.writeAll s l = some (decide (s.ptr + itemsSize l ≤ s.data.length), t) ∧
      t.ptr = if s.ptr + itemsSize l ≤ s.data.length then s.ptr + itemsSize l else s.data.length := by
  have h1 := h.1
  have hw := writeAll_wrote l s h
  have hs := encAll_size l hl
  by_cases hx : s.ptr + itemsSize l ≤ s.data.length
  · refine ⟨splice s (encAll l), ?_, ?_⟩
    · rw [hw.fits (by omega)]; simp [hx]
    · rw [if_pos hx, ← hs]; rfl
  · obtain ⟨d, e, e1, _⟩ := hw.full (by omega)
    refine ⟨⟨d, d.length⟩, ?_, ?_⟩
    · rw [e]; simp [hx]
    · rw [if_neg hx]; exact e1

/-- What is written is read: after any list of values was written without error, a reader that starts at the place where
the writer started and asks for values of these kinds gets these values, and is then where the writer is. -/
theorem C102_round_trip (s t : ByteBuffer.Stream) (h : InBuffer s) (l : List (ByteBuffer.Kind × ByteBuffer.Item))
    (hl : ∀ q ∈ l, AsksFor q.1 q.2 ∧ InRange q.2)
    (hw : ByteBuffer.writeAll s (l.map (·.2)) = some (true, t)) :
    ByteBuffer.readAll { t with ptr := s.ptr } (l.map (·.1)) = some (some (l.map (·.2)), t) := by
  have h1 := h.1
  have hr := writeAll_wrote (l.map (·.2)) s h
  by_cases hx : (encAll (l.map (·.2))).length ≤ s.data.length - s.ptr
  · have := hr.fits hx
    rw [hw] at this
    simp only [Option.some.injEq, Prod.mk.injEq, true_and] at this
    subst this
    have hin := splice_in s _ h hx
    have hle := splice_length s (encAll (l.map (·.2))) (by omega)
    have hd : (splice s (encAll (l.map (·.2)))).data.drop s.ptr =
        encAll (l.map (·.2)) ++ s.data.drop (s.ptr + (encAll (l.map (·.2))).length) := by
      unfold splice
      simp only
      rw [List.append_assoc, List.drop_append, List.drop_of_length_le (by rw [List.length_take]; omega), List.length_take,
        Nat.min_eq_left h1, Nat.sub_self, List.drop_zero, List.nil_append]
    have hi2 : InBuffer { splice s (encAll (l.map (·.2))) with ptr := s.ptr } := ⟨by rw [hle]; exact h1, hin.2⟩
    rw [readAll_enc l _ _ hi2 hl hd]
    rfl
  · obtain ⟨d, e, _⟩ := hr.full (by omega)
    rw [hw] at e
    simp at e

/-- An error of a writer is kept: after a value did not fit, nothing of at least a byte can be written, so a message is never
written with a gap. -/
theorem C102_error_kept (s t : ByteBuffer.Stream) (h : InBuffer s) (i : ByteBuffer.Item)
    (hf : ByteBuffer.write s i = some (false, t)) (l : List ByteBuffer.Item) (hl : ∀ j ∈ l, InRange j)
    (hn : itemsSize l ≠ 0) : ∃ u, ByteBuffer.writeAll t l = some (false, u) := by
  have h1 := h.1
  have h2 := h.2
  have hw := write_wrote s i h
  by_cases hx : (enc i).length ≤ s.data.length - s.ptr
  · rw [hw.fits hx] at hf
    simp at hf
  · obtain ⟨d, e, e1, _⟩ := hw.full (by omega)
    rw [hf] at e
    simp only [Option.some.injEq, Prod.mk.injEq, true_and] at e
    subst e
    obtain ⟨u, hu, _⟩ := C102_fits ⟨d, d.length⟩ ⟨Nat.le_refl _, by simp only; omega⟩ l hl
    refine ⟨u, ?_⟩
    rw [hu]
    simp only [Option.some.injEq, Prod.mk.injEq, and_true, decide_eq_false_iff_not]
    omega

/-- Skipping a value that can be read moves the position as reading does. -/
theorem C102_skip (s t : ByteBuffer.Stream) (h : InBuffer s) (k : ByteBuffer.Kind) (i : ByteBuffer.Item)
    (hr : ByteBuffer.read s k = some (some i, t)) : ByteBuffer.skip s k = some (true, t) := by
  have hget : ∀ (s : ByteBuffer.Stream) (n : Nat) (b : Bytes) (t : ByteBuffer.Stream), InBuffer s →
      ByteBuffer.get s n = some (some b, t) →
      skipBytes s n = (true, t) ∧ InBuffer t ∧ t = ahead s n ∧ n ≤ s.data.length - s.ptr := by
    intro s n b t h hg
    have h1 := h.1
    have h2 := h.2
    by_cases hx : n ≤ s.data.length - s.ptr
    · rw [get_fits s n h hx] at hg
      simp only [Option.some.injEq, Prod.mk.injEq] at hg
      obtain ⟨_, rfl⟩ := hg
      refine ⟨?_, ⟨by simp only; omega, h2⟩, rfl, hx⟩
      unfold skipBytes
      rw [room_eq s h, if_neg (by omega)]
    · rw [get_full s n h (by omega)] at hg
      simp at hg
  have hint : ∀ (n : Nat) (f : Nat → ByteBuffer.Item), getInt s n f = some (some i, t) → skipBytes s n = (true, t) := by
    intro n f hg
    simp only [getInt, Option.map_eq_some_iff, Prod.mk.injEq] at hg
    obtain ⟨⟨b, u⟩, e1, e2, rfl⟩ := hg
    cases b with
    | none => simp at e2
    | some b => exact (hget s n b u h e1).1
  have hskip : ∀ (s : ByteBuffer.Stream) (n : Nat), InBuffer s → n ≤ s.data.length - s.ptr →
      skipBytes s n = (true, ahead s n) := by
    intro s n h hx
    unfold skipBytes
    rw [room_eq s h, if_neg (by omega)]
    rfl
  cases k with
  | int8 => simp only [skip]; rw [hint 1 _ hr]
  | int16 => simp only [skip]; rw [hint 2 _ hr]
  | int32 => simp only [skip]; rw [hint 4 _ hr]
  | int64 => simp only [skip]; rw [hint 8 _ hr]
  | vint =>
    simp only [ByteBuffer.read, Option.map_eq_some_iff, Prod.mk.injEq] at hr
    obtain ⟨⟨n, u⟩, e1, e2, rfl⟩ := hr
    cases n with
    | none => simp at e2
    | some n =>
      have h1 := h.1
      rw [getVint_eq s h] at e1
      simp only [skip]
      unfold skipVint
      rw [room_eq s h]
      cases hdd : s.data.drop s.ptr with
      | nil => rw [hdd] at e1; simp [framesVarintDecode] at e1
      | cons b bs =>
        have hl := congrArg List.length hdd
        rw [List.length_drop, List.length_cons] at hl
        rw [if_neg (by omega)]
        have hb : s.data[s.ptr]? = some b := by
          rw [← List.head?_drop, hdd]; rfl
        rw [hb]
        simp only
        rw [hdd] at e1
        simp only [framesVarintDecode, varintLen_eq] at e1
        have hdl := decodeVarintLength_eq b
        by_cases hc : 2 ^ (b.toNat / 64) ≤ (b :: bs).length
        · rw [if_pos hc] at e1
          have hc' : 2 ^ (b.toNat / 64) ≤ bs.length + 1 := hc
          have hp : 0 < 2 ^ (b.toNat / 64) := Nat.two_pow_pos _
          simp only [Option.some.injEq, Prod.mk.injEq] at e1
          obtain ⟨_, rfl⟩ := e1
          rw [hdl, hskip s _ h (by omega)]
          simp only [ahead, List.length_drop]
          congr 3
          omega
        · rw [if_neg hc] at e1
          simp at e1
  | buffer n =>
    simp only [ByteBuffer.read, Option.map_eq_some_iff, Prod.mk.injEq] at hr
    obtain ⟨⟨b, u⟩, e1, e2, rfl⟩ := hr
    cases b with
    | none => simp at e2
    | some b => simp only [skip]; rw [(hget s n b u h e1).1]
  | cid old =>
    simp only [ByteBuffer.read, skip] at hr ⊢
    cases hg : ByteBuffer.get s 1 with
    | none => rw [hg] at hr; simp at hr
    | some q =>
      obtain ⟨b, u⟩ := q
      rw [hg] at hr
      cases b with
      | none =>
        simp only [getId, Bool.false_eq_true, if_false] at hr
        split at hr
        · simp at hr
        · split at hr
          · cases hr
          · simp only [Option.map_eq_some_iff, Prod.mk.injEq] at hr
            obtain ⟨_, _, e2, _⟩ := hr
            cases e2
      | some b =>
        have hu := (hget s 1 b u h hg).2.1
        simp only [getId] at hr ⊢
        split at hr
        · simp at hr
        · split at hr
          · cases hr
          · simp only [Option.map_eq_some_iff, Prod.mk.injEq, if_true] at hr
            obtain ⟨⟨c, v⟩, e1, e2, rfl⟩ := hr
            cases c with
            | none => simp at e2
            | some c => rw [(hget u _ c v hu e1).1]
  | cstr max =>
    simp only [ByteBuffer.read, skip] at hr ⊢
    obtain ⟨x, u, e, h1, h2, h3⟩ := getVint_reads s h
    have hu := reads_in h h1 h3
    rw [e] at hr ⊢
    cases x with
    | none => simp at hr
    | some n =>
      simp only [getText] at hr ⊢
      have := getVint_small h e
      rw [if_neg (show ¬ n = 18446744073709551615 by omega)] at hr
      split at hr
      · simp at hr
      · simp only [Option.map_eq_some_iff, Prod.mk.injEq] at hr
        obtain ⟨⟨c, v⟩, e1, e2, rfl⟩ := hr
        cases c with
        | none => simp at e2
        | some c => rw [(hget u _ c v hu e1).1]
  | addr =>
    simp only [ByteBuffer.read, skip] at hr ⊢
    obtain ⟨x, u, e, h1, h2, h3⟩ := getVint_reads s h
    have hu := reads_in h h1 h3
    rw [e] at hr ⊢
    have ha : ∀ (ok : Bool) (f n : Nat), getAddr ok f n u = some (some i, t) → ok = true ∧ skipBytes u (n + 2) = (true, t) := by
      intro ok f n hr
      simp only [getAddr, Option.bind_eq_some_iff, Option.map_eq_some_iff, Prod.mk.injEq] at hr
      obtain ⟨⟨a, v⟩, e1, ⟨⟨p, w⟩, e2, e3, rfl⟩⟩ := hr
      cases a with
      | none => simp [address] at e3
      | some a =>
        cases p with
        | none => simp [address] at e3
        | some p =>
          obtain ⟨_, g2, g3, g4⟩ := hget u n a v hu e1
          obtain ⟨_, k2, k3, k4⟩ := hget v 2 p w g2 e2
          subst g3
          have hlen : 2 ≤ u.data.length - (u.ptr + n) := k4
          refine ⟨?_, ?_⟩
          · cases ok with
            | true => rfl
            | false => simp [address] at e3
          · rw [hskip u _ hu (by omega), k3, ahead_ahead]
    cases x with
    | none => exact absurd (ha _ _ _ hr).1 (by decide)
    | some f =>
      simp only at hr ⊢
      split at hr
      · rename_i hf
        rw [if_pos hf, (ha _ _ _ hr).2]
      · rename_i hf
        rw [if_neg hf, (ha _ _ _ hr).2]

/-- Violated: what is written is read. A number of 2^62 or more is written without error and read as another. -/
theorem C102_number_violated (n : Nat) (h : 2 ^ 62 ≤ n) (h2 : n < 2 ^ 64) (s : ByteBuffer.Stream) (hs : InBuffer s)
    (hr : s.ptr + 8 ≤ s.data.length) : ∃ t, ByteBuffer.write s (.vint n) = some (true, t) ∧
      ∃ u, ByteBuffer.read { t with ptr := s.ptr } .vint = some (some (.vint (n % 2 ^ 62)), u) ∧ n % 2 ^ 62 ≠ n := by
  have h1 := hs.1
  have hl : (varintBytes n).length ≤ 8 := by rw [varintBytes_length]; exact encodeVarintLength_le n
  have hw := (write_wrote s (.vint n) hs).fits (by simp only [enc]; omega)
  simp only [enc] at hw
  refine ⟨_, hw, ?_⟩
  have hin := splice_in s (varintBytes n) hs (by omega)
  have hle := splice_length s (varintBytes n) (by omega)
  have hd : (splice s (varintBytes n)).data.drop s.ptr = varintBytes n ++ s.data.drop (s.ptr + (varintBytes n).length) := by
    unfold splice
    simp only
    rw [List.append_assoc, List.drop_append, List.drop_of_length_le (by rw [List.length_take]; omega), List.length_take,
      Nat.min_eq_left h1, Nat.sub_self, List.drop_zero, List.nil_append]
  simp only [ByteBuffer.read]
  have hi2 : InBuffer { splice s (varintBytes n) with ptr := s.ptr } := ⟨by rw [hle]; exact h1, hin.2⟩
  rw [getVint_eq _ hi2]
  simp only
  rw [hd, framesVarintDecode_varintBytes_big n h h2]
  exact ⟨_, rfl, by omega⟩

/-! Cases that meet the hypotheses. -/

/-- A record of several values in a buffer of 64 bytes, from its fourth byte, and a buffer that is too small for it. -/
example : ((ByteBuffer.writeAll ⟨List.replicate 64 0xFF, 3⟩ [.int8 7, .vint 70000, .cid [1, 2, 3], .cstr [104, 105],
      .addr AF_INET [127, 0, 0, 1] 4433, .int64 5000000000]).map fun r => (r.1, r.2.ptr)) = some (true, 30) ∧
    ((ByteBuffer.writeAll ⟨List.replicate 29 0xFF, 3⟩ [.int8 7, .vint 70000, .cid [1, 2, 3], .cstr [104, 105],
      .addr AF_INET [127, 0, 0, 1] 4433, .int64 5000000000]).map fun r => (r.1, r.2.ptr)) = some (false, 29) := by
  decide +kernel

/-- Hostile contents: a text of 2^62 - 1 bytes, and a connection ID of 255 bytes. -/
example : ((ByteBuffer.read ⟨List.replicate 40 0xFF, 0⟩ (.cstr 256)).map fun r => (r.1, r.2.ptr)) = some (none, 8) ∧
    ((ByteBuffer.read ⟨List.replicate 40 0xFF, 0⟩ (.cid 0)).map fun r => (r.1, r.2.ptr)) = some (none, 1) := by
  decide +kernel

end Picoquic.Props
