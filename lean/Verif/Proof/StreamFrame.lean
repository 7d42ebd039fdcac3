import Verif.Model.StreamFrame
import Verif.Spec.StreamFrame
import Verif.Proof.IntFormat
import Verif.Proof.Fixed
/-! # Lemmas about STREAM frames -/

namespace Picoquic.StreamFrame
open Picoquic Picoquic.Spec

theorem varintDecode_of_varint {p : Bytes} {n : Nat} (h : Varint p n) (rest : Bytes) :
    varintDecode (p ++ rest) = (p.length, n) ∧ 0 < p.length := by
  obtain ⟨k, hk⟩ := h
  have h2 := (framesVarintDecode_iff (p ++ rest) n rest).2 ⟨k, p, rfl, hk⟩
  rw [varintDecode_eq, h2]
  have := framesVarintDecode_length h2
  simp at this ⊢
  omega

theorem varint_of_varintDecode {bs : Bytes} (h : (varintDecode bs).1 ≠ 0) :
    ∃ p rest, bs = p ++ rest ∧ Varint p (varintDecode bs).2 ∧ p.length = (varintDecode bs).1 := by
  rw [varintDecode_eq] at h ⊢
  cases hd : framesVarintDecode bs with
  | none => rw [hd] at h; exact absurd rfl h
  | some r =>
    obtain ⟨n, rest⟩ := r
    obtain ⟨k, p, rfl, hk⟩ := (framesVarintDecode_iff bs n rest).1 hd
    exact ⟨p, rest, rfl, ⟨k, hk⟩, by simp⟩

/-- The three flag bits of a type byte between 8 and 15. -/
theorem type_bits : ∀ t : UInt8, ∀ o l f : Bool,
    t.toNat = 8 + (if o then 4 else 0) + (if l then 2 else 0) + (if f then 1 else 0) →
    ((t &&& 4 = 0) ↔ o = false) ∧ ((t &&& 2 = 0) ↔ l = false) ∧ ((t &&& 1 = 0) ↔ f = false) := by
  intro t o l f h
  have : t = UInt8.ofNat (8 + (if o then 4 else 0) + (if l then 2 else 0) + (if f then 1 else 0)) := by
    rw [← h]; simp
  subst this
  clear h
  revert o l f
  decide

theorem type_of_range (t : UInt8) (h : 8 ≤ t.toNat ∧ t.toNat < 16) :
    ∃ o l f : Bool, t.toNat = 8 + (if o then 4 else 0) + (if l then 2 else 0) + (if f then 1 else 0) := by
  refine ⟨decide (12 ≤ t.toNat), decide (2 ≤ t.toNat % 4), decide (t.toNat % 2 = 1), ?_⟩
  simp only [decide_eq_true_eq]
  (repeat' split) <;> omega

theorem parse_of_frame {bs : Bytes} {id offset : Nat} {fin : Bool} {data : Bytes} {explicit : Bool}
    (h : IsStreamFrame bs id offset fin data explicit) (rest : Bytes) (hr : explicit = false → rest = []) :
    ∃ c, parseStreamHeader (bs ++ rest) = some ⟨id, offset, data.length, fin, c⟩ ∧
      c + data.length = bs.length ∧ bs.drop c = data := by
  obtain ⟨t, wo, i, o, l, rfl, ht, hi, ho, hl⟩ := h
  obtain ⟨b4, b2, b1⟩ := type_bits t wo explicit fin ht
  have e1 := varintDecode_of_varint hi (o ++ (l ++ (data ++ rest)))
  have hi0 := e1.2
  unfold parseStreamHeader
  simp only [List.cons_append, List.append_assoc, List.headD_cons, List.length_cons, List.length_append,
    List.drop_succ_cons, List.drop_zero]
  have hs : (if i.length + (o.length + (l.length + (data.length + rest.length))) + 1 > 1 then
      varintDecode (i ++ (o ++ (l ++ (data ++ rest)))) else (0, 0)) = (i.length, id) := by
    rw [if_pos (by omega), e1.1]
  rw [hs]
  have hd1 : List.drop (1 + i.length) (t :: (i ++ (o ++ (l ++ (data ++ rest))))) = o ++ (l ++ (data ++ rest)) := by
    rw [Nat.add_comm 1, List.drop_succ_cons]
    simp
  have hoff : (if t &&& 4 = 0 then (0, 0) else
      if i.length + (o.length + (l.length + (data.length + rest.length))) + 1 > 1 + i.length then
        varintDecode (List.drop (1 + i.length) (t :: (i ++ (o ++ (l ++ (data ++ rest)))))) else (0, 0)) =
      (o.length, offset) := by
    cases wo with
    | false =>
      simp only [Bool.false_eq_true, if_false] at ho
      rw [if_pos (b4.2 rfl), ho.1, ho.2]; rfl
    | true =>
      simp only [if_true] at ho
      have e2 := varintDecode_of_varint ho (l ++ (data ++ rest))
      rw [if_neg (fun h => by simpa using b4.1 h), if_pos (by omega), hd1, e2.1]
  rw [hoff]
  have hcond : ¬ (i.length + (o.length + (l.length + (data.length + rest.length))) + 1 < 1 + i.length + o.length ∨
      i.length = 0 ∨ (t &&& 4 ≠ 0 ∧ o.length = 0)) := by
    rintro (h | h | ⟨h, h'⟩)
    · omega
    · omega
    · cases wo with
      | false => exact h (b4.2 rfl)
      | true =>
        simp only [if_true] at ho
        have := (varintDecode_of_varint ho []).2
        omega
  rw [if_neg hcond]
  have hd2 : List.drop (1 + i.length + o.length) (t :: (i ++ (o ++ (l ++ (data ++ rest))))) = l ++ (data ++ rest) := by
    rw [← List.drop_drop, hd1]; simp
  cases explicit with
  | false =>
    simp only [Bool.false_eq_true, if_false] at hl
    have := hr rfl
    subst hl this
    rw [if_pos (b2.2 rfl)]
    refine ⟨1 + i.length + o.length, ?_, by simp; omega, ?_⟩
    · simp only [Option.some.injEq, StreamHeader.mk.injEq, true_and, List.length_nil]
      refine ⟨by omega, ?_, trivial⟩
      cases fin
      · simpa using b1
      · simpa using b1
    · have := hd2
      simp at this ⊢
      exact this
  | true =>
    simp only [if_true] at hl
    have e3 := varintDecode_of_varint hl (data ++ rest)
    rw [if_neg (fun h => by simpa using b2.1 h)]
    have hlen : (if i.length + (o.length + (l.length + (data.length + rest.length))) + 1 > 1 + i.length + o.length then
        varintDecode (List.drop (1 + i.length + o.length) (t :: (i ++ (o ++ (l ++ (data ++ rest)))))) else (0, 0)) =
        (l.length, data.length) := by
      rw [if_pos (by omega), hd2, e3.1]
    rw [hlen]
    rw [if_neg (by dsimp only; omega), if_neg (by dsimp only; omega)]
    refine ⟨1 + i.length + o.length + l.length, ?_, by omega, ?_⟩
    · simp only [Option.some.injEq, StreamHeader.mk.injEq, true_and]
      refine ⟨?_, trivial⟩
      cases fin
      · simpa using b1
      · simpa using b1
    · rw [show (t :: (i ++ (o ++ (l ++ data)))) = [t] ++ (i ++ (o ++ (l ++ data))) from rfl,
        Nat.add_assoc, Nat.add_assoc, ← List.drop_drop]
      simp

theorem frame_of_parse {bs : Bytes} {h : StreamHeader} (ht : 8 ≤ (bs.headD 0).toNat ∧ (bs.headD 0).toNat < 16)
    (hp : parseStreamHeader bs = some h) :
    ∃ frame data rest explicit, bs = frame ++ rest ∧ IsStreamFrame frame h.id h.offset h.fin data explicit ∧
      (explicit = false → rest = []) ∧ data.length = h.dataLength := by
  cases bs with
  | nil => simp at ht
  | cons t bs =>
  obtain ⟨wo, explicit, fin, htt⟩ := type_of_range t ht
  obtain ⟨b4, b2, b1⟩ := type_bits t wo explicit fin htt
  unfold parseStreamHeader at hp
  simp only [List.headD_cons, List.length_cons, List.drop_succ_cons, List.drop_zero] at hp
  by_cases hc1 : bs.length + 1 > 1
  rotate_left
  · simp only [if_neg hc1] at hp
    simp at hp
  simp only [if_pos hc1] at hp
  by_cases hs0 : (varintDecode bs).1 = 0
  · rw [if_pos (.inr (.inl hs0))] at hp; cases hp
  obtain ⟨i, r1, rfl, hi, hil⟩ := varint_of_varintDecode hs0
  rw [← hil] at hp
  have hd1 : List.drop (1 + i.length) (t :: (i ++ r1)) = r1 := by
    rw [Nat.add_comm 1, List.drop_succ_cons]; simp
  rw [hd1] at hp
  generalize (varintDecode (i ++ r1)).2 = id at hp hi
  -- offset
  have hoff : ∃ o r2 offset, r1 = o ++ r2 ∧ (if wo then Varint o offset else o = [] ∧ offset = 0) ∧
      (if True ∧ t &&& 4 = 0 then ((0 : Nat), 0) else
        if (i ++ r1).length + 1 > 1 + i.length then varintDecode r1 else (0, 0)) = (o.length, offset) := by
    cases wo with
    | false => exact ⟨[], r1, 0, rfl, by simp, by rw [if_pos ⟨trivial, b4.2 rfl⟩]; rfl⟩
    | true =>
      have hne : t &&& 4 ≠ 0 := fun h => by simpa using b4.1 h
      rw [if_neg hne] at hp
      by_cases hc2 : (i ++ r1).length + 1 > 1 + i.length
      · rw [if_pos hc2] at hp
        by_cases ho0 : (varintDecode r1).1 = 0
        · rw [if_pos (.inr (.inr ⟨hne, ho0⟩))] at hp; cases hp
        · obtain ⟨o, r2, hr, ho, hol⟩ := varint_of_varintDecode ho0
          exact ⟨o, r2, _, hr, by simpa using ho, by rw [if_neg (fun h => hne h.2), if_pos hc2, hol]⟩
      · rw [if_neg hc2, if_pos (.inr (.inr ⟨hne, rfl⟩))] at hp; cases hp
  obtain ⟨o, r2, offset, rfl, ho, hoe⟩ := hoff
  simp only [true_and] at hoe
  rw [hoe] at hp
  by_cases hcond : (i ++ (o ++ r2)).length + 1 < 1 + i.length + o.length ∨ i.length = 0 ∨ (t &&& 4 ≠ 0 ∧ o.length = 0)
  · rw [if_pos hcond] at hp; cases hp
  rw [if_neg hcond] at hp
  have hd2 : List.drop (1 + i.length + o.length) (t :: (i ++ (o ++ r2))) = r2 := by
    rw [← List.drop_drop, hd1]; simp
  rw [hd2] at hp
  cases explicit with
  | false =>
    rw [if_pos (b2.2 rfl)] at hp
    cases hp
    refine ⟨t :: (i ++ (o ++ r2)), r2, [], false, by simp, ⟨t, wo, i, o, [], by simp, ?_, hi, ho, by simp⟩, by simp, ?_⟩
    · rw [htt]
      cases fin
      · have := b1.2 rfl; simp [this]
      · have : t &&& 1 ≠ 0 := fun h => by simpa using b1.1 h
        simp [this]
    · simp; omega
  | true =>
    rw [if_neg (fun h => by simpa using b2.1 h)] at hp
    by_cases hc3 : (i ++ (o ++ r2)).length + 1 > 1 + i.length + o.length
    rotate_left
    · simp only [if_neg hc3] at hp; simp at hp
    simp only [if_pos hc3] at hp
    by_cases hl0 : (varintDecode r2).1 = 0
    · rw [if_pos (.inl hl0)] at hp; cases hp
    obtain ⟨l, r3, rfl, hl, hll⟩ := varint_of_varintDecode hl0
    rw [← hll] at hp
    generalize (varintDecode (l ++ r3)).2 = len at hp hl
    by_cases hc4 : l.length = 0 ∨ (i ++ (o ++ (l ++ r3))).length + 1 < 1 + i.length + o.length + l.length
    · rw [if_pos hc4] at hp; cases hp
    rw [if_neg hc4] at hp
    by_cases hc5 : 1 + i.length + o.length + l.length + len > (i ++ (o ++ (l ++ r3))).length + 1
    · rw [if_pos hc5] at hp; cases hp
    rw [if_neg hc5] at hp
    cases hp
    simp at hc5
    refine ⟨t :: (i ++ (o ++ (l ++ r3.take len))), r3.take len, r3.drop len, true, by simp,
      ⟨t, wo, i, o, l, rfl, ?_, hi, ho, ?_⟩, by simp, ?_⟩
    · rw [htt]
      cases fin
      · have := b1.2 rfl; simp [this]
      · have : t &&& 1 ≠ 0 := fun h => by simpa using b1.1 h
        simp [this]
    · simp only [if_true, List.length_take]
      rw [show min len r3.length = len by omega]
      exact hl
    · simp; omega

/-! ## Encoding -/

theorem varintBytes_varint (n : Nat) (h : n < 2 ^ 62) : Varint (varintBytes n) n := by
  obtain ⟨k, hk, _⟩ := varintBytes_isVarint n h
  exact ⟨k, hk⟩

theorem framesUint8Encode_eq (n room : Nat) :
    framesUint8Encode n room = if 1 ≤ room then some [u8 n] else none := by
  unfold framesUint8Encode
  split <;> split <;> first | rfl | omega

/-- The header: type byte 8 or 12, identifier, offset. -/
theorem header_eq {id offset room : Nat} {h : Bytes} (hh : formatStreamFrameHeader id offset room = some h) :
    h.length ≤ room ∧
    h = (if offset > 0 then (12 : UInt8) else 8) ::
      (varintBytes id ++ (if offset > 0 then varintBytes offset else [])) := by
  unfold formatStreamFrameHeader Enc.seq at hh
  simp only [framesUint8Encode_eq, framesVarintEncode_eq] at hh
  by_cases h1 : 1 ≤ room
  · rw [if_pos h1] at hh
    dsimp only at hh
    by_cases h2 : encodeVarintLength id ≤ room - [u8 8].length
    · rw [if_pos h2] at hh
      dsimp only at hh
      by_cases h3 : offset > 0
      · rw [if_pos h3] at hh
        simp only [if_pos h3]
        by_cases h4 : encodeVarintLength offset ≤ room - ([u8 8] ++ varintBytes id).length
        · rw [if_pos h4] at hh
          cases hh
          simp only [List.length_append, varintBytes_length, List.length_singleton] at *
          refine ⟨?_, ?_⟩
          · simp [orHead, varintBytes_length]; omega
          · simp [orHead]; decide
        · rw [if_neg h4] at hh; cases hh
      · rw [if_neg h3] at hh
        cases hh
        simp only [if_neg h3, List.length_append, varintBytes_length, List.length_singleton] at *
        exact ⟨by omega, by simp; decide⟩
    · rw [if_neg h2] at hh; cases hh
  · rw [if_neg h1] at hh; cases hh

/-- Both ways to write a frame give the same bytes. -/
theorem polled_eq_queued (t : UInt8) (tl : Bytes) (space : Nat) (data : Bytes) (fin : Bool) :
    polledFrame (t :: tl) space data fin = queuedFrame (t :: tl) space data fin := by
  unfold polledFrame queuedFrame encodeLengthOfStreamFrame setFin
  cases fin with
  | false => simp
  | true =>
    dsimp only [if_true]
    simp only [orHead, if_true]
    split
    · split
      · simp [orHead]
      · simp only [List.cons_append, orHead, List.take_zero, List.drop_zero, List.nil_append]
        rw [UInt8.or_assoc, UInt8.or_comm 1 2, ← UInt8.or_assoc]
    · simp [orHead]

/-- What is written, for `data` that fits: the frame, after a padding byte if the frame would leave
just one byte. -/
theorem queuedFrame_spec {id offset room : Nat} {h : Bytes}
    (hh : formatStreamFrameHeader id offset room = some h) (hid : id < 2 ^ 62) (hoff : offset < 2 ^ 62)
    (hroom : room ≤ 16384) (data : Bytes) (hd : data.length ≤ room - h.length) (fin : Bool) :
    ∃ pad frame explicit, queuedFrame h (room - h.length) data fin = pad ++ frame ∧
      (pad = [] ∨ pad = [0]) ∧ IsStreamFrame frame id offset fin data explicit ∧
      (pad ++ frame).length ≤ room ∧ (explicit = false → (pad ++ frame).length = room) ∧
      frame ≠ [] := by
  obtain ⟨hl, rfl⟩ := header_eq hh
  have hvi := varintBytes_varint id hid
  have hvo := varintBytes_varint offset hoff
  have hvd := varintBytes_varint data.length (by omega)
  generalize hv1 : varintBytes id = vi at *
  have ho : ∃ o, (if offset > 0 then varintBytes offset else []) = o ∧
      (if decide (offset > 0) = true then Varint o offset else o = [] ∧ offset = 0) := by
    refine ⟨_, rfl, ?_⟩
    by_cases h : offset > 0
    · simp only [if_pos h, h, decide_true, if_true]; exact hvo
    · have h0 : offset = 0 := by omega
      simp [h0]
  obtain ⟨o, ho1, ho2⟩ := ho
  rw [ho1] at hl hd hh ⊢
  generalize ht : (if offset > 0 then (12 : UInt8) else 8) = t at *
  have htype : ∀ (e f : Bool), ((t ||| (if e then 2 else 0)) ||| (if f then 1 else 0)).toNat =
      8 + (if decide (offset > 0) = true then 4 else 0) + (if e then 2 else 0) + (if f then 1 else 0) := by
    intro e f
    rw [← ht]
    by_cases h : offset > 0
    · simp only [if_pos h, h]; cases e <;> cases f <;> decide
    · simp only [if_neg h, h]; cases e <;> cases f <;> decide
  have hlen : (t :: (vi ++ o)).length = vi.length + o.length + 1 := by simp
  rw [hlen] at hl hd ⊢
  generalize hsp : room - (vi.length + o.length + 1) = space at *
  unfold queuedFrame encodeLengthOfStreamFrame
  by_cases h1 : data.length < space
  · simp only [if_pos h1]
    by_cases h2 : data.length = space - 1
    · -- padding
      simp only [if_pos h2]
      refine ⟨[0], (t ||| (if fin then 1 else 0)) :: (vi ++ (o ++ ([] ++ data))), false, ?_, .inr rfl,
        ⟨_, decide (offset > 0), vi, o, [], rfl, ?_, hvi, ho2, rfl⟩, ?_, ?_, by simp⟩
      · cases fin <;> simp [setFin, orHead]
      · have := htype false fin
        simpa using this
      · simp; omega
      · intro _; simp; omega
    · -- explicit length
      simp only [if_neg h2]
      have hvl : encodeVarintLength data.length ≤ 2 := by
        unfold encodeVarintLength; (repeat' split) <;> omega
      rw [varintEncode_eq, if_pos (show encodeVarintLength data.length ≤ space by omega)]
      refine ⟨[], ((t ||| 2) ||| (if fin then 1 else 0)) :: (vi ++ (o ++ (varintBytes data.length ++ data))), true, ?_,
        .inl rfl, ⟨_, decide (offset > 0), vi, o, _, rfl, ?_, hvi, ho2, hvd⟩, ?_, by simp, by simp⟩
      · cases fin <;> simp [setFin, orHead]
      · have := htype true fin
        simpa using this
      · have hvl1 : encodeVarintLength data.length ≤ space - data.length := by
          have : data.length < 64 → encodeVarintLength data.length = 1 := by
            intro h; unfold encodeVarintLength; (repeat' split) <;> omega
          omega
        simp [varintBytes_length]; omega
  · simp only [if_neg h1]
    refine ⟨[], (t ||| (if fin then 1 else 0)) :: (vi ++ (o ++ ([] ++ data))), false, ?_, .inl rfl,
      ⟨_, decide (offset > 0), vi, o, [], rfl, ?_, hvi, ho2, rfl⟩, ?_, ?_, by simp⟩
    · cases fin <;> simp [setFin, orHead]
    · have := htype false fin
      simpa using this
    · simp; omega
    · intro _; simp; omega

end Picoquic.StreamFrame
