import Verif.Proof.Huffman
/-!
# Properties of Huffman codes of strings (C77)
-/

namespace Picoquic.Props
open Picoquic.Huffman Picoquic.Spec

/-! ### Helpers -/

theorem hf_first_ones {k : Nat} (h : k < 8) : first (List.replicate k true) 0 = none := ones_ok ⟨k, by omega⟩

theorem hf_first_nil {w : List UInt8} {r : List Bool} (h : first (hfBits w ++ r) 0 = none) : w = [] := by
  cases w with
  | nil => rfl
  | cons c w =>
    rw [show hfBits (c :: w) ++ r = hfCode c ++ (hfBits w ++ r) from by
      show (hfCode c ++ hfBits w) ++ r = _
      rw [List.append_assoc], first_code] at h
    cases h

/-- The first code found is at the front of the bits. -/
theorem hf_first_sound {c : UInt8} {l' : List Bool} : ∀ (l : List Bool) (i : Nat), i < 512 → first l i = some (c, l') → path i ++ l = hfCode c ++ l' := by
  intro l
  induction l with
  | nil =>
    intro i hi h
    unfold first at h
    split at h
    · rename_i x h1 h2
      obtain ⟨c', e1, e2⟩ := loc_leaf hi h1
      rw [h2] at e1
      cases e1
      cases h
      rw [e2]
    · cases h
  | cons b l ih =>
    intro i hi h
    unfold first at h
    split at h
    · rename_i x h1 h2
      obtain ⟨c', e1, e2⟩ := loc_leaf hi h1
      rw [h2] at e1
      cases e1
      cases h
      rw [e2]
    · rename_i d h1 h2
      obtain ⟨d', e1, e2, e3, e4, e5⟩ := loc_index hi h1
      rw [h2] at e1
      cases e1
      cases b
      · have := ih (i + 1) e2 h
        rw [e3, List.append_assoc] at this
        exact this
      · rcases e5 with ⟨e5, e6⟩ | ⟨e5, e6⟩
        · have := ih (i + d) e5 h
          rw [e6, List.append_assoc] at this
          exact this
        · exfalso
          have hn : isIndex (i + d) = none := by
            unfold isIndex
            rw [List.getElem?_eq_none]
            rw [Nat.shiftRight_eq_div_pow]
            show 64 ≤ _
            omega
          rw [if_pos rfl] at h
          cases l <;> (unfold first at h; rw [hn] at h; cases h)
    · cases h

/-- The bits in front of the end of a code have no code. -/
theorem hf_first_prefix {c : UInt8} {rest t : List Bool} (ht : t ≠ []) (h : hfCode c = rest ++ t) : first rest 0 = none := by
  cases hf : first rest 0 with
  | none => rfl
  | some x =>
    exfalso
    obtain ⟨d, l⟩ := x
    have h1 : rest = hfCode d ++ l := hf_first_sound rest 0 (by decide) hf
    have h2 := first_code c []
    rw [h, h1, List.append_nil, List.append_assoc, first_code] at h2
    have := congrArg Prod.snd (Option.some.inj h2)
    simp only [List.append_eq_nil_iff] at this
    exact ht this.2

/-! ### Theorems -/

/-- **C77, round trip.** The encoding of any string for which there is room is decoded as the string. -/
theorem C77_roundtrip (max : Nat) (w : List UInt8) (hw : w.length ≤ max) : decode max (hfEncode w) = some (true, w) := by
  obtain ⟨k, k1, k2⟩ := hfEncode_bits w
  obtain ⟨s, h1, h2⟩ := decode_spec max (hfEncode w)
  rw [k2] at h2
  have hk := hf_first_ones k1
  rw [h1]
  rcases h2 with ⟨i, i1, i2, i3, i4, -⟩ | ⟨r, i1, -, -⟩ | ⟨c, r, i1, -, i2⟩
  · obtain ⟨w'', e1, e2⟩ := hfBits_inj hk s.out w i3.symm
    have hf := first_path i1 i2
    rw [e2] at hf
    have hn := hf_first_nil hf
    rw [hn, List.append_nil] at e1
    rw [hn] at e2
    rw [i4, e2, e1, show hfBits [] ++ List.replicate k true = List.replicate k true from rfl]
    simp
  · obtain ⟨w'', e1, e2⟩ := hfBits_inj hk s.out w i1.symm
    have hf := first_eos r
    rw [e2] at hf
    rw [hf_first_nil hf] at e2
    have := congrArg List.length e2
    rw [List.length_append, show hfBits [] ++ List.replicate k true = List.replicate k true from rfl, List.length_replicate] at this
    unfold hfEos at this
    rw [List.length_replicate] at this
    omega
  · obtain ⟨w'', e1, e2⟩ := hfBits_inj hk s.out w i1.symm
    have hl := congrArg List.length e1
    rw [List.length_append] at hl
    have hn : w'' = [] := List.eq_nil_of_length_eq_zero (by omega)
    rw [hn] at e2
    have hf := first_code c r
    rw [e2, show hfBits [] ++ List.replicate k true = List.replicate k true from rfl, hk] at hf
    cases hf

/-- **C77, all inputs.** Decoding any bytes ends and reads only inside of its tables; the string it gives fits in the room, and its codes are the first bits of the bytes. If
decoding succeeds and there was room left, all bits behind the codes are set, or they begin with the code for the end of strings. If it fails, a bit behind the codes is not set. -/
theorem C77_decoded (max : Nat) (bytes : List UInt8) : ∃ ok w rest, decode max bytes = some (ok, w) ∧ w.length ≤ max ∧ hfByteBits bytes = hfBits w ++ rest ∧
    (ok = true → w.length < max → (∀ b ∈ rest, b = true) ∨ hfEos <+: rest) ∧ (ok = false → false ∈ rest ∧ rest.length < 30) := by
  obtain ⟨s, h1, h2⟩ := decode_spec max bytes
  rcases h2 with ⟨i, i1, i2, i3, i4, i5⟩ | ⟨r, i1, i2, i3⟩ | ⟨c, r, i1, i2, i3⟩
  · obtain ⟨d, -, -, -, hl, -⟩ := loc_index i1 i2
    refine ⟨_, _, path i, h1, i5, i3, ?_, ?_⟩
    · intro ho _
      refine .inl ?_
      rw [i4] at ho
      intro b hb
      exact List.all_eq_true.1 ho b hb
    · intro ho
      refine ⟨?_, hl⟩
      rw [i4] at ho
      have : ∃ b ∈ path i, ¬ id b = true := by
        have := List.all_eq_false.1 ho
        exact this
      obtain ⟨b, b1, b2⟩ := this
      cases b
      · exact b1
      · exact absurd rfl b2
  · exact ⟨_, _, _, h1, i3, i1, fun _ _ => .inr ⟨r, rfl⟩, fun ho => by rw [i2] at ho; cases ho⟩
  · exact ⟨_, _, _, h1, Nat.le_of_eq i3, i1, fun _ h => by omega, fun ho => by rw [i2] at ho; cases ho⟩

/-- **C77, errors.** Bytes that end within a code, with bits which are not all set, are an error. -/
theorem C77_error (max : Nat) (bytes : List UInt8) (w : List UInt8) (c : UInt8) (rest t : List Bool) (hw : w.length ≤ max)
    (hb : hfByteBits bytes = hfBits w ++ rest) (ht : t ≠ []) (hc : hfCode c = rest ++ t) (hf : false ∈ rest) :
    decode max bytes = some (false, w) := by
  obtain ⟨s, h1, h2⟩ := decode_spec max bytes
  rw [hb] at h2
  have hr := hf_first_prefix ht hc
  rw [h1]
  rcases h2 with ⟨i, i1, i2, i3, i4, -⟩ | ⟨r, i1, -, -⟩ | ⟨d, r, i1, -, i2⟩
  · obtain ⟨w'', e1, e2⟩ := hfBits_inj hr s.out w i3.symm
    have hp := first_path i1 i2
    rw [e2] at hp
    have hn := hf_first_nil hp
    rw [hn, List.append_nil] at e1
    rw [hn] at e2
    have e3 : path i = rest := e2
    rw [i4, e3, e1, List.all_eq_false.2 ⟨false, hf, by decide⟩]
  · exfalso
    obtain ⟨w'', e1, e2⟩ := hfBits_inj hr s.out w i1.symm
    have hp := first_eos r
    rw [e2] at hp
    rw [hf_first_nil hp] at e2
    have e3 : hfEos ++ r = rest := e2
    have hlen : (hfCode c).length ≤ 30 := by
      have := (show ∀ c : Fin 256, (hfCode (UInt8.ofNat c.val)).length ≤ 30 from by decide +kernel) ⟨c.toNat, c.toNat_lt⟩
      rwa [show UInt8.ofNat c.toNat = c from UInt8.ofNat_toNat] at this
    rw [hc, ← e3, List.length_append, List.length_append] at hlen
    unfold hfEos at hlen
    rw [List.length_replicate] at hlen
    have : t.length ≠ 0 := fun h0 => ht (List.eq_nil_of_length_eq_zero h0)
    omega
  · exfalso
    obtain ⟨w'', e1, e2⟩ := hfBits_inj hr s.out w i1.symm
    have hl := congrArg List.length e1
    rw [List.length_append] at hl
    have hn : w'' = [] := List.eq_nil_of_length_eq_zero (by omega)
    rw [hn] at e2
    have hp := first_code d r
    rw [show hfCode d ++ r = rest from e2, hr] at hp
    cases hp

/-- **C77, violation.** The encoding of a string that is longer than the room, which is 256 bytes for all header fields, is decoded without an error as the beginning of the string. -/
theorem C77_long_violated (max : Nat) (w : List UInt8) (hw : max < w.length) : decode max (hfEncode w) = some (true, w.take max) := by
  obtain ⟨k, k1, k2⟩ := hfEncode_bits w
  obtain ⟨s, h1, h2⟩ := decode_spec max (hfEncode w)
  rw [k2] at h2
  have hk := hf_first_ones k1
  rw [h1]
  rcases h2 with ⟨i, i1, i2, i3, -, i5⟩ | ⟨r, i1, -, i3⟩ | ⟨c, r, i1, i2, i3⟩
  · exfalso
    obtain ⟨w'', e1, -⟩ := hfBits_inj (first_path i1 i2) w s.out i3
    have := congrArg List.length e1
    rw [List.length_append] at this
    omega
  · exfalso
    obtain ⟨w'', e1, -⟩ := hfBits_inj (first_eos r) w s.out i1
    have := congrArg List.length e1
    rw [List.length_append] at this
    omega
  · obtain ⟨w'', e1, -⟩ := hfBits_inj hk s.out w i1.symm
    rw [i2, e1, ← i3, List.take_left]

/-- **C77, violation.** Padding of more than seven bits and the code for the end of strings, both of which RFC 7541 wants to be errors, are
accepted, and everything behind them is ignored. -/
theorem C77_padding_violated (max : Nat) (more : List UInt8) : decode max (0xff :: 0xff :: 0xff :: 0xff :: more) = some (true, []) := by
  have hb : hfByteBits (0xff :: 0xff :: 0xff :: 0xff :: more) = hfEos ++ ([true, true] ++ hfByteBits more) := rfl
  obtain ⟨s, h1, h2⟩ := decode_spec max (0xff :: 0xff :: 0xff :: 0xff :: more)
  rw [hb] at h2
  have hf := first_eos ([true, true] ++ hfByteBits more)
  rw [h1]
  rcases h2 with ⟨i, i1, i2, i3, -, -⟩ | ⟨r, i1, i2, -⟩ | ⟨c, r, i1, i2, -⟩
  · exfalso
    rw [i3] at hf
    rw [hf_first_nil hf] at i3
    obtain ⟨d, -, -, -, hl, -⟩ := loc_index i1 i2
    have := congrArg List.length i3
    rw [List.length_append, show hfBits [] ++ path i = path i from rfl] at this
    unfold hfEos at this
    rw [List.length_replicate] at this
    omega
  · rw [i1] at hf
    rw [i2, hf_first_nil hf]
  · rw [i1] at hf
    rw [i2, hf_first_nil hf]

/-! ### Examples -/

/-- "www.example.com", RFC 7541, section C.4.1. -/
example : hfEncode [119, 119, 119, 46, 101, 120, 97, 109, 112, 108, 101, 46, 99, 111, 109] =
    [0xf1, 0xe3, 0xc2, 0xe5, 0xf2, 0x3a, 0x6b, 0xa0, 0xab, 0x90, 0xf4, 0xff] := by decide +kernel

example : decode 256 [0xf1, 0xe3, 0xc2, 0xe5, 0xf2, 0x3a, 0x6b, 0xa0, 0xab, 0x90, 0xf4, 0xff] =
    some (true, [119, 119, 119, 46, 101, 120, 97, 109, 112, 108, 101, 46, 99, 111, 109]) := by decide +kernel

/-- The byte 0x18 is the code of `a` and three bits of another code which are not set. -/
example : hfByteBits [0x18] = hfBits [97] ++ [false, false, false] ∧ hfCode 48 = [false, false, false] ++ [false, false] ∧
    decode 256 [0x18] = some (false, [97]) := by decide +kernel

example : decode 3 (hfEncode [47, 97, 98, 99, 100]) = some (true, [47, 97, 98]) := by decide +kernel

end Picoquic.Props
