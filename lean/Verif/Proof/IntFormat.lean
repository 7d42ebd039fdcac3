import Verif.Model.IntFormat
import Verif.Spec.Varint
/-! Helper lemmas about integer formats. -/

namespace Picoquic

theorem u8_toNat (n : Nat) : (u8 n).toNat = n % 256 := by
  simp [u8]

theorem toNat_lt256 (b : UInt8) : b.toNat < 256 := UInt8.toNat_lt b

theorem u8_of_toNat (b : UInt8) : u8 b.toNat = b := by
  simp [u8]

theorem UInt8.forall_of_nat {P : UInt8 → Prop} (h : ∀ n, n < 256 → P (UInt8.ofNat n)) (b : UInt8) :
    P b := by
  have := h b.toNat (toNat_lt256 b)
  simpa using this

theorem varintLen_eq (b : UInt8) : varintLen b = 2 ^ (b.toNat / 64) := by
  revert b
  apply UInt8.forall_of_nat
  decide +kernel

theorem decodeVarintLength_eq (b : UInt8) : decodeVarintLength b = 2 ^ (b.toNat / 64) := by
  revert b
  apply UInt8.forall_of_nat
  decide +kernel

theorem low6_eq (b : UInt8) : (b &&& 0x3F).toNat = b.toNat % 64 := by
  revert b
  apply UInt8.forall_of_nat
  decide +kernel

theorem or40 {x : Nat} (h : x < 64) : x ||| 0x40 = x + 64 := by
  have : ∀ x, x < 64 → x ||| 0x40 = x + 64 := by decide +kernel
  exact this x h

theorem or80 {x : Nat} (h : x < 64) : x ||| 0x80 = x + 128 := by
  have : ∀ x, x < 64 → x ||| 0x80 = x + 128 := by decide +kernel
  exact this x h

theorem orC0 {x : Nat} (h : x < 256) : x ||| 0xC0 = x % 64 + 192 := by
  have : ∀ x, x < 256 → x ||| 0xC0 = x % 64 + 192 := by decide +kernel
  exact this x h

theorem accumulate_eq (v : Nat) (bs : Bytes) :
    accumulate v bs = v * 256 ^ bs.length + Spec.bigEndian bs := by
  induction bs generalizing v with
  | nil => simp [accumulate, Spec.bigEndian]
  | cons b bs ih =>
    rw [accumulate, ih, Spec.bigEndian, Nat.shiftLeft_eq, List.length_cons, Nat.add_mul,
      Nat.pow_succ 256, Nat.add_assoc, Nat.mul_assoc, Nat.mul_comm (2 ^ 8)]

theorem bigEndian_lt (bs : Bytes) : Spec.bigEndian bs < 256 ^ bs.length := by
  induction bs with
  | nil => simp [Spec.bigEndian]
  | cons b bs ih =>
    rw [Spec.bigEndian, List.length_cons, Nat.pow_succ]
    have hb := toNat_lt256 b
    have : b.toNat * 256 ^ bs.length ≤ 255 * 256 ^ bs.length :=
      Nat.mul_le_mul_right _ (by omega)
    omega

/-- The bytes a varint encoder writes when there is room. -/
def varintBytes (n : Nat) : Bytes :=
  if n < 16384 then
    if n < 64 then [u8 n] else [u8 ((n >>> 8) ||| 0x40), u8 n]
  else if n < 1073741824 then
    [u8 ((n >>> 24) ||| 0x80), u8 (n >>> 16), u8 (n >>> 8), u8 n]
  else
    [u8 ((n >>> 56) ||| 0xC0), u8 (n >>> 48), u8 (n >>> 40), u8 (n >>> 32),
      u8 (n >>> 24), u8 (n >>> 16), u8 (n >>> 8), u8 n]

theorem varintBytes_length (n : Nat) : (varintBytes n).length = encodeVarintLength n := by
  unfold varintBytes encodeVarintLength
  split <;> split <;> rfl

theorem encodeVarintLength_pos (n : Nat) : 0 < encodeVarintLength n := by
  unfold encodeVarintLength; split <;> split <;> omega

theorem encodeVarintLength_le (n : Nat) : encodeVarintLength n ≤ 8 := by
  unfold encodeVarintLength; split <;> split <;> omega

theorem framesVarintEncode_eq (n room : Nat) :
    framesVarintEncode n room =
      if encodeVarintLength n ≤ room then some (varintBytes n) else none := by
  unfold framesVarintEncode encodeVarintLength varintBytes
  split <;> split <;> simp_all

theorem varintEncode_eq (n room : Nat) :
    varintEncode room n = if encodeVarintLength n ≤ room then varintBytes n else [] := by
  unfold varintEncode encodeVarintLength varintBytes
  split <;> split <;> first | rfl | skip

theorem bigEndian_varintBytes (n : Nat) (h : n < 2 ^ 64) :
    Spec.bigEndian (varintBytes n) =
      if n < 16384 then (if n < 64 then n else 16384 + n)
      else if n < 1073741824 then 2 * 1073741824 + n
      else 3 * 4611686018427387904 + n % 4611686018427387904 := by
  unfold varintBytes
  split
  · split
    · simp [Spec.bigEndian, u8_toNat]; omega
    · rw [or40 (by rw [Nat.shiftRight_eq_div_pow]; omega)]
      simp [Spec.bigEndian, u8_toNat, Nat.shiftRight_eq_div_pow]; omega
  · split
    · rw [or80 (by rw [Nat.shiftRight_eq_div_pow]; omega)]
      simp [Spec.bigEndian, u8_toNat, Nat.shiftRight_eq_div_pow]; omega
    · rw [orC0 (by rw [Nat.shiftRight_eq_div_pow]; omega)]
      simp [Spec.bigEndian, u8_toNat, Nat.shiftRight_eq_div_pow]; omega

end Picoquic

namespace Picoquic

theorem isVarint_cases {k : Nat} {p : Bytes} {n : Nat} (h : Spec.IsVarint k p n) :
    ∃ b p', p = b :: p' ∧ p'.length = 2 ^ k - 1 ∧ b.toNat / 64 = k ∧
      (b.toNat % 64) * 256 ^ p'.length + Spec.bigEndian p' = n := by
  obtain ⟨hk, hl, hn, he⟩ := h
  match p with
  | [] =>
    have : 0 < 2 ^ k := Nat.two_pow_pos k
    simp at hl; omega
  | b :: p' =>
    refine ⟨b, p', rfl, ?_, ?_⟩
    · simp at hl; omega
    · rw [Spec.bigEndian] at he
      have hb := bigEndian_lt p'
      have hl' : p'.length = 2 ^ k - 1 := by simp at hl; omega
      rw [hl'] at hb he ⊢
      match k, hk with
      | 0, _ => simp at *; omega
      | 1, _ => simp at *; omega
      | 2, _ => simp at *; omega
      | 3, _ => simp at *; omega

theorem framesVarintDecode_of_isVarint {k : Nat} {p : Bytes} {n : Nat}
    (h : Spec.IsVarint k p n) (rest : Bytes) : framesVarintDecode (p ++ rest) = some (n, rest) := by
  obtain ⟨b, p', rfl, hl, hb, he⟩ := isVarint_cases h
  simp only [framesVarintDecode, List.cons_append, varintLen_eq, hb, low6_eq, accumulate_eq]
  have : 0 < 2 ^ k := Nat.two_pow_pos k
  rw [if_pos (by simp; omega), ← hl]
  simp [he]

theorem isVarint_of_decode {bs : Bytes} {n : Nat} {rest : Bytes}
    (h : framesVarintDecode bs = some (n, rest)) :
    ∃ k p, bs = p ++ rest ∧ Spec.IsVarint k p n := by
  match bs with
  | [] => simp [framesVarintDecode] at h
  | b :: bs' =>
    simp only [framesVarintDecode, varintLen_eq, low6_eq, accumulate_eq] at h
    split at h
    · rename_i hl
      have hb := toNat_lt256 b
      simp only [Option.some.injEq, Prod.mk.injEq] at h
      obtain ⟨h1, h2⟩ := h
      have hpos : 0 < 2 ^ (b.toNat / 64) := Nat.two_pow_pos _
      refine ⟨b.toNat / 64, b :: bs'.take (2 ^ (b.toNat / 64) - 1), ?_, ?_⟩
      · rw [← h2]; simp
      · have hlen : (bs'.take (2 ^ (b.toNat / 64) - 1)).length = 2 ^ (b.toNat / 64) - 1 := by
          simp at hl ⊢; omega
        have hlt := bigEndian_lt (bs'.take (2 ^ (b.toNat / 64) - 1))
        refine ⟨by omega, by simp [hlen]; omega, ?_, ?_⟩
        · rw [← h1]
          rw [hlen] at *
          generalize Spec.bigEndian _ = x at *
          have : b.toNat / 64 = 0 ∨ b.toNat / 64 = 1 ∨ b.toNat / 64 = 2 ∨ b.toNat / 64 = 3 := by omega
          rcases this with h | h | h | h <;> rw [h] at hlt ⊢ <;> simp at hlt ⊢ <;> omega
        · rw [Spec.bigEndian, ← h1]
          rw [hlen] at *
          generalize Spec.bigEndian _ = x at *
          have : b.toNat / 64 = 0 ∨ b.toNat / 64 = 1 ∨ b.toNat / 64 = 2 ∨ b.toNat / 64 = 3 := by omega
          rcases this with h | h | h | h <;> rw [h] at hlt ⊢ <;> simp at hlt ⊢ <;> omega
    · simp at h

/-- Full characterisation of the varint decoder. -/
theorem framesVarintDecode_iff (bs : Bytes) (n : Nat) (rest : Bytes) :
    framesVarintDecode bs = some (n, rest) ↔ ∃ k p, bs = p ++ rest ∧ Spec.IsVarint k p n := by
  constructor
  · exact isVarint_of_decode
  · rintro ⟨k, p, rfl, h⟩; exact framesVarintDecode_of_isVarint h rest

theorem framesVarintSkip_eq (bs : Bytes) :
    framesVarintSkip bs = (framesVarintDecode bs).map Prod.snd := by
  match bs with
  | [] => rfl
  | b :: bs' =>
    simp only [framesVarintSkip, framesFixedSkip, framesVarintDecode, varintLen_eq]
    have : 0 < 2 ^ (b.toNat / 64) := Nat.two_pow_pos _
    split
    · obtain ⟨m, hm⟩ : ∃ m, 2 ^ (b.toNat / 64) = m + 1 := ⟨_, (Nat.succ_pred_eq_of_pos this).symm⟩
      simp [hm]
    · rfl

theorem varintDecode_eq (bs : Bytes) :
    varintDecode bs = match framesVarintDecode bs with
      | none => (0, 0)
      | some (n, rest) => (bs.length - rest.length, n) := by
  match bs with
  | [] => rfl
  | b :: bs' =>
    have hdl := decodeVarintLength_eq b
    unfold decodeVarintLength at hdl
    simp only [varintDecode, framesVarintDecode, varintLen_eq, hdl]
    have : 0 < 2 ^ (b.toNat / 64) := Nat.two_pow_pos _
    by_cases h : 2 ^ (b.toNat / 64) ≤ (b :: bs').length
    · rw [if_neg (by omega), if_pos h]
      simp at h ⊢; omega
    · rw [if_pos (by omega), if_neg h]

theorem framesVarintDecode_length {bs rest : Bytes} {n : Nat}
    (h : framesVarintDecode bs = some (n, rest)) : rest.length < bs.length := by
  obtain ⟨k, p, rfl, hk, hl, _, _⟩ := isVarint_of_decode h
  have : 0 < 2 ^ k := Nat.two_pow_pos k
  simp; omega

theorem varintBytes_isVarint (n : Nat) (h : n < 2 ^ 62) :
    ∃ k, Spec.IsVarint k (varintBytes n) n ∧ Spec.IsShortest k n ∧ encodeVarintLength n = 2 ^ k := by
  have hbe := bigEndian_varintBytes n (by omega)
  have hlen := varintBytes_length n
  by_cases h1 : n < 64
  · refine ⟨0, ⟨by omega, ?_, ?_, ?_⟩, ?_, ?_⟩
    · rw [hlen]; simp only [encodeVarintLength]; (repeat' split) <;> omega
    · omega
    · rw [hbe]; (repeat' split) <;> omega
    · intro j hj; omega
    · simp only [encodeVarintLength]; (repeat' split) <;> omega
  by_cases h2 : n < 16384
  · refine ⟨1, ⟨by omega, ?_, ?_, ?_⟩, ?_, ?_⟩
    · rw [hlen]; simp only [encodeVarintLength]; (repeat' split) <;> omega
    · omega
    · rw [hbe]; (repeat' split) <;> omega
    · intro j hj; have : j = 0 := by omega
      subst this; simp; omega
    · simp only [encodeVarintLength]; (repeat' split) <;> omega
  by_cases h3 : n < 1073741824
  · refine ⟨2, ⟨by omega, ?_, ?_, ?_⟩, ?_, ?_⟩
    · rw [hlen]; simp only [encodeVarintLength]; (repeat' split) <;> omega
    · omega
    · rw [hbe]; (repeat' split) <;> omega
    · intro j hj; have : j = 0 ∨ j = 1 := by omega
      rcases this with rfl | rfl <;> simp <;> omega
    · simp only [encodeVarintLength]; (repeat' split) <;> omega
  · refine ⟨3, ⟨by omega, ?_, ?_, ?_⟩, ?_, ?_⟩
    · rw [hlen]; simp only [encodeVarintLength]; (repeat' split) <;> omega
    · omega
    · rw [hbe]; (repeat' split) <;> omega
    · intro j hj; have : j = 0 ∨ j = 1 ∨ j = 2 := by omega
      rcases this with rfl | rfl | rfl <;> simp <;> omega
    · simp only [encodeVarintLength]; (repeat' split) <;> omega

theorem framesVarintDecode_varintBytes (n : Nat) (h : n < 2 ^ 62) (rest : Bytes) :
    framesVarintDecode (varintBytes n ++ rest) = some (n, rest) := by
  obtain ⟨k, hk, _, _⟩ := varintBytes_isVarint n h
  exact framesVarintDecode_of_isVarint hk rest

theorem framesVarintDecode_varintBytes_big (n : Nat) (h : 2 ^ 62 ≤ n) (h' : n < 2 ^ 64)
    (rest : Bytes) :
    framesVarintDecode (varintBytes n ++ rest) = some (n % 2 ^ 62, rest) := by
  apply framesVarintDecode_of_isVarint (k := 3)
  refine ⟨by omega, ?_, by omega, ?_⟩
  · rw [varintBytes_length]; simp only [encodeVarintLength]; (repeat' split) <;> omega
  · rw [bigEndian_varintBytes n h']; (repeat' split) <;> omega

end Picoquic
