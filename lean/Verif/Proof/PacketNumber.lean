import Verif.Model.PacketNumber
import Verif.Proof.Fixed
/-! Lemmas about packet numbers and header protection. -/

namespace Picoquic.PacketNumber
open Picoquic

theorem pnMask_eq (k : Nat) (hk : 1 ≤ k ∧ k ≤ 4) :
    pnMask k = 18446744073709551616 - 2 ^ (8 * k) := by
  obtain ⟨h1, h2⟩ := hk
  have : k = 1 ∨ k = 2 ∨ k = 3 ∨ k = 4 := by omega
  rcases this with rfl | rfl | rfl | rfl <;> decide

theorem and_mask (x m : Nat) (hx : x < 2 ^ 64) (hm : m ≤ 64) :
    x &&& (2 ^ 64 - 2 ^ m) = x - x % 2 ^ m := by
  have h1 : x - x % 2 ^ m = 2 ^ m * (x / 2 ^ m) := by
    have := Nat.div_add_mod x (2 ^ m); omega
  have h2 : 2 ^ 64 - 2 ^ m = 2 ^ m * (2 ^ (64 - m) - 1) := by
    rw [Nat.mul_sub, ← Nat.pow_add, Nat.mul_one]; congr 2; omega
  rw [h1, h2]
  apply Nat.eq_of_testBit_eq
  intro i
  rw [Nat.testBit_and, Nat.testBit_two_pow_mul, Nat.testBit_two_pow_mul,
    Nat.testBit_two_pow_sub_one, Nat.testBit_div_two_pow]
  by_cases hi : m ≤ i
  · simp only [hi, ge_iff_le, decide_true, Bool.true_and]
    by_cases h64 : i < 64
    · have : i - m < 64 - m := by omega
      simp [this, Nat.sub_add_cancel hi]
    · have hf : x.testBit i = false :=
        Nat.testBit_lt_two_pow (Nat.lt_of_lt_of_le hx (Nat.pow_le_pow_right (by decide) (by omega)))
      simp [Nat.sub_add_cancel hi, hf]
  · simp [hi]

/-- The decision logic, free of bit operations. -/
theorem getPacketNumber64_eq (h k pn : Nat) (hk : 1 ≤ k ∧ k ≤ 4) (hh : h < 2 ^ 62)
    (hpn : pn < 2 ^ (8 * k)) :
    let e := h + 1
    let W := 2 ^ (8 * k)
    let c := e - e % W + pn
    getPacketNumber64 h (pnMask k) pn =
      if c < e then (if W < 2 * (e - c) then c + W else c)
      else (if W ≤ 2 * (c - e) ∧ e - e % W > 0 then c - W else c) := by
  intro e W c
  have hW : W ≤ 2 ^ 32 := Nat.pow_le_pow_right (by decide) (by omega)
  have hW1 : 2 ≤ W := by
    have : 2 ^ 1 ≤ W := Nat.pow_le_pow_right (by decide) (by omega)
    simpa using this
  have hmod : e % W < W := Nat.mod_lt _ (by omega)
  have hle : e % W ≤ e := Nat.mod_le _ _
  have hmask : pnMask k = 2 ^ 64 - W := pnMask_eq k hk
  have he : u64 (h + 1) = e := by unfold u64; omega
  have hnm : u64 ((UINT64_MAX - pnMask k) + 1) = W := by
    rw [hmask]; unfold u64 UINT64_MAX; omega
  have hand : e &&& pnMask k = e - e % W := by
    rw [hmask]; exact and_mask e (8 * k) (by omega) (by omega)
  have hor : ∀ a, (a - a % W) ||| pn = a - a % W + pn := by
    intro a
    have h1 : a - a % W = 2 ^ (8 * k) * (a / W) := by
      have := Nat.div_add_mod a W
      show a - a % W = W * (a / W); omega
    rw [h1, Nat.two_pow_add_eq_or_of_lt hpn]
  have hc : (e &&& pnMask k) ||| pn = c := by rw [hand, hor]
  have hcand : c &&& pnMask k = e - e % W := by
    have hcl : c < 2 ^ 64 := by omega
    rw [hmask]
    rw [and_mask c (8 * k) hcl (by omega)]
    have : c % W = pn := by
      show (e - e % W + pn) % W = pn
      have h1 : e - e % W = W * (e / W) := by have := Nat.div_add_mod e W; omega
      rw [h1, Nat.mul_add_mod]; exact Nat.mod_eq_of_lt hpn
    show c - c % W = _
    omega
  unfold getPacketNumber64
  simp only
  rw [he, hnm, hc, hcand]
  split
  · have hd : e - c < W := by omega
    have : u64 (W + 18446744073709551616 - (e - c)) = W - (e - c) := by unfold u64; omega
    rw [this]
    have h2 : (W - (e - c) < e - c) ↔ W < 2 * (e - c) := by omega
    simp only [h2]
    split
    · unfold u64; omega
    · rfl
  · have hd : c - e < W := by omega
    have : u64 (W + 18446744073709551616 - (c - e)) = W - (c - e) := by unfold u64; omega
    rw [this]
    have h2 : (W - (c - e) ≤ c - e) ↔ W ≤ 2 * (c - e) := by omega
    simp only [h2]
    split
    · rename_i hcond
      have hge : W ≤ e := by
        rcases Nat.lt_or_ge e W with h' | h'
        · rw [Nat.mod_eq_of_lt h'] at hcond; omega
        · exact h'
      unfold u64
      have : c ≥ W := by
        have h1 : e - e % W = W * (e / W) := by have := Nat.div_add_mod e W; omega
        have : 1 ≤ e / W := (Nat.one_le_div_iff (by omega)).2 hge
        have : W ≤ W * (e / W) := Nat.le_mul_of_pos_right W (by omega)
        omega
      omega
    · rfl

theorem formatPn_length (k n : Nat) (hk : 1 ≤ k ∧ k ≤ 4) : (formatPn k n).length = k := by
  have : k = 1 ∨ k = 2 ∨ k = 3 ∨ k = 4 := by omega
  rcases this with rfl | rfl | rfl | rfl <;> rfl

theorem accumulate_formatPn (k n : Nat) (hk : 1 ≤ k ∧ k ≤ 4) :
    accumulate 0 (formatPn k n) = n % 2 ^ (8 * k) := by
  have : k = 1 ∨ k = 2 ∨ k = 3 ∨ k = 4 := by omega
  rcases this with rfl | rfl | rfl | rfl <;>
    simp [formatPn, picoformat16, picoformat24, picoformat32, accumulate, u8_toNat, u16, u32,
      Nat.shiftLeft_eq, Nat.shiftRight_eq_div_pow] <;> omega

theorem xorMask_length (a m : Bytes) : (xorMask a m).length = a.length := by
  induction a generalizing m with
  | nil => cases m <;> rfl
  | cons b a ih => cases m <;> simp [xorMask, ih]

theorem xorMask_xorMask (a m : Bytes) : xorMask (xorMask a m) m = a := by
  induction a generalizing m with
  | nil => cases m <;> rfl
  | cons b a ih =>
    cases m with
    | nil => rfl
    | cons c m => simp [xorMask, ih, UInt8.xor_assoc]

end Picoquic.PacketNumber
