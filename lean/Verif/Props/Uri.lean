import Verif.Proof.Uri
/-!
# C83: the parameters in the query of a request
-/

namespace Picoquic.Props
open Picoquic Picoquic.Uri Picoquic.Spec

/-- **C83.** The query is what follows the first `?`. -/
theorem C83_query (path : Bytes) : path.drop (queryOffset path) = (path.dropWhile (· != 63)).drop 1 := by
  have h : ∀ path : Bytes, path.drop (lengthTo 63 path) = path.dropWhile (· != 63) := by
    intro path
    induction path with
    | nil => rfl
    | cons x xs ih =>
      rw [lengthTo]
      by_cases h : x = 63
      · simp [h]
      · simp [h, ih]
  unfold queryOffset
  split
  · rw [← List.drop_drop, h]
  · rw [← h, List.drop_eq_nil_of_le (Nat.le_refl _), List.drop_eq_nil_of_le (as := path) (i := lengthTo 63 path) (by omega)]; rfl

/-- **C83.** A parameter is given as a string exactly if its value is an encoding of that string, which fits: that of the first field of the query with this name. `&` and `=` are no part of names. -/
theorem C83_string (id q : Bytes) (max : Nat) (s : Bytes) (hn : id ≠ []) (hi : ∀ c ∈ id, c ≠ 38 ∧ c ≠ 61) :
    paramString id q max = (false, some s) ↔ ∃ v, queryValue q id = some v ∧ PctEncoded v s ∧ s.length ≤ max := by
  rw [paramString, paramValue_eq id q hn hi]
  cases hv : queryValue q id with
  | none => simp
  | some v =>
    have := toString_spec max [] v s (by simp)
    simp only [List.nil_append] at this
    constructor
    · intro h
      simp only [Prod.mk.injEq, Option.some.injEq] at h
      obtain ⟨d, hd, rfl, hl⟩ := this.1 (Prod.ext h.1 h.2)
      exact ⟨v, rfl, hd, hl⟩
    · rintro ⟨v', hv', hd, hl⟩
      cases hv'
      have := this.2 ⟨s, hd, rfl, hl⟩
      simp [Uri.toString, this]

/-- The value of `b` in `ab=1&b=x%26y&b=2` is `x&y`. -/
example : paramString [98] [97, 98, 61, 49, 38, 98, 61, 120, 37, 50, 54, 121, 38, 98, 61, 50] 8 = (false, some [120, 38, 121]) := by decide +kernel

/-- **C83.** Whatever the query, the buffer is not overrun. -/
theorem C83_room (id q : Bytes) (max : Nat) : ∀ s, (paramString id q max).2 = some s → s.length ≤ max := by
  intro s h
  unfold paramString at h
  cases hv : paramValue id q with
  | none => rw [hv] at h; cases h
  | some v => rw [hv] at h; cases h; exact toString_room max [] v (by simp)

/-- **C83.** A parameter given as a number is the decimal number in its value. -/
theorem C83_number_right (id q : Bytes) (default n : Nat) (hn : id ≠ []) (hi : ∀ c ∈ id, c ≠ 38 ∧ c ≠ 61) (h : paramNumber id q default = (false, n)) :
    (n = default ∧ (queryValue q id = none ∨ queryValue q id = some [])) ∨
    ∃ v d, queryValue q id = some v ∧ v ≠ [] ∧ PctEncoded v d ∧ isDecimal d = true ∧ n = decimalNumber d ∧ n < 2 ^ 64 := by
  rw [paramNumber, paramValue_eq id q hn hi] at h
  cases hv : queryValue q id with
  | none => rw [hv] at h; cases h; exact Or.inl ⟨rfl, Or.inl rfl⟩
  | some v =>
    rw [hv] at h
    cases ht : toNumber v with
    | none => simp [ht] at h
    | some m =>
      simp only [ht] at h
      by_cases h0 : v.length = 0
      · rw [if_pos h0] at h; cases h; exact Or.inl ⟨rfl, Or.inr (by rw [List.length_eq_zero_iff.1 h0])⟩
      · rw [if_neg h0] at h; cases h
        obtain ⟨d, a, b, c, e⟩ := toNumber_sound 0 n v (by decide) ht
        exact Or.inr ⟨v, d, rfl, fun x => h0 (by simp [x]), a, b, c, e⟩

/-- **C83 (partial).** And a decimal number is accepted, unless it is one of the six largest of 64 bits: see `C83_largest_violated`. -/
theorem C83_number_partial (id q v d : Bytes) (default : Nat) (hn : id ≠ []) (hi : ∀ c ∈ id, c ≠ 38 ∧ c ≠ 61) (hv : queryValue q id = some v) (h0 : v ≠ [])
    (hp : PctEncoded v d) (hd : isDecimal d = true) (hl : decimalNumber d < 2 ^ 64 - 6) : paramNumber id q default = (false, decimalNumber d) := by
  have := toNumber_complete 0 v d hp hd hl
  rw [paramNumber, paramValue_eq id q hn hi, hv]
  simp only [toNumber, this]
  rw [if_neg (by simpa using h0)]; rfl

/-- `n=4%32` is 42. -/
example : paramNumber [110] [110, 61, 52, 37, 51, 50] 7 = (false, 42) := by decide +kernel

/-- **C83.** The largest number of 64 bits, 18446744073709551615, is refused. -/
theorem C83_largest_violated : ∃ id q, paramNumber id q 7 = (true, 7) ∧
    ∃ v d, queryValue q id = some v ∧ PctEncoded v d ∧ isDecimal d = true ∧ decimalNumber d = 2 ^ 64 - 1 := by
  have hp : ∀ d : Bytes, (∀ c ∈ d, c ≠ 37) → PctEncoded d d := by
    intro d h
    induction d with
    | nil => exact .nil
    | cons c d ih => exact .byte (h c (by simp)) (ih (fun x hx => h x (by simp [hx])))
  exact ⟨[110], 110 :: 61 :: [49, 56, 52, 52, 54, 55, 52, 52, 48, 55, 51, 55, 48, 57, 53, 53, 49, 54, 49, 53], by decide +kernel,
    _, [49, 56, 52, 52, 54, 55, 52, 52, 48, 55, 51, 55, 48, 57, 53, 53, 49, 54, 49, 53], rfl, hp _ (by decide), by decide +kernel, by decide +kernel⟩

/-- **C83.** A parameter with a value that is no number, or one that does not fit in 64 bits, is an error. -/
theorem C83_number_error (id q v : Bytes) (default : Nat) (hn : id ≠ []) (hi : ∀ c ∈ id, c ≠ 38 ∧ c ≠ 61) (hv : queryValue q id = some v)
    (hx : ∀ d, PctEncoded v d → isDecimal d = false ∨ 2 ^ 64 ≤ decimalNumber d) : paramNumber id q default = (true, default) := by
  rw [paramNumber, paramValue_eq id q hn hi, hv]
  cases ht : toNumber v with
  | none => simp [ht]
  | some m =>
    obtain ⟨d, a, b, c, e⟩ := toNumber_sound 0 m v (by decide) ht
    rcases hx d a with h | h
    · rw [b] at h; cases h
    · have : decimalNumber d = m := c.symm
      omega

/-- **C83.** A request is given to the handler registered for its path, without the query: the first one with this path. -/
theorem C83_handler (path : Bytes) (ps : List Bytes) (hp : ∀ p ∈ ps, ∀ c ∈ p, c ≠ 63) : findPathItem path ps = ps.findIdx? (· == path.takeWhile (· != 63)) :=
  find_eq path ps hp

/-- `/b?x` with handlers for `/`, `/bb`, `/b`. -/
example : findPathItem [47, 98, 63, 120] [[47], [47, 98, 98], [47, 98]] = some 2 := by decide

/-- **C83.** With HTTP/0.9 it is the first one that the path begins with: `/bb` is given to the handler for `/b`, although there is one for `/bb`. -/
theorem C83_handler_violated : ∃ path ps i, findPathItem09 path ps = some 0 ∧ i ≠ 0 ∧ ps.findIdx? (· == path) = some i :=
  ⟨[47, 98, 98], [[47, 98], [47, 98, 98]], 1, by decide⟩

/-- **C83.** The sample application with batons, which speaks version 0, accepts requests for version 1: it looks for a parameter called `versi`. -/
theorem C83_version_violated : ∃ path, queryValue ((path.dropWhile (· != 63)).drop 1) [118, 101, 114, 115, 105, 111, 110] = some [49] ∧ batonParams path = some (1, 0) :=
  ⟨[47, 98, 63, 118, 101, 114, 115, 105, 111, 110, 61, 49], by decide +kernel⟩

/-- **C83.** The parameters it accepts are in range. -/
theorem C83_baton (path : Bytes) (lanes baton : Nat) (h : batonParams path = some (lanes, baton)) : 1 ≤ lanes ∧ lanes ≤ 256 ∧ baton ≤ 255 := by
  unfold batonParams at h
  split at h
  · simp only at h
    split at h
    · cases h
    · split at h
      · cases h
      · rename_i hx
        simp only [not_or, ne_eq] at hx
        cases h
        omega
  · cases h; decide

end Picoquic.Props
