import Verif.Model.Uri
import Verif.Spec.Uri
/-!
# Lemmas about paths and queries
-/

namespace Picoquic.Uri
open Picoquic Picoquic.Spec

/-! ## Queries -/

theorem lengthTo_take (c : UInt8) (q : Bytes) : q.take (lengthTo c q) = q.takeWhile (· != c) := by
  induction q with
  | nil => rfl
  | cons x xs ih =>
    unfold lengthTo
    by_cases h : x = c
    · simp [h]
    · simp [h, ih]

theorem lengthTo_le (c : UInt8) (q : Bytes) : lengthTo c q ≤ q.length := by
  induction q with
  | nil => simp [lengthTo]
  | cons x xs ih => unfold lengthTo; split <;> simp <;> omega

theorem splitBy_ne (c : UInt8) (q : Bytes) : splitBy c q ≠ [] := by
  cases q with
  | nil => simp [splitBy]
  | cons x xs => unfold splitBy; split
                 · simp
                 · split <;> simp

theorem split_step (c : UInt8) (q : Bytes) : splitBy c q = q.take (lengthTo c q) :: (if lengthTo c q < q.length then splitBy c (q.drop (lengthTo c q + 1)) else []) := by
  induction q with
  | nil => rfl
  | cons x xs ih =>
    have e : splitBy c (x :: xs) = if x = c then [] :: splitBy c xs else
        match splitBy c xs with
        | [] => [[x]]
        | s :: ss => (x :: s) :: ss := rfl
    have l : lengthTo c (x :: xs) = if x = c then 0 else lengthTo c xs + 1 := rfl
    rw [e, l]
    by_cases h : x = c
    · simp [h]
    · rw [if_neg h, if_neg h, ih]
      simp [List.take_succ_cons, List.drop_succ_cons]

/-- The condition of the loop: the query begins with the name, and the name ends there. -/
theorem cond_iff (id q : Bytes) : (id.length ≤ q.length ∧ q.take id.length = id ∧ (id.length = q.length ∨ q[id.length]? = some 61 ∨ q[id.length]? = some 38)) ↔
    ∃ r, q = id ++ r ∧ (r = [] ∨ r.head? = some 61 ∨ r.head? = some 38) := by
  constructor
  · rintro ⟨h, ht, hc⟩
    refine ⟨q.drop id.length, ?_, ?_⟩
    · conv => lhs; rw [← List.take_append_drop id.length q]
      rw [ht]
    · rw [List.head?_drop]
      rcases hc with hc | hc
      · exact Or.inl (by rw [hc]; simp)
      · exact Or.inr hc
  · rintro ⟨r, rfl, hr⟩
    refine ⟨by simp, by simp, ?_⟩
    cases r with
    | nil => simp
    | cons y ys => simp at hr ⊢; exact hr

theorem name_of (id r : Bytes) (hi : ∀ c ∈ id, c ≠ 38 ∧ c ≠ 61) (hr : r = [] ∨ r.head? = some 61 ∨ r.head? = some 38) :
    queryField ((id ++ r).takeWhile (· != 38)) = (id, (r.takeWhile (· != 38)).drop 1) ∨ r.head? = some 38 ∧ queryField ((id ++ r).takeWhile (· != 38)) = (id, []) := by
  have h1 : (id ++ r).takeWhile (· != 38) = id ++ r.takeWhile (· != 38) := by
    rw [List.takeWhile_append_of_pos]; intro c hc; simpa using (hi c hc).1
  have h2 : ∀ t : Bytes, (id ++ t).takeWhile (· != 61) = id ++ t.takeWhile (· != 61) := by
    intro t; rw [List.takeWhile_append_of_pos]; intro c hc; simpa using (hi c hc).2
  have h3 : ∀ t : Bytes, (id ++ t).dropWhile (· != 61) = t.dropWhile (· != 61) := by
    intro t; rw [List.dropWhile_append_of_pos]; intro c hc; simpa using (hi c hc).2
  rw [h1]
  simp only [queryField, h2, h3]
  cases r with
  | nil => simp
  | cons y ys =>
    rcases hr with hr | hr | hr
    · cases hr
    · simp at hr; subst hr; left; simp
    · simp at hr; subst hr; right; simp

theorem name_conv (id q : Bytes) (hi : ∀ c ∈ id, c ≠ 38 ∧ c ≠ 61) (h : (queryField (q.takeWhile (· != 38))).1 = id) :
    ∃ r, q = id ++ r ∧ (r = [] ∨ r.head? = some 61 ∨ r.head? = some 38) := by
  induction q generalizing id with
  | nil => simp [queryField] at h; subst h; exact ⟨[], rfl, Or.inl rfl⟩
  | cons x xs ih =>
    by_cases h38 : x = 38
    · subst h38; simp [queryField] at h; subst h; exact ⟨_, rfl, by simp⟩
    · by_cases h61 : x = 61
      · subst h61; simp [queryField] at h; subst h; exact ⟨_, rfl, by simp⟩
      · have : (queryField ((x :: xs).takeWhile (· != 38))).1 = x :: (queryField (xs.takeWhile (· != 38))).1 := by
          simp [queryField, h38, h61]
        rw [this] at h
        subst h
        obtain ⟨r, hr, hx⟩ := ih _ (fun c hc => hi c (by simp [hc])) rfl
        exact ⟨r, by rw [List.cons_append, ← hr], hx⟩

theorem value_found (id r v : Bytes) (hq : queryField ((id ++ r).takeWhile (· != 38)) = (id, v)) (hi : ∀ c ∈ id, c ≠ 38 ∧ c ≠ 61) (hr : r = [] ∨ r.head? = some 61 ∨ r.head? = some 38) :
    v = if r.head? = some 61 then (r.drop 1).takeWhile (· != 38) else [] := by
  rcases name_of id r hi hr with h | ⟨h, h'⟩
  · rw [h] at hq; cases hq
    cases r with
    | nil => rfl
    | cons y ys =>
      rcases hr with hr | hr | hr
      · cases hr
      · simp at hr; subst hr; simp
      · simp at hr; subst hr; simp
  · rw [h'] at hq; cases hq
    rw [h]; rfl

theorem position_spec (Q id : Bytes) (hn : id ≠ []) (hi : ∀ c ∈ id, c ≠ 38 ∧ c ≠ 61) (b : Nat) (q : Bytes) (hq : Q.drop b = q) :
    (queryValue q id = none → positionFrom id b q = 0) ∧
    (∀ v, queryValue q id = some v → positionFrom id b q ≠ 0 ∧ (Q.drop (positionFrom id b q)).take (lengthTo 38 (Q.drop (positionFrom id b q))) = v) := by
  induction hlen : q.length using Nat.strongRecOn generalizing b q with
  | _ n ih =>
  subst hlen
  cases q with
  | nil =>
    have : queryValue [] id = none := by
      have : ¬ id = [] := hn
      simp [queryValue, splitBy, queryField, this]
    rw [this]; exact ⟨fun _ => by simp [positionFrom], fun v h => by cases h⟩
  | cons x xs =>
    unfold positionFrom
    generalize hqq : x :: xs = q at *
    have hstep : queryValue q id = if (queryField (q.takeWhile (· != 38))).1 = id then some (queryField (q.takeWhile (· != 38))).2
        else if lengthTo 38 q < q.length then queryValue (q.drop (lengthTo 38 q + 1)) id else none := by
      unfold queryValue
      conv => lhs; rw [split_step]
      rw [lengthTo_take, List.map_cons, List.lookup_cons]
      by_cases h : (queryField (q.takeWhile (· != 38))).1 = id
      · rw [if_pos h, h]; simp
      · rw [if_neg h]
        have : (id == (queryField (q.takeWhile (· != 38))).1) = false := by simpa using fun e => h e.symm
        rw [this]; simp only
        split <;> rfl
    by_cases hc : id.length ≤ q.length ∧ q.take id.length = id ∧ (id.length = q.length ∨ q[id.length]? = some 61 ∨ q[id.length]? = some 38)
    · rw [if_pos hc]
      obtain ⟨r, hr, hx⟩ := (cond_iff id q).1 hc
      have hf : (queryField (q.takeWhile (· != 38))).1 = id := by
        rw [hr]; rcases name_of id r hi hx with h | ⟨_, h⟩ <;> rw [h]
      rw [hstep, if_pos hf]
      refine ⟨(fun h => nomatch h), fun v hv => ?_⟩
      cases hv
      have hval := value_found id r (queryField (q.takeWhile (· != 38))).2 (by rw [← hr]; exact Prod.ext hf rfl) hi hx
      have hpos : 0 < id.length := List.length_pos_iff.2 hn
      have hg : q[id.length]? = r.head? := by rw [hr]; cases r <;> simp
      have hd : Q.drop (b + id.length) = r := by rw [← List.drop_drop, hq, hr]; simp
      rw [hg, hval]
      by_cases h61 : r.head? = some 61
      · rw [if_pos h61, if_pos h61, lengthTo_take, ← List.drop_drop, hd]
        exact ⟨by omega, rfl⟩
      · rw [if_neg h61, if_neg h61, lengthTo_take, hd]
        refine ⟨by omega, ?_⟩
        cases r with
        | nil => rfl
        | cons y ys =>
          rcases hx with hx | hx | hx
          · cases hx
          · exact absurd hx h61
          · simp at hx; subst hx; rfl
    · rw [if_neg hc]
      have hf : ¬ (queryField (q.takeWhile (· != 38))).1 = id := fun h => hc ((cond_iff id q).2 (name_conv id q hi h))
      have hl := lengthTo_le 38 q
      have hql : 0 < q.length := by rw [← hqq]; simp
      have hi' := ih (q.drop (lengthTo 38 q + 1)).length (by simp; omega) (b + min (lengthTo 38 q + 1) q.length) (q.drop (lengthTo 38 q + 1))
        (by
          rw [← List.drop_drop, hq]
          by_cases hlt : lengthTo 38 q < q.length
          · rw [Nat.min_eq_left (by omega)]
          · rw [Nat.min_eq_right (by omega), List.drop_eq_nil_of_le (Nat.le_refl _), List.drop_eq_nil_of_le (by omega)]) rfl
      rw [hstep, if_neg hf]
      by_cases hlt : lengthTo 38 q < q.length
      · rw [if_pos hlt]; exact hi'
      · rw [if_neg hlt]
        refine ⟨fun _ => ?_, fun v h => by cases h⟩
        rw [List.drop_eq_nil_of_le (by omega)]; simp [positionFrom]

/-- The value that is found. -/
theorem paramValue_eq (id q : Bytes) (hn : id ≠ []) (hi : ∀ c ∈ id, c ≠ 38 ∧ c ≠ 61) : paramValue id q = queryValue q id := by
  obtain ⟨h1, h2⟩ := position_spec q id hn hi 0 q rfl
  unfold paramValue position
  cases h : queryValue q id with
  | none => rw [if_neg (by simp [h1 h])]
  | some v => obtain ⟨a, b⟩ := h2 v h; rw [if_pos a, b]

/-! ## Percent-encoding -/

theorem hexValue_some (a : UInt8) (x : Nat) (h : (a, x) ∈ hexDigitValues) : hexValue a = some (u8 x) ∧ x < 16 := by
  have : ∀ p ∈ hexDigitValues, hexValue p.1 = some (u8 p.2) ∧ p.2 < 16 := by decide +kernel
  exact this _ h

theorem hexValue_mem (a d : UInt8) (h : hexValue a = some d) : (a, d.toNat) ∈ hexDigitValues := by
  have : ∀ a : Fin 256, ∀ d, hexValue (UInt8.ofNat a.val) = some d → (UInt8.ofNat a.val, d.toNat) ∈ hexDigitValues := by
    have h' : ∀ a : Fin 256, (match hexValue (UInt8.ofNat a.val) with | some d => decide ((UInt8.ofNat a.val, d.toNat) ∈ hexDigitValues) | none => true) = true := by decide +kernel
    intro a d h
    have := h' a
    rw [h] at this
    exact of_decide_eq_true this
  have e : UInt8.ofNat a.toNat = a := by simp
  have := this ⟨a.toNat, a.toNat_lt⟩ d (by simpa using h)
  simpa using this

theorem two_digits (x y : Nat) (hx : x < 16) (hy : y < 16) : (((37 : UInt8) <<< 4 + u8 x) <<< 4 + u8 y) = u8 (16 * x + y) := by
  have : ∀ x y : Fin 16, (((37 : UInt8) <<< 4 + u8 x) <<< 4 + u8 y) = u8 (16 * x + y) := by decide +kernel
  exact this ⟨x, hx⟩ ⟨y, hy⟩

/-- One character of an encoded string. -/
theorem pct_step (v : UInt8) (bs s : Bytes) :
    PctEncoded (v :: bs) s ↔ (pchar v bs).2.1 = false ∧ ∃ t, s = (pchar v bs).1 :: t ∧ PctEncoded (pchar v bs).2.2 t := by
  unfold pchar
  by_cases hv : v = 37
  · rw [if_pos hv]; subst hv
    constructor
    · intro h
      cases h with
      | byte h _ => exact absurd rfl h
      | pct ha hb ht =>
        obtain ⟨h1, h1'⟩ := hexValue_some _ _ ha
        obtain ⟨h2, h2'⟩ := hexValue_some _ _ hb
        simp only [pctDigits, h1, h2]
        exact ⟨trivial, _, by rw [two_digits _ _ h1' h2'], ht⟩
    · rintro ⟨he, t, rfl, ht⟩
      cases bs with
      | nil => simp [pctDigits] at he
      | cons a bs =>
        cases ha : hexValue a with
        | none => simp [pctDigits, ha] at he
        | some x =>
          cases bs with
          | nil => simp [pctDigits, ha] at he
          | cons b bs =>
            cases hb : hexValue b with
            | none => simp [pctDigits, ha, hb] at he
            | some y =>
              simp only [pctDigits, ha, hb] at ht ⊢
              have h1 := hexValue_mem _ _ ha
              have h2 := hexValue_mem _ _ hb
              have e : ((37 : UInt8) <<< 4 + x) <<< 4 + y = u8 (16 * x.toNat + y.toNat) := by
                have := two_digits x.toNat y.toNat (hexValue_some _ _ h1).2 (hexValue_some _ _ h2).2
                simpa [u8] using this
              rw [e]
              exact PctEncoded.pct h1 h2 ht
  · rw [if_neg hv]
    constructor
    · intro h
      cases h with
      | byte _ h => exact ⟨rfl, _, rfl, h⟩
      | pct _ _ _ => exact absurd rfl hv
    · rintro ⟨_, t, rfl, ht⟩
      exact PctEncoded.byte hv ht

theorem toString_spec (max : Nat) (out bs s : Bytes) (hm : out.length ≤ max) :
    toStringFrom max out bs = (false, s) ↔ ∃ d, PctEncoded bs d ∧ s = out ++ d ∧ s.length ≤ max := by
  induction hlen : bs.length using Nat.strongRecOn generalizing out bs with
  | _ n ih =>
  subst hlen
  cases bs with
  | nil =>
    rw [toStringFrom]
    constructor
    · intro h; cases h; exact ⟨[], .nil, by simp, hm⟩
    · rintro ⟨d, hd, rfl, hs⟩; cases hd; simp
  | cons v bs =>
    rw [toStringFrom]
    by_cases hr : out.length < max
    · rw [if_pos hr]
      cases he : (pchar v bs).2.1
      · have hl := pchar_length v bs
        rw [if_neg (by simp), ih _ (by simp only [List.length_cons]; omega) (out ++ [(pchar v bs).1]) (pchar v bs).2.2 (by simp; omega) rfl]
        constructor
        · rintro ⟨d, hd, hs, hx⟩
          exact ⟨(pchar v bs).1 :: d, (pct_step _ _ _).2 ⟨he, d, rfl, hd⟩, by simp [hs], hx⟩
        · rintro ⟨d, hd, hs, hx⟩
          obtain ⟨_, t, rfl, ht⟩ := (pct_step _ _ _).1 hd
          exact ⟨t, ht, by simp [hs], hx⟩
      · rw [if_pos rfl]
        constructor
        · intro h; cases h
        · rintro ⟨d, hd, hs, hx⟩
          have := ((pct_step _ _ _).1 hd).1
          rw [he] at this; cases this
    · rw [if_neg hr]
      constructor
      · intro h; cases h
      · rintro ⟨d, hd, hs, hx⟩
        obtain ⟨_, t, rfl, ht⟩ := (pct_step _ _ _).1 hd
        rw [hs] at hx; simp at hx; omega

/-- Whatever happens the buffer is not overrun. -/
theorem toString_room (max : Nat) (out bs : Bytes) (hm : out.length ≤ max) : (toStringFrom max out bs).2.length ≤ max := by
  induction hlen : bs.length using Nat.strongRecOn generalizing out bs with
  | _ n ih =>
  subst hlen
  cases bs with
  | nil => rw [toStringFrom]; exact hm
  | cons v bs =>
    rw [toStringFrom]
    by_cases hr : out.length < max
    · rw [if_pos hr]
      have hl := pchar_length v bs
      split
      · simp; omega
      · exact ih _ (by simp only [List.length_cons]; omega) _ _ (by simp; omega) rfl
    · rw [if_neg hr]; exact hm

/-! ## Numbers -/

theorem fold_le (s : Bytes) (x : Nat) : x ≤ s.foldl (fun v c => v * 10 + (c.toNat - 48)) x := by
  induction s generalizing x with
  | nil => exact Nat.le_refl _
  | cons c s ih =>
    rw [List.foldl_cons]
    have := ih (x * 10 + (c.toNat - 48))
    omega

theorem toNumber_sound (x n : Nat) (bs : Bytes) (hx : x < 2 ^ 64) (h : toNumberFrom x bs = some n) :
    ∃ d, PctEncoded bs d ∧ isDecimal d = true ∧ n = d.foldl (fun v c => v * 10 + (c.toNat - 48)) x ∧ n < 2 ^ 64 := by
  induction hlen : bs.length using Nat.strongRecOn generalizing x bs with
  | _ k ih =>
  subst hlen
  cases bs with
  | nil => rw [toNumberFrom] at h; cases h; exact ⟨[], .nil, rfl, rfl, hx⟩
  | cons v bs =>
    rw [toNumberFrom] at h
    cases he : (pchar v bs).2.1 <;> rw [he] at h
    · rw [if_neg (by simp)] at h
      by_cases hd : 48 ≤ (pchar v bs).1 ∧ (pchar v bs).1 ≤ 57
      · rw [if_pos hd] at h
        by_cases h1 : x ≥ UINT64_MAX / 10
        · rw [if_pos h1] at h; cases h
        · rw [if_neg h1] at h
          by_cases h2 : x * 10 > UINT64_MAX - ((pchar v bs).1.toNat - 48)
          · rw [if_pos h2] at h; cases h
          · rw [if_neg h2] at h
            have hl := pchar_length v bs
            have h9 : (pchar v bs).1.toNat ≤ 57 := hd.2
            have hu : UINT64_MAX = 2 ^ 64 - 1 := rfl
            obtain ⟨d, a, b, c, e⟩ := ih _ (by simp only [List.length_cons]; omega) _ _ (by omega) h rfl
            refine ⟨_, (pct_step _ _ _).2 ⟨he, d, rfl, a⟩, ?_, ?_, e⟩
            · simp only [isDecimal, List.all_cons, Bool.and_eq_true, decide_eq_true_eq] at b ⊢
              exact ⟨hd, b⟩
            · rw [List.foldl_cons]; exact c
      · rw [if_neg hd] at h; cases h
    · rw [if_pos rfl] at h; cases h

theorem toNumber_complete (x : Nat) (bs d : Bytes) (hp : PctEncoded bs d) (hd : isDecimal d = true)
    (hn : d.foldl (fun v c => v * 10 + (c.toNat - 48)) x < 18446744073709551610) : toNumberFrom x bs = some (d.foldl (fun v c => v * 10 + (c.toNat - 48)) x) := by
  induction hlen : bs.length using Nat.strongRecOn generalizing x bs d with
  | _ k ih =>
  subst hlen
  cases bs with
  | nil => cases hp; rw [toNumberFrom]; rfl
  | cons v bs =>
    obtain ⟨he, t, rfl, ht⟩ := (pct_step _ _ _).1 hp
    simp only [isDecimal, List.all_cons, Bool.and_eq_true, decide_eq_true_eq] at hd
    rw [List.foldl_cons] at hn ⊢
    have hle := fold_le t (x * 10 + ((pchar v bs).1.toNat - 48))
    have h9 : (pchar v bs).1.toNat ≤ 57 := hd.1.2
    have hu : UINT64_MAX = 18446744073709551615 := rfl
    rw [toNumberFrom, if_neg (by simp [he]), if_pos hd.1, if_neg (by rw [hu]; omega), if_neg (by rw [hu]; omega)]
    have hl := pchar_length v bs
    exact ih _ (by simp only [List.length_cons]; omega) _ _ _ ht (by simpa [isDecimal] using hd.2) hn rfl

theorem echo_spec (x : Nat) (s : Bytes) (hd : isDecimal s = true) (hx : x ≤ UINT64_MAX / 4) (hn : s.foldl (fun v c => v * 10 + (c.toNat - 48)) x < 2 ^ 64) :
    echoFrom x s = if s.foldl (fun v c => v * 10 + (c.toNat - 48)) x < 2 ^ 62 then some (s.foldl (fun v c => v * 10 + (c.toNat - 48)) x) else none := by
  have hu : UINT64_MAX = 2 ^ 64 - 1 := rfl
  induction s generalizing x with
  | nil => rw [List.foldl_nil, echoFrom, if_pos (by rw [hu] at hx; omega)]
  | cons c s ih =>
    rw [List.foldl_cons] at hn ⊢
    simp only [isDecimal, List.all_cons, Bool.and_eq_true, decide_eq_true_eq] at hd
    have h9 : c.toNat ≤ 57 := hd.1.2
    have hle := fold_le s (x * 10 + (c.toNat - 48))
    have e : u64 (u64 (x * 10) + (c.toNat - 48)) = x * 10 + (c.toNat - 48) := by unfold u64; omega
    rw [echoFrom, if_neg (by rintro (h | h)
                             · exact absurd hd.1.1 (by simpa using h)
                             · exact absurd hd.1.2 (by simpa using h))]
    simp only [e]
    by_cases hy : x * 10 + (c.toNat - 48) > UINT64_MAX / 4
    · rw [if_pos hy, if_neg (by rw [hu] at hy; omega)]
    · rw [if_neg hy]
      exact ih _ (by simpa [isDecimal] using hd.2) (by omega) hn

theorem echo_digits (x n : Nat) (s : Bytes) (h : echoFrom x s = some n) : isDecimal s = true := by
  induction s generalizing x with
  | nil => rfl
  | cons c s ih =>
    rw [echoFrom] at h
    by_cases hc : c < 48 ∨ c > 57
    · rw [if_pos hc] at h; cases h
    · rw [if_neg hc] at h
      simp only at h
      split at h
      · cases h
      · have := ih _ h
        simp only [isDecimal, List.all_cons, Bool.and_eq_true, decide_eq_true_eq]
        refine ⟨?_, this⟩
        constructor
        · exact Nat.le_of_not_lt (fun h => hc (Or.inl h))
        · exact Nat.le_of_not_lt (fun h => hc (Or.inr h))

/-! ## File names -/

/-- No two dots next to each other in a sane path: the second one would be refused. -/
theorem sane_dots (dot : Bool) (good : Nat) (s : Bytes) (h : saneFrom dot good s = true) :
    (∀ a b, s ≠ a ++ 46 :: 46 :: b) ∧ (dot = true → s.head? ≠ some 46) ∧ (∀ c ∈ s, nameByte c = true ∨ c = 46 ∨ c = 47) ∧ s.getLast? ≠ some 47 := by
  induction s generalizing dot good with
  | nil => simp
  | cons c s ih =>
    rw [saneFrom] at h
    have key : ∀ d g, saneFrom d g s = true → (nameByte c = true ∨ c = 46 ∨ c = 47) → (c = 46 → d = true) → (c = 47 → s ≠ []) → (dot = true → c ≠ 46) →
        ((∀ a b, c :: s ≠ a ++ 46 :: 46 :: b) ∧ (dot = true → (c :: s).head? ≠ some 46) ∧ (∀ x ∈ c :: s, nameByte x = true ∨ x = 46 ∨ x = 47) ∧ (c :: s).getLast? ≠ some 47) := by
      intro d g hs hc h46 h47 hdot
      obtain ⟨i1, i2, i3, i4⟩ := ih d g hs
      refine ⟨?_, by simpa using hdot, ?_, ?_⟩
      · intro a b e
        cases a with
        | nil =>
          simp at e
          exact i2 (h46 e.1) (by rw [e.2]; rfl)
        | cons y ys => simp at e; exact i1 _ _ e.2
      · intro x hx
        rcases List.mem_cons.1 hx with rfl | hx
        · exact hc
        · exact i3 x hx
      · cases s with
        | nil => intro e; simp at e; exact h47 e rfl
        | cons y ys => rw [List.getLast?_cons_cons]; exact i4
    by_cases h1 : (c ≥ 97 ∧ c ≤ 122) ∨ (c ≥ 65 ∧ c ≤ 90) ∨ (c ≥ 48 ∧ c ≤ 57) ∨ c = 45 ∨ c = 95
    · rw [if_pos h1] at h
      have hne : c ≠ 46 ∧ c ≠ 47 := by
        constructor <;> (rintro rfl; revert h1; decide)
      exact key _ _ h (Or.inl (by simpa [nameByte] using h1)) (fun e => absurd e hne.1) (fun e => absurd e hne.2) (fun _ => hne.1)
    · rw [if_neg h1] at h
      by_cases h2 : c = 47 ∧ s ≠ [] ∧ good > 0
      · rw [if_pos h2] at h
        exact key _ _ h (Or.inr (Or.inr h2.1)) (fun e => absurd (h2.1.symm.trans e) (by decide)) (fun _ => h2.2.1) (fun _ e => absurd (h2.1.symm.trans e) (by decide))
      · rw [if_neg h2] at h
        by_cases h3 : c = 46 ∧ dot = false ∧ good > 0
        · rw [if_pos h3] at h
          exact key _ _ h (Or.inr (Or.inl h3.1)) (fun _ => rfl) (fun e => absurd (h3.1.symm.trans e) (by decide)) (fun e => by rw [h3.2.1] at e; cases e)
        · rw [if_neg h3] at h; cases h

/-- A part of a string is a piece of it. -/
theorem split_piece (c : UInt8) (s p : Bytes) (h : p ∈ splitBy c s) : ∃ a b, s = a ++ p ++ b := by
  induction hlen : s.length using Nat.strongRecOn generalizing s with
  | _ k ih =>
  subst hlen
  rw [split_step] at h
  rcases List.mem_cons.1 h with rfl | h
  · exact ⟨[], s.drop (lengthTo c s), by simp⟩
  · by_cases hl : lengthTo c s < s.length
    · rw [if_pos hl] at h
      obtain ⟨a, b, e⟩ := ih _ (by simp; omega) _ h rfl
      refine ⟨s.take (lengthTo c s + 1) ++ a, b, ?_⟩
      conv => lhs; rw [← List.take_append_drop (lengthTo c s + 1) s, e]
      simp
    · rw [if_neg hl] at h; cases h

theorem inside_of (d : Nat) (ss : List Bytes) (h : [46, 46] ∉ ss) : staysInside d ss = true := by
  induction ss generalizing d with
  | nil => rfl
  | cons s ss ih =>
    have h1 : s ≠ [46, 46] := fun e => h (by simp [e])
    have h2 := fun d => ih d (fun e => h (by simp [e]))
    unfold staysInside
    rw [if_neg h1]
    split
    · exact h2 d
    · exact h2 (d + 1)

theorem sane_inside (c : UInt8) (s : Bytes) (h : sane (c :: s) = true) : [46, 46] ∉ splitBy 47 s := by
  rw [sane] at h
  split at h
  · intro hm
    obtain ⟨a, b, e⟩ := split_piece 47 s _ hm
    exact (sane_dots _ _ _ h).1 a b (by rw [e]; simp)
  · cases h

theorem sane_word (w r : Bytes) (dot : Bool) (good : Nat) (hw : ∀ c ∈ w, nameByte c = true) (hn : w ≠ []) : saneFrom dot good (w ++ r) = saneFrom false (good + w.length) r := by
  induction w generalizing dot good with
  | nil => exact absurd rfl hn
  | cons c w ih =>
    have hc := hw c (by simp)
    simp only [nameByte, decide_eq_true_eq] at hc
    rw [List.cons_append, saneFrom, if_pos hc]
    by_cases h : w = []
    · subst h; rfl
    · rw [ih false (good + 1) (fun x hx => hw x (by simp [hx])) h]
      congr 1; simp only [List.length_cons]; omega

theorem plain_ne (s : Bytes) (h : PlainPath s) : s ≠ [] := by
  cases h with
  | word h _ => exact h
  | cons h _ _ _ => simp [h]

theorem sane_plain (dot : Bool) (good : Nat) (s : Bytes) (h : PlainPath s) : saneFrom dot good s = true := by
  induction h generalizing dot good with
  | @word w hn hw =>
    have := sane_word w [] dot good hw hn
    rw [List.append_nil] at this
    have hp : 0 < w.length := List.length_pos_iff.2 hn
    rw [this, saneFrom]; simp; exact Or.inr hn
  | @cons w r c hn hw hc hr ih =>
    have hp : 0 < w.length := List.length_pos_iff.2 hn
    rw [sane_word w _ dot good hw hn, saneFrom]
    rcases hc with rfl | rfl
    · rw [if_neg (by decide), if_neg (by simp), if_pos ⟨rfl, rfl, by omega⟩]; exact ih _ _
    · rw [if_neg (by decide), if_pos ⟨rfl, plain_ne r hr, by omega⟩]; exact ih _ _

theorem fileName_eq (folder path : Bytes) (hp : path ≠ []) : fileName folder path = some (folderPrefix folder ++ path.drop 1) := by
  unfold fileName folderPrefix
  have : 0 < path.length := List.length_pos_iff.2 hp
  simp only
  rw [if_pos]
  split <;> simp <;> omega

/-! ## Handlers -/

theorem item_iff (path p : Bytes) (hp : ∀ c ∈ p, c ≠ 63) :
    (path.length ≥ p.length ∧ path.take p.length = p ∧ (path.length = p.length ∨ path[p.length]? = some 63)) ↔ p = path.takeWhile (· != 63) := by
  constructor
  · rintro ⟨h, ht, hc⟩
    have e : path = p ++ path.drop p.length := by conv => lhs; rw [← List.take_append_drop p.length path, ht]
    rw [← List.head?_drop] at hc
    have hw : (p ++ path.drop p.length).takeWhile (· != 63) = p ++ (path.drop p.length).takeWhile (· != 63) := by
      rw [List.takeWhile_append_of_pos]; intro c hc; simpa using hp c hc
    rw [e, hw]
    rcases hc with hc | hc
    · rw [List.drop_eq_nil_of_le (by omega)]; simp
    · cases hd : path.drop p.length with
      | nil => simp
      | cons y ys => rw [hd] at hc; simp at hc; subst hc; simp
  · intro e
    have hsplit := List.takeWhile_append_dropWhile (p := (· != 63)) (l := path)
    rw [← e] at hsplit
    have ht : path.take p.length = p := by
      conv => lhs; rw [← hsplit]
      simp
    refine ⟨by rw [← hsplit]; simp, ht, ?_⟩
    cases hd : path.dropWhile (· != 63) with
    | nil => left; rw [← hsplit, hd]; simp
    | cons y ys =>
      right
      rw [← hsplit, hd]
      have := List.head?_dropWhile_not (· != 63) path
      rw [hd] at this
      simp at this
      simp [this]

theorem find_eq (path : Bytes) (ps : List Bytes) (hp : ∀ p ∈ ps, ∀ c ∈ p, c ≠ 63) : findPathItem path ps = ps.findIdx? (· == path.takeWhile (· != 63)) := by
  induction ps with
  | nil => rfl
  | cons p ps ih =>
    rw [findPathItem, List.findIdx?_cons, ih (fun p h => hp p (by simp [h]))]
    by_cases h : p = path.takeWhile (· != 63)
    · rw [if_pos ((item_iff path p (hp p (by simp))).2 h)]; simp [← h]
    · rw [if_neg (fun x => h ((item_iff path p (hp p (by simp))).1 x))]
      have : (p == path.takeWhile (· != 63)) = false := by simpa using h
      rw [this]; rfl

end Picoquic.Uri
