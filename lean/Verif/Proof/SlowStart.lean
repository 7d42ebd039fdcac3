import Verif.Spec.SlowStart

/-!
# Proofs about the test of delays in slow start
-/

namespace Picoquic.SlowStart
open Picoquic.Spec

theorem minMax_spec (l : List Nat) : ∀ mn mx : Nat, mn ≤ mx →
    ((minMax l mn mx).1 ≤ mn ∧ (∀ s ∈ l, (minMax l mn mx).1 ≤ s) ∧ ((minMax l mn mx).1 = mn ∨ (minMax l mn mx).1 ∈ l)) ∧
    (mx ≤ (minMax l mn mx).2 ∧ (∀ s ∈ l, s ≤ (minMax l mn mx).2) ∧ ((minMax l mn mx).2 = mx ∨ (minMax l mn mx).2 ∈ l)) := by
  induction l with
  | nil => intro mn mx h; simp [minMax]
  | cons s l ih =>
    intro mn mx h
    simp only [minMax]
    have memc : ∀ x : Nat, x ∈ s :: l ↔ x = s ∨ x ∈ l := fun x => List.mem_cons
    by_cases h1 : s < mn
    · rw [if_pos h1]
      obtain ⟨⟨a1, a2, a3⟩, b1, b2, b3⟩ := ih s mx (by omega)
      generalize minMax l s mx = A at *
      refine ⟨⟨by omega, ?_, ?_⟩, b1, ?_, ?_⟩
      · intro x hx; rcases (memc x).1 hx with rfl | hx; exact a1; exact a2 x hx
      · right; exact (memc _).2 a3
      · intro x hx; rcases (memc x).1 hx with rfl | hx; omega; exact b2 x hx
      · rcases b3 with b | b; exact Or.inl b; exact Or.inr ((memc _).2 (Or.inr b))
    · rw [if_neg h1]
      by_cases h2 : s > mx
      · rw [if_pos h2]
        obtain ⟨⟨a1, a2, a3⟩, b1, b2, b3⟩ := ih mn s (by omega)
        generalize minMax l mn s = A at *
        refine ⟨⟨a1, ?_, ?_⟩, by omega, ?_, ?_⟩
        · intro x hx; rcases (memc x).1 hx with rfl | hx; omega; exact a2 x hx
        · rcases a3 with b | b; exact Or.inl b; exact Or.inr ((memc _).2 (Or.inr b))
        · intro x hx; rcases (memc x).1 hx with rfl | hx; exact b1; exact b2 x hx
        · right; exact (memc _).2 b3
      · rw [if_neg h2]
        obtain ⟨⟨a1, a2, a3⟩, b1, b2, b3⟩ := ih mn mx h
        generalize minMax l mn mx = A at *
        refine ⟨⟨a1, ?_, ?_⟩, b1, ?_, ?_⟩
        · intro x hx; rcases (memc x).1 hx with rfl | hx; omega; exact a2 x hx
        · rcases a3 with b | b; exact Or.inl b; exact Or.inr ((memc _).2 (Or.inr b))
        · intro x hx; rcases (memc x).1 hx with rfl | hx; omega; exact b2 x hx
        · rcases b3 with b | b; exact Or.inl b; exact Or.inr ((memc _).2 (Or.inr b))

theorem lastSeven_snoc {h : List Nat} (r : Nat) (hl : 7 ≤ h.length) :
    lastSeven (h ++ [r]) = (lastSeven h).drop 1 ++ [r] := by
  unfold lastSeven
  rw [List.length_append, List.length_singleton, List.drop_append_of_le_length (by omega), List.drop_drop]
  congr 2
  omega

theorem lastSeven_short {h : List Nat} (hl : h.length ≤ 7) : lastSeven h = h := by
  unfold lastSeven
  rw [show h.length - 7 = 0 by omega, List.drop_zero]

theorem lastSeven_length {h : List Nat} (hl : 7 ≤ h.length) : (lastSeven h).length = 7 := by
  unfold lastSeven
  rw [List.length_drop]; omega

/-- The ring of samples. -/
structure Ring (t : Track) (h : List Nat) : Prop where
  len : t.samples.length = 7
  cur : t.cur < 7
  start : t.init = false → h.length = t.cur ∧ t.samples.take t.cur = h
  full : t.init = true → 7 ≤ h.length ∧ t.samples.drop t.cur ++ t.samples.take t.cur = lastSeven h

theorem ring_step {t : Track} {h : List Nat} (hr : Ring t h) (r : Nat) : Ring (filterMinMax t r) (h ++ [r]) := by
  obtain ⟨hlen, hcur, hs, hf⟩ := hr
  obtain ⟨lt, fm, ex, cur, init, mn, mx, samples⟩ := t
  simp only at hlen hcur hs hf
  match samples, hlen with
  | [a, b, c, d, e, f, g], _ =>
    cases init with
    | false =>
      obtain ⟨h1, h2⟩ := hs rfl
      match cur, hcur with
      | 0, _ => subst h2; constructor <;> simp [filterMinMax, SCOPE]
      | 1, _ => subst h2; constructor <;> simp [filterMinMax, SCOPE]
      | 2, _ => subst h2; constructor <;> simp [filterMinMax, SCOPE]
      | 3, _ => subst h2; constructor <;> simp [filterMinMax, SCOPE]
      | 4, _ => subst h2; constructor <;> simp [filterMinMax, SCOPE]
      | 5, _ => subst h2; constructor <;> simp [filterMinMax, SCOPE]
      | 6, _ => subst h2; constructor <;> simp [filterMinMax, SCOPE, lastSeven]
      | n + 7, hn => exact absurd hn (by omega)
    | true =>
      obtain ⟨h1, h2⟩ := hf rfl
      have h3 := lastSeven_snoc r h1
      rw [← h2] at h3
      match cur, hcur with
      | 0, _ => exact ⟨by simp [filterMinMax], by simp [filterMinMax, SCOPE], by simp [filterMinMax], fun _ => ⟨by simp; omega, by rw [h3]; simp [filterMinMax, SCOPE]⟩⟩
      | 1, _ => exact ⟨by simp [filterMinMax], by simp [filterMinMax, SCOPE], by simp [filterMinMax], fun _ => ⟨by simp; omega, by rw [h3]; simp [filterMinMax, SCOPE]⟩⟩
      | 2, _ => exact ⟨by simp [filterMinMax], by simp [filterMinMax, SCOPE], by simp [filterMinMax], fun _ => ⟨by simp; omega, by rw [h3]; simp [filterMinMax, SCOPE]⟩⟩
      | 3, _ => exact ⟨by simp [filterMinMax], by simp [filterMinMax, SCOPE], by simp [filterMinMax], fun _ => ⟨by simp; omega, by rw [h3]; simp [filterMinMax, SCOPE]⟩⟩
      | 4, _ => exact ⟨by simp [filterMinMax], by simp [filterMinMax, SCOPE], by simp [filterMinMax], fun _ => ⟨by simp; omega, by rw [h3]; simp [filterMinMax, SCOPE]⟩⟩
      | 5, _ => exact ⟨by simp [filterMinMax], by simp [filterMinMax, SCOPE], by simp [filterMinMax], fun _ => ⟨by simp; omega, by rw [h3]; simp [filterMinMax, SCOPE]⟩⟩
      | 6, _ => exact ⟨by simp [filterMinMax], by simp [filterMinMax, SCOPE], by simp [filterMinMax], fun _ => ⟨by simp; omega, by rw [h3]; simp [filterMinMax, SCOPE]⟩⟩
      | n + 7, hn => exact absurd hn (by omega)

/-- The least and the greatest of a list that is not empty. -/
theorem minMax_list (l : List Nat) (hne : l ≠ []) :
    (minMax (l.drop 1) (l.headD 0) (l.headD 0)).1 ∈ l ∧ (∀ x ∈ l, (minMax (l.drop 1) (l.headD 0) (l.headD 0)).1 ≤ x) ∧
    (minMax (l.drop 1) (l.headD 0) (l.headD 0)).2 ∈ l ∧ (∀ x ∈ l, x ≤ (minMax (l.drop 1) (l.headD 0) (l.headD 0)).2) := by
  cases l with
  | nil => exact absurd rfl hne
  | cons a l =>
    simp only [List.drop_succ_cons, List.drop_zero, List.headD_cons]
    obtain ⟨⟨a1, a2, a3⟩, b1, b2, b3⟩ := minMax_spec l a a (Nat.le_refl a)
    generalize minMax l a a = A at *
    refine ⟨List.mem_cons.2 a3, ?_, List.mem_cons.2 b3, ?_⟩
    · intro x hx; rcases List.mem_cons.1 hx with rfl | hx; exact a1; exact a2 x hx
    · intro x hx; rcases List.mem_cons.1 hx with rfl | hx; exact b1; exact b2 x hx

theorem filter_window {t : Track} {h : List Nat} (hr : Ring t h) (r : Nat) :
    (filterMinMax t r).min ∈ lastSeven (h ++ [r]) ∧ (∀ x ∈ lastSeven (h ++ [r]), (filterMinMax t r).min ≤ x) ∧
    (filterMinMax t r).max ∈ lastSeven (h ++ [r]) ∧ (∀ x ∈ lastSeven (h ++ [r]), x ≤ (filterMinMax t r).max) := by
  have hr' := ring_step hr r
  have hlen' : (t.samples.set t.cur r).length = 7 := hr'.len
  have key : ∀ L : List Nat, L ≠ [] → (∀ x, x ∈ L ↔ x ∈ lastSeven (h ++ [r])) →
      (filterMinMax t r).min = (minMax (L.drop 1) (L.headD 0) (L.headD 0)).1 →
      (filterMinMax t r).max = (minMax (L.drop 1) (L.headD 0) (L.headD 0)).2 →
      (filterMinMax t r).min ∈ lastSeven (h ++ [r]) ∧ (∀ x ∈ lastSeven (h ++ [r]), (filterMinMax t r).min ≤ x) ∧
      (filterMinMax t r).max ∈ lastSeven (h ++ [r]) ∧ (∀ x ∈ lastSeven (h ++ [r]), x ≤ (filterMinMax t r).max) := by
    intro L hne hm h1 h2
    obtain ⟨c1, c2, c3, c4⟩ := minMax_list L hne
    rw [← h1] at c1 c2
    rw [← h2] at c3 c4
    exact ⟨(hm _).1 c1, fun x hx => c2 x ((hm x).2 hx), (hm _).1 c3, fun x hx => c4 x ((hm x).2 hx)⟩
  cases hi : (filterMinMax t r).init with
  | true =>
    obtain ⟨_, hring⟩ := hr'.full hi
    have hi' : (decide (t.cur + 1 ≥ SCOPE) || t.init) = true := hi
    refine key (t.samples.set t.cur r) ?_ ?_ ?_ ?_
    · intro hn; rw [hn] at hlen'; cases hlen'
    · intro x
      rw [← hring, List.mem_append]
      show x ∈ t.samples.set t.cur r ↔ x ∈ List.drop (filterMinMax t r).cur (t.samples.set t.cur r) ∨
        x ∈ List.take (filterMinMax t r).cur (t.samples.set t.cur r)
      rw [Or.comm, ← List.mem_append, List.take_append_drop]
    · simp only [filterMinMax, hi', if_true]
      rw [List.take_of_length_le (by rw [hlen']; exact Nat.le_refl 7)]
    · simp only [filterMinMax, hi', if_true]
      rw [List.take_of_length_le (by rw [hlen']; exact Nat.le_refl 7)]
  | false =>
    obtain ⟨hcl, htk⟩ := hr'.start hi
    have hi' : (decide (t.cur + 1 ≥ SCOPE) || t.init) = false := hi
    have hc : ¬ (t.cur + 1 ≥ SCOPE) := by
      intro hc; rw [decide_eq_true hc] at hi'; cases hi'
    have hcur : (filterMinMax t r).cur = t.cur + 1 := by simp only [filterMinMax]; rw [if_neg hc]
    have htk' : (t.samples.set t.cur r).take (t.cur + 1) = h ++ [r] := by rw [← htk, hcur]; rfl
    have hhd : ((t.samples.set t.cur r).take (t.cur + 1)).headD 0 = (t.samples.set t.cur r).headD 0 := by
      cases t.samples.set t.cur r <;> rfl
    have h7 := hr'.cur
    refine key ((t.samples.set t.cur r).take (t.cur + 1)) ?_ ?_ ?_ ?_
    · rw [htk']; simp
    · intro x; rw [htk', lastSeven_short (by omega)]
    · rw [hhd]; simp only [filterMinMax, hi', Bool.false_eq_true, if_false]
    · rw [hhd]; simp only [filterMinMax, hi', Bool.false_eq_true, if_false]

theorem seven_snoc {h w : List Nat} {r : Nat} (hs : SevenOf (h ++ [r]) w) : SevenOf h w ∨ w = lastSeven (h ++ [r]) := by
  obtain ⟨hl, a, b, he⟩ := hs
  rcases List.eq_nil_or_concat b with hb | ⟨b', z, hb⟩
  · right
    subst hb
    rw [List.append_nil] at he
    unfold lastSeven
    rw [he, List.length_append, hl, Nat.add_sub_cancel, List.drop_left]
  · left
    subst hb
    rw [List.concat_eq_append, ← List.append_assoc] at he
    obtain ⟨h1, _⟩ := List.append_inj' he rfl
    exact ⟨hl, a, b', h1⟩

theorem seven_mono {h w : List Nat} (r : Nat) (hs : SevenOf h w) : SevenOf (h ++ [r]) w := by
  obtain ⟨hl, a, b, he⟩ := hs
  exact ⟨hl, a, b ++ [r], by rw [he]; simp⟩

theorem seven_last {h : List Nat} (hl : 7 ≤ h.length) : SevenOf h (lastSeven h) := by
  refine ⟨lastSeven_length hl, h.take (h.length - 7), [], ?_⟩
  unfold lastSeven
  rw [List.append_nil, List.take_append_drop]

theorem seven_length {h w : List Nat} (hs : SevenOf h w) : 7 ≤ h.length := by
  obtain ⟨hl, a, b, he⟩ := hs
  rw [he, List.length_append, List.length_append]; omega

theorem judge_cases (t : Track) (hi : t.init = true) :
    ∃ fm, fm = (if t.filteredMin = 0 ∨ t.filteredMin > t.max then t.max else t.filteredMin) ∧
      ((t.min > fm + fm / 4 ∧ judge t = (decide (t.excess + 1 ≥ 7), { t with filteredMin := fm, excess := t.excess + 1 })) ∨
       (fm < t.min ∧ t.min ≤ fm + fm / 4 ∧ judge t = (false, { t with filteredMin := fm })) ∨
       (t.min ≤ fm ∧ judge t = (false, { t with filteredMin := fm, excess := 0 }))) := by
  refine ⟨_, rfl, ?_⟩
  unfold judge SCOPE
  rw [if_pos hi]
  generalize (if t.filteredMin = 0 ∨ t.filteredMin > t.max then t.max else t.filteredMin) = fm
  simp only
  by_cases h1 : t.min > fm
  · rw [if_pos h1]
    by_cases h2 : t.min > fm + fm / 4
    · rw [if_pos h2]; exact Or.inl ⟨h2, rfl⟩
    · rw [if_neg h2]; exact Or.inr (Or.inl ⟨h1, by omega, rfl⟩)
  · rw [if_neg h1]; exact Or.inr (Or.inr ⟨by omega, rfl⟩)

/-- The invariant. -/
structure Inv (y : SlowSys) : Prop where
  ring : Ring y.track y.taken
  time : y.track.lastTime = y.last
  zero : y.track.init = false → y.track.excess = 0 ∧ y.track.filteredMin = 0
  base : y.track.init = true → ∃ w, SevenOf y.taken w ∧ y.track.filteredMin ∈ w ∧ ∀ x ∈ w, x ≤ y.track.filteredMin
  low : (∀ x ∈ y.taken, 0 < x) → y.track.init = true →
    0 < y.track.filteredMin ∧ ∀ w, SevenOf y.taken w → ∃ x ∈ w, y.track.filteredMin ≤ x
  count : y.track.init = true → y.track.excess + 7 ≤ y.taken.length
  ans : y.leave = true → y.track.init = true ∧ 7 ≤ y.track.excess ∧
    ∀ x ∈ lastSeven y.taken, y.track.filteredMin + y.track.filteredMin / 4 < x

theorem inv_start : Inv {} := by
  constructor
  · constructor <;> simp
  all_goals simp

/-- A measurement that is taken. -/
theorem step_taken (y : SlowSys) (m : Nat × Nat) (ht : y.track.lastTime = y.last) (hm : m.2 > y.last + 1000) :
    slowStep y m = { track := (judge { filterMinMax y.track m.1 with lastTime := m.2 }).2, taken := y.taken ++ [m.1],
                     last := m.2, leave := (judge { filterMinMax y.track m.1 with lastTime := m.2 }).1 } := by
  unfold slowStep hystartTest
  rw [ht, if_pos hm, if_pos hm, if_pos hm]

theorem step_skipped (y : SlowSys) (m : Nat × Nat) (ht : y.track.lastTime = y.last) (hm : ¬ m.2 > y.last + 1000) :
    slowStep y m = { y with leave := false } := by
  unfold slowStep hystartTest
  rw [ht, if_neg hm, if_neg hm, if_neg hm]

theorem filter_init (t : Track) (r : Nat) (h : t.init = true) : (filterMinMax t r).init = true := by
  simp [filterMinMax, h]

theorem inv_step {y : SlowSys} (h : Inv y) (m : Nat × Nat) : Inv (slowStep y m) := by
  by_cases hm : m.2 > y.last + 1000
  · rw [step_taken y m h.time hm]
    have hr' := ring_step h.ring m.1
    obtain ⟨w1, w2, w3, w4⟩ := filter_window h.ring m.1
    have hfm : (filterMinMax y.track m.1).filteredMin = y.track.filteredMin := rfl
    have hex : (filterMinMax y.track m.1).excess = y.track.excess := rfl
    have hin := filter_init y.track m.1
    generalize filterMinMax y.track m.1 = t at *
    cases hi : t.init with
    | false =>
      have hj : judge { t with lastTime := m.2 } = (false, { t with lastTime := m.2 }) := by
        unfold judge; simp [hi]
      rw [hj]
      have hold : y.track.init = false := by
        cases ho : y.track.init with
        | false => rfl
        | true => rw [hin ho] at hi; cases hi
      have hz := h.zero hold
      refine ⟨⟨hr'.len, hr'.cur, hr'.start, hr'.full⟩, rfl, ?_, ?_, ?_, ?_, ?_⟩
      · intro _; simp only; rw [hex, hfm]; exact hz
      · intro hc; simp only at hc; rw [hi] at hc; cases hc
      · intro _ hc; simp only at hc; rw [hi] at hc; cases hc
      · intro hc; simp only at hc; rw [hi] at hc; cases hc
      · intro hc; cases hc
    | true =>
      have hlen := (hr'.full hi).1
      obtain ⟨fm, hfme, hcase⟩ := judge_cases { t with lastTime := m.2 } hi
      simp only at hfme hcase
      rw [hfm] at hfme
      have hbase : ∃ w, SevenOf (y.taken ++ [m.1]) w ∧ fm ∈ w ∧ ∀ x ∈ w, x ≤ fm := by
        by_cases hc : y.track.filteredMin = 0 ∨ y.track.filteredMin > t.max
        · rw [if_pos hc] at hfme
          rw [hfme]
          exact ⟨_, seven_last hlen, w3, w4⟩
        · rw [if_neg hc] at hfme
          have hold : y.track.init = true := by
            cases ho : y.track.init with
            | true => rfl
            | false => exact absurd (Or.inl (h.zero ho).2) hc
          obtain ⟨w, hw, hw'⟩ := h.base hold
          rw [hfme]
          exact ⟨w, seven_mono _ hw, hw'⟩
      have hlow : (∀ x ∈ y.taken ++ [m.1], 0 < x) → 0 < fm ∧ ∀ w, SevenOf (y.taken ++ [m.1]) w → ∃ x ∈ w, fm ≤ x := by
        intro hpos
        have hmaxpos : 0 < t.max := hpos _ (List.mem_of_mem_drop w3)
        have hle : fm ≤ t.max := by rw [hfme]; split <;> omega
        refine ⟨by rw [hfme]; split <;> omega, ?_⟩
        intro w hw
        rcases seven_snoc hw with hw | hw
        · cases ho : y.track.init with
          | false =>
            have h1 := seven_length hw
            have h2 := (h.ring.start ho).1
            have h3 := h.ring.cur
            omega
          | true =>
            obtain ⟨hp, hall⟩ := h.low (fun x hx => hpos x (List.mem_append_left _ hx)) ho
            obtain ⟨x, hx, hxl⟩ := hall w hw
            refine ⟨x, hx, ?_⟩
            rw [hfme]; split <;> omega
        · rw [hw]; exact ⟨t.max, w3, hle⟩
      have hcount : y.track.excess + 1 + 7 ≤ y.taken.length + 1 ∨ t.min ≤ fm := by
        cases ho : y.track.init with
        | true => left; have := h.count ho; omega
        | false =>
          right
          rw [hfme, if_pos (Or.inl (h.zero ho).2)]
          exact w4 _ w1
      have hcount' : y.track.excess + 7 ≤ y.taken.length + 1 := by
        cases ho : y.track.init with
        | true => have := h.count ho; omega
        | false => rw [(h.zero ho).1]; rw [List.length_append] at hlen; simp at hlen; omega
      rcases hcase with ⟨h1, hj⟩ | ⟨h1, h2, hj⟩ | ⟨h1, hj⟩
      · rw [hj]
        refine ⟨⟨hr'.len, hr'.cur, hr'.start, hr'.full⟩, rfl, ?_, fun _ => hbase, fun hp _ => hlow hp, ?_, ?_⟩
        · intro hc; simp only at hc; rw [hi] at hc; cases hc
        · intro _; simp only [List.length_append, List.length_singleton]; rw [hex]
          rcases hcount with hc | hc
          · omega
          · omega
        · intro ha
          simp only [decide_eq_true_eq] at ha
          refine ⟨hi, ha, ?_⟩
          intro x hx
          have := w2 x hx
          simp only
          omega
      · rw [hj]
        refine ⟨⟨hr'.len, hr'.cur, hr'.start, hr'.full⟩, rfl, ?_, fun _ => hbase, fun hp _ => hlow hp, ?_, ?_⟩
        · intro hc; simp only at hc; rw [hi] at hc; cases hc
        · intro _; simp only [List.length_append, List.length_singleton]; rw [hex]; omega
        · intro ha; cases ha
      · rw [hj]
        refine ⟨⟨hr'.len, hr'.cur, hr'.start, hr'.full⟩, rfl, ?_, fun _ => hbase, fun hp _ => hlow hp, ?_, ?_⟩
        · intro hc; simp only at hc; rw [hi] at hc; cases hc
        · intro _; simp only; omega
        · intro ha; cases ha
  · rw [step_skipped y m h.time hm]
    exact ⟨h.ring, h.time, h.zero, h.base, h.low, h.count, fun hc => by cases hc⟩

theorem inv_foldl (ms : List (Nat × Nat)) : ∀ y, Inv y → Inv (ms.foldl slowStep y) := by
  induction ms with
  | nil => intro y h; exact h
  | cons m ms ih => intro y h; exact ih _ (inv_step h m)

theorem inv_run (ms : List (Nat × Nat)) : Inv (slowRun ms) := inv_foldl ms {} inv_start

end Picoquic.SlowStart
