import Verif.Model.Sack
import Verif.Spec.Intervals
/-! Helper lemmas about selective acknowledgement lists. -/

namespace Picoquic.Sack

/-- Coverage of a number by a list of items. -/
def Cov (items : List Item) (n : Nat) : Prop := ∃ i ∈ items, i.start ≤ n ∧ n ≤ i.stop

/-- Sorted, separated, non-empty ranges. -/
def Sep (items : List Item) : Prop :=
  items.Pairwise (fun a b => a.stop + 1 < b.start) ∧ ∀ i ∈ items, i.start ≤ i.stop

theorem cov_cons (i : Item) (l : List Item) (n : Nat) :
    Cov (i :: l) n ↔ (i.start ≤ n ∧ n ≤ i.stop) ∨ Cov l n := by
  simp [Cov]

theorem cov_append (l m : List Item) (n : Nat) : Cov (l ++ m) n ↔ Cov l n ∨ Cov m n := by
  simp only [Cov, List.mem_append]
  constructor
  · rintro ⟨i, h | h, h2⟩
    · exact .inl ⟨i, h, h2⟩
    · exact .inr ⟨i, h, h2⟩
  · rintro (⟨i, h, h2⟩ | ⟨i, h, h2⟩)
    · exact ⟨i, .inl h, h2⟩
    · exact ⟨i, .inr h, h2⟩

theorem cov_nil (n : Nat) : ¬ Cov [] n := by simp [Cov]

theorem sep_nil : Sep [] := by simp [Sep]

theorem sep_cons (i : Item) (l : List Item) :
    Sep (i :: l) ↔ i.start ≤ i.stop ∧ (∀ j ∈ l, i.stop + 1 < j.start) ∧ Sep l := by
  simp only [Sep, List.pairwise_cons, List.mem_cons, forall_eq_or_imp]
  constructor
  · rintro ⟨⟨h1, h2⟩, h3, h4⟩; exact ⟨h3, h1, h2, h4⟩
  · rintro ⟨h3, h1, h2, h4⟩; exact ⟨⟨h1, h2⟩, h3, h4⟩

theorem sep_append (l m : List Item) :
    Sep (l ++ m) ↔ Sep l ∧ Sep m ∧ ∀ i ∈ l, ∀ j ∈ m, i.stop + 1 < j.start := by
  simp only [Sep, List.pairwise_append, List.mem_append]
  constructor
  · rintro ⟨⟨h1, h2, h3⟩, h4⟩
    exact ⟨⟨h1, fun i hi => h4 i (.inl hi)⟩, ⟨h2, fun i hi => h4 i (.inr hi)⟩, h3⟩
  · rintro ⟨⟨h1, h4⟩, ⟨h2, h5⟩, h3⟩
    refine ⟨⟨h1, h2, h3⟩, ?_⟩
    rintro i (hi | hi)
    · exact h4 i hi
    · exact h5 i hi

theorem below_above (items : List Item) (pn : Nat) : below items pn ++ above items pn = items :=
  List.takeWhile_append_dropWhile

theorem mem_below {items : List Item} {pn : Nat} {i : Item} (h : i ∈ below items pn) :
    i.start ≤ pn := by
  induction items with
  | nil => simp [below] at h
  | cons a l ih =>
    unfold below at *
    rw [List.takeWhile_cons] at h
    split at h
    · rcases List.mem_cons.1 h with rfl | h
      · simp_all
      · exact ih h
    · simp at h

theorem mem_above {items : List Item} {pn : Nat} (hs : Sep items) {i : Item}
    (h : i ∈ above items pn) : pn < i.start := by
  induction items with
  | nil => simp [above] at h
  | cons a l ih =>
    rw [sep_cons] at hs
    unfold above at *
    rw [List.dropWhile_cons] at h
    split at h
    · exact ih hs.2.2 h
    · rename_i hn
      simp at hn
      rcases List.mem_cons.1 h with rfl | h
      · exact hn
      · have := hs.2.1 i h; have := hs.1; omega

theorem dropLast_append_getLast? {α : Type} {l : List α} {a : α} (h : l.getLast? = some a) :
    l = l.dropLast ++ [a] := by
  obtain ⟨h1, h2⟩ := List.getLast?_eq_some_iff.1 h
  subst h2; simp

theorem getLast?_none {α : Type} {l : List α} (h : l.getLast? = none) : l = [] :=
  List.getLast?_eq_none_iff.1 h

theorem extendLoop_spec (previous : Item) (after : List Item) (rc0 rc1 : Counts) (pnMax now : Nat)
    (hs : Sep (previous :: after)) :
    let r := extendLoop previous after rc0 rc1 pnMax now
    Sep (r.1 :: r.2.1) ∧ r.1.start = previous.start ∧ (∀ j ∈ r.2.1, j ∈ after) ∧
    ∀ n, Cov (r.1 :: r.2.1) n ↔ Cov (previous :: after) n ∨ (previous.start ≤ n ∧ n ≤ pnMax) := by
  have keep : ∀ (previous : Item) (after : List Item), Sep (previous :: after) →
      ¬ previous.stop < pnMax →
      Sep (previous :: after) ∧ previous.start = previous.start ∧ (∀ j ∈ after, j ∈ after) ∧
      ∀ n, Cov (previous :: after) n ↔
        Cov (previous :: after) n ∨ (previous.start ≤ n ∧ n ≤ pnMax) := by
    intro previous after hs h
    refine ⟨hs, rfl, fun j hj => hj, fun n => ?_⟩
    simp only [cov_cons, sep_cons] at *
    constructor
    · intro h'; exact .inl h'
    · rintro (h' | h')
      · exact h'
      · left; omega
  induction after generalizing previous rc0 rc1 with
  | nil =>
    unfold extendLoop
    split
    · rename_i h
      rw [sep_cons] at hs
      refine ⟨?_, rfl, by simp, fun n => ?_⟩
      · rw [sep_cons]; exact ⟨by simp only; omega, by simp, sep_nil⟩
      · have := cov_nil n
        rw [cov_cons, cov_cons]
        simp only
        grind
    · rename_i h; exact keep _ _ hs h
  | cons next rest ih =>
    unfold extendLoop
    split
    · rename_i h
      split
      · rename_i h2
        rw [sep_cons, sep_cons] at hs
        obtain ⟨h3, h4, h6, h7, h8⟩ := hs
        have h5 := h4 next (by simp)
        refine ⟨?_, rfl, fun j hj => hj, fun n => ?_⟩
        · rw [sep_cons, sep_cons]
          refine ⟨by simp only; omega, ?_, h6, h7, h8⟩
          intro j hj
          simp only
          rcases List.mem_cons.1 hj with rfl | hj
          · omega
          · have := h7 j hj; omega
        · simp only [cov_cons]
          grind
      · rename_i h2
        rw [sep_cons, sep_cons] at hs
        obtain ⟨h3, h4, h6, h7, h8⟩ := hs
        have h5 := h4 next (by simp)
        obtain ⟨i1, i2, i3, i4⟩ := ih
          { previous with stop := next.stop, sent0 := 0, sent1 := 0,
                          time := if next.time > previous.time then next.time else previous.time }
          (uncount (recount rc0 previous.sent0) next.sent0)
          (uncount (recount rc1 previous.sent1) next.sent1)
          (by rw [sep_cons]; exact ⟨by simp only; omega, fun j hj => h7 j hj, h8⟩)
        refine ⟨i1, i2, fun j hj => List.mem_cons_of_mem _ (i3 j hj), fun n => ?_⟩
        rw [i4, cov_cons, cov_cons, cov_cons]
        simp only
        constructor
        · rintro ((h' | h') | h')
          · by_cases n ≤ pnMax
            · right; omega
            · left; right; left; omega
          · left; right; right; exact h'
          · right; exact h'
        · rintro ((h' | h' | h') | h')
          · left; left; omega
          · left; left; omega
          · left; right; exact h'
          · right; exact h'
    · rename_i h; exact keep _ _ hs h

theorem updateCore_spec (s : SackList) (pnMin pnMax now : Nat) (hs : Sep s.items)
    (hle : pnMin ≤ pnMax) :
    let r := updateCore s pnMin pnMax now
    Sep r.1.items ∧
    (∀ n, Cov r.1.items n ↔ Cov s.items n ∨ (pnMin ≤ n ∧ n ≤ pnMax)) ∧
    (r.2 = 0 ∨ r.2 = 1) ∧
    (r.2 = 1 ↔ ∀ n, pnMin ≤ n → n ≤ pnMax → Cov s.items n) ∧
    r.1.horizonDelay = s.horizonDelay ∧ r.1.ackHorizon = s.ackHorizon := by
  have hba := below_above s.items pnMin
  have hsep := hs
  rw [← hba, sep_append] at hsep
  obtain ⟨hlo, hhi, hlohi⟩ := hsep
  have habove : ∀ i ∈ above s.items pnMin, pnMin < i.start := fun i hi => mem_above hs hi
  have hcov : ∀ n, Cov s.items n ↔ Cov (below s.items pnMin) n ∨ Cov (above s.items pnMin) n := by
    intro n; rw [← cov_append, hba]
  -- the "no overlap" branch
  have hno : (∀ i ∈ below s.items pnMin, i.stop + 1 < pnMin) →
      let r := updateCore.noOverlap s pnMin pnMax now (below s.items pnMin) (above s.items pnMin)
        ⟨pnMin, pnMax, now, 0, 0⟩
      Sep r.1.items ∧
      (∀ n, Cov r.1.items n ↔ Cov s.items n ∨ (pnMin ≤ n ∧ n ≤ pnMax)) ∧
      (r.2 = 0 ∨ r.2 = 1) ∧
      (r.2 = 1 ↔ ∀ n, pnMin ≤ n → n ≤ pnMax → Cov s.items n) ∧
      r.1.horizonDelay = s.horizonDelay ∧ r.1.ackHorizon = s.ackHorizon := by
    intro hbl
    have hnotcov : ¬ Cov s.items pnMin := by
      rw [hcov]
      rintro (⟨i, hi, h1, h2⟩ | ⟨i, hi, h1, h2⟩)
      · have := hbl i hi; omega
      · have := habove i hi; omega
    have hret : ((0 : Nat) = 1 ↔ ∀ n, pnMin ≤ n → n ≤ pnMax → Cov s.items n) := by
      constructor
      · intro h; omega
      · intro h; exact absurd (h pnMin (Nat.le_refl _) hle) hnotcov
    unfold updateCore.noOverlap
    split
    · rename_i he
      rw [he] at hcov
      refine ⟨?_, ?_, .inl rfl, hret, rfl, rfl⟩
      · simp only [sep_append, sep_cons]
        refine ⟨hlo, ⟨hle, by simp, sep_nil⟩, ?_⟩
        intro i hi j hj; simp at hj; subst hj; exact hbl i hi
      · intro n
        have := cov_nil n
        simp only [cov_append, cov_cons, hcov]
        grind
    · rename_i next rest he
      rw [he] at hcov hhi hlohi habove
      have hrest := hhi
      rw [sep_cons] at hrest
      split
      · refine ⟨?_, ?_, .inl rfl, hret, rfl, rfl⟩
        · simp only [sep_append]
          refine ⟨hlo, ?_, ?_⟩
          · rw [sep_cons]
            refine ⟨hle, ?_, hhi⟩
            intro j hj
            simp only
            rcases List.mem_cons.1 hj with rfl | hj
            · omega
            · have := hrest.2.1 j hj; omega
          · intro i hi j hj
            rcases List.mem_cons.1 hj with rfl | hj
            · exact hbl i hi
            · exact hlohi i hi j hj
        · intro n
          simp only [cov_append, cov_cons, hcov]
          grind
      · rename_i hnext
        have hns := habove next (by simp)
        have hx : Sep ({ next with start := pnMin, time := now, sent0 := 0, sent1 := 0 } :: rest) := by
          rw [sep_cons]
          exact ⟨by simp only; omega, hrest.2.1, hrest.2.2⟩
        have hr := extendLoop_spec _ _ (recount s.rc0 next.sent0) (recount s.rc1 next.sent1) pnMax
          now hx
        obtain ⟨r1, r2, r3, r4⟩ := hr
        refine ⟨?_, ?_, .inl rfl, hret, rfl, rfl⟩
        · simp only
          rw [sep_append]
          refine ⟨hlo, r1, ?_⟩
          intro i hi j hj
          rcases List.mem_cons.1 hj with rfl | hj
          · rw [r2]; exact hbl i hi
          · exact hlohi i hi j (List.mem_cons_of_mem _ (r3 j hj))
        · intro n
          simp only
          rw [cov_append, r4, cov_cons, hcov, cov_cons]
          simp only
          have : next.start ≤ pnMax + 1 := by omega
          constructor
          · rintro (h | (h | h) | h)
            · exact .inl (.inl h)
            · by_cases hn : n ≤ pnMax
              · exact .inr ⟨h.1, hn⟩
              · exact .inl (.inr (.inl ⟨by omega, h.2⟩))
            · exact .inl (.inr (.inr h))
            · exact .inr h
          · rintro ((h | h | h) | h)
            · exact .inl h
            · exact .inr (.inl (.inl ⟨by omega, h.2⟩))
            · exact .inr (.inl (.inr h))
            · exact .inr (.inr h)
  unfold updateCore
  simp only
  split
  · rename_i hnone
    have := getLast?_none hnone
    exact hno (by rw [this]; simp)
  · rename_i previous hsome
    have hdl := dropLast_append_getLast? hsome
    have hps : previous.start ≤ pnMin := by
      apply mem_below (items := s.items)
      rw [hdl]; simp
    have hlo' := hlo
    rw [hdl, sep_append, sep_cons] at hlo'
    obtain ⟨hd1, ⟨hp1, _, _⟩, hd3⟩ := hlo'
    split
    · rename_i hlt
      apply hno
      intro i hi
      rw [hdl] at hi
      rcases List.mem_append.1 hi with hi | hi
      · have := hd3 i hi previous (by simp); omega
      · simp at hi; subst hi; exact hlt
    · rename_i hge
      have hx : Sep (previous :: above s.items pnMin) := by
        rw [sep_cons]
        refine ⟨hp1, ?_, hhi⟩
        intro j hj
        exact hlohi previous (by rw [hdl]; simp) j hj
      obtain ⟨r1, r2, r3, r4⟩ := extendLoop_spec _ _ s.rc0 s.rc1 pnMax now hx
      refine ⟨?_, ?_, ?_, ?_, rfl, rfl⟩
      · simp only
        rw [sep_append]
        refine ⟨hd1, r1, ?_⟩
        intro i hi j hj
        rcases List.mem_cons.1 hj with rfl | hj
        · rw [r2]; exact hd3 i hi previous (by simp)
        · exact hlohi i (by rw [hdl]; simp [hi]) j (r3 j hj)
      · intro n
        simp only
        rw [cov_append, r4, hcov, hdl, cov_append, cov_cons, cov_cons, List.dropLast_concat]
        have := cov_nil n
        constructor
        · rintro (h | (h | h) | h)
          · exact .inl (.inl (.inl h))
          · exact .inl (.inl (.inr (.inl h)))
          · exact .inl (.inr h)
          · by_cases hn : n ≤ previous.stop
            · exact .inl (.inl (.inr (.inl ⟨h.1, hn⟩)))
            · exact .inr ⟨by omega, h.2⟩
        · rintro (((h | h | h) | h) | h)
          · exact .inl h
          · exact .inr (.inl (.inl h))
          · exact absurd h this
          · exact .inr (.inl (.inr h))
          · exact .inr (.inr ⟨by omega, h.2⟩)
      · simp only
        split
        · exact .inl rfl
        · exact .inr rfl
      · simp only
        split
        · rename_i hlt
          constructor
          · intro h; omega
          · intro h
            exfalso
            -- the number just after `previous` is not covered
            have hmx : pnMin ≤ max pnMin (previous.stop + 1) := by omega
            have := h (previous.stop + 1) (by omega) (by omega)
            rw [hcov] at this
            rcases this with ⟨i, hi, h1, h2⟩ | ⟨i, hi, h1, h2⟩
            · rw [hdl] at hi
              rcases List.mem_append.1 hi with hi | hi
              · have := hd3 i hi previous (by simp); omega
              · simp at hi; subst hi; omega
            · have := hlohi previous (by rw [hdl]; simp) i hi; omega
        · rename_i hnl
          constructor
          · intro _ n h1 h2
            rw [hcov]
            left
            exact ⟨previous, by rw [hdl]; simp, by omega, by omega⟩
          · intro _; rfl

/-- Lookup of one number. -/
theorem findRangeBelow_cov (s : SackList) (hs : Sep s.items) (pn : Nat) :
    (match findRangeBelow s pn with
      | none => false
      | some i => decide (pn ≤ i.stop)) = true ↔ Cov s.items pn := by
  have hba := below_above s.items pn
  have hcov : Cov s.items pn ↔ Cov (below s.items pn) pn ∨ Cov (above s.items pn) pn := by
    rw [← cov_append, hba]
  have hsep := hs
  rw [← hba, sep_append] at hsep
  obtain ⟨hlo, hhi, hlohi⟩ := hsep
  have habove : ¬ Cov (above s.items pn) pn := by
    rintro ⟨i, hi, h1, h2⟩
    have := mem_above hs hi; omega
  unfold findRangeBelow
  split
  · rename_i h
    have := getLast?_none h
    rw [hcov, this]
    simp [cov_nil, habove]
  · rename_i i h
    have hdl := dropLast_append_getLast? h
    have hps : i.start ≤ pn := by
      apply mem_below (items := s.items); rw [hdl]; simp
    rw [hdl, sep_append] at hlo
    rw [decide_eq_true_iff, hcov]
    constructor
    · intro h'; left; exact ⟨i, by rw [hdl]; simp, hps, h'⟩
    · rintro (⟨j, hj, h1, h2⟩ | h')
      · rw [hdl] at hj
        rcases List.mem_append.1 hj with hj | hj
        · have := hlo.2.2 j hj i (by simp); omega
        · simp at hj; subst hj; exact h2
      · exact absurd h' habove

/-- Lookup of a range. -/
theorem checkSackList_cov (s : SackList) (hs : Sep s.items) (a b : Nat) (hab : a ≤ b) :
    checkSackList s a b = true ↔ ∀ n, a ≤ n → n ≤ b → Cov s.items n := by
  have hba := below_above s.items a
  have hcov : ∀ n, Cov s.items n ↔ Cov (below s.items a) n ∨ Cov (above s.items a) n := by
    intro n; rw [← cov_append, hba]
  have hsep := hs
  rw [← hba, sep_append] at hsep
  obtain ⟨hlo, hhi, hlohi⟩ := hsep
  have habove : ¬ Cov (above s.items a) a := by
    rintro ⟨i, hi, h1, h2⟩
    have := mem_above hs hi; omega
  unfold checkSackList findRangeBelow
  split
  · rename_i h
    have := getLast?_none h
    simp only [Bool.false_eq_true, false_iff]
    intro h'
    have h'' := h' a (Nat.le_refl _) hab
    rw [hcov, this] at h''
    rcases h'' with h'' | h''
    · exact cov_nil _ h''
    · exact habove h''
  · rename_i i h
    have hdl := dropLast_append_getLast? h
    have hps : i.start ≤ a := by
      apply mem_below (items := s.items); rw [hdl]; simp
    rw [hdl, sep_append] at hlo
    rw [decide_eq_true_iff]
    constructor
    · intro h' n h1 h2
      rw [hcov]; left; exact ⟨i, by rw [hdl]; simp, by omega, by omega⟩
    · intro h'
      have hi : i ∈ below s.items a := by rw [hdl]; simp
      -- a is covered, by `i`
      have ha := h' a (Nat.le_refl _) hab
      rw [hcov] at ha
      have hai : a ≤ i.stop := by
        rcases ha with ⟨j, hj, h1, h2⟩ | h''
        · rw [hdl] at hj
          rcases List.mem_append.1 hj with hj | hj
          · have := hlo.2.2 j hj i (by simp); omega
          · simp at hj; subst hj; exact h2
        · exact absurd h'' habove
      rcases Nat.lt_or_ge i.stop b with hb | hb
      · have := h' (i.stop + 1) (by omega) (by omega)
        rw [hcov] at this
        rcases this with ⟨j, hj, h1, h2⟩ | ⟨j, hj, h1, h2⟩
        · rw [hdl] at hj
          rcases List.mem_append.1 hj with hj | hj
          · have := hlo.2.2 j hj i (by simp); omega
          · simp at hj; subst hj; omega
        · have := hlohi i hi j hj; omega
      · exact hb

end Picoquic.Sack

namespace Picoquic.Sack

theorem lastStop_append (l : List Item) (x : Item) (m : List Item) :
    sackListLast.lastStop (l ++ x :: m) = sackListLast.lastStop (x :: m) := by
  unfold sackListLast.lastStop
  rw [List.getLast?_append, List.getLast?_cons]
  rfl

theorem lastStop_cons_cons (x y : Item) (m : List Item) :
    sackListLast.lastStop (x :: y :: m) = sackListLast.lastStop (y :: m) :=
  lastStop_append [x] y m

theorem ackOfAck_spec (s : SackList) (a b : Nat) (hs : Sep s.items) (hab : a ≤ b)
    (h0 : s.horizonDelay = 0) :
    let t := processAckOfAckRange s a b
    Sep t.items ∧ t.horizonDelay = 0 ∧ (∀ n, Cov t.items n → Cov s.items n) ∧
    (∀ n, Cov s.items n → ¬ (a ≤ n ∧ n ≤ b) → Cov t.items n) ∧
    sackListLast t = sackListLast s ∧ (s.items = [] ↔ t.items = []) := by
  have hba := below_above s.items a
  have hsep := hs
  rw [← hba, sep_append] at hsep
  obtain ⟨hlo, hhi, hlohi⟩ := hsep
  have hcov : ∀ n, Cov s.items n ↔ Cov (below s.items a) n ∨ Cov (above s.items a) n := by
    intro n; rw [← cov_append, hba]
  have same : Sep s.items ∧ s.horizonDelay = 0 ∧ (∀ n, Cov s.items n → Cov s.items n) ∧
    (∀ n, Cov s.items n → ¬ (a ≤ n ∧ n ≤ b) → Cov s.items n) ∧
    sackListLast s = sackListLast s ∧ (s.items = [] ↔ s.items = []) :=
    ⟨hs, h0, fun n h => h, fun n h _ => h, rfl, Iff.rfl⟩
  unfold processAckOfAckRange
  simp only
  split
  · exact same
  · rename_i previous hsome
    have hdl := dropLast_append_getLast? hsome
    have hlo' := hlo
    rw [hdl, sep_append, sep_cons] at hlo'
    obtain ⟨hd1, ⟨hp1, _, _⟩, hd3⟩ := hlo'
    have hitems : s.items = (below s.items a).dropLast ++ [previous] ++ above s.items a := by
      rw [← hdl, hba]
    have hmemlo : ∀ i ∈ (below s.items a).dropLast, i ∈ below s.items a := by
      intro i hi; rw [hdl]; simp [hi]
    generalize (below s.items a).dropLast = p at *
    generalize below s.items a = lo at *
    generalize above s.items a = hi at *
    have hcov : ∀ n, Cov s.items n ↔ Cov p n ∨ (previous.start ≤ n ∧ n ≤ previous.stop) ∨ Cov hi n := by
      intro n
      have := cov_nil n
      rw [hitems, cov_append, cov_append, cov_cons]
      grind
    have hlast : sackListLast s = sackListLast.lastStop (p ++ [previous] ++ hi) := by
      unfold sackListLast; rw [hitems]
    have hne : s.items ≠ [] := by rw [hitems]; simp
    split
    · rename_i heq
      split
      · split
        · rename_i hlt
          refine ⟨?_, h0, ?_, ?_, ?_, ?_⟩
          · simp only
            rw [sep_append, sep_cons]
            refine ⟨hd1, ⟨by simp only; omega, by simp, sep_nil⟩, ?_⟩
            intro i hi j hj
            simp at hj; subst hj
            have := hd3 i hi previous (by simp); simp only; omega
          · intro n
            have := cov_nil n
            rw [hcov]
            simp only [cov_append, cov_cons]
            grind
          · intro n
            have := cov_nil n
            rw [hcov]
            simp only [cov_append, cov_cons]
            grind
          · rw [hlast]; unfold sackListLast sackListLast.lastStop; simp
          · simp [hne]
        · rename_i hge
          refine ⟨?_, h0, ?_, ?_, ?_, ?_⟩
          · simp only
            rw [sep_append, sep_cons]
            refine ⟨hd1, ⟨by simp only; omega, by simp, sep_nil⟩, ?_⟩
            intro i hi j hj
            simp at hj; subst hj
            have := hd3 i hi previous (by simp); simp only; omega
          · intro n
            have := cov_nil n
            rw [hcov]
            simp only [cov_append, cov_cons]
            grind
          · intro n
            have := cov_nil n
            rw [hcov]
            simp only [cov_append, cov_cons]
            grind
          · rw [hlast]; unfold sackListLast sackListLast.lastStop; simp
          · simp [hne]
      · rename_i next rest
        split
        · rename_i hend
          have hnh : ¬ s.horizonDelay > 0 := by omega
          rw [if_neg hnh]
          refine ⟨?_, h0, ?_, ?_, ?_, ?_⟩
          · simp only
            rw [sep_append]
            refine ⟨hd1, hhi, ?_⟩
            intro i hi j hj
            exact hlohi i (hmemlo i hi) j hj
          · intro n
            rw [hcov]
            simp only [cov_append]
            grind
          · intro n
            rw [hcov]
            simp only [cov_append]
            grind
          · rw [hlast]; unfold sackListLast; simp only [List.append_assoc, lastStop_append, List.singleton_append, lastStop_cons_cons]
          · simp [hne]
        · exact same
    · exact same

theorem recordSent_ranges (s : SackList) (k : Nat) (opp : Bool) :
    (recordSent s k opp).items.map (fun i => (i.start, i.stop)) =
      s.items.map (fun i => (i.start, i.stop)) ∧
    (recordSent s k opp).horizonDelay = s.horizonDelay ∧
    (recordSent s k opp).ackHorizon = s.ackHorizon := by
  unfold recordSent
  split
  · exact ⟨rfl, rfl, rfl⟩
  · rename_i i hi
    split
    all_goals
      refine ⟨?_, rfl, rfl⟩
      simp only
      rw [List.map_set]
      apply List.ext_getElem?
      intro j
      rw [List.getElem?_set]
      split
      · rename_i hkj
        subst hkj
        simp only [List.length_map, List.getElem?_map, hi, Option.map_some]
        have : k < s.items.length := by
          rcases Nat.lt_or_ge k s.items.length with h | h
          · exact h
          · rw [List.getElem?_eq_none h] at hi; simp at hi
        rw [if_pos this]
      · rfl

/-- `Sep` and `Cov` only look at the ranges. -/
theorem sep_iff (items : List Item) :
    Sep items ↔ Spec.Separated (items.map fun i => (i.start, i.stop)) := by
  simp only [Sep, Spec.Separated, List.pairwise_map, List.mem_map]
  constructor
  · rintro ⟨h1, h2⟩
    refine ⟨h1, ?_⟩
    rintro r ⟨i, hi, rfl⟩
    exact h2 i hi
  · rintro ⟨h1, h2⟩
    exact ⟨h1, fun i hi => h2 _ ⟨i, hi, rfl⟩⟩

theorem cov_iff (items : List Item) (n : Nat) :
    Cov items n ↔ Spec.InRanges (items.map fun i => (i.start, i.stop)) n := by
  simp only [Cov, Spec.InRanges, List.mem_map]
  constructor
  · rintro ⟨i, hi, h⟩; exact ⟨_, ⟨i, hi, rfl⟩, h⟩
  · rintro ⟨_, ⟨i, hi, rfl⟩, h⟩; exact ⟨i, hi, h⟩

theorem last_iff (s : SackList) :
    sackListLast s = match (s.items.map fun i => (i.start, i.stop)).getLast? with
      | none => 0
      | some r => r.2 := by
  unfold sackListLast sackListLast.lastStop
  rw [List.getLast?_map]
  cases s.items.getLast? <;> rfl

theorem cov_le_last (s : SackList) (hs : Sep s.items) (n : Nat) (h : Cov s.items n) :
    n ≤ sackListLast s ∧ Cov s.items (sackListLast s) := by
  unfold sackListLast sackListLast.lastStop
  obtain ⟨i, hi, h1, h2⟩ := h
  cases hl : s.items.getLast? with
  | none => rw [getLast?_none hl] at hi; simp at hi
  | some l =>
    have hd := dropLast_append_getLast? hl
    have hmem : l ∈ s.items := by rw [hd]; simp
    refine ⟨?_, ⟨l, hmem, hs.2 l hmem, Nat.le_refl _⟩⟩
    rw [hd] at hi hs
    rcases List.mem_append.1 hi with hi | hi
    · rw [sep_append] at hs
      have := hs.2.2 i hi l (by simp)
      have := hs.2.1.2 l (by simp)
      simp only; omega
    · simp at hi; subst hi; exact h2

/-! ### Counters -/

/-- The counters tell how many items were sent `i` times, for `i` below the repeat limit. -/
def CountsOk (s : SackList) : Prop :=
  ∀ i, i < MAX_ACK_RANGE_REPEAT →
    s.rc0 i = (s.items.countP (fun x => x.sent0 == i) : Nat) ∧
    s.rc1 i = (s.items.countP (fun x => x.sent1 == i) : Nat)

theorem add_apply (c : Counts) (i : Nat) (d : Int) (j : Nat) :
    (c.add i d) j = c j + if j = i then d else 0 := by
  unfold Counts.add; split <;> simp

theorem uncount_apply (c : Counts) (sent j : Nat) (hj : j < MAX_ACK_RANGE_REPEAT) :
    uncount c sent j = c j - if sent = j then 1 else 0 := by
  unfold uncount
  split
  · rw [add_apply]; grind
  · grind

theorem recount_apply (c : Counts) (sent j : Nat) (hj : j < MAX_ACK_RANGE_REPEAT) :
    recount c sent j = c j - (if sent = j then 1 else 0) + if j = 0 then 1 else 0 := by
  unfold recount
  rw [add_apply, uncount_apply _ _ _ hj]

theorem recordSentCounts_apply (c : Counts) (sent j : Nat) (hj : j < MAX_ACK_RANGE_REPEAT) :
    recordSentCounts c sent j =
      c j - (if sent = j then 1 else 0) + if j = sent + 1 then 1 else 0 := by
  unfold recordSentCounts
  grind [Counts.add]

theorem extendLoop_counts (previous : Item) (after : List Item) (rc0 rc1 : Counts)
    (pnMax now i : Nat) (hi : i < MAX_ACK_RANGE_REPEAT) :
    let r := extendLoop previous after rc0 rc1 pnMax now
    r.2.2.1 i = rc0 i + ((r.1 :: r.2.1).countP (fun x => x.sent0 == i) : Nat)
        - ((previous :: after).countP (fun x => x.sent0 == i) : Nat) ∧
    r.2.2.2 i = rc1 i + ((r.1 :: r.2.1).countP (fun x => x.sent1 == i) : Nat)
        - ((previous :: after).countP (fun x => x.sent1 == i) : Nat) := by
  induction after generalizing previous rc0 rc1 with
  | nil =>
    unfold extendLoop
    split
    · simp only [List.countP_cons, recount_apply _ _ _ hi]; grind
    · simp only; omega
  | cons next rest ih =>
    unfold extendLoop
    split
    · split
      · simp only [List.countP_cons, recount_apply _ _ _ hi]; grind
      · have h := ih
          { previous with stop := next.stop, sent0 := 0, sent1 := 0,
                          time := if next.time > previous.time then next.time else previous.time }
          (uncount (recount rc0 previous.sent0) next.sent0)
          (uncount (recount rc1 previous.sent1) next.sent1)
        obtain ⟨h1, h2⟩ := h
        simp only at h1 h2 ⊢
        rw [h1, h2]
        simp only [List.countP_cons, uncount_apply _ _ _ hi, recount_apply _ _ _ hi]
        grind
    · simp only; omega

theorem countP_below_above (p : Item → Bool) (items : List Item) (pn : Nat) :
    items.countP p = (below items pn).countP p + (above items pn).countP p := by
  rw [← List.countP_append, below_above]

theorem updateCore_counts (s : SackList) (pnMin pnMax now : Nat) (hc : CountsOk s) :
    CountsOk (updateCore s pnMin pnMax now).1 := by
  intro i hi
  have hci := hc i hi
  rw [countP_below_above _ s.items pnMin, countP_below_above _ s.items pnMin] at hci
  have hno :
      let t := (updateCore.noOverlap s pnMin pnMax now (below s.items pnMin) (above s.items pnMin)
        ⟨pnMin, pnMax, now, 0, 0⟩).1
      t.rc0 i = (t.items.countP (fun x => x.sent0 == i) : Nat) ∧
      t.rc1 i = (t.items.countP (fun x => x.sent1 == i) : Nat) := by
    unfold updateCore.noOverlap
    split
    · rename_i he
      rw [he] at hci
      simp only [add_apply, List.countP_append, List.countP_cons, List.countP_nil] at *
      grind
    · rename_i next rest he
      rw [he] at hci
      split
      · simp only [add_apply, List.countP_append, List.countP_cons] at *
        grind
      · have h := extendLoop_counts
          { next with start := pnMin, time := now, sent0 := 0, sent1 := 0 } rest
          (recount s.rc0 next.sent0) (recount s.rc1 next.sent1) pnMax now i hi
        obtain ⟨h1, h2⟩ := h
        simp only at h1 h2 ⊢
        rw [h1, h2]
        simp only [recount_apply _ _ _ hi, List.countP_append, List.countP_cons] at *
        grind
  unfold updateCore
  simp only
  split
  · exact hno
  · rename_i previous hsome
    split
    · exact hno
    · have hdl := dropLast_append_getLast? hsome
      have h := extendLoop_counts previous (above s.items pnMin) s.rc0 s.rc1 pnMax now i hi
      obtain ⟨h1, h2⟩ := h
      simp only at h1 h2 ⊢
      rw [h1, h2]
      rw [hdl] at hci
      simp only [List.countP_append, List.countP_cons, List.countP_nil] at *
      grind

theorem horizonLoop_counts (now : Nat) (delay : Int) (items : List Item) (h : Nat)
    (rc0 rc1 : Counts) (i : Nat) (hi : i < MAX_ACK_RANGE_REPEAT) :
    let r := horizonLoop now delay items h rc0 rc1
    r.2.2.1 i = rc0 i + (r.1.countP (fun x => x.sent0 == i) : Nat)
        - (items.countP (fun x => x.sent0 == i) : Nat) ∧
    r.2.2.2 i = rc1 i + (r.1.countP (fun x => x.sent1 == i) : Nat)
        - (items.countP (fun x => x.sent1 == i) : Nat) := by
  fun_induction horizonLoop now delay items h rc0 rc1 with
  | case1 => simp
  | case2 h rc0 rc1 first hc => simp only; omega
  | case3 h rc0 rc1 first hc next rest ih =>
    obtain ⟨h1, h2⟩ := ih
    simp only at h1 h2 ⊢
    rw [h1, h2]
    simp only [List.countP_cons, uncount_apply _ _ _ hi]
    grind
  | case4 => simp only; omega

theorem update_counts (s : SackList) (pnMin pnMax now : Nat) (hc : CountsOk s) :
    CountsOk (updateSackList s pnMin pnMax now).1 := by
  have h := updateCore_counts s pnMin pnMax now hc
  unfold updateSackList
  simp only
  split
  · intro i hi
    unfold updateAckHorizon
    have hh := horizonLoop_counts now (updateCore s pnMin pnMax now).1.horizonDelay
      (updateCore s pnMin pnMax now).1.items (updateCore s pnMin pnMax now).1.ackHorizon
      (updateCore s pnMin pnMax now).1.rc0 (updateCore s pnMin pnMax now).1.rc1 i hi
    have := h i hi
    simp only at hh ⊢
    rw [hh.1, hh.2]
    omega
  · exact h

theorem ackOfAck_counts (s : SackList) (a b : Nat) (hc : CountsOk s) :
    CountsOk (processAckOfAckRange s a b) := by
  intro i hi
  have hci := hc i hi
  unfold processAckOfAckRange
  simp only
  split
  · exact hci
  · rename_i previous hsome
    have hdl := dropLast_append_getLast? hsome
    have hcb : ∀ p, s.items.countP p = (below s.items a).dropLast.countP p + [previous].countP p +
        (above s.items a).countP p := by
      intro p
      rw [countP_below_above p s.items a, hdl, List.countP_append]
      simp
    rw [hcb, hcb] at hci
    split
    · split
      · rename_i hn
        rw [hn] at hci
        split
        all_goals
          simp only [List.countP_append, List.countP_cons, List.countP_nil] at *
          grind
      · rename_i next rest hn
        rw [hn] at hci
        split
        · split
          · simp only [List.countP_append, List.countP_cons, List.countP_nil,
              uncount_apply _ _ _ hi] at *
            unfold MAX_ACK_RANGE_REPEAT at *
            grind
          · simp only [List.countP_append, List.countP_cons, List.countP_nil,
              uncount_apply _ _ _ hi] at *
            grind
        · rw [hcb, hcb, hn]; exact hci
    · rw [hcb, hcb]; exact hci

theorem countP_set (p : Item → Bool) (l : List Item) (k : Nat) (x y : Item) (h : l[k]? = some x) :
    ((l.set k y).countP p : Int) =
      l.countP p - (if p x then 1 else 0) + if p y then 1 else 0 := by
  induction l generalizing k with
  | nil => simp at h
  | cons a l ih =>
    cases k with
    | zero =>
      simp at h; subst h
      simp only [List.set_cons_zero, List.countP_cons]
      grind
    | succ k =>
      simp only [List.getElem?_cons_succ] at h
      simp only [List.set_cons_succ, List.countP_cons]
      have := ih k h
      grind

theorem recordSent_counts (s : SackList) (k : Nat) (opp : Bool) (hc : CountsOk s) :
    CountsOk (recordSent s k opp) := by
  intro i hi
  have hci := hc i hi
  unfold recordSent
  split
  · exact hci
  · rename_i x hx
    split
    all_goals
      simp only
      rw [countP_set _ _ _ _ _ hx, countP_set _ _ _ _ _ hx, recordSentCounts_apply _ _ _ hi]
      grind

end Picoquic.Sack
