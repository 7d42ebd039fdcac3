import Verif.Model.MultiPath

namespace Picoquic.MultiPath

/-! ## The available paths -/

/-- A path that can carry data: its address is validated, and it is not abandoned. -/
def Usable (p : PathX) : Prop := p.verified = true ∧ p.demoted = false

instance (p : PathX) : Decidable (Usable p) := by unfold Usable; infer_instance

theorem get_snoc {α : Type} (l : List α) (a b : α) (j : Nat) :
    (l ++ [a])[j]? = some b ↔ (l[j]? = some b ∨ (j = l.length ∧ b = a)) := by
  rw [List.getElem?_append]
  by_cases h : j < l.length
  · rw [if_pos h]
    constructor
    · exact Or.inl
    · rintro (h1 | ⟨h1, _⟩)
      · exact h1
      · omega
  · rw [if_neg h]
    have hn : l[j]? = none := List.getElem?_eq_none (by omega)
    rw [hn]
    by_cases he : j = l.length
    · subst he
      simp only [Nat.sub_self, List.getElem?_cons_zero, Option.some.injEq]
      constructor
      · intro h; exact Or.inr ⟨trivial, h.symm⟩
      · rintro (h | ⟨_, h⟩)
        · cases h
        · exact h.symm
    · obtain ⟨k, hk⟩ : ∃ k, j - l.length = k + 1 := ⟨j - l.length - 1, by omega⟩
      rw [hk]
      simp only [List.getElem?_cons_succ, List.getElem?_nil]
      constructor
      · intro h; cases h
      · rintro (h | ⟨h, _⟩)
        · cases h
        · exact absurd h he

/-- What the loop knows of the paths of one kind (`k`): the best one, if any. -/
structure Least (k : PathX → Prop) (pre : List PathX) (i : Option Nat) (b : Nat) : Prop where
  none : i = none → b = MAX ∧ ∀ p ∈ pre, ¬ k p
  some : ∀ j, i = some j → ∃ p, pre[j]? = some p ∧ k p ∧ p.retransmit = b ∧ ∀ q ∈ pre, k q → b ≤ q.retransmit

theorem least_skip {k : PathX → Prop} {pre : List PathX} {i : Option Nat} {b : Nat} (h : Least k pre i b) {p : PathX}
    (hp : ¬ k p) : Least k (pre ++ [p]) i b := by
  refine ⟨?_, ?_⟩
  · intro hi
    refine ⟨(h.none hi).1, ?_⟩
    intro q hq
    rcases List.mem_append.1 hq with hq | hq
    · exact (h.none hi).2 q hq
    · rw [List.mem_singleton] at hq; subst hq; exact hp
  · intro j hj
    obtain ⟨q, h1, h2, h3, h4⟩ := h.some j hj
    refine ⟨q, (get_snoc _ _ _ _).2 (Or.inl h1), h2, h3, ?_⟩
    intro r hr hk
    rcases List.mem_append.1 hr with hr | hr
    · exact h4 r hr hk
    · rw [List.mem_singleton] at hr; subst hr; exact absurd hk hp

theorem least_more {k : PathX → Prop} {pre : List PathX} {i : Option Nat} {b : Nat} (h : Least k pre i b) {p : PathX}
    (hi : i ≠ none) (hb : b ≤ p.retransmit) : Least k (pre ++ [p]) i b := by
  refine ⟨fun h0 => absurd h0 hi, ?_⟩
  intro j hj
  obtain ⟨q, h1, h2, h3, h4⟩ := h.some j hj
  refine ⟨q, (get_snoc _ _ _ _).2 (Or.inl h1), h2, h3, ?_⟩
  intro r hr hk
  rcases List.mem_append.1 hr with hr | hr
  · exact h4 r hr hk
  · rw [List.mem_singleton] at hr; subst hr; exact hb

theorem least_new {k : PathX → Prop} {pre : List PathX} {i : Option Nat} {b : Nat} (h : Least k pre i b) {p : PathX}
    (hk : k p) (hb : i = none ∨ p.retransmit < b) : Least k (pre ++ [p]) (some pre.length) p.retransmit := by
  refine ⟨fun h0 => (by cases h0), ?_⟩
  intro j hj
  injection hj with hj
  subst hj
  refine ⟨p, (get_snoc _ _ _ _).2 (Or.inr ⟨rfl, rfl⟩), hk, rfl, ?_⟩
  intro r hr hkr
  rcases List.mem_append.1 hr with hr | hr
  · rcases hb with hb | hb
    · exact absurd hkr ((h.none hb).2 r hr)
    · cases hi : i with
      | none => exact absurd hkr ((h.none hi).2 r hr)
      | some j =>
        obtain ⟨_, _, _, _, h4⟩ := h.some j hi
        exact Nat.le_trans (Nat.le_of_lt hb) (h4 r hr hkr)
  · rw [List.mem_singleton] at hr; subst hr; exact Nat.le_refl _

/-- What the loop knows. -/
structure AvailOk (pre : List PathX) (s : Avail) : Prop where
  normal : Least (fun p => Usable p ∧ p.backup = false) pre s.next s.best
  spare : Least (fun p => Usable p ∧ p.backup = true) pre s.backup s.bestBackup
  nb : s.next = none → s.nb = 0

theorem availStep_ok {pre : List PathX} {s : Avail} (h : AvailOk pre s) {p : PathX} (hp : p.retransmit < MAX) :
    AvailOk (pre ++ [p]) (availStep s pre.length p) := by
  unfold availStep
  by_cases hu : p.verified = true ∧ p.demoted = false
  · rw [if_pos hu]
    cases hb : p.backup with
    | true =>
      simp only [if_true]
      have hn : ¬ (Usable p ∧ p.backup = false) := by rw [hb]; rintro ⟨_, h⟩; cases h
      by_cases hc : s.backup = none ∨ p.retransmit < s.bestBackup
      · rw [if_pos hc]
        exact ⟨least_skip h.normal hn, least_new h.spare ⟨hu, hb⟩ hc, h.nb⟩
      · rw [if_neg hc]
        have h1 : s.backup ≠ none := fun h0 => hc (Or.inl h0)
        have h2 : s.bestBackup ≤ p.retransmit := Nat.le_of_not_lt (fun h0 => hc (Or.inr h0))
        exact ⟨least_skip h.normal hn, least_more h.spare h1 h2, h.nb⟩
    | false =>
      simp only [Bool.false_eq_true, if_false]
      have hn : ¬ (Usable p ∧ p.backup = true) := by rw [hb]; rintro ⟨_, h⟩; cases h
      by_cases hc : p.retransmit < s.best
      · rw [if_pos hc]
        exact ⟨least_new h.normal ⟨hu, hb⟩ (Or.inr hc), least_skip h.spare hn, fun h0 => by cases h0⟩
      · rw [if_neg hc]
        have h1 : s.next ≠ none := by
          intro h0
          rw [(h.normal.none h0).1] at hc
          exact hc hp
        exact ⟨least_more h.normal h1 (Nat.le_of_not_lt hc), least_skip h.spare hn, fun h0 => absurd h0 h1⟩
  · rw [if_neg hu]
    exact ⟨least_skip h.normal (fun h0 => hu h0.1), least_skip h.spare (fun h0 => hu h0.1), h.nb⟩

theorem availLoop_ok (ps : List PathX) : ∀ (pre : List PathX) (s : Avail), AvailOk pre s →
    (∀ p ∈ ps, p.retransmit < MAX) → AvailOk (pre ++ ps) (availLoop s pre.length ps) := by
  induction ps with
  | nil => intro pre s h _; rw [List.append_nil]; exact h
  | cons p ps ih =>
    intro pre s h hp
    have h1 := ih (pre ++ [p]) _ (availStep_ok h (hp p (by simp))) (fun q hq => hp q (List.mem_cons_of_mem _ hq))
    rw [List.append_assoc, List.length_append] at h1
    exact h1

theorem avail_ok (ps : List PathX) (h : ∀ p ∈ ps, p.retransmit < MAX) : AvailOk ps (availLoop {} 0 ps) := by
  have := availLoop_ok ps [] {} ⟨⟨fun _ => ⟨rfl, by simp⟩, fun _ h => by cases h⟩,
    ⟨fun _ => ⟨rfl, by simp⟩, fun _ h => by cases h⟩, fun _ => rfl⟩ h
  exact this

/-! ## The order of the paths -/

/-- A path that the loop looks at. -/
def Cand (m : Nat) (p : PathX) : Prop := Usable p ∧ p.backup = false ∧ p.retransmit ≤ m

/-- The path with the oldest use, among those of a kind. -/
structure Oldest (k : PathX → Prop) (pre : List PathX) (i : Option Nat) (b : Nat) : Prop where
  none : i = none → b = MAX ∧ ∀ p ∈ pre, ¬ k p
  some : ∀ j, i = some j → ∃ p, pre[j]? = some p ∧ k p ∧ p.lastSent = b ∧ ∀ q ∈ pre, k q → b ≤ q.lastSent

theorem oldest_skip {k : PathX → Prop} {pre : List PathX} {i : Option Nat} {b : Nat} (h : Oldest k pre i b) {p : PathX}
    (hp : ¬ k p) : Oldest k (pre ++ [p]) i b := by
  refine ⟨?_, ?_⟩
  · intro hi
    refine ⟨(h.none hi).1, ?_⟩
    intro q hq
    rcases List.mem_append.1 hq with hq | hq
    · exact (h.none hi).2 q hq
    · rw [List.mem_singleton] at hq; subst hq; exact hp
  · intro j hj
    obtain ⟨q, h1, h2, h3, h4⟩ := h.some j hj
    refine ⟨q, (get_snoc _ _ _ _).2 (Or.inl h1), h2, h3, ?_⟩
    intro r hr hk
    rcases List.mem_append.1 hr with hr | hr
    · exact h4 r hr hk
    · rw [List.mem_singleton] at hr; subst hr; exact absurd hk hp

theorem oldest_add {k : PathX → Prop} {pre : List PathX} {i : Option Nat} {b : Nat} (h : Oldest k pre i b) {p : PathX}
    (hk : k p) (hp : p.lastSent < MAX) :
    Oldest k (pre ++ [p]) (if p.lastSent < b then some pre.length else i) (if p.lastSent < b then p.lastSent else b) := by
  by_cases hb : p.lastSent < b
  · rw [if_pos hb, if_pos hb]
    refine ⟨fun h0 => (by cases h0), ?_⟩
    intro j hj
    injection hj with hj
    subst hj
    refine ⟨p, (get_snoc _ _ _ _).2 (Or.inr ⟨rfl, rfl⟩), hk, rfl, ?_⟩
    intro r hr hkr
    rcases List.mem_append.1 hr with hr | hr
    · cases hi : i with
      | none => exact absurd hkr ((h.none hi).2 r hr)
      | some j =>
        obtain ⟨_, _, _, _, h4⟩ := h.some j hi
        exact Nat.le_trans (Nat.le_of_lt hb) (h4 r hr hkr)
    · rw [List.mem_singleton] at hr; subst hr; exact Nat.le_refl _
  · rw [if_neg hb, if_neg hb]
    refine ⟨?_, ?_⟩
    · intro hi
      rw [(h.none hi).1] at hb
      exact absurd hp hb
    · intro j hj
      obtain ⟨q, h1, h2, h3, h4⟩ := h.some j hj
      refine ⟨q, (get_snoc _ _ _ _).2 (Or.inl h1), h2, h3, ?_⟩
      intro r hr hk
      rcases List.mem_append.1 hr with hr | hr
      · exact h4 r hr hk
      · rw [List.mem_singleton] at hr; subst hr; exact Nat.le_of_not_lt hb

/-- What the loop knows. -/
structure SortOk (c : Cond) (m : Nat) (pre : List PathX) (s : Sorted) : Prop where
  cwin : Oldest (fun p => Cand m p ∧ c.paced p.id = true ∧ c.room p.id = true) pre s.cwin s.lastCwin
  pacing : Oldest (fun p => Cand m p ∧ c.paced p.id = true) pre s.pacing s.lastPacing
  affinity : ∀ j, s.affinity = some j → ∃ p, pre[j]? = some p ∧ (Cand m p ∧ c.paced p.id = true ∧ c.room p.id = true) ∧
    (c.affinity = some p.id ∨ c.datagram p.id = true)
  iMin : ∀ j p, s.iMin = some (j, p) → pre[j]? = some p ∧ Cand m p ∧ (s.minOk = true → c.paced p.id = true)
  noMin : s.iMin = none → s.minOk = false

theorem get_pre {α : Type} {pre : List α} {a b : α} {j : Nat} (h : pre[j]? = some b) : (pre ++ [a])[j]? = some b :=
  (get_snoc _ _ _ _).2 (Or.inl h)

theorem sortStep_ok {c : Cond} {m : Nat} {pre : List PathX} {s : Sorted} (h : SortOk c m pre s) {p : PathX}
    (hp : p.lastSent < MAX) : SortOk c m (pre ++ [p]) (sortStep c m s pre.length p) := by
  unfold sortStep
  by_cases hc : p.backup = true ∨ p.verified = false ∨ p.demoted = true ∨ p.retransmit > m
  · rw [if_pos hc]
    have hn : ¬ Cand m p := by
      rintro ⟨⟨h1, h2⟩, h3, h4⟩
      rcases hc with hc | hc | hc | hc
      · rw [h3] at hc; cases hc
      · rw [h1] at hc; cases hc
      · rw [h2] at hc; cases hc
      · omega
    refine ⟨oldest_skip h.cwin (fun h0 => hn h0.1), oldest_skip h.pacing (fun h0 => hn h0.1), ?_, ?_, h.noMin⟩
    · intro j hj
      obtain ⟨q, h1, h2⟩ := h.affinity j hj
      exact ⟨q, get_pre h1, h2⟩
    · intro j q hj
      obtain ⟨h1, h2⟩ := h.iMin j q hj
      exact ⟨get_pre h1, h2⟩
  · rw [if_neg hc]
    have hk : Cand m p := by
      have h1 : p.backup = false := by
        cases hb : p.backup with
        | false => rfl
        | true => exact absurd (Or.inl hb) hc
      have h2 : p.verified = true := by
        cases hb : p.verified with
        | true => rfl
        | false => exact absurd (Or.inr (Or.inl hb)) hc
      have h3 : p.demoted = false := by
        cases hb : p.demoted with
        | false => rfl
        | true => exact absurd (Or.inr (Or.inr (Or.inl hb))) hc
      exact ⟨⟨h2, h3⟩, h1, Nat.le_of_not_lt (fun h0 => hc (Or.inr (Or.inr (Or.inr h0))))⟩
    have hlast : (pre ++ [p])[pre.length]? = some p := (get_snoc _ _ _ _).2 (Or.inr ⟨rfl, rfl⟩)
    -- the least delay
    have hm : ∃ im ok, minStep s pre.length p = { s with iMin := im, minOk := ok } ∧ im ≠ none ∧
        ∀ j q, im = some (j, q) → (pre ++ [p])[j]? = some q ∧ Cand m q ∧ (ok = true → c.paced q.id = true) := by
      unfold minStep
      cases hi : s.iMin with
      | none =>
        refine ⟨some (pre.length, p), false, rfl, by simp, ?_⟩
        intro j q hj
        injection hj with hj
        injection hj with h1 h2
        subst h1; subst h2
        exact ⟨hlast, hk, fun h0 => by cases h0⟩
      | some mm =>
        dsimp only
        split
        · refine ⟨some (pre.length, p), false, rfl, by simp, ?_⟩
          intro j q hj
          injection hj with hj
          injection hj with h1 h2
          subst h1; subst h2
          exact ⟨hlast, hk, fun h0 => by cases h0⟩
        · refine ⟨s.iMin, s.minOk, rfl, by rw [hi]; simp, ?_⟩
          intro j q hj
          obtain ⟨h1, h2⟩ := h.iMin j q hj
          exact ⟨get_pre h1, h2⟩
    obtain ⟨im, ok, hms, hin, him⟩ := hm
    rw [hms]
    dsimp only
    have haff : ∀ j, s.affinity = some j → ∃ q, (pre ++ [p])[j]? = some q ∧
        (Cand m q ∧ c.paced q.id = true ∧ c.room q.id = true) ∧ (c.affinity = some q.id ∨ c.datagram q.id = true) := by
      intro j hj
      obtain ⟨q, h1, h2⟩ := h.affinity j hj
      exact ⟨q, get_pre h1, h2⟩
    by_cases hpc : c.paced p.id = true
    · rw [if_pos hpc]
      -- pacing
      have hps : ∃ ok', pacingStep { s with iMin := im, minOk := ok } pre.length p =
          { s with iMin := im, minOk := ok', lastPacing := if p.lastSent < s.lastPacing then p.lastSent else s.lastPacing,
                   pacing := if p.lastSent < s.lastPacing then some pre.length else s.pacing } ∧
          ∀ j q, im = some (j, q) → (ok' = true → c.paced q.id = true) := by
        unfold pacingStep
        dsimp only
        by_cases hb : p.lastSent < s.lastPacing
        · simp only [if_pos hb]
          refine ⟨_, rfl, ?_⟩
          intro j q hj hok
          by_cases hjj : im.map (fun m => m.1) = some pre.length
          · rw [hj] at hjj
            simp only [Option.map_some, Option.some.injEq] at hjj
            obtain ⟨h1, _, _⟩ := him j q hj
            rw [hjj, hlast] at h1
            injection h1 with h1
            rw [← h1]
            exact hpc
          · rw [if_neg hjj] at hok
            exact (him j q hj).2.2 hok
        · simp only [if_neg hb]
          exact ⟨ok, rfl, fun j q hj hok => (him j q hj).2.2 hok⟩
      obtain ⟨ok', hps, hok'⟩ := hps
      rw [hps]
      have hpac := oldest_add h.pacing (p := p) ⟨hk, hpc⟩ hp
      have himin : ∀ j q, im = some (j, q) → (pre ++ [p])[j]? = some q ∧ Cand m q ∧ (ok' = true → c.paced q.id = true) :=
        fun j q hj => ⟨(him j q hj).1, (him j q hj).2.1, hok' j q hj⟩
      by_cases hr : c.room p.id = true
      · rw [if_pos hr]
        have hcw := oldest_add h.cwin (p := p) ⟨hk, hpc, hr⟩ hp
        have hcs : ∀ t : Sorted, cwinStep t pre.length p =
            { t with lastCwin := if p.lastSent < t.lastCwin then p.lastSent else t.lastCwin,
                     cwin := if p.lastSent < t.lastCwin then some pre.length else t.cwin } := by
          intro t
          unfold cwinStep
          split <;> rfl
        rw [hcs]
        unfold affinityStep
        dsimp only
        by_cases ha : s.affinity = none ∧ (c.affinity = some p.id ∨ c.datagram p.id = true)
        · rw [if_pos ha]
          refine ⟨hcw, hpac, ?_, himin, fun h0 => absurd h0 hin⟩
          intro j hj
          injection hj with hj
          subst hj
          exact ⟨p, hlast, ⟨hk, hpc, hr⟩, ha.2⟩
        · rw [if_neg ha]
          exact ⟨hcw, hpac, haff, himin, fun h0 => absurd h0 hin⟩
      · rw [if_neg hr]
        exact ⟨oldest_skip h.cwin (fun h0 => hr h0.2.2), hpac, haff, himin, fun h0 => absurd h0 hin⟩
    · rw [if_neg hpc]
      exact ⟨oldest_skip h.cwin (fun h0 => hpc h0.2.1), oldest_skip h.pacing (fun h0 => hpc h0.2), haff, him,
        fun h0 => absurd h0 hin⟩

theorem sortLoop_ok {c : Cond} {m : Nat} (ps : List PathX) : ∀ (pre : List PathX) (s : Sorted), SortOk c m pre s →
    (∀ p ∈ ps, p.lastSent < MAX) → SortOk c m (pre ++ ps) (sortLoop c m s pre.length ps) := by
  induction ps with
  | nil => intro pre s h _; rw [List.append_nil]; exact h
  | cons p ps ih =>
    intro pre s h hp
    have h1 := ih (pre ++ [p]) _ (sortStep_ok h (hp p (by simp))) (fun q hq => hp q (List.mem_cons_of_mem _ hq))
    rw [List.append_assoc, List.length_append] at h1
    exact h1

theorem sort_ok (c : Cond) (m : Nat) (ps : List PathX) (h : ∀ p ∈ ps, p.lastSent < MAX) :
    SortOk c m ps (sortLoop c m {} 0 ps) :=
  sortLoop_ok ps [] {} ⟨⟨fun _ => ⟨rfl, by simp⟩, fun _ h => by cases h⟩,
    ⟨fun _ => ⟨rfl, by simp⟩, fun _ h => by cases h⟩, fun _ h => (by cases h), fun _ _ h => (by cases h), fun _ => rfl⟩ h

/-- The choice is a path that pacing allows, or there is none and it is path 0. -/
theorem sortChoice_ok {c : Cond} {m : Nat} {ps : List PathX} {s : Sorted} (h : SortOk c m ps s) :
    (∃ p, ps[sortChoice c s]? = some p ∧ Cand m p ∧ c.paced p.id = true) ∨
    (sortChoice c s = 0 ∧ ∀ p ∈ ps, Cand m p → c.paced p.id = false) := by
  have rest : (∃ p, ps[(match s.cwin with
      | some i => s.affinity.getD i
      | none => match s.pacing with | some i => i | none => 0)]? = some p ∧ Cand m p ∧ c.paced p.id = true) ∨
      ((match s.cwin with
      | some i => s.affinity.getD i
      | none => match s.pacing with | some i => i | none => 0) = 0 ∧ ∀ p ∈ ps, Cand m p → c.paced p.id = false) := by
    cases hcw : s.cwin with
    | some i =>
      left
      dsimp only
      cases ha : s.affinity with
      | some j =>
        obtain ⟨p, h1, h2, _⟩ := h.affinity j ha
        exact ⟨p, h1, h2.1, h2.2.1⟩
      | none =>
        obtain ⟨p, h1, h2, _⟩ := h.cwin.some i hcw
        exact ⟨p, h1, h2.1, h2.2.1⟩
    | none =>
      dsimp only
      cases hp : s.pacing with
      | some i =>
        left
        obtain ⟨p, h1, h2, _⟩ := h.pacing.some i hp
        exact ⟨p, h1, h2⟩
      | none =>
        right
        refine ⟨rfl, ?_⟩
        intro p hpp hk
        cases hc : c.paced p.id with
        | false => rfl
        | true => exact absurd ⟨hk, hc⟩ ((h.pacing.none hp).2 p hpp)
  unfold sortChoice
  cases hi : s.iMin with
  | none => exact rest
  | some mm =>
    cases ha : (c.ackNeeded && s.minOk) with
    | false => exact rest
    | true =>
      left
      obtain ⟨j, p⟩ := mm
      obtain ⟨h1, h2, h3⟩ := h.iMin j p hi
      simp only [Bool.and_eq_true] at ha
      exact ⟨p, h1, h2, h3 ha.2⟩

/-- Without acknowledgement and affinity, it is the one that was used least recently. -/
theorem sortChoice_oldest {c : Cond} {m : Nat} {ps : List PathX} {s : Sorted} (h : SortOk c m ps s)
    (hack : c.ackNeeded = false) (haff : c.affinity = none) (hd : ∀ p ∈ ps, c.datagram p.id = false)
    (hex : ∃ p ∈ ps, Cand m p ∧ c.paced p.id = true ∧ c.room p.id = true) :
    ∃ p, ps[sortChoice c s]? = some p ∧ (Cand m p ∧ c.paced p.id = true ∧ c.room p.id = true) ∧
      ∀ q ∈ ps, Cand m q → c.paced q.id = true → c.room q.id = true → p.lastSent ≤ q.lastSent := by
  have hA : s.affinity = none := by
    cases ha : s.affinity with
    | none => rfl
    | some j =>
      obtain ⟨p, h1, _, h3⟩ := h.affinity j ha
      rcases h3 with h3 | h3
      · rw [haff] at h3; cases h3
      · rw [hd p (List.mem_of_getElem? h1)] at h3; cases h3
  have hs : sortChoice c s = (match s.cwin with
      | some i => i
      | none => match s.pacing with | some i => i | none => 0) := by
    unfold sortChoice
    rw [hack, hA]
    cases s.iMin <;> rfl
  rw [hs]
  cases hcw : s.cwin with
  | none =>
    obtain ⟨p, hp, hk⟩ := hex
    exact absurd hk ((h.cwin.none hcw).2 p hp)
  | some i =>
    obtain ⟨p, h1, h2, h3, h4⟩ := h.cwin.some i hcw
    exact ⟨p, h1, h2, fun q hq a b d => h3 ▸ h4 q hq ⟨a, b, d⟩⟩

/-! ## Quiet calls -/

/-- No path needs a control message or a probe, and no challenge failed. -/
def Quiet (c : Cond) (ps : List PathX) : Prop :=
  ∀ p ∈ ps, p.failed = false ∧ c.control p.id = false ∧
    ¬ (p.verified = true ∧ p.retransmit > 0 ∧ c.ready = true ∧ c.idle p.id = true)

theorem controlLoop_quiet {multi : Bool} {now : Nat} {c : Cond} {ps : List PathX} (h : Quiet c ps) (k : Nat) :
    ∀ i, controlLoop multi now c k i ps = (ps, none) := by
  induction k with
  | zero => intro i; rfl
  | succ k ih =>
    intro i
    unfold controlLoop
    cases hp : ps[i]? with
    | none => rfl
    | some p =>
      obtain ⟨h1, h2, h3⟩ := h p (List.mem_of_getElem? hp)
      dsimp only
      by_cases hd : p.demoted = true
      · rw [if_pos hd]; exact ih _
      · rw [if_neg hd, if_neg (by rw [h1]; rintro ⟨_, h, _⟩; cases h), if_neg (by rw [h2]; simp), if_neg h3]
        exact ih _

/-! ## Connection IDs -/

/-- A path that is not abandoned has a connection ID; counters are below the largest value. -/
structure PathsOk (ps : List PathX) : Prop where
  cid : ∀ p ∈ ps, p.demoted = false → p.hasCid = true
  bound : ∀ p ∈ ps, p.retransmit < MAX ∧ p.lastSent < MAX

theorem mem_modify {l : List PathX} {j : Nat} {f : PathX → PathX} {q : PathX} (h : q ∈ l.modify j f) :
    q ∈ l ∨ ∃ a, l[j]? = some a ∧ q = f a := by
  obtain ⟨n, hn⟩ := List.mem_iff_getElem?.1 h
  rw [List.getElem?_modify] at hn
  cases hl : l[n]? with
  | none => rw [hl] at hn; cases hn
  | some a =>
    rw [hl] at hn
    replace hn : some (if j = n then f a else a) = some q := hn
    by_cases hj : j = n
    · rw [if_pos hj] at hn
      subst hj
      injection hn with hn
      exact Or.inr ⟨a, hl, hn.symm⟩
    · rw [if_neg hj] at hn
      injection hn with hn
      subst hn
      exact Or.inl (List.mem_of_getElem? hl)

/-- What `demote` does to the list. -/
theorem demote_cases (multi : Bool) (now : Nat) (ps : List PathX) (i : Nat) :
    demote multi now ps i = ps ∨
    ∃ p p', ps[i]? = some p ∧ p.demoted = false ∧
      p' = { p with demoted := true, demotionTime := p'.demotionTime } ∧
      (demote multi now ps i = ps.set i p' ∨
       demote multi now ps i = ps.set i { p' with hasCid := false, abandonSent := true } ∨
       (i = 0 ∧ ∃ b l, ps = p :: b :: l ∧ (demote multi now ps i = b :: p' :: l ∨
          demote multi now ps i = b :: { p' with hasCid := false, abandonSent := true } :: l))) := by
  unfold demote
  cases hp : ps[i]? with
  | none => exact Or.inl rfl
  | some p =>
    dsimp only
    cases hd : p.demoted with
    | true => left; rfl
    | false =>
      right
      simp only [Bool.false_eq_true, if_false]
      generalize ht : now + 3 * (if p.timer < 1000000 ∧ multi = false then 1000000 else p.timer) = t
      refine ⟨p, { p with demoted := true, demotionTime := t }, rfl, hd, rfl, ?_⟩
      cases multi with
      | false => left; simp
      | true =>
        simp only [if_true]
        have hlt : i < ps.length := (List.getElem?_eq_some_iff.1 hp).1
        cases hsw : (decide (i = 0) && decide ((ps.set i { p with demoted := true, demotionTime := t }).length > 1) &&
            p.hasCid) with
        | false =>
          simp only [Bool.false_eq_true, if_false]
          by_cases hi : i = 0
          · left; rw [if_pos hi]
          · rw [if_neg hi]
            cases ha : p.abandonSent with
            | true => left; simp
            | false =>
              right; left
              simp only [Bool.false_eq_true, if_false]
              apply List.ext_getElem?
              intro n
              rw [List.getElem?_modify, List.getElem?_set, List.getElem?_set]
              by_cases hn : i = n
              · subst hn; simp [hlt]
              · simp [hn]
        | true =>
          simp only [Bool.and_eq_true, decide_eq_true_eq] at hsw
          obtain ⟨⟨hi, hl⟩, _⟩ := hsw
          subst hi
          right; right
          refine ⟨rfl, ?_⟩
          match ps, hp, hl with
          | a :: b :: l, hp, _ =>
            simp only [List.getElem?_cons_zero, Option.some.injEq] at hp
            subst hp
            refine ⟨b, l, rfl, ?_⟩
            cases ha : a.abandonSent with
            | true => left; simp
            | false => right; simp [List.modify]
          | [a], _, hl => simp at hl

theorem demote_ok {multi : Bool} {now : Nat} {ps : List PathX} (h : PathsOk ps) (i : Nat) :
    PathsOk (demote multi now ps i) := by
  rcases demote_cases multi now ps i with he | ⟨p, p', hp, hd, hp', hc⟩
  · rw [he]; exact h
  · have hpm := List.mem_of_getElem? hp
    have hb := h.bound p hpm
    have good : ∀ q : PathX, q ∈ ps ∨ (q.demoted = true ∧ q.retransmit = p.retransmit ∧ q.lastSent = p.lastSent) →
        (q.demoted = false → q.hasCid = true) ∧ q.retransmit < MAX ∧ q.lastSent < MAX := by
      intro q hq
      rcases hq with hq | ⟨h1, h2, h3⟩
      · exact ⟨h.cid q hq, h.bound q hq⟩
      · exact ⟨fun h0 => (by rw [h1] at h0; cases h0), by rw [h2]; exact hb.1, by rw [h3]; exact hb.2⟩
    have hall : ∀ q ∈ demote multi now ps i, q ∈ ps ∨
        (q.demoted = true ∧ q.retransmit = p.retransmit ∧ q.lastSent = p.lastSent) := by
      intro q hq
      rcases hc with hc | hc | ⟨_, b, l, hps, hc⟩
      · rw [hc] at hq
        rcases List.mem_or_eq_of_mem_set hq with hq | hq
        · exact Or.inl hq
        · right; rw [hq, hp']; exact ⟨rfl, rfl, rfl⟩
      · rw [hc] at hq
        rcases List.mem_or_eq_of_mem_set hq with hq | hq
        · exact Or.inl hq
        · right; rw [hq, hp']; exact ⟨rfl, rfl, rfl⟩
      · rcases hc with hc | hc
        · rw [hc] at hq
          rcases List.mem_cons.1 hq with hq | hq
          · left; rw [hps, hq]; simp
          · rcases List.mem_cons.1 hq with hq | hq
            · right; rw [hq, hp']; exact ⟨rfl, rfl, rfl⟩
            · left; rw [hps]; simp [hq]
        · rw [hc] at hq
          rcases List.mem_cons.1 hq with hq | hq
          · left; rw [hps, hq]; simp
          · rcases List.mem_cons.1 hq with hq | hq
            · right; rw [hq, hp']; exact ⟨rfl, rfl, rfl⟩
            · left; rw [hps]; simp [hq]
    exact ⟨fun q hq => (good q (hall q hq)).1, fun q hq => (good q (hall q hq)).2⟩

theorem abandon_ok {now : Nat} {ps : List PathX} (h : PathsOk ps) (i : Nat) : PathsOk (abandon now ps i) := by
  unfold abandon
  split
  · exact h
  · exact demote_ok h i

theorem controlLoop_ok {multi : Bool} {now : Nat} {c : Cond} (k : Nat) : ∀ (i : Nat) (ps : List PathX), PathsOk ps →
    PathsOk (controlLoop multi now c k i ps).1 ∧
    ∀ j, (controlLoop multi now c k i ps).2 = some j →
      ∃ p, (controlLoop multi now c k i ps).1[j]? = some p ∧ p.demoted = false := by
  induction k with
  | zero => intro i ps h; exact ⟨h, fun j hj => by cases hj⟩
  | succ k ih =>
    intro i ps h
    unfold controlLoop
    cases hp : ps[i]? with
    | none => exact ⟨h, fun j hj => by cases hj⟩
    | some p =>
      dsimp only
      by_cases hd : p.demoted = true
      · rw [if_pos hd]; exact ih _ _ h
      · rw [if_neg hd]
        split
        · exact ih _ _ (abandon_ok h i)
        · split
          · exact ⟨h, fun j hj => by injection hj with hj; subst hj; exact ⟨p, hp, by simpa using hd⟩⟩
          · split
            · exact ⟨h, fun j hj => by injection hj with hj; subst hj; exact ⟨p, hp, by simpa using hd⟩⟩
            · exact ih _ _ h

theorem verify_ok {ps : List PathX} (h : PathsOk ps) : PathsOk (verifyAvailable ps).1 ∧
    ∀ j, (verifyAvailable ps).2.1 = some j →
      ∃ p, (verifyAvailable ps).1[j]? = some p ∧ p.demoted = false := by
  have ha := avail_ok ps (fun p hp => (h.bound p hp).1)
  unfold verifyAvailable
  dsimp only
  by_cases hc : (availLoop {} 0 ps).best > 0 ∧ (availLoop {} 0 ps).bestBackup < (availLoop {} 0 ps).best
  · rw [if_pos hc]
    dsimp only
    refine ⟨⟨?_, ?_⟩, ?_⟩
    · intro q hq hd
      rcases mem_modify hq with hq | ⟨a, hla, hq⟩
      · exact h.cid q hq hd
      · subst hq; exact h.cid a (List.mem_of_getElem? hla) hd
    · intro q hq
      rcases mem_modify hq with hq | ⟨a, hla, hq⟩
      · exact h.bound q hq
      · subst hq; exact h.bound a (List.mem_of_getElem? hla)
    · intro j hj
      obtain ⟨p, hp, hk, _⟩ := ha.spare.some j hj
      refine ⟨{ p with backup := false }, ?_, hk.1.2⟩
      rw [hj, List.getElem?_modify, hp]
      simp
  · rw [if_neg hc]
    refine ⟨h, ?_⟩
    intro j hj
    obtain ⟨p, hp, hk, _⟩ := ha.normal.some j hj
    exact ⟨p, hp, hk.1.2⟩

/-- The chosen path is not abandoned, or it is path 0. -/
theorem select_ok {multi : Bool} {now : Nat} {c : Cond} {ps : List PathX} (h : PathsOk ps) :
    PathsOk (select multi now c ps).1 ∧
    ((select multi now c ps).2 = 0 ∨
      ∃ p, (select multi now c ps).1[(select multi now c ps).2]? = some p ∧ p.demoted = false) := by
  obtain ⟨h1, h2⟩ := controlLoop_ok (multi := multi) (now := now) (c := c) ps.length 0 ps h
  unfold select
  cases hl : controlLoop multi now c ps.length 0 ps with
  | mk ps1 o =>
    rw [hl] at h1 h2
    cases o with
    | some i => exact ⟨h1, Or.inr (h2 i rfl)⟩
    | none =>
      dsimp only at h1 ⊢
      by_cases h0 : ps1.length = 1
      · rw [if_pos h0]; exact ⟨h1, Or.inl rfl⟩
      · rw [if_neg h0]
        obtain ⟨hv1, hv2⟩ := verify_ok h1
        by_cases hb : (verifyAvailable ps1).2.2.1 < 2
        · rw [if_pos hb]
          refine ⟨hv1, ?_⟩
          dsimp only
          cases hn : (verifyAvailable ps1).2.1 with
          | none => exact Or.inl rfl
          | some j => exact Or.inr (hv2 j hn)
        · rw [if_neg hb]
          refine ⟨hv1, ?_⟩
          dsimp only
          have hs := sort_ok c (verifyAvailable ps1).2.2.2 (verifyAvailable ps1).1 (fun p hp => (hv1.bound p hp).2)
          rcases sortChoice_ok hs with ⟨p, hp, hk, _⟩ | ⟨hz, _⟩
          · exact Or.inr ⟨p, hp, hk.1.2⟩
          · exact Or.inl hz

theorem swapAt_mem {ps : List PathX} {i j : Nat} {q : PathX} (h : q ∈ swapAt ps i j) : q ∈ ps := by
  unfold swapAt at h
  split at h
  · rename_i p r hp hr
    rcases List.mem_or_eq_of_mem_set h with h | h
    · rcases List.mem_or_eq_of_mem_set h with h | h
      · exact h
      · rw [h]; exact List.mem_of_getElem? hr
    · rw [h]; exact List.mem_of_getElem? hp
  · exact h

theorem cleanLoop_ok {multi : Bool} {now : Nat} {stale : Nat → Bool} (k : Nat) : ∀ (cur good : Nat) (ps : List PathX),
    PathsOk ps → PathsOk (cleanLoop multi now stale k cur good ps).1 := by
  induction k with
  | zero => intro _ _ ps h; exact h
  | succ k ih =>
    intro cur good ps h
    unfold cleanLoop
    split
    · exact h
    · rename_i p hp
      have hd : PathsOk (if p.demoted = false ∧ (p.failed = true ∨ (cur > 0 ∧ p.verified = true ∧ stale p.id = true)) then
          demote multi now ps cur else ps) := by
        split
        · exact demote_ok h cur
        · exact h
      dsimp only
      split
      · exact hd
      · split
        · exact ih _ _ _ hd
        · apply ih
          split
          · exact ⟨fun q hq => hd.cid q (swapAt_mem hq), fun q hq => hd.bound q (swapAt_mem hq)⟩
          · exact hd

theorem clean_ok {multi : Bool} {now : Nat} {stale : Nat → Bool} {ps : List PathX} (h : PathsOk ps) :
    PathsOk (clean multi now stale ps) := by
  unfold clean
  dsimp only
  have hl := cleanLoop_ok (multi := multi) (now := now) (stale := stale)
    (ps.length - if multi = true ∧ ps.length > 1 then 0 else 1) (if multi = true ∧ ps.length > 1 then 0 else 1)
    (if multi = true ∧ ps.length > 1 then 0 else 1) ps h
  exact ⟨fun q hq => hl.cid q (List.mem_of_mem_take hq), fun q hq => hl.bound q (List.mem_of_mem_take hq)⟩

/-- The measures are 64-bit values that are not the largest. -/
def OpOk : PathOp → Prop
  | .measure _ r _ s _ => r < MAX ∧ s < MAX
  | _ => True

theorem map_ok {ps : List PathX} (h : PathsOk ps) (f : PathX → PathX)
    (hf : ∀ p, (f p).demoted = p.demoted ∧ (f p).hasCid = p.hasCid)
    (hb : ∀ p, p.retransmit < MAX ∧ p.lastSent < MAX → (f p).retransmit < MAX ∧ (f p).lastSent < MAX) :
    PathsOk (ps.map f) := by
  constructor
  · intro q hq hd
    obtain ⟨p, hp, rfl⟩ := List.mem_map.1 hq
    rw [(hf p).2]
    rw [(hf p).1] at hd
    exact h.cid p hp hd
  · intro q hq
    obtain ⟨p, hp, rfl⟩ := List.mem_map.1 hq
    exact hb p (h.bound p hp)

theorem stepOp_ok {ps : List PathX} (h : PathsOk ps) {op : PathOp} (ho : OpOk op) : PathsOk (stepOp ps op) := by
  cases op with
  | peerAbandons id now =>
    unfold stepOp
    dsimp only
    split
    · exact h
    · exact demote_ok h _
  | abandons id now =>
    unfold stepOp
    dsimp only
    split
    · exact h
    · exact abandon_ok h _
  | add id =>
    unfold stepOp
    constructor
    · intro q hq hd
      rcases List.mem_append.1 hq with hq | hq
      · exact h.cid q hq hd
      · rw [List.mem_singleton] at hq; subst hq; rfl
    · intro q hq
      rcases List.mem_append.1 hq with hq | hq
      · exact h.bound q hq
      · rw [List.mem_singleton] at hq; subst hq; exact ⟨(by decide : 0 < MAX), (by decide : 0 < MAX)⟩
  | status id b =>
    refine map_ok h _ ?_ ?_
    · intro p; split <;> exact ⟨rfl, rfl⟩
    · intro p hp; split <;> exact hp
  | validate id v f =>
    refine map_ok h _ ?_ ?_
    · intro p; split <;> exact ⟨rfl, rfl⟩
    · intro p hp; split <;> exact hp
  | measure id r t s w =>
    refine map_ok h _ ?_ ?_
    · intro p; split <;> exact ⟨rfl, rfl⟩
    · intro p hp; split
      · exact ho
      · exact hp
  | clean now stale => exact clean_ok h
  | send now c => exact (select_ok h).1

theorem runOps_ok (ops : List PathOp) : ∀ ps, PathsOk ps → (∀ o ∈ ops, OpOk o) → PathsOk (runOps ps ops) := by
  induction ops with
  | nil => intro ps h _; exact h
  | cons o ops ih =>
    intro ps h ho
    exact ih _ (stepOp_ok h (ho o (by simp))) (fun x hx => ho x (List.mem_cons_of_mem _ hx))

/-! ## A path 0 without connection ID stays -/

/-- Path 0 is abandoned and has no connection ID. -/
def Broken (ps : List PathX) : Prop := ∃ p l, ps = p :: l ∧ p.demoted = true ∧ p.hasCid = false

theorem demote_broken {multi : Bool} {now : Nat} {ps : List PathX} (h : Broken ps) (i : Nat) :
    Broken (demote multi now ps i) := by
  obtain ⟨a, l, rfl, hd, hc⟩ := h
  rcases demote_cases multi now (a :: l) i with he | ⟨p, p', hp, hdp, _, he⟩
  · rw [he]; exact ⟨a, l, rfl, hd, hc⟩
  · cases i with
    | zero =>
      simp only [List.getElem?_cons_zero, Option.some.injEq] at hp
      rw [← hp, hd] at hdp
      cases hdp
    | succ i =>
      rcases he with he | he | ⟨h0, _⟩
      · rw [he, List.set_cons_succ]; exact ⟨a, _, rfl, hd, hc⟩
      · rw [he, List.set_cons_succ]; exact ⟨a, _, rfl, hd, hc⟩
      · cases h0

theorem controlLoop_broken {multi : Bool} {now : Nat} {c : Cond} (k : Nat) : ∀ (i : Nat) (ps : List PathX), Broken ps →
    Broken (controlLoop multi now c k i ps).1 := by
  induction k with
  | zero => intro i ps h; exact h
  | succ k ih =>
    intro i ps h
    unfold controlLoop
    split
    · exact h
    · split
      · exact ih _ _ h
      · split
        · apply ih
          unfold abandon
          split
          · exact h
          · exact demote_broken h i
        · split
          · exact h
          · split
            · exact h
            · exact ih _ _ h

theorem verify_broken {ps : List PathX} (h : Broken ps) : Broken (verifyAvailable ps).1 := by
  obtain ⟨a, l, rfl, hd, hc⟩ := h
  unfold verifyAvailable
  dsimp only
  split
  · dsimp only
    cases Option.getD (availLoop {} 0 (a :: l)).backup 0 with
    | zero => exact ⟨{ a with backup := false }, l, rfl, hd, hc⟩
    | succ n => exact ⟨a, _, by rw [List.modify_succ_cons], hd, hc⟩
  · exact ⟨a, l, rfl, hd, hc⟩

theorem select_broken {multi : Bool} {now : Nat} {c : Cond} {ps : List PathX} (h : Broken ps) :
    headerOk (select multi now c ps).1 (select multi now c ps).2 = false := by
  have key : ∀ (ps : List PathX) (i : Nat), Broken ps → headerOk ps i = false := by
    rintro ps i ⟨a, l, rfl, _, hc⟩
    unfold headerOk
    rw [List.getElem?_cons_zero]
    cases (a :: l)[i]? with
    | none => rfl
    | some q => simp [hc]
  apply key
  have h1 := controlLoop_broken (multi := multi) (now := now) (c := c) ps.length 0 ps h
  unfold select
  cases hl : controlLoop multi now c ps.length 0 ps with
  | mk ps1 o =>
    rw [hl] at h1
    cases o with
    | some i => exact h1
    | none =>
      dsimp only at h1 ⊢
      split
      · exact h1
      · split
        · exact verify_broken h1
        · exact verify_broken h1

/-! ## Deletion -/

/-- A path to delete. -/
def gone (now : Nat) (p : PathX) : Bool := p.demoted && decide (now ≥ p.demotionTime)

theorem cleanLoop_filter {multi : Bool} {now : Nat} {stale : Nat → Bool} (R : List PathX) : ∀ (K D : List PathX),
    (∀ p ∈ R, p.demoted = true ∨ (p.failed = false ∧ stale p.id = false)) →
    ∃ D', cleanLoop multi now stale R.length (K.length + D.length) K.length (K ++ (D ++ R)) =
      (K ++ R.filter (fun p => !gone now p) ++ D', (K ++ R.filter (fun p => !gone now p)).length) := by
  induction R with
  | nil => intro K D _; exact ⟨D, by simp [cleanLoop]⟩
  | cons r R ih =>
    intro K D hR
    have hr := hR r (by simp)
    have hR' : ∀ p ∈ R, p.demoted = true ∨ (p.failed = false ∧ stale p.id = false) :=
      fun p hp => hR p (List.mem_cons_of_mem _ hp)
    have hget : (K ++ (D ++ r :: R))[K.length + D.length]? = some r := by
      rw [← List.append_assoc, List.getElem?_append_right (by simp)]
      simp
    rw [List.length_cons]
    unfold cleanLoop
    rw [hget]
    dsimp only
    have hno : ¬ (r.demoted = false ∧ (r.failed = true ∨ (K.length + D.length > 0 ∧ r.verified = true ∧ stale r.id = true))) := by
      rintro ⟨h1, h2⟩
      rcases hr with hr | ⟨hr1, hr2⟩
      · rw [h1] at hr; cases hr
      · rcases h2 with h2 | ⟨_, _, h2⟩
        · rw [hr1] at h2; cases h2
        · rw [hr2] at h2; cases h2
    rw [if_neg hno, hget]
    dsimp only
    by_cases hg : r.demoted = true ∧ now ≥ r.demotionTime
    · rw [if_pos hg]
      have hgone : gone now r = true := by simp [gone, hg.1, hg.2]
      obtain ⟨D', hD'⟩ := ih K (D ++ [r]) hR'
      refine ⟨D', ?_⟩
      rw [List.filter_cons, hgone]
      simp only [Bool.not_true, Bool.false_eq_true, if_false]
      rw [← hD', List.length_append, List.length_singleton, ← Nat.add_assoc, List.append_assoc, List.singleton_append]
    · rw [if_neg hg]
      have hgone : gone now r = false := by
        cases hgg : gone now r with
        | false => rfl
        | true =>
          simp only [gone, Bool.and_eq_true, decide_eq_true_eq] at hgg
          exact absurd hgg hg
      rw [List.filter_cons, hgone]
      simp only [Bool.not_false, if_true]
      cases D with
      | nil =>
        obtain ⟨D', hD'⟩ := ih (K ++ [r]) [] hR'
        refine ⟨D', ?_⟩
        simp only [List.length_nil, Nat.add_zero, List.nil_append] at hD' ⊢
        rw [if_neg (by omega)]
        rw [List.length_append, List.length_singleton, List.append_assoc, List.append_assoc] at hD'
        simp only [List.singleton_append] at hD'
        rw [hD']
        simp
      | cons d D =>
        rw [if_pos (by simp)]
        have hsw : swapAt (K ++ ((d :: D) ++ r :: R)) (K.length + (d :: D).length) K.length =
            (K ++ [r]) ++ ((D ++ [d]) ++ R) := by
          unfold swapAt
          rw [hget]
          have hg2 : (K ++ ((d :: D) ++ r :: R))[K.length]? = some d := by
            rw [List.getElem?_append_right (Nat.le_refl _)]
            simp
          rw [hg2]
          dsimp only
          rw [List.set_append_right _ _ (by omega), List.set_append_right _ _ (by omega)]
          simp only [Nat.add_sub_cancel_left, Nat.sub_self]
          rw [List.set_append_right _ _ (Nat.le_refl _), Nat.sub_self, List.set_cons_zero, List.cons_append,
            List.set_cons_zero]
          simp
        rw [hsw]
        obtain ⟨D', hD'⟩ := ih (K ++ [r]) (D ++ [d]) hR'
        refine ⟨D', ?_⟩
        have hl : K.length + (d :: D).length + 1 = (K ++ [r]).length + (D ++ [d]).length := by
          simp only [List.length_append, List.length_cons, List.length_nil]; omega
        have hl2 : K.length + 1 = (K ++ [r]).length := by simp
        rw [hl, hl2, hD']
        simp

/-! ## The best path -/

/-- If less than two paths are available, only one is as good. -/
def Uniq (pre : List PathX) (s : Avail) : Prop :=
  s.nb < 2 → ∀ j q, pre[j]? = some q → Usable q ∧ q.backup = false → q.retransmit ≤ s.best → s.next = some j

theorem availStep_uniq {pre : List PathX} {s : Avail} (h : AvailOk pre s) (hu : Uniq pre s)
    (hpos : s.next ≠ none → 1 ≤ s.nb) {p : PathX} (hp : p.retransmit < MAX) :
    Uniq (pre ++ [p]) (availStep s pre.length p) ∧
    ((availStep s pre.length p).next ≠ none → 1 ≤ (availStep s pre.length p).nb) := by
  have skip : ∀ s' : Avail, s'.nb = s.nb → s'.next = s.next → s'.best = s.best → ¬ (Usable p ∧ p.backup = false) →
      Uniq (pre ++ [p]) s' ∧ (s'.next ≠ none → 1 ≤ s'.nb) := by
    intro s' e1 e2 e3 hn
    rw [e1, e2]
    refine ⟨?_, hpos⟩
    intro h2 j q hj hk hle
    rw [e2]
    rw [e1] at h2
    rw [e3] at hle
    rcases (get_snoc _ _ _ _).1 hj with hj | ⟨_, hj⟩
    · exact hu h2 j q hj hk hle
    · subst hj; exact absurd hk hn
  unfold availStep
  by_cases hv : p.verified = true ∧ p.demoted = false
  · rw [if_pos hv]
    cases hb : p.backup with
    | true =>
      simp only [if_true]
      split
      · exact skip _ rfl rfl rfl (by rw [hb]; rintro ⟨_, h⟩; cases h)
      · exact skip _ rfl rfl rfl (by rw [hb]; rintro ⟨_, h⟩; cases h)
    | false =>
      simp only [Bool.false_eq_true, if_false]
      by_cases hc : p.retransmit < s.best
      · rw [if_pos hc]
        refine ⟨?_, fun _ => Nat.le_refl 1⟩
        intro _ j q hj hk hle
        rcases (get_snoc _ _ _ _).1 hj with hj | ⟨hj, _⟩
        · exfalso
          dsimp only at hle
          cases hi : s.next with
          | none => exact (h.normal.none hi).2 q (List.mem_of_getElem? hj) hk
          | some i =>
            obtain ⟨_, _, _, _, h4⟩ := h.normal.some i hi
            have := h4 q (List.mem_of_getElem? hj) hk
            omega
        · rw [hj]
      · rw [if_neg hc]
        have h1 : s.next ≠ none := by
          intro h0
          rw [(h.normal.none h0).1] at hc
          exact hc hp
        have h2 := hpos h1
        refine ⟨?_, fun _ => by dsimp only; omega⟩
        intro h3
        dsimp only at h3
        omega
  · rw [if_neg hv]
    exact skip _ rfl rfl rfl (fun h0 => hv h0.1)

theorem availLoop_uniq (ps : List PathX) : ∀ (pre : List PathX) (s : Avail), AvailOk pre s → Uniq pre s →
    (s.next ≠ none → 1 ≤ s.nb) → (∀ p ∈ ps, p.retransmit < MAX) → Uniq (pre ++ ps) (availLoop s pre.length ps) := by
  induction ps with
  | nil => intro pre s _ h _ _; rw [List.append_nil]; exact h
  | cons p ps ih =>
    intro pre s ha hu hpos hp
    obtain ⟨h1, h2⟩ := availStep_uniq ha hu hpos (hp p (by simp))
    have h3 := ih (pre ++ [p]) _ (availStep_ok ha (hp p (by simp))) h1 h2 (fun q hq => hp q (List.mem_cons_of_mem _ hq))
    rw [List.append_assoc, List.length_append] at h3
    exact h3

theorem avail_uniq (ps : List PathX) (h : ∀ p ∈ ps, p.retransmit < MAX) : Uniq ps (availLoop {} 0 ps) := by
  have := availLoop_uniq ps [] {} ⟨⟨fun _ => ⟨rfl, by simp⟩, fun _ h => by cases h⟩,
    ⟨fun _ => ⟨rfl, by simp⟩, fun _ h => by cases h⟩, fun _ => rfl⟩
    (fun _ j q hj => by simp at hj) (fun h0 => absurd rfl h0) h
  exact this

/-- The choice when nothing is due on a path and there are several. -/
theorem select_quiet {multi : Bool} {now : Nat} {c : Cond} {ps : List PathX} (h : Quiet c ps) (hl : 2 ≤ ps.length) :
    select multi now c ps =
      if (verifyAvailable ps).2.2.1 < 2 then ((verifyAvailable ps).1, (verifyAvailable ps).2.1.getD 0)
      else ((verifyAvailable ps).1, sortChoice c (sortLoop c (verifyAvailable ps).2.2.2 {} 0 (verifyAvailable ps).1)) := by
  unfold select
  rw [controlLoop_quiet h]
  dsimp only
  rw [if_neg (by omega)]

/-- A usable path has the least losses, and no usable path that is not for backup does as well if it is a backup. -/
structure Best (ps : List PathX) (p : PathX) : Prop where
  mem : p ∈ ps
  usable : Usable p
  least : ∀ q ∈ ps, Usable q → p.retransmit ≤ q.retransmit
  backup : p.backup = true → ∀ q ∈ ps, Usable q → q.backup = false → p.retransmit < q.retransmit

/-- If the loop takes a path that is not for backup, the candidates are the best paths. -/
theorem cand_best {ps : List PathX} (hb : ∀ p ∈ ps, p.retransmit < MAX)
    (hc : ¬ ((availLoop {} 0 ps).best > 0 ∧ (availLoop {} 0 ps).bestBackup < (availLoop {} 0 ps).best)) (p : PathX) :
    (p ∈ ps ∧ Cand (availLoop {} 0 ps).best p) ↔ (Best ps p ∧ p.backup = false) := by
  have ha := avail_ok ps hb
  constructor
  · rintro ⟨hm, hu, hbk, hle⟩
    refine ⟨⟨hm, hu, ?_, fun h0 => by rw [hbk] at h0; cases h0⟩, hbk⟩
    intro q hq huq
    cases hqb : q.backup with
    | false =>
      cases hn : (availLoop {} 0 ps).next with
      | none => exact absurd ⟨huq, hqb⟩ ((ha.normal.none hn).2 q hq)
      | some j =>
        obtain ⟨_, _, _, _, h4⟩ := ha.normal.some j hn
        exact Nat.le_trans hle (h4 q hq ⟨huq, hqb⟩)
    | true =>
      by_cases h0 : (availLoop {} 0 ps).best > 0
      · have h1 : (availLoop {} 0 ps).best ≤ (availLoop {} 0 ps).bestBackup := by
          apply Nat.le_of_not_lt
          intro h2
          exact hc ⟨h0, h2⟩
        cases hn : (availLoop {} 0 ps).backup with
        | none => exact absurd ⟨huq, hqb⟩ ((ha.spare.none hn).2 q hq)
        | some j =>
          obtain ⟨_, _, _, _, h4⟩ := ha.spare.some j hn
          exact Nat.le_trans hle (Nat.le_trans h1 (h4 q hq ⟨huq, hqb⟩))
      · omega
  · rintro ⟨⟨hm, hu, hl, _⟩, hbk⟩
    refine ⟨hm, hu, hbk, ?_⟩
    cases hn : (availLoop {} 0 ps).next with
    | none => exact absurd ⟨hu, hbk⟩ ((ha.normal.none hn).2 p hm)
    | some j =>
      obtain ⟨r, hr, hk, he, _⟩ := ha.normal.some j hn
      rw [← he]
      exact hl r (List.mem_of_getElem? hr) hk.1

/-- Without a better backup path, the call leaves the paths unchanged. -/
theorem verify_normal {ps : List PathX}
    (hc : ¬ ((availLoop {} 0 ps).best > 0 ∧ (availLoop {} 0 ps).bestBackup < (availLoop {} 0 ps).best)) :
    verifyAvailable ps = (ps, (availLoop {} 0 ps).next, (availLoop {} 0 ps).nb, (availLoop {} 0 ps).best) := by
  unfold verifyAvailable
  dsimp only
  rw [if_neg hc]

/-- The chosen path is a best one, or all the best ones that are not for backup wait for pacing, and it is path 0. -/
theorem select_best {multi : Bool} {now : Nat} {c : Cond} {ps : List PathX} (h : Quiet c ps) (hl : 2 ≤ ps.length)
    (hb : ∀ p ∈ ps, p.retransmit < MAX ∧ p.lastSent < MAX) (hu : ∃ p ∈ ps, Usable p) :
    (∃ p, ps[(select multi now c ps).2]? = some p ∧ Best ps p) ∨
    ((select multi now c ps).2 = 0 ∧ ∀ p, Best ps p → p.backup = false ∧ c.paced p.id = false) := by
  have hb1 : ∀ p ∈ ps, p.retransmit < MAX := fun p hp => (hb p hp).1
  have ha := avail_ok ps hb1
  rw [select_quiet h hl]
  by_cases hc : (availLoop {} 0 ps).best > 0 ∧ (availLoop {} 0 ps).bestBackup < (availLoop {} 0 ps).best
  · have hv : verifyAvailable ps = (ps.modify ((availLoop {} 0 ps).backup.getD 0) (fun p => { p with backup := false }),
        (availLoop {} 0 ps).backup, 1, (availLoop {} 0 ps).bestBackup) := by
      unfold verifyAvailable
      dsimp only
      rw [if_pos hc]
    rw [hv]
    dsimp only
    rw [if_pos (by omega)]
    dsimp only
    left
    cases hn : (availLoop {} 0 ps).backup with
    | none =>
      exfalso
      have h1 := (ha.spare.none hn).1
      obtain ⟨p, hp, _⟩ := hu
      cases hm : (availLoop {} 0 ps).next with
      | none =>
        have h2 := (ha.normal.none hm).1
        omega
      | some j =>
        obtain ⟨r, hr, _, he, _⟩ := ha.normal.some j hm
        have := hb1 r (List.mem_of_getElem? hr)
        omega
    | some j =>
      obtain ⟨r, hr, hk, he, h4⟩ := ha.spare.some j hn
      have hlt : ∀ q ∈ ps, Usable q → q.backup = false → r.retransmit < q.retransmit := by
        intro q hq huq hqb
        cases hm : (availLoop {} 0 ps).next with
        | none => exact absurd ⟨huq, hqb⟩ ((ha.normal.none hm).2 q hq)
        | some i =>
          obtain ⟨_, _, _, _, h5⟩ := ha.normal.some i hm
          have := h5 q hq ⟨huq, hqb⟩
          omega
      refine ⟨r, hr, List.mem_of_getElem? hr, hk.1, ?_, fun _ => hlt⟩
      intro q hq huq
      cases hqb : q.backup with
      | true => rw [he]; exact h4 q hq ⟨huq, hqb⟩
      | false => exact Nat.le_of_lt (hlt q hq huq hqb)
  · rw [verify_normal hc]
    dsimp only
    have cb := cand_best hb1 hc
    by_cases hnb : (availLoop {} 0 ps).nb < 2
    · rw [if_pos hnb]
      dsimp only
      left
      cases hn : (availLoop {} 0 ps).next with
      | none =>
        exfalso
        have h1 := (ha.normal.none hn).1
        obtain ⟨p, hp, hup⟩ := hu
        cases hm : (availLoop {} 0 ps).backup with
        | none =>
          cases hpb : p.backup with
          | true => exact (ha.spare.none hm).2 p hp ⟨hup, hpb⟩
          | false => exact (ha.normal.none hn).2 p hp ⟨hup, hpb⟩
        | some j =>
          obtain ⟨r, hr, _, he, _⟩ := ha.spare.some j hm
          have h3 := hb1 r (List.mem_of_getElem? hr)
          exact hc ⟨by omega, by omega⟩
      | some j =>
        obtain ⟨r, hr, hk, he, _⟩ := ha.normal.some j hn
        exact ⟨r, hr, ((cb r).1 ⟨List.mem_of_getElem? hr, hk.1, hk.2, Nat.le_of_eq he⟩).1⟩
    · rw [if_neg hnb]
      dsimp only
      have hs := sort_ok c (availLoop {} 0 ps).best ps (fun p hp => (hb p hp).2)
      rcases sortChoice_ok hs with ⟨p, hp, hk, _⟩ | ⟨hz, hw⟩
      · exact Or.inl ⟨p, hp, ((cb p).1 ⟨List.mem_of_getElem? hp, hk⟩).1⟩
      · right
        refine ⟨hz, ?_⟩
        intro p hp
        have hpb : p.backup = false := by
          cases hpb : p.backup with
          | false => rfl
          | true =>
            exfalso
            have hlt := hp.backup hpb
            cases hn : (availLoop {} 0 ps).next with
            | none => have := ha.nb hn; omega
            | some j =>
              obtain ⟨r, hr, hk, he, _⟩ := ha.normal.some j hn
              have h1 := hlt r (List.mem_of_getElem? hr) hk.1 hk.2
              cases hm : (availLoop {} 0 ps).backup with
              | none => exact (ha.spare.none hm).2 p hp.mem ⟨hp.usable, hpb⟩
              | some i =>
                obtain ⟨_, _, _, _, h5⟩ := ha.spare.some i hm
                have := h5 p hp.mem ⟨hp.usable, hpb⟩
                exact hc ⟨by omega, by omega⟩
        refine ⟨hpb, ?_⟩
        exact hw p hp.mem ((cb p).2 ⟨hp, hpb⟩).2

/-- Among the best paths that are ready, the one used longest ago. -/
theorem select_oldest {multi : Bool} {now : Nat} {c : Cond} {ps : List PathX} (h : Quiet c ps) (hl : 2 ≤ ps.length)
    (hb : ∀ p ∈ ps, p.retransmit < MAX ∧ p.lastSent < MAX)
    (hack : c.ackNeeded = false) (haff : c.affinity = none) (hd : ∀ p ∈ ps, c.datagram p.id = false)
    (hex : ∃ p, Best ps p ∧ p.backup = false ∧ c.paced p.id = true ∧ c.room p.id = true) :
    (select multi now c ps).1 = ps ∧
    ∃ p, ps[(select multi now c ps).2]? = some p ∧ Best ps p ∧ p.backup = false ∧
      c.paced p.id = true ∧ c.room p.id = true ∧
      ∀ q, Best ps q → q.backup = false → c.paced q.id = true → c.room q.id = true → p.lastSent ≤ q.lastSent := by
  have hb1 : ∀ p ∈ ps, p.retransmit < MAX := fun p hp => (hb p hp).1
  have ha := avail_ok ps hb1
  have hun := avail_uniq ps hb1
  obtain ⟨p0, hp0, hp0b, hp0p, hp0r⟩ := hex
  rw [select_quiet h hl]
  by_cases hc : (availLoop {} 0 ps).best > 0 ∧ (availLoop {} 0 ps).bestBackup < (availLoop {} 0 ps).best
  · exfalso
    cases hn : (availLoop {} 0 ps).next with
    | none => exact (ha.normal.none hn).2 p0 hp0.mem ⟨hp0.usable, hp0b⟩
    | some j =>
      obtain ⟨r, hr, hk, he, h4⟩ := ha.normal.some j hn
      have h5 := h4 p0 hp0.mem ⟨hp0.usable, hp0b⟩
      have hbest := hb1 r (List.mem_of_getElem? hr)
      cases hm : (availLoop {} 0 ps).backup with
      | none => have := (ha.spare.none hm).1; omega
      | some i =>
        obtain ⟨b, hbm, hbk, hbe, _⟩ := ha.spare.some i hm
        have := hp0.least b (List.mem_of_getElem? hbm) hbk.1
        omega
  · rw [verify_normal hc]
    dsimp only
    have cb := cand_best hb1 hc
    by_cases hnb : (availLoop {} 0 ps).nb < 2
    · rw [if_pos hnb]
      dsimp only
      refine ⟨rfl, ?_⟩
      have only : ∀ q, Best ps q → q.backup = false → ∃ j, (availLoop {} 0 ps).next = some j ∧ ps[j]? = some q := by
        intro q hq hqb
        obtain ⟨j, hj⟩ := List.mem_iff_getElem?.1 hq.mem
        have hk := ((cb q).2 ⟨hq, hqb⟩).2
        exact ⟨j, hun hnb j q hj ⟨hk.1, hk.2.1⟩ hk.2.2, hj⟩
      obtain ⟨j, hj, hpj⟩ := only p0 hp0 hp0b
      rw [hj]
      refine ⟨p0, hpj, hp0, hp0b, hp0p, hp0r, ?_⟩
      intro q hq hqb _ _
      obtain ⟨i, hi, hqi⟩ := only q hq hqb
      rw [hj] at hi
      injection hi with hi
      rw [← hi, hpj] at hqi
      injection hqi with hqi
      rw [hqi]
      exact Nat.le_refl _
    · rw [if_neg hnb]
      dsimp only
      refine ⟨rfl, ?_⟩
      have hs := sort_ok c (availLoop {} 0 ps).best ps (fun p hp => (hb p hp).2)
      obtain ⟨p, hp, ⟨hk, hpp, hpr⟩, hold⟩ := sortChoice_oldest hs hack haff hd
        ⟨p0, hp0.mem, ((cb p0).2 ⟨hp0, hp0b⟩).2, hp0p, hp0r⟩
      have hbp := (cb p).1 ⟨List.mem_of_getElem? hp, hk⟩
      refine ⟨p, hp, hbp.1, hbp.2, hpp, hpr, ?_⟩
      intro q hq hqb h1 h2
      exact hold q hq.mem ((cb q).2 ⟨hq, hqb⟩).2 h1 h2

/-- A candidate that is ready and that the data prefer. -/
def Bound (c : Cond) (m : Nat) (p : PathX) : Prop :=
  Cand m p ∧ c.paced p.id = true ∧ c.room p.id = true ∧ (c.affinity = some p.id ∨ c.datagram p.id = true)

theorem minStep_affinity (s : Sorted) (i : Nat) (p : PathX) : (minStep s i p).affinity = s.affinity := by
  unfold minStep
  split
  · rfl
  · split <;> rfl

theorem sortStep_affinity {c : Cond} {m : Nat} {s : Sorted} {i : Nat} {p : PathX}
    (h : (sortStep c m s i p).affinity = none) : s.affinity = none ∧ ¬ Bound c m p := by
  unfold sortStep at h
  by_cases hk : p.backup = true ∨ p.verified = false ∨ p.demoted = true ∨ p.retransmit > m
  · rw [if_pos hk] at h
    refine ⟨h, ?_⟩
    rintro ⟨⟨⟨h1, h2⟩, h3, h4⟩, _⟩
    rcases hk with hk | hk | hk | hk
    · rw [h3] at hk; cases hk
    · rw [h1] at hk; cases hk
    · rw [h2] at hk; cases hk
    · omega
  · rw [if_neg hk] at h
    have hps : ∀ s : Sorted, (pacingStep s i p).affinity = s.affinity := by
      intro s; unfold pacingStep; split <;> rfl
    have hcs : ∀ s : Sorted, (cwinStep s i p).affinity = s.affinity := by
      intro s; unfold cwinStep; split <;> rfl
    dsimp only at h
    by_cases hpc : c.paced p.id = true
    · rw [if_pos hpc] at h
      by_cases hr : c.room p.id = true
      · rw [if_pos hr] at h
        unfold affinityStep at h
        split at h
        · cases h
        · rename_i hn
          rw [hcs, hps, minStep_affinity] at h hn
          exact ⟨h, fun hb => hn ⟨h, hb.2.2.2⟩⟩
      · rw [if_neg hr, hps, minStep_affinity] at h
        exact ⟨h, fun hb => hr hb.2.2.1⟩
    · rw [if_neg hpc, minStep_affinity] at h
      exact ⟨h, fun hb => hpc hb.2.1⟩

theorem sortLoop_affinity {c : Cond} {m : Nat} (ps : List PathX) : ∀ (i : Nat) (s : Sorted),
    (sortLoop c m s i ps).affinity = none → s.affinity = none ∧ ∀ p ∈ ps, ¬ Bound c m p := by
  induction ps with
  | nil => intro i s h; exact ⟨h, by simp⟩
  | cons p ps ih =>
    intro i s h
    obtain ⟨h1, h2⟩ := ih (i + 1) _ h
    obtain ⟨h3, h4⟩ := sortStep_affinity h1
    refine ⟨h3, ?_⟩
    intro q hq
    rcases List.mem_cons.1 hq with rfl | hq
    · exact h4
    · exact h2 q hq

/-- Data that prefer a path that is ready go on it, or on another one that they prefer. -/
theorem select_affinity {multi : Bool} {now : Nat} {c : Cond} {ps : List PathX} (h : Quiet c ps) (hl : 2 ≤ ps.length)
    (hb : ∀ p ∈ ps, p.retransmit < MAX ∧ p.lastSent < MAX) (hack : c.ackNeeded = false)
    (hex : ∃ p, Best ps p ∧ p.backup = false ∧ c.paced p.id = true ∧ c.room p.id = true ∧
      (c.affinity = some p.id ∨ c.datagram p.id = true)) :
    ∃ p, ps[(select multi now c ps).2]? = some p ∧ Best ps p ∧ p.backup = false ∧ c.paced p.id = true ∧
      c.room p.id = true ∧ (c.affinity = some p.id ∨ c.datagram p.id = true) := by
  have hb1 : ∀ p ∈ ps, p.retransmit < MAX := fun p hp => (hb p hp).1
  have ha := avail_ok ps hb1
  have hun := avail_uniq ps hb1
  obtain ⟨p0, hp0, hp0b, hp0p, hp0r, hp0a⟩ := hex
  rw [select_quiet h hl]
  by_cases hc : (availLoop {} 0 ps).best > 0 ∧ (availLoop {} 0 ps).bestBackup < (availLoop {} 0 ps).best
  · exfalso
    cases hn : (availLoop {} 0 ps).next with
    | none => exact (ha.normal.none hn).2 p0 hp0.mem ⟨hp0.usable, hp0b⟩
    | some j =>
      obtain ⟨r, hr, hk, he, h4⟩ := ha.normal.some j hn
      have h5 := h4 p0 hp0.mem ⟨hp0.usable, hp0b⟩
      have hbest := hb1 r (List.mem_of_getElem? hr)
      cases hm : (availLoop {} 0 ps).backup with
      | none => have := (ha.spare.none hm).1; omega
      | some i =>
        obtain ⟨b, hbm, hbk, hbe, _⟩ := ha.spare.some i hm
        have := hp0.least b (List.mem_of_getElem? hbm) hbk.1
        omega
  · rw [verify_normal hc]
    dsimp only
    have cb := cand_best hb1 hc
    have hk0 := ((cb p0).2 ⟨hp0, hp0b⟩).2
    by_cases hnb : (availLoop {} 0 ps).nb < 2
    · rw [if_pos hnb]
      dsimp only
      obtain ⟨j, hj⟩ := List.mem_iff_getElem?.1 hp0.mem
      rw [hun hnb j p0 hj ⟨hk0.1, hk0.2.1⟩ hk0.2.2]
      exact ⟨p0, hj, hp0, hp0b, hp0p, hp0r, hp0a⟩
    · rw [if_neg hnb]
      dsimp only
      have hs := sort_ok c (availLoop {} 0 ps).best ps (fun p hp => (hb p hp).2)
      have hsa := sortLoop_affinity (c := c) (m := (availLoop {} 0 ps).best) ps 0 {}
      generalize sortLoop c (availLoop {} 0 ps).best {} 0 ps = s at hs hsa
      cases hsf : s.affinity with
      | none => exact absurd ⟨hk0, hp0p, hp0r, hp0a⟩ ((hsa hsf).2 p0 hp0.mem)
      | some j =>
        obtain ⟨p, hp, ⟨hk, hpp, hpr⟩, hpa⟩ := hs.affinity j hsf
        have hch : sortChoice c s = j := by
          unfold sortChoice
          rw [hack]
          have hcw : s.cwin ≠ none := by
            intro h0
            exact (hs.cwin.none h0).2 p (List.mem_of_getElem? hp) ⟨hk, hpp, hpr⟩
          cases hcw' : s.cwin with
          | none => exact absurd hcw' hcw
          | some i => simp [hsf]
        rw [hch]
        have hbp := (cb p).1 ⟨List.mem_of_getElem? hp, hk⟩
        exact ⟨p, hp, hbp.1, hbp.2, hpp, hpr, hpa⟩

/-! ## Turns -/

/-- All the paths are in order, and were used before `t`. -/
def Healthy (ps : List PathX) (t : Nat) : Prop :=
  ∀ p ∈ ps, p.verified = true ∧ p.failed = false ∧ p.demoted = false ∧ p.backup = false ∧ p.retransmit = 0 ∧
    p.lastSent < t

/-- Nothing but stream data to send. -/
def Plain (c : Cond) : Prop :=
  (∀ n, c.control n = false) ∧ (∀ n, c.datagram n = false) ∧ c.affinity = none ∧ c.ackNeeded = false

theorem healthy_best {ps : List PathX} {t : Nat} (h : Healthy ps t) {p : PathX} (hp : p ∈ ps) :
    Best ps p ∧ p.backup = false := by
  obtain ⟨h1, _, h3, h4, h5, _⟩ := h p hp
  exact ⟨⟨hp, ⟨h1, h3⟩, fun q _ _ => (by rw [h5]; exact Nat.zero_le _), fun h0 => (by rw [h4] at h0; cases h0)⟩, h4⟩

theorem sendStep_turn {ps : List PathX} {now : Nat} {c : Cond} (h : Healthy ps now) (hn : now < MAX) (hl : 2 ≤ ps.length)
    (hc : Plain c) {j : Nat} {q : PathX} (hj : ps[j]? = some q) (hq : c.paced q.id = true ∧ c.room q.id = true) :
    (∃ p, ps[(sendStep ps (now, c)).2]? = some p ∧ p.lastSent ≤ q.lastSent) ∧
    (sendStep ps (now, c)).1 = ps.modify (sendStep ps (now, c)).2 (fun p => { p with lastSent := now }) := by
  have hqb := healthy_best h (List.mem_of_getElem? hj)
  obtain ⟨h1, p, h2, _, _, _, _, h3⟩ := select_oldest (multi := true) (now := now) (c := c) (ps := ps)
    (fun p hp => ⟨(h p hp).2.1, hc.1 _, fun h0 => by have := (h p hp).2.2.2.2.1; omega⟩) hl
    (fun p hp => ⟨by rw [(h p hp).2.2.2.2.1]; decide, Nat.lt_trans (h p hp).2.2.2.2.2 hn⟩) hc.2.2.2 hc.2.2.1
    (fun p _ => hc.2.1 _) ⟨q, hqb.1, hqb.2, hq⟩
  refine ⟨⟨p, h2, h3 q hqb.1 hqb.2 hq.1 hq.2⟩, ?_⟩
  unfold sendStep
  dsimp only
  rw [h1]

/-- Packets at increasing times. -/
def Increasing (t : Nat) : List (Nat × Cond) → Prop
  | [] => True
  | e :: es => t ≤ e.1 ∧ e.1 < MAX ∧ Increasing (e.1 + 1) es

theorem modify_get_other {ps : List PathX} {i j : Nat} (f : PathX → PathX) (h : i ≠ j) :
    (ps.modify i f)[j]? = ps[j]? := by
  rw [List.getElem?_modify]
  cases ps[j]? with
  | none => rfl
  | some a => show some (if i = j then f a else a) = some a; rw [if_neg h]

theorem modify_get_same {ps : List PathX} {i : Nat} (f : PathX → PathX) {p : PathX} (h : ps[i]? = some p) :
    (ps.modify i f)[i]? = some (f p) := by
  rw [List.getElem?_modify, h]
  show some (if i = i then f p else p) = _
  rw [if_pos rfl]

theorem healthy_modify {ps : List PathX} {now : Nat} (h : Healthy ps now) (i : Nat) :
    Healthy (ps.modify i (fun p => { p with lastSent := now })) (now + 1) := by
  intro p hp
  rcases mem_modify hp with hp | ⟨a, ha, rfl⟩
  · obtain ⟨h1, h2, h3, h4, h5, h6⟩ := h p hp
    exact ⟨h1, h2, h3, h4, h5, by omega⟩
  · obtain ⟨h1, h2, h3, h4, h5, h6⟩ := h a (List.mem_of_getElem? ha)
    exact ⟨h1, h2, h3, h4, h5, by dsimp only; omega⟩

theorem healthy_mono {ps : List PathX} {t t' : Nat} (h : Healthy ps t) (ht : t ≤ t') : Healthy ps t' := by
  intro p hp
  obtain ⟨h1, h2, h3, h4, h5, h6⟩ := h p hp
  exact ⟨h1, h2, h3, h4, h5, by omega⟩

/-- Path `i` was used at `T` or later, path `j` before: path `i` is not chosen before path `j`. -/
theorem choices_turn (es : List (Nat × Cond)) : ∀ (ps : List PathX) (t T i j : Nat) (pi pj : PathX),
    Healthy ps t → 2 ≤ ps.length → Increasing t es → (∀ e ∈ es, Plain e.2) →
    ps[i]? = some pi → ps[j]? = some pj → T ≤ pi.lastSent → pj.lastSent < T →
    (∀ e ∈ es, e.2.paced pj.id = true ∧ e.2.room pj.id = true) →
    ∀ cs r, choices ps es = cs ++ i :: r → j ∈ cs := by
  induction es with
  | nil => intro ps t T i j pi pj _ _ _ _ _ _ _ _ _ cs r h; simp [choices] at h
  | cons e es ih =>
    intro ps t T i j pi pj hh hl hinc hpl hi hj hTi hTj hr cs r hch
    obtain ⟨ht, hmax, hinc'⟩ := hinc
    have hh' := healthy_mono hh ht
    obtain ⟨now, c⟩ := e
    have hrr := hr _ (List.mem_cons_self)
    obtain ⟨⟨p, hp, hle⟩, hst⟩ := sendStep_turn hh' hmax hl (hpl _ (List.mem_cons_self)) hj hrr
    unfold choices at hch
    have hne : (sendStep ps (now, c)).2 ≠ i := by
      intro h0
      rw [h0, hi] at hp
      injection hp with hp
      subst hp
      omega
    cases cs with
    | nil =>
      simp only [List.nil_append, List.cons.injEq] at hch
      exact absurd hch.1 hne
    | cons x cs =>
      simp only [List.cons_append, List.cons.injEq] at hch
      by_cases hxj : x = j
      · rw [hxj]; exact List.mem_cons_self
      · refine List.mem_cons_of_mem _ ?_
        rw [hst] at hch
        have hxe := hch.1
        refine ih (ps.modify (sendStep ps (now, c)).2 (fun p => { p with lastSent := now })) (now + 1) T i j pi pj
          (healthy_modify hh' _) (by rw [List.length_modify]; exact hl) hinc'
          (fun e he => hpl e (List.mem_cons_of_mem _ he)) ?_ ?_ hTi hTj (fun e he => hr e (List.mem_cons_of_mem _ he))
          cs r hch.2
        · rw [modify_get_other _ hne]; exact hi
        · rw [modify_get_other _ (by rw [hxe]; exact hxj)]; exact hj

end Picoquic.MultiPath
