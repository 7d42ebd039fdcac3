import Verif.Spec.BackupPath

/-!
# C109: a backup path that is left becomes available
-/

namespace Picoquic.BackupPath
open Picoquic.MultiPath Picoquic.Spec

theorem inUse_cons (p : PathX) (ps : List PathX) : inUse (p :: ps) = if p.demoted then inUse ps else p :: inUse ps := by
  unfold inUse
  cases h : p.demoted <;> simp [h]

/-- Once a backup path was met, the result depends on the next path in use alone. -/
theorem scan_some (ps : List PathX) : ∀ (i b : Nat),
    (inUse ps = [] ∧ scan i ps (some b) = (none, some b)) ∨
    (inUse ps ≠ [] ∧ ∃ j, scan i ps (some b) = (some j, some b)) := by
  induction ps with
  | nil => intro i b; left; exact ⟨rfl, rfl⟩
  | cons p ps ih =>
    intro i b
    rw [inUse_cons]
    simp only [scan]
    cases hd : p.demoted with
    | true => simp only [if_true]; exact ih (i + 1) b
    | false => right; simp

/-- What the loop finds. -/
theorem scan_none (ps : List PathX) : ∀ i : Nat,
    (inUse ps = [] ∧ scan i ps none = (none, none)) ∨
    (∃ p k, inUse ps = [p] ∧ p.backup = true ∧ ps[k]? = some p ∧ scan i ps none = (none, some (i + k))) ∨
    ((2 ≤ (inUse ps).length ∨ ∃ p ∈ inUse ps, p.backup = false) ∧ ∃ j b, scan i ps none = (some j, b)) := by
  induction ps with
  | nil => intro i; left; exact ⟨rfl, rfl⟩
  | cons p ps ih =>
    intro i
    rw [inUse_cons]
    simp only [scan]
    cases hd : p.demoted with
    | true =>
      simp only [if_true]
      rcases ih (i + 1) with h | ⟨q, k, h1, h2, h3, h4⟩ | h
      · exact Or.inl h
      · exact Or.inr (Or.inl ⟨q, k + 1, h1, h2, by simpa using h3, by rw [h4]; congr 2; omega⟩)
      · exact Or.inr (Or.inr h)
    | false =>
      simp only [Bool.false_eq_true, if_false]
      cases hb : p.backup with
      | true =>
        simp only [and_self, if_true]
        rcases scan_some ps (i + 1) i with ⟨h1, h2⟩ | ⟨h1, j, h2⟩
        · right; left
          exact ⟨p, 0, by rw [h1], hb, rfl, by rw [h2, Nat.add_zero]⟩
        · right; right
          refine ⟨Or.inl ?_, j, _, h2⟩
          rw [List.length_cons]
          have := List.length_pos_iff.2 h1
          omega
      | false =>
        right; right
        refine ⟨Or.inr ⟨p, List.mem_cons_self, hb⟩, i, none, ?_⟩
        simp

end Picoquic.BackupPath

namespace Picoquic.Props
open Picoquic.Spec Picoquic.MultiPath Picoquic.BackupPath

/-- If one path is left in use and it is a backup path, it becomes an available one, the peer is told of it, and nothing
else changes. Missing: two or more backup paths, see `C109_two_violated`. -/
theorem C109_one_partial (ps : List PathX) (p : PathX) (hu : inUse ps = [p]) (hb : p.backup = true) :
    ∃ k, ps[k]? = some p ∧
      promote true true ps = (ps.modify k (fun p => { p with backup := false }), some k) := by
  rcases scan_none ps 0 with ⟨h1, _⟩ | ⟨q, k, h1, h2, h3, h4⟩ | ⟨h1, _⟩
  · rw [hu] at h1; cases h1
  · rw [hu] at h1
    injection h1 with h1 _
    subst h1
    refine ⟨k, h3, ?_⟩
    unfold promote
    rw [h4, Nat.zero_add]
    rfl
  · rw [hu] at h1
    rcases h1 with h1 | ⟨q, hq, hqb⟩
    · simp at h1
    · rw [List.mem_singleton.1 hq, hb] at hqb; cases hqb

example : promote true true [{ id := 0, demoted := true }, { id := 1, backup := true }] =
    ([{ id := 0, demoted := true }, { id := 1, backup := false }], some 1) := by decide +kernel

/-- While there is a path in use that is not a backup path, or no path was put out of use, or there is one path only by
negotiation, the status of no path changes. -/
theorem C109_kept (multi demotion : Bool) (ps : List PathX)
    (h : (∃ p ∈ inUse ps, p.backup = false) ∨ multi = false ∨ demotion = false) :
    promote multi demotion ps = (ps, none) := by
  rcases h with ⟨p, hp, hpb⟩ | h | h
  · unfold promote
    split
    · rcases scan_none ps 0 with ⟨_, h2⟩ | ⟨q, k, h1, h2, _, _⟩ | ⟨_, j, b, h2⟩
      · rw [h2]
      · rw [h1] at hp
        rw [List.mem_singleton.1 hp, h2] at hpb; cases hpb
      · rw [h2]
    · rfl
  · unfold promote; simp [h]
  · unfold promote; simp [h]

example : ∃ p ∈ inUse [{ id := 0, demoted := true }, { id := 1, backup := true }, { id := 2 }], p.backup = false :=
  ⟨{ id := 2 }, by decide, rfl⟩

/-- When two backup paths or more are left and no other path, none of them becomes an available one and the peer is told
nothing: the loop takes the second one for a path that is not a backup path. -/
theorem C109_two_violated (ps : List PathX) (h : OnlyBackups ps) (h2 : 2 ≤ (inUse ps).length) :
    promote true true ps = (ps, none) ∧ OnlyBackups (promote true true ps).1 := by
  have he : promote true true ps = (ps, none) := by
    unfold promote
    rcases scan_none ps 0 with ⟨h1, _⟩ | ⟨q, k, h1, _⟩ | ⟨_, j, b, h3⟩
    · rw [h1] at h2; simp at h2
    · rw [h1] at h2; simp at h2
    · rw [h3]; rfl
  exact ⟨he, by rw [he]; exact h⟩

example : promote true true [{ id := 0, demoted := true }, { id := 1, backup := true }, { id := 2, backup := true }] =
    ([{ id := 0, demoted := true }, { id := 1, backup := true }, { id := 2, backup := true }], none) := by decide +kernel

end Picoquic.Props
