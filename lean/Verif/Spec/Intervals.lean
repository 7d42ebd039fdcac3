/-!
# Specification vocabulary: sets of numbers
-/

namespace Picoquic.Spec

/-- `n` lies in one of the closed intervals of the list. -/
def InRanges (rs : List (Nat × Nat)) (n : Nat) : Prop := ∃ r ∈ rs, r.1 ≤ n ∧ n ≤ r.2

/-- The intervals are non-empty, in increasing order, and separated by at least one number. -/
def Separated (rs : List (Nat × Nat)) : Prop :=
  rs.Pairwise (fun a b => a.2 + 1 < b.1) ∧ ∀ r ∈ rs, r.1 ≤ r.2

end Picoquic.Spec
