/-!
# The paths on which data may go

What a user knows of a path of a connection with several paths: if it was validated, if one of the peers abandoned it,
if its status is "backup", and the number of losses since something was acknowledged.
-/

namespace Picoquic.Spec

/-- What a user knows of a path. -/
structure PathView where
  validated : Bool
  abandoned : Bool
  backup : Bool
  losses : Nat

/-- Data may go on a path that was validated and not abandoned. -/
def UsablePath (v : PathView) : Prop := v.validated = true ∧ v.abandoned = false

/-- A path to prefer: it may be used, none that may be used has fewer losses, and a backup path is only preferred if
it has fewer losses than all the others that may be used and are no backups. -/
def BestPath (l : List PathView) (v : PathView) : Prop :=
  UsablePath v ∧ (∀ w ∈ l, UsablePath w → v.losses ≤ w.losses) ∧
  (v.backup = true → ∀ w ∈ l, UsablePath w → w.backup = false → v.losses < w.losses)

end Picoquic.Spec
