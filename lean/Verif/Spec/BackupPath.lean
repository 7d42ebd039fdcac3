import Verif.Model.BackupPath
/-!
# Specification of the backup path that is left
-/

namespace Picoquic.Spec
open Picoquic.MultiPath

/-- The paths that were not put out of use. -/
def inUse (ps : List PathX) : List PathX := ps.filter fun p => !p.demoted

/-- Only backup paths are left, one or more. -/
def OnlyBackups (ps : List PathX) : Prop := inUse ps ≠ [] ∧ ∀ p ∈ inUse ps, p.backup = true

end Picoquic.Spec
