import Verif.Model.MultiPath

/-!
# The backup path that is left

Model of the end of `picoquic_delete_abandoned_paths` (quicctx.c), which is not part of the model of C96.
-/

namespace Picoquic.BackupPath
open Picoquic.MultiPath

/-- The loop at quicctx.c 1869-1881, from path `i`: `path_left` and `path_backup`. -/
def scan : Nat → List PathX → Option Nat → Option Nat × Option Nat
  | _, [], backup => (none, backup)
  | i, p :: ps, backup =>
    if p.demoted then scan (i + 1) ps backup
    else if p.backup = true ∧ backup = none then scan (i + 1) ps (some i)
    else (some i, backup)

/-- The end of `picoquic_delete_abandoned_paths`, quicctx.c 1864-1886: the paths, and the path for which a PATH_AVAILABLE
frame is queued. `demotion` is `is_demotion_in_progress`. -/
def promote (multi demotion : Bool) (ps : List PathX) : List PathX × Option Nat :=
  if demotion && multi then
    match scan 0 ps none with
    | (none, some b) => (ps.modify b (fun p => { p with backup := false }), some b)
    | _ => (ps, none)
  else (ps, none)

end Picoquic.BackupPath
