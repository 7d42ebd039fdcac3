import Verif.Model.VersionChoice
/-!
# Versions
-/

namespace Picoquic.Spec
open Picoquic Picoquic.VersionChoice

/-- The versions that this code supports. -/
def knownVersions : List Nat :=
  [1, 0x6b3343cf, 0x709a50c4, 0xFF000022, 0xFF000021, 0xFF000020, 0xFF00001F, 0xFF00001D, 0xFF00001E, 0xFF00001C, 0xFF00001B, 0x50435131, 0x50435130]

/-- A reserved version (RFC 9000 section 15): `0x?a?a?a?a`. -/
def ReservedVersion (v : Nat) : Prop := v &&& 0x0F0F0F0F = 0x0A0A0A0A

/-- Versions between which a change is defined (RFC 9369): from version 1 to version 2, or to its draft. -/
def CompatibleVersions (old new : Nat) : Prop := old = 1 ∧ (new = 0x6b3343cf ∨ new = 0x709a50c4)

/-- A connection that receives long packets of these versions, and the versions of those that it decrypts. `none` if it never returns. -/
def packetsOf (c : Cnx) : List Nat → Option (Cnx × List Nat)
  | [] => some (c, [])
  | vn :: vns =>
    match onPacket c vn with
    | (_, .hang) => none
    | (c, .decrypted) => (packetsOf c vns).map (fun r => (r.1, vn :: r.2))
    | (c, _) => packetsOf c vns

end Picoquic.Spec
