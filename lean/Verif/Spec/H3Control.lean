import Verif.Spec.H3Data
/-!
# Settings and the control stream, RFC 9114, sections 6.2 and 7.2.4

The contents of a SETTINGS frame (type 4) are pairs of numbers: an identifier and a value. The control stream (type 0) begins with that frame; it has no other one, and no frame
that belongs on a request stream.
-/

namespace Picoquic.Spec
open Picoquic

/-- The bytes are those of the pairs. -/
inductive H3Pairs : List (Nat × Nat) → Bytes → Prop
  | nil : H3Pairs [] []
  | cons {k v : Nat} {kvs : List (Nat × Nat)} {a b r : Bytes} : Varint a k → Varint b v → H3Pairs kvs r → H3Pairs ((k, v) :: kvs) (a ++ (b ++ r))

/-- The value of a setting: the last one given, or 0. -/
def h3Setting (kvs : List (Nat × Nat)) (k : Nat) : Nat := (kvs.reverse.lookup k).getD 0

/-- A frame that may follow the settings on the control stream: no DATA, HEADERS, SETTINGS or PUSH_PROMISE, and not the signal of a web transport stream. -/
def H3Later (f : H3Frame) : Prop := f.ty ≠ 0 ∧ f.ty ≠ 1 ∧ f.ty ≠ 4 ∧ f.ty ≠ 5 ∧ f.ty ≠ 0x41

end Picoquic.Spec
