import Verif.Spec.Varint
/-!
# Specification of STREAM frames (RFC 9000, section 19.8)
-/

namespace Picoquic.Spec
open Picoquic

/-- `bs` is an encoding of `n` as a variable length integer. -/
def Varint (bs : Bytes) (n : Nat) : Prop := ∃ k, IsVarint k bs n

/-- `bs` is a STREAM frame: type byte 0b00001OLF, stream ID, offset if O is set, length if L is set,
data. Without offset field the offset is zero. `explicit` tells if there is a length field; without
one the data extends to the end of the packet. -/
def IsStreamFrame (bs : Bytes) (id offset : Nat) (fin : Bool) (data : Bytes) (explicit : Bool) : Prop :=
  ∃ (type : UInt8) (withOffset : Bool) (i o l : Bytes),
    bs = type :: (i ++ (o ++ (l ++ data))) ∧
    type.toNat = 8 + (if withOffset then 4 else 0) + (if explicit then 2 else 0) + (if fin then 1 else 0) ∧
    Varint i id ∧
    (if withOffset then Varint o offset else o = [] ∧ offset = 0) ∧
    (if explicit then Varint l data.length else l = [])

end Picoquic.Spec
