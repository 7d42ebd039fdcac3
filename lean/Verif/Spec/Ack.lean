import Verif.Spec.StreamFrame
/-!
# Specification of ACK frames (RFC 9000, section 19.3; multipath extension)
-/

namespace Picoquic.Spec
open Picoquic

/-- `body` encodes ACK ranges, from the one that ends at `largest` downwards: the length of a range minus
one, then, if there is a further range, the gap minus one before it. `ranges` are the (first, last)
packet numbers, largest first. -/
inductive AckRanges : (largest : Nat) → (body : Bytes) → (ranges : List (Nat × Nat)) → Prop
  | last {largest len : Nat} {l : Bytes} : Varint l len → len ≤ largest →
      AckRanges largest l [(largest - len, largest)]
  | more {largest len gap next : Nat} {l g body : Bytes} {ranges : List (Nat × Nat)} :
      Varint l len → len ≤ largest → Varint g gap → next + gap + 2 = largest - len →
      AckRanges next body ranges →
      AckRanges largest (l ++ (g ++ body)) ((largest - len, largest) :: ranges)

/-- The content of an ACK frame. `pathId` is present in the frames of the multipath extension, `ecn` are
the three ECN counts if present. -/
structure AckContent where
  pathId : Option Nat
  largest : Nat
  delay : Nat
  ranges : List (Nat × Nat)
  ecn : Option (Nat × Nat × Nat)
deriving DecidableEq, Repr

/-- The frame type: 2 or 3 for ACK, 0x15228c00 or 0x15228c01 for PATH_ACK. -/
def AckContent.type (c : AckContent) : Nat :=
  match c.pathId, c.ecn with
  | none, none => 2
  | none, some _ => 3
  | some _, none => 0x15228c00
  | some _, some _ => 0x15228c01

/-- What follows the type in an ACK frame. -/
def IsAckBody (bs : Bytes) (c : AckContent) : Prop :=
  ∃ p l d n body e : Bytes,
    bs = p ++ (l ++ (d ++ (n ++ (body ++ e)))) ∧
    (match c.pathId with | none => p = [] | some i => Varint p i) ∧
    Varint l c.largest ∧ Varint d c.delay ∧ Varint n (c.ranges.length - 1) ∧
    AckRanges c.largest body c.ranges ∧
    (match c.ecn with
     | none => e = []
     | some (a, b, x) => ∃ e0 e1 e2, e = e0 ++ (e1 ++ e2) ∧ Varint e0 a ∧ Varint e1 b ∧ Varint e2 x)

/-- `bs` is an ACK or PATH_ACK frame with this content. -/
def IsAckFrame (bs : Bytes) (c : AckContent) : Prop :=
  ∃ t body, bs = t ++ body ∧ Varint t c.type ∧ IsAckBody body c

end Picoquic.Spec
