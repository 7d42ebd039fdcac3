import Verif.Model.Bytes
/-!
# Specification of QUIC variable-length integers (RFC 9000, section 16)

Independent of the model: an encoding of `n` on `L = 2^k` bytes is the big-endian number
`k * 2^(8L-2) + n` with `n < 2^(8L-2)`.
-/

namespace Picoquic.Spec
open Picoquic

/-- The number a byte string represents in network byte order. -/
def bigEndian : Bytes → Nat
  | [] => 0
  | b :: bs => b.toNat * 256 ^ bs.length + bigEndian bs

/-- RFC 9000 section 16: `bs` is the encoding of `n` on `2^k` bytes. -/
def IsVarint (k : Nat) (bs : Bytes) (n : Nat) : Prop :=
  k < 4 ∧ bs.length = 2 ^ k ∧ n < 2 ^ (8 * 2 ^ k - 2) ∧
    bigEndian bs = k * 2 ^ (8 * 2 ^ k - 2) + n

instance (k : Nat) (bs : Bytes) (n : Nat) : Decidable (IsVarint k bs n) := by
  unfold IsVarint; infer_instance

/-- `k` is the shortest length class able to represent `n`. -/
def IsShortest (k n : Nat) : Prop := ∀ j, j < k → ¬ n < 2 ^ (8 * 2 ^ j - 2)

end Picoquic.Spec
