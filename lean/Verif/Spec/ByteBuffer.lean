import Verif.Model.ByteBuffer

/-!
# Specification of byte streams
-/

namespace Picoquic.Spec

open Picoquic.ByteBuffer

/-- A buffer of the program with a position in it. -/
def InBuffer (s : Stream) : Prop := s.ptr ≤ s.data.length ∧ s.data.length < 2 ^ 64

/-- The value can be written: it is in the range of its type, numbers of variable length are below 2^62, connection IDs have
20 bytes at most, addresses are IPv4 or IPv6. -/
def InRange : Item → Prop
  | .int8 n => n < 2 ^ 8
  | .int16 n => n < 2 ^ 16
  | .int32 n => n < 2 ^ 32
  | .int64 n => n < 2 ^ 64
  | .vint n => n < 2 ^ 62
  | .buffer _ => True
  | .cid id => id.length ≤ 20
  | .cstr t => t.length < 2 ^ 62
  | .addr f a p => (f = AF_INET ∧ a.length = 4 ∨ f = AF_INET6 ∧ a.length = 16) ∧ p < 2 ^ 16

/-- The reader asks for what was written: for a buffer its length, for a text enough space. -/
def AsksFor : Kind → Item → Prop
  | .int8, .int8 _ => True
  | .int16, .int16 _ => True
  | .int32, .int32 _ => True
  | .int64, .int64 _ => True
  | .vint, .vint _ => True
  | .buffer n, .buffer bs => n = bs.length
  | .cid _, .cid _ => True
  | .cstr max, .cstr t => t.length < max
  | .addr, .addr .. => True
  | _, _ => False

/-- The length of a number of variable length: 1, 2, 4 or 8 bytes. -/
def vintSize (n : Nat) : Nat := if n < 64 then 1 else if n < 16384 then 2 else if n < 1073741824 then 4 else 8

/-- The bytes that a value takes. -/
def itemSize : Item → Nat
  | .int8 _ => 1
  | .int16 _ => 2
  | .int32 _ => 4
  | .int64 _ => 8
  | .vint n => vintSize n
  | .buffer bs => bs.length
  | .cid id => 1 + id.length
  | .cstr t => vintSize t.length + t.length
  | .addr _ a _ => 1 + a.length + 2

def itemsSize (l : List Item) : Nat := (l.map itemSize).sum

end Picoquic.Spec
