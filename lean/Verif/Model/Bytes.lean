/-!
# Byte buffers

Common vocabulary of the model. A pair of C pointers `(bytes, bytes_max)` is the list of the
bytes between them; a decoder that returns the advanced pointer returns the remaining list, and
a decoder that returns `NULL` returns `none`. An encoder is given the room left
(`bytes_max - bytes`) and returns the bytes it wrote, or `none` for `NULL`.

Pointers are assumed not to wrap around the address space (trusted base).
-/

namespace Picoquic

/-- A byte buffer: the bytes between `bytes` and `bytes_max`. -/
abbrev Bytes := List UInt8

/-- The C cast `(uint8_t)n`. -/
def u8 (n : Nat) : UInt8 := UInt8.ofNat n

/-- The C casts `(uint16_t)`, `(uint32_t)`, `(uint64_t)` and unsigned wrap-around. -/
def u16 (n : Nat) : Nat := n % 65536
/-- See `u16`. -/
def u32 (n : Nat) : Nat := n % 4294967296
/-- See `u16`. -/
def u64 (n : Nat) : Nat := n % 18446744073709551616

/-- `UINT64_MAX`. -/
def UINT64_MAX : Nat := 18446744073709551615

/-- An encoder: given the room left, the bytes written, or `none` (`NULL`). -/
abbrev Enc := Nat → Option Bytes

/-- Sequencing of encoders, as in `(bytes = f(bytes, bytes_max, …)) != NULL &&
(bytes = g(bytes, bytes_max, …)) != NULL`. -/
def Enc.seq (e f : Enc) : Enc := fun room =>
  match e room with
  | none => none
  | some a =>
    match f (room - a.length) with
    | none => none
    | some b => some (a ++ b)

/-- A decoder: the decoded value and the remaining bytes, or `none` (`NULL`). -/
abbrev Dec (α : Type) := Bytes → Option (α × Bytes)

end Picoquic
