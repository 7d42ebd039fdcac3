import Verif.Model.IntFormat

/-!
# Byte streams

Model of `picoquic/bytestream.c`: the buffers in which the library writes its binary logs and from which the tools read them.
A result `none` stands for an access outside of the buffer. Pointers to results are not modelled, nor are the functions
that allocate. Of a socket address the family, the address and the port are modelled, as these are all that is written.
-/

namespace Picoquic.ByteBuffer

/-- `bytestream`, bytestream.h 33-37; `size` is the length of `data`. -/
structure Stream where
  data : Bytes
  ptr : Nat
deriving DecidableEq, Repr

/-- `s->size - s->ptr` in `size_t`, as in bytestream.c 108. -/
def room (s : Stream) : Nat :=
  if s.ptr ≤ s.data.length then s.data.length - s.ptr else 18446744073709551616 + s.data.length - s.ptr

/-- `bytestream_error`, bytestream.c 433-437. -/
def failed (s : Stream) : Stream := { s with ptr := s.data.length }

/-- Bytes stored at the current position, which moves. -/
def store (s : Stream) (bs : Bytes) : Option Stream :=
  if s.ptr + bs.length ≤ s.data.length then
    some ⟨s.data.take s.ptr ++ bs ++ s.data.drop (s.ptr + bs.length), s.ptr + bs.length⟩
  else none

/-- Bytes loaded from the current position, which moves. -/
def load (s : Stream) (n : Nat) : Option (Bytes × Stream) :=
  if s.ptr + n ≤ s.data.length then some ((s.data.drop s.ptr).take n, { s with ptr := s.ptr + n }) else none

/-- `bytewrite_buffer`, bytestream.c 279-289; with 1, 2, 4 and 8 bytes `bytewrite_int8` and so on, bytestream.c 169-178,
201-211, 227-237, 253-263. The result is whether the code returns 0. -/
def put (s : Stream) (bs : Bytes) : Option (Bool × Stream) :=
  if room s < bs.length then some (false, failed s) else (store s bs).map fun t => (true, t)

/-- `byteread_buffer`, bytestream.c 291-301, and the checks of `byteread_int8` and so on, bytestream.c 180-189, 213-225,
239-251, 265-277. -/
def get (s : Stream) (n : Nat) : Option (Option Bytes × Stream) :=
  if room s < n then some (none, failed s) else (load s n).map fun t => (some t.1, t.2)

/-- `bytewrite_vint`, bytestream.c 128-137. -/
def putVint (s : Stream) (n : Nat) : Option (Bool × Stream) :=
  let bs := varintEncode (room s) n
  if bs.length = 0 then some (false, failed s) else (store s bs).map fun t => (true, t)

/-- `byteread_vint`, bytestream.c 139-153. The decoder is given the bytes that are left. -/
def getVint (s : Stream) : Option (Option Nat × Stream) :=
  if room s < 1 then some (none, failed s)
  else if s.data.length < s.ptr + room s then none
  else
    let r := varintDecode ((s.data.drop s.ptr).take (room s))
    if r.1 = 0 then some (none, failed s) else some (some r.2, { s with ptr := s.ptr + r.1 })

/-- `ret |= ...`: both are done, and both have to succeed. -/
def both (a : Option (Bool × Stream)) (f : Stream → Option (Bool × Stream)) : Option (Bool × Stream) :=
  match a with
  | none => none
  | some (x, s) => (f s).map fun t => (x && t.1, t.2)

/-- What is written and read. -/
inductive Item
  | int8 (n : Nat)
  | int16 (n : Nat)
  | int32 (n : Nat)
  | int64 (n : Nat)
  | vint (n : Nat)
  | buffer (bs : Bytes)
  | cid (id : Bytes)
  | cstr (text : Bytes)
  | addr (family : Nat) (address : Bytes) (port : Nat)
deriving DecidableEq, Repr

/-- `AF_INET`. -/
def AF_INET : Nat := 2
/-- `AF_INET6` on Linux. -/
def AF_INET6 : Nat := 10

/-- The functions `bytewrite_…`: those of numbers and buffers as above, `bytewrite_cid`, `bytewrite_cstr` and
`bytewrite_addr`, bytestream.c 305-310, 337-343, 379-392. The port is written as it is stored. -/
def write (s : Stream) : Item → Option (Bool × Stream)
  | .int8 n => put s [u8 n]
  | .int16 n => put s (picoformat16 n)
  | .int32 n => put s (picoformat32 n)
  | .int64 n => put s (picoformat64 n)
  | .vint n => putVint s n
  | .buffer bs => put s bs
  | .cid id => both (put s [u8 id.length]) fun s => put s id
  | .cstr t => both (putVint s t.length) fun s => put s t
  | .addr f a p => both (both (putVint s f) fun s => put s (a.take (if f = AF_INET then 4 else 16))) fun s =>
      put s (picoformat16 p)

/-- What the reader asks for: the length of a buffer, the former length in the structure of a connection ID, and the space
for a text. -/
inductive Kind
  | int8
  | int16
  | int32
  | int64
  | vint
  | buffer (n : Nat)
  | cid (old : Nat)
  | cstr (max : Nat)
  | addr
deriving DecidableEq, Repr

/-- A number read from `n` bytes. The code of `byteread_int16` and `byteread_int32` shifts and combines with `|`, that of
`byteread_int64` with `+`, which is the same. -/
def getInt (s : Stream) (n : Nat) (f : Nat → Item) : Option (Option Item × Stream) :=
  (get s n).map fun r => (r.1.map fun bs => f (accumulate 0 bs), r.2)

/-- `byteread_cid` after the length, bytestream.c 316-321: the array has 20 bytes. -/
def getId (ok : Bool) (len : Nat) (s : Stream) : Option (Option Item × Stream) :=
  if CONNECTION_ID_MAX_SIZE < len then some (none, s)
  else if 20 < len then none
  else (get s len).map fun r => (if ok then r.1.map Item.cid else none, r.2)

/-- `byteread_cstr` after the length, bytestream.c 350-358. The text takes `len + 1` bytes of `max`. -/
def getText (len max : Nat) (s : Stream) : Option (Option Item × Stream) :=
  if max < (if len = 18446744073709551615 then 0 else len + 1) then some (none, s)
  else if max < len + 1 then none
  else (get s len).map fun r => (r.1.map Item.cstr, r.2)

/-- An address from its parts, if they were read. -/
def address (ok : Bool) (family : Nat) : Option Bytes → Option Bytes → Option Item
  | some a, some p => if ok then some (Item.addr family a (accumulate 0 p)) else none
  | _, _ => none

/-- `byteread_addr` after the family, bytestream.c 399-410: `n` bytes of address, and the port. -/
def getAddr (ok : Bool) (family n : Nat) (s : Stream) : Option (Option Item × Stream) :=
  (get s n).bind fun q => (get q.2 2).map fun r => (address ok family q.1 r.1, r.2)

/-- The functions `byteread_…`: those of numbers and buffers as above, `byteread_cid`, `byteread_cstr` and
`byteread_addr`, bytestream.c 312-324, 345-361, 394-412. -/
def read (s : Stream) : Kind → Option (Option Item × Stream)
  | .int8 => getInt s 1 .int8
  | .int16 => getInt s 2 .int16
  | .int32 => getInt s 4 .int32
  | .int64 => getInt s 8 .int64
  | .vint => (getVint s).map fun r => (r.1.map .vint, r.2)
  | .buffer n => (get s n).map fun r => (r.1.map .buffer, r.2)
  | .cid old => match get s 1 with
    | none => none
    | some (some b, s) => getId true (accumulate 0 b) s
    | some (none, s) => getId false old s
  | .cstr max => match getVint s with
    | none => none
    | some (some n, s) => getText n max s
    | some (none, s) => some (none, s)
  | .addr => match getVint s with
    | none => none
    | some (some f, s) => if f = AF_INET then getAddr true AF_INET 4 s else getAddr true AF_INET6 16 s
    | some (none, s) => getAddr false AF_INET6 16 s

/-- `bytestream_skip`, bytestream.c 106-115. -/
def skipBytes (s : Stream) (n : Nat) : Bool × Stream :=
  if room s < n then (false, failed s) else (true, { s with ptr := s.ptr + n })

/-- `byteread_skip_vint`, bytestream.c 117-126. -/
def skipVint (s : Stream) : Option (Bool × Stream) :=
  if room s < 1 then some (false, failed s)
  else match s.data[s.ptr]? with
    | none => none
    | some b => some (skipBytes s (decodeVarintLength b))

/-- `bytestream_skip`, `byteread_skip_vint`, `byteskip_cid`, `byteskip_cstr` and `byteskip_addr`, bytestream.c 326-332,
363-377, 414-425. -/
def skip (s : Stream) : Kind → Option (Bool × Stream)
  | .int8 => some (skipBytes s 1)
  | .int16 => some (skipBytes s 2)
  | .int32 => some (skipBytes s 4)
  | .int64 => some (skipBytes s 8)
  | .vint => skipVint s
  | .buffer n => some (skipBytes s n)
  | .cid _ => match get s 1 with
    | none => none
    | some (some b, s) => some (skipBytes s (accumulate 0 b))
    | some (none, s) => some (false, (skipBytes s 0).2)
  | .cstr _ => match getVint s with
    | none => none
    | some (some n, s) => some (skipBytes s n)
    | some (none, s) => some (false, s)
  | .addr => match getVint s with
    | none => none
    | some (some f, s) => some (skipBytes s (if f = AF_INET then 6 else 18))
    | some (none, s) => some (false, (skipBytes s 18).2)

/-- Items written one after the other, with `ret |= ...`. -/
def writeAll (s : Stream) : List Item → Option (Bool × Stream)
  | [] => some (true, s)
  | i :: l => both (write s i) fun s => writeAll s l

/-- Items read one after the other, up to the first that fails. -/
def readAll (s : Stream) : List Kind → Option (Option (List Item) × Stream)
  | [] => some (some [], s)
  | k :: l => match read s k with
    | none => none
    | some (none, s) => some (none, s)
    | some (some i, s) => (readAll s l).map fun r => (r.1.map (i :: ·), r.2)

/-- `bytestream_reset`, bytestream.c 90-93. -/
def rewind (s : Stream) : Stream := { s with ptr := 0 }

end Picoquic.ByteBuffer
