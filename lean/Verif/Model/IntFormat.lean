import Verif.Model.Bytes
/-!
# Integer formats

Model of `picoquic/intformat.c` and of the basic encoders and decoders of `picoquic/util.c`.
-/

namespace Picoquic

/-- `picoformat_16`, intformat.c 27-31. -/
def picoformat16 (n : Nat) : Bytes := [u8 (n >>> 8), u8 n]

/-- `picoformat_24`, intformat.c 33-38. -/
def picoformat24 (n : Nat) : Bytes := [u8 (n >>> 16), u8 (n >>> 8), u8 n]

/-- `picoformat_32`, intformat.c 40-46. -/
def picoformat32 (n : Nat) : Bytes := [u8 (n >>> 24), u8 (n >>> 16), u8 (n >>> 8), u8 n]

/-- `picoformat_64`, intformat.c 48-58. -/
def picoformat64 (n : Nat) : Bytes :=
  [u8 (n >>> 56), u8 (n >>> 48), u8 (n >>> 40), u8 (n >>> 32),
   u8 (n >>> 24), u8 (n >>> 16), u8 (n >>> 8), u8 n]

/-- `picoquic_encode_varint_length`, intformat.c 68-83. -/
def encodeVarintLength (n : Nat) : Nat :=
  if n < 16384 then
    if n < 64 then 1 else 2
  else
    if n < 1073741824 then 4 else 8

/-- `picoquic_decode_varint_length`, intformat.c 85-88. -/
def decodeVarintLength (b : UInt8) : Nat := 1 <<< ((b &&& 0xC0) >>> 6).toNat

/-- `picoquic_varint_encode`, intformat.c 90-126: the bytes written, empty when the room
`max_bytes` is too small (the C function then returns length 0). -/
def varintEncode (maxBytes n : Nat) : Bytes :=
  if n < 16384 then
    if n < 64 then
      if maxBytes > 0 then [u8 n] else []
    else
      if maxBytes ≥ 2 then [u8 ((n >>> 8) ||| 0x40), u8 n] else []
  else if n < 1073741824 then
    if maxBytes ≥ 4 then
      [u8 ((n >>> 24) ||| 0x80), u8 (n >>> 16), u8 (n >>> 8), u8 n] else []
  else
    if maxBytes ≥ 8 then
      [u8 ((n >>> 56) ||| 0xC0), u8 (n >>> 48), u8 (n >>> 40), u8 (n >>> 32),
       u8 (n >>> 24), u8 (n >>> 16), u8 (n >>> 8), u8 n] else []

/-- `picoquic_varint_encode_16`, intformat.c 128-134. -/
def varintEncode16 (n : Nat) : Bytes := [u8 (((n >>> 8) ||| 0x40) &&& 0x7F), u8 n]

/-- The accumulation loop `v <<= 8; v += *bytes++` shared by the two varint decoders
(intformat.c 152-155, util.c 751-754). The C accumulator is 64 bits wide; at most 62 bits are
ever accumulated, so no wrap-around is modelled. -/
def accumulate (v : Nat) : Bytes → Nat
  | [] => v
  | b :: bs => accumulate ((v <<< 8) + b.toNat) bs

/-- `picoquic_varint_decode`, intformat.c 136-162: returns (length consumed, value);
`(0, 0)` when the buffer is too short. -/
def varintDecode (bs : Bytes) : Nat × Nat :=
  match bs with
  | [] => (0, 0)
  | b :: rest =>
    let length := 1 <<< ((b &&& 0xC0) >>> 6).toNat
    if length > bs.length then (0, 0)
    else (length, accumulate (b &&& 0x3F).toNat (rest.take (length - 1)))

/-- `picoquic_varint_skip`, intformat.c 164-167. Reads `bytes[0]` without a bound check: `none`
stands for the out-of-bounds read on an empty buffer. -/
def varintSkip (bs : Bytes) : Option Nat :=
  match bs with
  | [] => none
  | b :: _ => some (decodeVarintLength b)

/-- `picoquic_frames_fixed_skip`, util.c 724-728. -/
def framesFixedSkip (size : Nat) (bs : Bytes) : Option Bytes :=
  if size ≤ bs.length then some (bs.drop size) else none

/-- `VARINT_LEN`, picoquic_utils.h 173-174. -/
def varintLen (b : UInt8) : Nat := 1 <<< ((b >>> 6) &&& 3).toNat

/-- `picoquic_frames_varint_skip`, util.c 731-740. -/
def framesVarintSkip (bs : Bytes) : Option Bytes :=
  match bs with
  | [] => none
  | b :: _ => framesFixedSkip (varintLen b) bs

/-- `picoquic_frames_varint_decode`, util.c 744-763. -/
def framesVarintDecode : Dec Nat := fun bs =>
  match bs with
  | [] => none
  | b :: rest =>
    let length := varintLen b
    if length ≤ bs.length then
      some (accumulate (b &&& 0x3F).toNat (rest.take (length - 1)), rest.drop (length - 1))
    else none

/-- `picoquic_frames_varlen_decode`, util.c 765-771. `size_t` is 64 bits wide, so the cast is
the identity. -/
def framesVarlenDecode : Dec Nat := framesVarintDecode

/-- `picoquic_frames_uint8_decode`, util.c 773-782. -/
def framesUint8Decode : Dec UInt8 := fun bs =>
  match bs with
  | [] => none
  | b :: rest => some (b, rest)

/-- `PICOPARSE_16`, picoquic_internal.h 1710. -/
def parse16 (b0 b1 : UInt8) : Nat := (b0.toNat <<< 8) ||| b1.toNat
/-- `PICOPARSE_24`, picoquic_internal.h 1711. -/
def parse24 (b0 b1 b2 : UInt8) : Nat := (parse16 b0 b1 <<< 8) ||| b2.toNat
/-- `PICOPARSE_32`, picoquic_internal.h 1712. -/
def parse32 (b0 b1 b2 b3 : UInt8) : Nat := (parse16 b0 b1 <<< 16) ||| parse16 b2 b3
/-- `PICOPARSE_64`, picoquic_internal.h 1713. -/
def parse64 (b0 b1 b2 b3 b4 b5 b6 b7 : UInt8) : Nat :=
  (parse32 b0 b1 b2 b3 <<< 32) ||| parse32 b4 b5 b6 b7

/-- `picoquic_frames_uint16_decode`, util.c 785-795. -/
def framesUint16Decode : Dec Nat := fun bs =>
  match bs with
  | b0 :: b1 :: rest => some (parse16 b0 b1, rest)
  | _ => none

/-- `picoquic_frames_uint32_decode`, util.c 797-807. -/
def framesUint32Decode : Dec Nat := fun bs =>
  match bs with
  | b0 :: b1 :: b2 :: b3 :: rest => some (parse32 b0 b1 b2 b3, rest)
  | _ => none

/-- `picoquic_frames_uint64_decode`, util.c 809-819. -/
def framesUint64Decode : Dec Nat := fun bs =>
  match bs with
  | b0 :: b1 :: b2 :: b3 :: b4 :: b5 :: b6 :: b7 :: rest =>
    some (parse64 b0 b1 b2 b3 b4 b5 b6 b7, rest)
  | _ => none

/-- `picoquic_frames_length_data_skip`, util.c 821-828. -/
def framesLengthDataSkip (bs : Bytes) : Option Bytes :=
  match framesVarintDecode bs with
  | none => none
  | some (length, rest) => framesFixedSkip length rest

/-- `PICOQUIC_CONNECTION_ID_MAX_SIZE`, picoquic.h 239. -/
def CONNECTION_ID_MAX_SIZE : Nat := 20

/-- A connection ID: the first `id_len` bytes of `id` (picoquic.h 241-244). The C structure
stores them in a 20 byte array; a value of this type with more than 20 bytes does not occur. -/
abbrev Cid := Bytes

/-- Result of `picoquic_frames_cid_decode`. `ub` is the `memcpy` from `NULL` that the C code
performs on an empty buffer when `cid->id_len` held a non-zero value on entry. -/
inductive CidDecode
  | ok (cid : Cid) (rest : Bytes)
  | fail
  | ub
deriving DecidableEq, Repr

/-- `picoquic_frames_cid_decode`, util.c 830-845. `oldLen` is the value of `cid->id_len` on entry:
on an empty buffer the C code keeps it, and compares `NULL + id_len` with `bytes_max`. -/
def framesCidDecode (oldLen : Nat) (bs : Bytes) : CidDecode :=
  match bs with
  | [] =>
    if oldLen > CONNECTION_ID_MAX_SIZE then .fail
    else if oldLen = 0 then .fail  -- copies nothing and returns NULL + 0
    else .ub
  | l :: rest =>
    if l.toNat > CONNECTION_ID_MAX_SIZE ∨ l.toNat > rest.length then .fail
    else .ok (rest.take l.toNat) (rest.drop l.toNat)

/-- `picoquic_frames_varint_encode`, util.c 871-920. -/
def framesVarintEncode (n : Nat) : Enc := fun room =>
  if n < 16384 then
    if n < 64 then
      if 1 ≤ room then some [u8 n] else none
    else
      if 2 ≤ room then some [u8 ((n >>> 8) ||| 0x40), u8 n] else none
  else if n < 1073741824 then
    if 4 ≤ room then
      some [u8 ((n >>> 24) ||| 0x80), u8 (n >>> 16), u8 (n >>> 8), u8 n] else none
  else
    if 8 ≤ room then
      some [u8 ((n >>> 56) ||| 0xC0), u8 (n >>> 48), u8 (n >>> 40), u8 (n >>> 32),
        u8 (n >>> 24), u8 (n >>> 16), u8 (n >>> 8), u8 n] else none

/-- `picoquic_frames_uint8_encode`, util.c 927-937. -/
def framesUint8Encode (n : Nat) : Enc := fun room =>
  if 1 > room then none else some [u8 n]

/-- `picoquic_frames_uint16_encode`, util.c 939-949. -/
def framesUint16Encode (n : Nat) : Enc := fun room =>
  if 2 > room then none else some [u8 (n >>> 8), u8 n]

/-- `picoquic_frames_uint24_encode`, util.c 951-962. -/
def framesUint24Encode (n : Nat) : Enc := fun room =>
  if 3 > room then none else some [u8 (n >>> 16), u8 (n >>> 8), u8 n]

/-- `picoquic_frames_uint32_encode`, util.c 964-976. -/
def framesUint32Encode (n : Nat) : Enc := fun room =>
  if 4 > room then none else some [u8 (n >>> 24), u8 (n >>> 16), u8 (n >>> 8), u8 n]

/-- `picoquic_frames_uint64_encode`, util.c 978-995. -/
def framesUint64Encode (n : Nat) : Enc := fun room =>
  if 8 > room then none else
    some [u8 (n >>> 56), u8 (n >>> 48), u8 (n >>> 40), u8 (n >>> 32),
          u8 (n >>> 24), u8 (n >>> 16), u8 (n >>> 8), u8 n]

/-- `picoquic_frames_length_data_encode`, util.c 997-1009. -/
def framesLengthDataEncode (v : Bytes) : Enc := fun room =>
  match framesVarintEncode v.length room with
  | none => none
  | some h => if v.length ≤ room - h.length then some (h ++ v) else none

/-- `picoquic_frames_cid_encode`, util.c 1011-1014. -/
def framesCidEncode (cid : Cid) : Enc := framesLengthDataEncode cid

/-- `hex_to_char`, util.c 255. -/
def hexToChar (n : Nat) : Char :=
  ['0','1','2','3','4','5','6','7','8','9','a','b','c','d','e','f'].getD n '?'

/-- `picoquic_print_connection_id_hexa`, util.c 253-268: the characters written before the
terminating zero, or `none` for the return code -1. -/
def printCidHexa (bufLen : Nat) (cid : Cid) : Option (List Char) :=
  if bufLen < cid.length * 2 + 1 then none
  else some (cid.flatMap fun b => [hexToChar (b.toNat >>> 4), hexToChar (b.toNat &&& 0x0f)])

/-- `picoquic_parse_hexa_digit`, util.c 270-284: `none` is -1. Characters are ASCII codes. -/
def parseHexaDigit (x : Char) : Option Nat :=
  if '0' ≤ x ∧ x ≤ '9' then some (x.toNat - '0'.toNat)
  else if 'A' ≤ x ∧ x ≤ 'F' then some (x.toNat - 'A'.toNat + 10)
  else if 'a' ≤ x ∧ x ≤ 'f' then some (x.toNat - 'a'.toNat + 10)
  else none

/-- The loop of `picoquic_parse_hexa`, util.c 292-303, entered only with an even length. `none` is
the `ret = 0; break` exit; a trailing odd character cannot occur. -/
def parseHexaLoop : List Char → Option Bytes
  | [] => some []
  | [_] => none
  | x :: y :: rest =>
    match parseHexaDigit x, parseHexaDigit y with
    | some a, some b =>
      match parseHexaLoop rest with
      | some out => some (u8 ((a <<< 4) ||| b) :: out)
      | none => none
    | _, _ => none

/-- `picoquic_parse_hexa`, util.c 286-307: the output bytes; empty is the return value 0. -/
def parseHexa (input : List Char) (outputMax : Nat) : Bytes :=
  if input.length > 0 ∧ input.length &&& 1 = 0 ∧ 2 * outputMax ≥ input.length then
    (parseHexaLoop input).getD []
  else []

/-- `picoquic_parse_connection_id_hexa`, util.c 309-319 (empty result: failure). -/
def parseCidHexa (input : List Char) : Cid := parseHexa input 18

/-- `picoquic_format_connection_id`, util.c 321-331: bytes copied. -/
def formatConnectionId (bytesMax : Nat) (cid : Cid) : Bytes :=
  if cid.length > bytesMax ∨ cid.length = 0 then [] else cid

/-- `picoquic_parse_connection_id`, util.c 333-343: the CID read and the length consumed. The
caller guarantees that `len` bytes are available (`none` otherwise: out-of-bounds read). -/
def parseConnectionId (len : Nat) (bs : Bytes) : Option (Cid × Nat) :=
  if len ≤ CONNECTION_ID_MAX_SIZE then
    if len ≤ bs.length then some (bs.take len, len) else none
  else some ([], 0)

/-- `picoquic_compare_connection_id` as an equality test (result 0), util.c 353-365. -/
def compareCidEq (a b : Cid) : Bool :=
  if a.length = b.length then a == b else false

/-- `picoquic_constant_time_memcmp`, util.c 1037-1047: the accumulated value (64-bit, wraps). The
two arguments have the same length `l`. -/
def ctAccum (x y : Bytes) : Nat :=
  (x.zip y).foldl (fun ret p => u64 (ret + (p.1 ^^^ p.2).toNat)) 0

/-- `picoquic_constant_time_memcmp`, util.c 1037-1047: `true` for the return value 0. -/
def constantTimeMemcmpEq (x y : Bytes) : Bool := ctAccum x y == 0

end Picoquic
