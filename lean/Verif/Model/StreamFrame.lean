import Verif.Model.IntFormat
/-!
# STREAM frames

Model of the encoding and the parsing of STREAM frames in `picoquic/frames.c`.
-/

namespace Picoquic.StreamFrame
open Picoquic

/-- `bytes0[0] |= m`. -/
def orHead (m : UInt8) : Bytes → Bytes
  | [] => []
  | b :: t => (b ||| m) :: t

/-- `picoquic_format_stream_frame_header`, frames.c 1618-1630. -/
def formatStreamFrameHeader (id offset : Nat) : Enc := fun room =>
  match ((framesUint8Encode 8).seq (framesVarintEncode id)) room with
  | none => none
  | some h =>
    if offset > 0 then
      match framesVarintEncode offset (room - h.length) with
      | none => none
      | some o => some (orHead 4 (h ++ o))
    else some h

/-- `picoquic_encode_length_of_stream_frame`, frames.c 1562-1590. `header` is what was written so far,
`byteSpace` the space behind it. Returns what is before the data, and `start_index`. -/
def encodeLengthOfStreamFrame (header : Bytes) (byteSpace length : Nat) : Bytes × Nat :=
  if length < byteSpace then
    if length = byteSpace - 1 then (0 :: header, 1)
    else (orHead 2 (header ++ varintEncode byteSpace length), 0)
  else (header, 0)

/-- `bytes0[start_index] |= 1`. -/
def setFin (start : Nat) (bytes : Bytes) : Bytes :=
  bytes.take start ++ orHead 1 (bytes.drop start)

/-- The bytes of a STREAM frame of the queue, frames.c 1752-1801, when `data` was taken from the queue
and the FIN is set or not: header, length, data, FIN bit in the octet `start_index`. -/
def queuedFrame (header : Bytes) (byteSpace : Nat) (data : Bytes) (fin : Bool) : Bytes :=
  let h := encodeLengthOfStreamFrame header byteSpace data.length
  let b := h.1 ++ data
  if fin then setFin h.2 b else b

/-- The bytes of a STREAM frame filled by the application, `picoquic_provide_stream_data_buffer`,
frames.c 1592-1616: the FIN bit is set first, in `bytes[0]`. -/
def polledFrame (header : Bytes) (byteSpace : Nat) (data : Bytes) (fin : Bool) : Bytes :=
  let h := encodeLengthOfStreamFrame (if fin then orHead 1 header else header) byteSpace data.length
  h.1 ++ data

/-- What `picoquic_parse_stream_header` returns. -/
structure StreamHeader where
  id : Nat
  offset : Nat
  dataLength : Nat
  fin : Bool
  consumed : Nat
deriving DecidableEq, Repr

/-- `picoquic_parse_stream_header`, frames.c 993-1049. The buffer is not empty, the callers look at its
first byte. `none` when the function returns -1. -/
def parseStreamHeader (bytes : Bytes) : Option StreamHeader :=
  let b := bytes.headD 0
  let s := if bytes.length > 1 then varintDecode (bytes.drop 1) else (0, 0)
  let i1 := 1 + s.1
  let o := if b &&& 4 = 0 then (0, 0)
    else if bytes.length > i1 then varintDecode (bytes.drop i1) else (0, 0)
  let i2 := i1 + o.1
  if bytes.length < i2 ∨ s.1 = 0 ∨ (b &&& 4 ≠ 0 ∧ o.1 = 0) then none
  else if b &&& 2 = 0 then some ⟨s.2, o.2, bytes.length - i2, b &&& 1 ≠ 0, i2⟩
  else
    let l := if bytes.length > i2 then varintDecode (bytes.drop i2) else (0, 0)
    let i3 := i2 + l.1
    if l.1 = 0 ∨ bytes.length < i3 then none
    else if i3 + l.2 > bytes.length then none
    else some ⟨s.2, o.2, l.2, b &&& 1 ≠ 0, i3⟩

/-- A STREAM frame as seen by `picoquic_decode_stream_frame`, frames.c 1310-1342: identifier, offset,
FIN flag and data given to `picoquic_stream_network_input`, and the bytes behind the frame. `none` for
an error. -/
def decodeStreamFrame (bytes : Bytes) : Option ((Nat × Nat × Bool × Bytes) × Bytes) :=
  match parseStreamHeader bytes with
  | none => none
  | some h =>
    if h.offset + h.dataLength ≥ 4611686018427387904 then none
    else some ((h.id, h.offset, h.fin, (bytes.drop h.consumed).take h.dataLength),
      bytes.drop (h.consumed + h.dataLength))

end Picoquic.StreamFrame
