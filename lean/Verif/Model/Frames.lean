import Verif.Spec.Frames
import Verif.Model.StreamFrame
import Verif.Model.AckProcess
/-!
# Reading and writing frames

Model of the parsing part of the frame decoders and of the frame formatters of `picoquic/frames.c`, and of
`picoquic_skip_frame` (frames.c 6800-6973). The content of a frame is a `Spec.Frame`. What a frame does to
the connection is not in this file.
-/

namespace Picoquic.Frames
open Picoquic Picoquic.Spec

/-- A parsed frame and the remaining bytes, `none` for `NULL`. -/
abbrev Parse := Option (Frame × Bytes)

/-- `data = bytes; bytes = picoquic_frames_fixed_skip(bytes, bytes_max, size)`. -/
def fixedData (size : Nat) (bs : Bytes) : Option (Bytes × Bytes) :=
  (framesFixedSkip size bs).map fun r => (bs.take size, r)

/-- `picoquic_skip_0len_frame`, frames.c 4867-4874, for the rest of the buffer behind a first byte `b`:
number of further bytes `b` and what follows. -/
def skip0len (b : UInt8) : Bytes → Nat × Bytes
  | [] => (0, [])
  | c :: t => if c = b then ((skip0len b t).1 + 1, (skip0len b t).2) else (0, c :: t)

/-! ## Parsing -/

/-- `picoquic_decode_stream_reset_frame`, frames.c 264-280. In all these functions `bs` is what follows
the type. -/
def parseReset (bs : Bytes) : Parse :=
  (framesVarintDecode bs).bind fun id => (framesVarintDecode id.2).bind fun e =>
    (framesVarintDecode e.2).bind fun o => some (.resetStream id.1 e.1 o.1, o.2)

/-- `picoquic_parse_new_connection_id_frame`, frames.c 428-450; `isMp` for the multipath version. -/
def parseNewCid (isMp : Bool) (bs : Bytes) : Parse :=
  (if isMp then (framesVarintDecode bs).map fun p => (some p.1, p.2) else some (none, bs)).bind fun path =>
    (framesVarintDecode path.2).bind fun seq => (framesVarintDecode seq.2).bind fun retire =>
      (framesUint8Decode retire.2).bind fun len =>
        (framesFixedSkip (len.1.toNat + 16) len.2).bind fun rest =>
          some (.newConnectionId path.1 seq.1 retire.1 (len.2.take len.1.toNat)
            ((len.2.drop len.1.toNat).take 16), rest)

/-- `picoquic_parse_retire_connection_id_frame`, frames.c 672-688. -/
def parseRetireCid (isMp : Bool) (bs : Bytes) : Parse :=
  if isMp then
    (framesVarintDecode bs).bind fun path =>
      (framesVarintDecode path.2).bind fun seq => some (.retireConnectionId (some path.1) seq.1, seq.2)
  else (framesVarintDecode bs).bind fun seq => some (.retireConnectionId none seq.1, seq.2)

/-- `picoquic_decode_new_token_frame`, frames.c 839-851. -/
def parseNewToken (bs : Bytes) : Parse :=
  (framesVarintDecode bs).bind fun l => (fixedData l.1 l.2).bind fun d => some (.newToken d.1, d.2)

/-- `picoquic_decode_stop_sending_frame`, frames.c 905-917. -/
def parseStopSending (bs : Bytes) : Parse :=
  (framesVarintDecode bs).bind fun id => (framesVarintDecode id.2).bind fun e =>
    some (.stopSending id.1 e.1, e.2)

/-- `picoquic_parse_crypto_hs_frame`, frames.c 2269-2281. -/
def parseCrypto (bs : Bytes) : Parse :=
  (framesVarintDecode bs).bind fun o => (framesVarintDecode o.2).bind fun l =>
    (fixedData l.1 l.2).bind fun d => some (.crypto o.1 d.1, d.2)

/-- `picoquic_decode_connection_close_frame`, frames.c 4136-4145. -/
def parseConnectionClose (bs : Bytes) : Parse :=
  (framesVarintDecode bs).bind fun e => (framesVarintDecode e.2).bind fun t =>
    (framesVarintDecode t.2).bind fun l => (fixedData l.1 l.2).bind fun d =>
      some (.connectionClose e.1 t.1 d.1, d.2)

/-- `picoquic_decode_application_close_frame`, frames.c 4180-4189. -/
def parseApplicationClose (bs : Bytes) : Parse :=
  (framesVarintDecode bs).bind fun e => (framesVarintDecode e.2).bind fun l =>
    (fixedData l.1 l.2).bind fun d => some (.applicationClose e.1 d.1, d.2)

/-- Frames with one varint: `picoquic_decode_max_data_frame` (frames.c 4230-4241),
`picoquic_decode_max_streams_frame` (4445-4452), `picoquic_decode_blocked_frame` (4826-4833),
`picoquic_decode_streams_blocked_frame` (4849-4855), `picoquic_parse_time_stamp_frame` (5368-5373),
`picoquic_parse_max_path_id_frame` (5717-5722), `picoquic_parse_paths_blocked_frame` (5831-5836). -/
def parse1 (f : Nat → Frame) (bs : Bytes) : Parse :=
  (framesVarintDecode bs).bind fun a => some (f a.1, a.2)

/-- Frames with two varints: `picoquic_decode_max_stream_data_frame` (frames.c 4294-4306),
`picoquic_decode_stream_blocked_frame` (4836-4846), `picoquic_parse_path_abandon_frame` (5431-5438),
`picoquic_parse_path_available_or_backup_frame` (5599-5606), `picoquic_parse_path_cid_blocked_frame`
(5966-5973). -/
def parse2 (f : Nat → Nat → Frame) (bs : Bytes) : Parse :=
  (framesVarintDecode bs).bind fun a => (framesVarintDecode a.2).bind fun b => some (f a.1 b.1, b.2)

/-- `picoquic_decode_path_challenge_frame`, frames.c 4622-4636. The test is made on the whole frame. -/
def parsePathChallenge (bs : Bytes) : Parse :=
  if bs.length + 1 ≤ 8 then none
  else (framesUint64Decode bs).map fun d => (.pathChallenge d.1, d.2)

/-- `picoquic_decode_path_response_frame`, frames.c 4724-4736. -/
def parsePathResponse (bs : Bytes) : Parse :=
  (framesUint64Decode bs).bind fun d => some (.pathResponse d.1, d.2)

/-- `picoquic_decode_datagram_frame`, frames.c 4962-4986, without the limit on the size. -/
def parseDatagram (hasLength : Bool) (bs : Bytes) : Parse :=
  if hasLength then
    (framesVarintDecode bs).bind fun l =>
      if l.1 > l.2.length then none else some (.datagram (l.2.take l.1) true, l.2.drop l.1)
  else some (.datagram bs false, [])

/-- `picoquic_parse_ack_frequency_frame`, frames.c 5218-5229. -/
def parseAckFrequency (bs : Bytes) : Parse :=
  (framesVarintDecode bs).bind fun s => (framesVarintDecode s.2).bind fun p =>
    (framesVarintDecode p.2).bind fun m => (framesVarintDecode m.2).bind fun r =>
      some (.ackFrequency s.1 p.1 m.1 r.1, r.2)

/-- `picoquic_parse_bdp_frame`, frames.c 6250-6267. -/
def parseBdp (bs : Bytes) : Parse :=
  (framesVarintDecode bs).bind fun t => (framesVarintDecode t.2).bind fun c =>
    (framesVarintDecode c.2).bind fun m => (framesVarintDecode m.2).bind fun l =>
      if l.1 ≠ 4 ∧ l.1 ≠ 16 then none
      else (fixedData l.1 l.2).bind fun d => some (.bdp t.1 c.1 m.1 d.1, d.2)

/-- `picoquic_parse_observed_address_frame`, frames.c 6159-6172. -/
def parseObservedAddress (v6 : Bool) (bs : Bytes) : Parse :=
  (framesVarintDecode bs).bind fun s => (fixedData (if v6 then 16 else 4) s.2).bind fun a =>
    (framesUint16Decode a.2).bind fun p => some (.observedAddress v6 s.1 a.1 p.1, p.2)

/-- The ranges read by `picoquic_decode_ack_frame`, frames.c 3732-3783: the number of packets in the range
and the gap are checked against `largest`. -/
def parseRanges : (numBlock largest : Nat) → Bytes → Option (List (Nat × Nat) × Bytes)
  | 0, largest, bs =>
    (framesVarintDecode bs).bind fun r =>
      if largest + 1 < r.1 + 1 then none else some ([(largest - r.1, largest)], r.2)
  | n + 1, largest, bs =>
    (framesVarintDecode bs).bind fun r =>
      if largest + 1 < r.1 + 1 then none
      else (framesVarintDecode r.2).bind fun g =>
        if largest < g.1 + 1 + (r.1 + 1) then none
        else (parseRanges n (largest - (g.1 + 1 + (r.1 + 1))) g.2).bind fun rs =>
          some ((largest - r.1, largest) :: rs.1, rs.2)

/-- The parsing part of `picoquic_decode_ack_frame`, frames.c 3661-3812; `bs` is what follows the type. The
code interleaves it with the processing of the ranges (`Ack.decodeAck`). -/
def parseAck (isEcn hasPath : Bool) (bs : Bytes) : Option (AckContent × Bytes) :=
  (if hasPath then (framesVarintDecode bs).map fun p => (some p.1, p.2) else some (none, bs)).bind fun path =>
    (framesVarintDecode path.2).bind fun l => (framesVarintDecode l.2).bind fun d =>
      (framesVarintDecode d.2).bind fun n => (parseRanges n.1 l.1 n.2).bind fun rs =>
        if isEcn then
          (framesVarintDecode rs.2).bind fun a => (framesVarintDecode a.2).bind fun b =>
            (framesVarintDecode b.2).bind fun x =>
              some (⟨path.1, l.1, d.1, rs.1, some (a.1, b.1, x.1)⟩, x.2)
        else some (⟨path.1, l.1, d.1, rs.1, none⟩, rs.2)

/-- The parsing part of `picoquic_decode_stream_frame`, frames.c 1310-1320, on the whole frame. -/
def parseStream (bs : Bytes) : Parse :=
  (StreamFrame.parseStreamHeader bs).map fun x =>
    (.stream x.id x.offset x.fin ((bs.drop x.consumed).take x.dataLength) (bs.headD 0 &&& 2 ≠ 0),
      bs.drop (x.consumed + x.dataLength))

/-! ## Skipping -/

/-- `picoquic_skip_stream_frame`, frames.c 6668-6681; `b` is the type, `bs` what follows. -/
def skipStream (b : UInt8) (bs : Bytes) : Option Bytes :=
  (framesVarintSkip bs).bind fun r =>
    (if b &&& 4 = 0 then some r else framesVarintSkip r).bind fun r =>
      if b &&& 2 = 0 then some [] else framesLengthDataSkip r

/-- `picoquic_skip_crypto_hs_frame`, frames.c 6687-6693. -/
def skipCrypto (bs : Bytes) : Option Bytes := (framesVarintSkip bs).bind framesLengthDataSkip

/-- `picoquic_skip_connection_close_frame`, frames.c 6698-6706. -/
def skipConnectionClose (bs : Bytes) : Option Bytes :=
  (framesVarintSkip bs).bind fun r => (framesVarintSkip r).bind framesLengthDataSkip

/-- `picoquic_skip_application_close_frame`, frames.c 6708-6717. -/
def skipApplicationClose (bs : Bytes) : Option Bytes :=
  (framesVarintSkip bs).bind framesLengthDataSkip

/-- The loop over blocks, frames.c 6740-6746. -/
def skipBlocks : Nat → Bytes → Option Bytes
  | 0, bs => some bs
  | n + 1, bs => (framesVarintSkip bs).bind fun r => (framesVarintSkip r).bind (skipBlocks n)

/-- `picoquic_skip_ack_frame_maybe_ecn`, frames.c 6725-6757; `bs` starts with the type. -/
def skipAck (isEcn hasPath : Bool) (bs : Bytes) : Option Bytes :=
  ((framesVarintSkip bs).bind fun r => (framesVarintSkip r).bind fun r =>
    (if hasPath then framesVarintSkip r else some r).bind fun r =>
      (framesVarintSkip r).bind fun r => (framesVarintDecode r).bind fun n =>
        (framesVarintSkip n.2).bind (skipBlocks n.1)).bind fun r =>
  if isEcn then (framesVarintSkip r).bind fun r => (framesVarintSkip r).bind framesVarintSkip else some r

/-- Two and three varints: `picoquic_skip_stop_sending_frame` (frames.c 944-950),
`picoquic_skip_max_stream_data_frame` (6784-6790), `picoquic_skip_stream_blocked_frame` (6792-6798),
`picoquic_skip_path_abandon_frame` (5422-5429), `picoquic_skip_path_available_or_backup_frame`
(5590-5597), `picoquic_skip_path_cid_blocked_frame` (5957-5964). -/
def skip2 (bs : Bytes) : Option Bytes := (framesVarintSkip bs).bind framesVarintSkip
/-- `picoquic_skip_stream_reset_frame`, frames.c 6771-6782. -/
def skip3 (bs : Bytes) : Option Bytes := (framesVarintSkip bs).bind skip2
/-- `picoquic_skip_ack_frequency_frame`, frames.c 5207-5216. -/
def skip4 (bs : Bytes) : Option Bytes := (framesVarintSkip bs).bind skip3

/-- `picoquic_skip_new_connection_id_frame`, frames.c 411-426; `bs` starts with the type. -/
def skipNewCid (isMp : Bool) (bs : Bytes) : Option Bytes :=
  (framesVarintSkip bs).bind fun r => (if isMp then framesVarintSkip r else some r).bind fun r =>
    (framesVarintSkip r).bind fun r => (framesVarintSkip r).bind fun r =>
      (framesUint8Decode r).bind fun l => framesFixedSkip (l.1.toNat + 16) l.2

/-- `picoquic_skip_retire_connection_id_frame`, frames.c 650-664; `bs` starts with the type. -/
def skipRetireCid (isMp : Bool) (bs : Bytes) : Option Bytes :=
  if isMp then skip3 bs else framesVarintSkip (bs.drop 1)

/-- `picoquic_skip_datagram_frame`, frames.c 4919-4942; `b` is the type. -/
def skipDatagram (b : UInt8) (bs : Bytes) : Option Bytes :=
  if b &&& 1 = 0 then some []
  else (framesVarintDecode bs).bind fun l => if l.1 > l.2.length then none else some (l.2.drop l.1)

/-- `picoquic_skip_bdp_frame`, frames.c 6239-6249. -/
def skipBdp (bs : Bytes) : Option Bytes := (skip3 bs).bind framesLengthDataSkip

/-- `picoquic_skip_observed_address_frame`, frames.c 6148-6158. -/
def skipObservedAddress (ftype : Nat) (bs : Bytes) : Option Bytes :=
  (framesVarintSkip bs).bind (framesFixedSkip ((if ftype % 2 = 0 then 4 else 16) + 2))

/-- The extension frames of `picoquic_skip_frame`, frames.c 6893-6965: what follows, and `pure_ack`. -/
def skipExtension (bs : Bytes) : Option Bytes × Bool :=
  match framesVarintDecode bs with
  | none => (none, true)
  | some (type, r) =>
    if type = 0xAF then (skip4 r, false)
    else if type = 0x1F then (some r, false)
    else if type = 757 then (framesVarintSkip r, true)
    else if type = 0x15228c00 then (skipAck false true bs, true)
    else if type = 0x15228c01 then (skipAck true true bs, true)
    else if type = 0x15228c05 then (skip2 r, false)
    else if type = 0x15228c07 ∨ type = 0x15228c08 then (skip2 r, false)
    else if type = 0x15228c0c then (framesVarintSkip r, false)
    else if type = 0x15228c0d then (framesVarintSkip r, false)
    else if type = 0x15228c0e then (skip2 r, false)
    else if type = 0xebd9 then (skipBdp r, false)
    else if type = 0x15228c09 then (skipNewCid true bs, false)
    else if type = 0x15228c0a then (skipRetireCid true bs, false)
    else if type = 0x9f81a6 ∨ type = 0x9f81a7 then (skipObservedAddress type r, false)
    else (none, true)

/-- The switch of `picoquic_skip_frame`, frames.c 6806-6967: what follows the frame (`none` for `NULL`) and
`pure_ack`. `b` is the first byte, `t` the others. -/
def skipSwitch (b : UInt8) (t : Bytes) : Option Bytes × Bool :=
  if 8 ≤ b.toNat ∧ b.toNat ≤ 15 then (skipStream b t, false)
  else
    match b.toNat with
    | 0x02 => (skipAck false false (b :: t), true)
    | 0x03 => (skipAck true false (b :: t), true)
    | 0x00 => (some (skip0len b t).2, true)
    | 0x04 => (skip3 t, false)
    | 0x1c => (skipConnectionClose t, false)
    | 0x1d => (skipApplicationClose t, false)
    | 0x10 => (framesVarintSkip t, false)
    | 0x11 => (skip2 t, false)
    | 0x12 => (framesVarintSkip t, false)
    | 0x13 => (framesVarintSkip t, false)
    | 0x01 => (some (skip0len b t).2, false)
    | 0x14 => (framesVarintSkip t, false)
    | 0x15 => (skip2 t, false)
    | 0x16 => (framesVarintSkip t, false)
    | 0x17 => (framesVarintSkip t, false)
    | 0x18 => (skipNewCid false (b :: t), false)
    | 0x05 => (skip2 t, false)
    | 0x1a => (framesFixedSkip 8 t, true)
    | 0x1b => (framesFixedSkip 8 t, true)
    | 0x06 => (skipCrypto t, false)
    | 0x07 => (framesLengthDataSkip t, false)
    | 0x19 => (skipRetireCid false (b :: t), false)
    | 0x1e => (some t, false)
    | 0x30 => (skipDatagram b t, false)
    | 0x31 => (skipDatagram b t, false)
    | _ => skipExtension (b :: t)

/-- Result of `picoquic_skip_frame`. -/
structure Skip where
  ret : Bool
  consumed : Nat
  pureAck : Bool
deriving DecidableEq, Repr

/-- `picoquic_skip_frame`, frames.c 6800-6973. `ret` is `true` for 0. `none` is the read of `bytes[0]` in an
empty buffer. -/
def skipFrame (bs : Bytes) : Option Skip :=
  match bs with
  | [] => none
  | b :: t =>
    let x := skipSwitch b t
    match x.1 with
    | none => some ⟨false, bs.length, x.2⟩
    | some r => some ⟨true, bs.length - r.length, x.2⟩

/-! ## Writing

All the formatters restore `bytes` and set `*more_data` when something does not fit: `none`. -/

/-- `picoquic_format_stream_reset_frame`, frames.c 234-238. -/
def formatReset (id error offset : Nat) : Enc :=
  (framesUint8Encode 0x04).seq ((framesVarintEncode id).seq ((framesVarintEncode error).seq (framesVarintEncode offset)))

/-- `picoquic_format_new_connection_id_frame`, frames.c 392-404; `secret` is what
`picoquic_create_cnxid_reset_secret` gives. -/
def formatNewCid (path : Option Nat) (seq retire : Nat) (cid secret : Bytes) : Enc :=
  let body := (framesVarintEncode seq).seq ((framesVarintEncode retire).seq ((framesCidEncode cid).seq
    fun room => if 16 > room then none else some secret))
  match path with
  | none => (framesVarintEncode 0x18).seq body
  | some p => (framesVarintEncode 0x15228c09).seq ((framesVarintEncode p).seq body)

/-- `picoquic_format_retire_connection_id_frame`, frames.c 607-624. -/
def formatRetireCid (path : Option Nat) (seq : Nat) : Enc :=
  match path with
  | none => (framesVarintEncode 0x19).seq (framesVarintEncode seq)
  | some p => (framesVarintEncode 0x15228c0a).seq ((framesVarintEncode p).seq (framesVarintEncode seq))

/-- `picoquic_format_new_token_frame`, frames.c 802-816. -/
def formatNewToken (token : Bytes) : Enc := (framesUint8Encode 0x07).seq (framesLengthDataEncode token)

/-- `picoquic_format_stop_sending_frame`, frames.c 887-892. -/
def formatStopSending (id error : Nat) : Enc :=
  (framesUint8Encode 0x05).seq ((framesVarintEncode id).seq (framesVarintEncode error))

/-- `picoquic_format_data_blocked_frame`, frames.c 1426-1443. -/
def formatDataBlocked (limit : Nat) : Enc := (framesUint8Encode 0x14).seq (framesVarintEncode limit)

/-- `picoquic_format_stream_data_blocked_frame`, frames.c 1445-1464. -/
def formatStreamDataBlocked (id limit : Nat) : Enc :=
  (framesUint8Encode 0x15).seq ((framesVarintEncode id).seq (framesVarintEncode limit))

/-- `picoquic_format_stream_blocked_frame`, frames.c 1466-1504. -/
def formatStreamsBlocked (bidir : Bool) (limit : Nat) : Enc :=
  (framesUint8Encode (if bidir then 0x16 else 0x17)).seq (framesVarintEncode limit)

/-- `picoquic_format_connection_close_frame`, frames.c 4117-4134; the reason is a C string. -/
def formatConnectionClose (error frameType : Nat) (reason : Bytes) : Enc :=
  (framesUint8Encode 0x1c).seq ((framesVarintEncode error).seq
    ((framesVarintEncode frameType).seq (framesLengthDataEncode reason)))

/-- `picoquic_format_application_close_frame`, frames.c 4162-4178. -/
def formatApplicationClose (error : Nat) : Enc :=
  (framesUint8Encode 0x1d).seq ((framesVarintEncode error).seq (framesUint8Encode 0))

/-- `picoquic_format_max_data_frame`, frames.c 4211-4228. -/
def formatMaxData (limit : Nat) : Enc := (framesUint8Encode 0x10).seq (framesVarintEncode limit)

/-- `picoquic_format_max_stream_data_frame`, frames.c 4271-4291. -/
def formatMaxStreamData (id limit : Nat) : Enc :=
  (framesUint8Encode 0x11).seq ((framesVarintEncode id).seq (framesVarintEncode limit))

/-- One frame of `picoquic_format_max_streams_frame_if_needed`, frames.c 4384-4420. -/
def formatMaxStreams (bidir : Bool) (limit : Nat) : Enc :=
  (framesUint8Encode (if bidir then 0x12 else 0x13)).seq (framesVarintEncode limit)

/-- `picoquic_format_path_challenge_frame`, frames.c 4606-4619. -/
def formatPathChallenge (data : Nat) : Enc := (framesUint8Encode 0x1a).seq (framesUint64Encode data)

/-- `picoquic_format_path_response_frame`, frames.c 4709-4722. -/
def formatPathResponse (data : Nat) : Enc := (framesUint8Encode 0x1b).seq (framesUint64Encode data)

/-- `picoquic_format_datagram_frame`, frames.c 5003-5021. -/
def formatDatagram (data : Bytes) : Enc :=
  (framesUint8Encode 0x31).seq ((framesVarintEncode data.length).seq
    fun room => if data.length ≤ room then some data else none)

/-- `picoquic_format_ack_frequency_frame`, frames.c 5287-5292. -/
def formatAckFrequency (seq gap delay reordering : Nat) : Enc :=
  (framesVarintEncode 0xAF).seq ((framesVarintEncode seq).seq ((framesVarintEncode gap).seq
    ((framesVarintEncode delay).seq (framesVarintEncode reordering))))

/-- `picoquic_format_immediate_ack_frame`, frames.c 5348-5356. -/
def formatImmediateAck : Enc := framesVarintEncode 0x1F

/-- `picoquic_format_time_stamp_frame`, frames.c 5399-5411. -/
def formatTimeStamp (time : Nat) : Enc := (framesVarintEncode 757).seq (framesVarintEncode time)

/-- `picoquic_format_path_abandon_frame`, frames.c 5508-5522. -/
def formatPathAbandon (path reason : Nat) : Enc :=
  (framesVarintEncode 0x15228c05).seq ((framesVarintEncode path).seq (framesVarintEncode reason))

/-- `picoquic_format_path_available_or_backup_frame`, frames.c 5545-5558. -/
def formatPathStatus (available : Bool) (path seq : Nat) : Enc :=
  (framesVarintEncode (if available then 0x15228c08 else 0x15228c07)).seq
    ((framesVarintEncode path).seq (framesVarintEncode seq))

/-- `picoquic_format_max_path_id_frame`, frames.c 5680-5690. -/
def formatMaxPathId (limit : Nat) : Enc := (framesVarintEncode 0x15228c0c).seq (framesVarintEncode limit)

/-- `picoquic_format_paths_blocked_frame`, frames.c 5795-5806. -/
def formatPathsBlocked (limit : Nat) : Enc := (framesVarintEncode 0x15228c0d).seq (framesVarintEncode limit)

/-- `picoquic_format_path_cid_blocked_frame`, frames.c 5905-5917. -/
def formatPathCidBlocked (path seq : Nat) : Enc :=
  (framesVarintEncode 0x15228c0e).seq ((framesVarintEncode path).seq (framesVarintEncode seq))

/-- `picoquic_format_observed_address_frame`, frames.c 6064-6085. -/
def formatObservedAddress (v6 : Bool) (seq : Nat) (ip : Bytes) (port : Nat) : Enc :=
  (framesVarintEncode (if v6 then 0x9f81a7 else 0x9f81a6)).seq ((framesVarintEncode seq).seq fun room =>
    if ip.length < room then
      match framesUint16Encode port (room - ip.length) with
      | none => none
      | some p => some (ip ++ p)
    else none)

/-- `picoquic_format_bdp_frame`, frames.c 6354-6360. -/
def formatBdp (lifetime capacity minRtt : Nat) (ip : Bytes) : Enc :=
  if capacity = 0 then fun _ => none
  else (framesVarintEncode 0xebd9).seq ((framesVarintEncode lifetime).seq ((framesVarintEncode capacity).seq
    ((framesVarintEncode minRtt).seq (framesLengthDataEncode ip))))

/-- `picoquic_format_crypto_hs_frame`, frames.c 2398-2450. `queued` is what remains of the first item of the
send queue, `offset` is `sent_offset`. Returns what is written and the number of bytes taken from the queue. -/
def formatCrypto (offset : Nat) (queued : Bytes) (room : Nat) : Bytes × Nat :=
  if queued = [] then ([], 0)
  else match ((framesUint8Encode 0x06).seq (framesVarintEncode offset)) room with
  | none => ([], 0)
  | some h =>
    let space := room - h.length
    let length := min queued.length space
    match framesVarintEncode length space with
    | none => ([], 0)
    | some l =>
      let length' := if l.length + length > space then space - l.length else length
      match (if l.length + length > space then framesVarintEncode length' space else some l) with
      | none => ([], 0)
      | some l' => (h ++ (l' ++ queued.take length'), length')

/-- `picoquic_queue_handshake_done_frame`, frames.c 4905-4911. -/
def handshakeDoneFrame : Bytes := [0x1e]

/-! ## Which formatter writes which frame -/

/-- The formatter of a frame (the definitions above, which cite the code), and the frames without one: those
sent by other means, or never. -/
def formatOf : Frame → Option Enc
  | .resetStream id error size => some (formatReset id error size)
  | .stopSending id error => some (formatStopSending id error)
  | .newToken token => some (formatNewToken token)
  | .maxData limit => some (formatMaxData limit)
  | .maxStreamData id limit => some (formatMaxStreamData id limit)
  | .maxStreams bidir limit => some (formatMaxStreams bidir limit)
  | .dataBlocked limit => some (formatDataBlocked limit)
  | .streamDataBlocked id limit => some (formatStreamDataBlocked id limit)
  | .streamsBlocked bidir limit => some (formatStreamsBlocked bidir limit)
  | .newConnectionId path seq retire cid token => some (formatNewCid path seq retire cid token)
  | .retireConnectionId path seq => some (formatRetireCid path seq)
  | .pathChallenge data => some (formatPathChallenge data)
  | .pathResponse data => some (formatPathResponse data)
  | .connectionClose error type reason => some (formatConnectionClose error type reason)
  | .applicationClose error [] => some (formatApplicationClose error)
  | .datagram data true => some (formatDatagram data)
  | .ackFrequency seq packets delay reordering => some (formatAckFrequency seq packets delay reordering)
  | .immediateAck => some formatImmediateAck
  | .timeStamp time => some (formatTimeStamp time)
  | .pathAbandon path reason => some (formatPathAbandon path reason)
  | .pathStatus available path seq => some (formatPathStatus available path seq)
  | .maxPathId limit => some (formatMaxPathId limit)
  | .pathsBlocked limit => some (formatPathsBlocked limit)
  | .pathCidBlocked path seq => some (formatPathCidBlocked path seq)
  | .bdp lifetime capacity minRtt ip => some (formatBdp lifetime capacity minRtt ip)
  | .observedAddress v6 seq ip port => some (formatObservedAddress v6 seq ip port)
  | _ => none

end Picoquic.Frames
