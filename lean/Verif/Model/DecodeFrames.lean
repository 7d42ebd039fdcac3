import Verif.Model.Frames
import Verif.Spec.FrameProcessing
/-!
# Processing of the frames of a packet

Model of `picoquic_decode_frames` (frames.c 6376-6662) and `picoquic_decode_closing_frames`
(frames.c 6975-6998). The state of the connection is a type `σ`, and what each frame does to it is a
parameter (`Handler`): the theorems hold for all handlers. The order of the checks, the errors and what
follows a frame are those of the code.
-/

namespace Picoquic.Frames
open Picoquic Picoquic.Spec

/-- Result of one iteration: go on with these bytes, and the values of `ack_needed` and
`is_path_probing_frame`; or `bytes == NULL`. -/
inductive Step (σ : Type)
  | cont (s : σ) (rest : Bytes) (ack probing : Bool)
  | stop (s : σ)

variable {σ : Type}

/-- The end of a decoder: `bad` is the state if the frame does not parse, `refuse` the tests on the content
with the error they raise. -/
def finish (h : Handler σ) (s : σ) (x : Parse) (bad : σ) (refuse : Frame → Option (Nat × Nat))
    (ack probing : Bool) : Step σ :=
  match x with
  | none => .stop bad
  | some (f, rest) =>
    match refuse f with
    | some e => .stop (h.error s e.1 e.2)
    | none => match h.frame s f with
      | (true, s') => .cont s' rest ack probing
      | (false, s') => .stop s'

/-- `picoquic_decode_stream_frame`, frames.c 1310-1342. No error if the header does not parse. -/
def decodeStream (h : Handler σ) (s : σ) (bs : Bytes) : Step σ :=
  finish h s (parseStream bs) s
    (fun f => match f with
      | .stream _ offset _ data _ => if offset + data.length ≥ 4611686018427387904 then some (0x6, 0) else none
      | _ => none) true false

/-- `picoquic_decode_ack_frame`, frames.c 3661-3812: header, check of the negotiation, search of the path
when multipath is enabled (a frame for an unknown path is skipped), then the ranges. `bs` starts with the
type. The comparison of the largest number with the numbers sent is left to the handler. The processing of
the ranges starts before they are all read; `broken` stands for that and for the error raised, if any. -/
def decodeAckFrame (cfg : Cfg) (h : Handler σ) (s : σ) (isEcn hasPath : Bool) (type : Nat) (bs : Bytes) :
    Step σ :=
  match Ack.parseAckHeader hasPath 0 bs with
  | none => .stop (h.error s 0x7 type)
  | some (path, _, _, _, _) =>
    if hasPath && !cfg.multipath then .stop (h.error s 0xA type)
    else if cfg.epoch = .oneRtt ∧ cfg.multipath = true ∧ h.pathKnown s path = false then
      match skipAck isEcn hasPath bs with
      | none => .stop s
      | some rest => .cont s rest false false
    else
      match parseAck isEcn hasPath ((framesVarintSkip bs).getD []) with
      | some (c, rest) => finish h s (some (.ack c, rest)) s (fun _ => none) false false
      | none => .stop (h.broken s bs)

/-- `picoquic_decode_new_connection_id_frame`, frames.c 452-487: the checks made before the stash of
connection identifiers is looked at. Without multipath there are two errors. `bs` is what follows the
type. -/
def decodeNewCid (cfg : Cfg) (h : Handler σ) (s : σ) (isMp : Bool) (bs : Bytes) : Step σ :=
  if isMp && !cfg.multipath then .stop (h.error (h.error s 0xA 0x15228c09) 0x7 0x18)
  else
    finish h s (parseNewCid isMp bs) (h.error s 0x7 0x18)
      (fun f => match f with
        | .newConnectionId _ seq retire cid _ =>
          if retire > seq then some (0x7, 0x18) else if cid.length > 20 then some (0xA, 0x18) else none
        | _ => none) true true

/-- `picoquic_decode_retire_connection_id_frame`, frames.c 690-707. -/
def decodeRetireCid (cfg : Cfg) (h : Handler σ) (s : σ) (isMp : Bool) (bs : Bytes) : Step σ :=
  let type := if isMp then 0x15228c0a else 0x19
  if isMp && !cfg.multipath then .stop (h.error s 0xA type)
  else finish h s (parseRetireCid isMp bs) (h.error s 0x7 type) (fun _ => none) true false

/-- `picoquic_decode_new_token_frame`, frames.c 839-859. -/
def decodeNewToken (cfg : Cfg) (h : Handler σ) (s : σ) (bs : Bytes) : Step σ :=
  finish h s (parseNewToken bs) (h.error s 0x7 0x07)
    (fun _ => if cfg.client then none else some (0xA, 0x07)) true false

/-- `picoquic_decode_handshake_done_frame`, frames.c 4881-4903. -/
def decodeHandshakeDone (cfg : Cfg) (h : Handler σ) (s : σ) (bs : Bytes) : Step σ :=
  finish h s (some (.handshakeDone, bs)) s (fun _ => if cfg.client then none else some (0xA, 0x1e)) true false

/-- `picoquic_decode_datagram_frame`, frames.c 4962-4986. -/
def decodeDatagram (cfg : Cfg) (h : Handler σ) (s : σ) (hasLength : Bool) (bs : Bytes) : Step σ :=
  let type := if hasLength then 0x31 else 0x30
  finish h s (parseDatagram hasLength bs) (h.error s 0x7 type)
    (fun f => match f with
      | .datagram data _ => if data.length > cfg.maxDatagram then some (0x7, type) else none
      | _ => none) true false

/-- `picoquic_decode_ack_frequency_frame`, frames.c 5231-5270. No error if the frame does not parse. -/
def decodeAckFrequency (cfg : Cfg) (h : Handler σ) (s : σ) (bs : Bytes) : Step σ :=
  finish h s (parseAckFrequency bs) s
    (fun f => match f with
      | .ackFrequency _ packets delay _ =>
        if !cfg.ackFrequency ∨ delay < cfg.minAckDelay ∨ packets = 0 then some (0x7, 0xAF) else none
      | _ => none) true false

/-- `picoquic_decode_immediate_ack_frame`, frames.c 5329-5346: nothing is done when nothing follows the
frame. -/
def decodeImmediateAck (cfg : Cfg) (h : Handler σ) (s : σ) (bs : Bytes) : Step σ :=
  if bs = [] then .cont s bs true false
  else finish h s (some (.immediateAck, bs)) s
    (fun _ => if cfg.ackFrequency then none else some (0xA, 0x1F)) true false

/-- `picoquic_decode_time_stamp_frame`, frames.c 5375-5396. No error if the frame does not parse. -/
def decodeTimeStamp (cfg : Cfg) (h : Handler σ) (s : σ) (bs : Bytes) : Step σ :=
  finish h s (parse1 .timeStamp bs) s (fun _ => if cfg.timeStamp then none else some (0xA, 757)) false false

/-- The decoders of PATH_ABANDON (frames.c 5440-5455), PATH_AVAILABLE and PATH_BACKUP (5610-5626),
MAX_PATH_ID (5724-5738), PATHS_BLOCKED (5838-5855), PATH_CID_BLOCKED (5976-5994) and OBSERVED_ADDRESS
(6174-6192): when the extension is not negotiated an error is raised, but `bytes`, which points behind the
frame type, is returned. -/
def decodeNegotiated (negotiated : Bool) (h : Handler σ) (s : σ) (type : Nat) (x : Parse) (bs : Bytes)
    (probing : Bool) : Step σ :=
  if negotiated then finish h s x (h.error s 0x7 type) (fun _ => none) true probing
  else .cont (h.error s 0xA type) bs true probing

/-- BDP, frames.c 6600-6625 and 6269-6314. `first` is the first byte of the type. -/
def decodeBdp (cfg : Cfg) (h : Handler σ) (s : σ) (first : Nat) (bs : Bytes) : Step σ :=
  if cfg.client = true ∧ cfg.epoch ≠ .oneRtt then .stop (h.error s 0xA first)
  else if cfg.client = false ∧ cfg.epoch ≠ .zeroRtt ∧ cfg.epoch ≠ .oneRtt then .stop (h.error s 0xA first)
  else if cfg.client = true ∧ cfg.bdp = false then .stop (h.error s 0xA 0)
  else finish h s (parseBdp bs) (h.error s 0x7 0xebd9) (fun _ => none) true false

/-- The extension frames, frames.c 6548-6640; `bs` starts with the type. Nothing is reported if the type is
truncated. -/
def decodeExtension (cfg : Cfg) (h : Handler σ) (s : σ) (bs : Bytes) : Step σ :=
  let first := (bs.headD 0).toNat
  match framesVarintDecode bs with
  | none => .stop s
  | some (type, r) =>
    if cfg.epoch = .zeroRtt ∧ type ≠ 0xebd9 then .stop (h.error s 0xA first)
    else if type = 0xAF then decodeAckFrequency cfg h s r
    else if type = 0x1F then decodeImmediateAck cfg h s r
    else if type = 757 then decodeTimeStamp cfg h s r
    else if type = 0x15228c00 then decodeAckFrame cfg h s false true type bs
    else if type = 0x15228c01 then decodeAckFrame cfg h s true true type bs
    else if type = 0x15228c05 then decodeNegotiated cfg.multipath h s type (parse2 .pathAbandon r) r false
    else if type = 0x15228c07 ∨ type = 0x15228c08 then
      decodeNegotiated cfg.multipath h s type (parse2 (.pathStatus (type = 0x15228c08)) r) r false
    else if type = 0x15228c0c then decodeNegotiated cfg.multipath h s type (parse1 .maxPathId r) r false
    else if type = 0x15228c0d then decodeNegotiated cfg.multipath h s type (parse1 .pathsBlocked r) r false
    else if type = 0x15228c0e then decodeNegotiated cfg.multipath h s type (parse2 .pathCidBlocked r) r false
    else if type = 0x15228c09 then decodeNewCid cfg h s true r
    else if type = 0x15228c0a then decodeRetireCid cfg h s true r
    else if type = 0xebd9 then decodeBdp cfg h s first r
    else if type = 0x9f81a6 ∨ type = 0x9f81a7 then
      decodeNegotiated cfg.addressDiscovery h s type (parseObservedAddress (type = 0x9f81a7) r) r true
    else .stop (h.error s 0xA type)

/-- Frames without check: `finish` with the error FRAME_FORMAT_ERROR. -/
def plain (h : Handler σ) (s : σ) (type : Nat) (x : Parse) : Step σ :=
  finish h s x (h.error s 0x7 type) (fun _ => none) true false

/-- CONNECTION_CLOSE and APPLICATION_CLOSE, frames.c 4136-4199: the error code is stored while reading. -/
def decodeClose (h : Handler σ) (s : σ) (type : Nat) (x : Parse) (bs : Bytes) : Step σ :=
  finish h s x (h.error (h.broken s bs) 0x7 type) (fun _ => none) true false

/-- The `switch` on the first byte, frames.c 6455-6645. -/
def decodeSwitch (cfg : Cfg) (h : Handler σ) (s : σ) (b : UInt8) (t : Bytes) : Step σ :=
  match b.toNat with
  | 0x00 => finish h s (some (.padding (skip0len b t).1, (skip0len b t).2)) s (fun _ => none) false true
  | 0x04 => plain h s 0x04 (parseReset t)
  | 0x1c => decodeClose h s 0x1c (parseConnectionClose t) (b :: t)
  | 0x1d => decodeClose h s 0x1d (parseApplicationClose t) (b :: t)
  | 0x10 => plain h s 0x10 (parse1 .maxData t)
  | 0x11 => plain h s 0x11 (parse2 .maxStreamData t)
  | 0x12 => plain h s 0x12 (parse1 (.maxStreams true) t)
  | 0x13 => plain h s 0x13 (parse1 (.maxStreams false) t)
  | 0x01 => finish h s (some (.ping (skip0len b t).1, (skip0len b t).2)) s (fun _ => none) true false
  | 0x14 => plain h s 0x14 (parse1 .dataBlocked t)
  | 0x15 => plain h s 0x15 (parse2 .streamDataBlocked t)
  | 0x16 => plain h s 0x16 (parse1 (.streamsBlocked true) t)
  | 0x17 => plain h s 0x17 (parse1 (.streamsBlocked false) t)
  | 0x18 => decodeNewCid cfg h s false t
  | 0x05 => plain h s 0x05 (parseStopSending t)
  | 0x1a => finish h s (parsePathChallenge t) (h.error s 0x7 0x1a) (fun _ => none) false true
  | 0x1b => finish h s (parsePathResponse t) (h.error s 0x7 0x1b) (fun _ => none) false true
  | 0x06 => plain h s 0x06 (parseCrypto t)
  | 0x07 => decodeNewToken cfg h s t
  | 0x19 => decodeRetireCid cfg h s false t
  | 0x1e => decodeHandshakeDone cfg h s t
  | 0x30 => decodeDatagram cfg h s false t
  | 0x31 => decodeDatagram cfg h s true t
  | _ => decodeExtension cfg h s (b :: t)

/-- One iteration of the loop of `picoquic_decode_frames`, frames.c 6394-6647. `b` is the first byte and
`t` what follows. -/
def decodeOne (cfg : Cfg) (h : Handler σ) (s : σ) (b : UInt8) (t : Bytes) : Step σ :=
  let v := b.toNat
  if 8 ≤ v ∧ v ≤ 15 then
    if cfg.epoch ≠ .zeroRtt ∧ cfg.epoch ≠ .oneRtt then .stop (h.error s 0xA v)
    else decodeStream h s (b :: t)
  else if v = 2 then
    if cfg.epoch = .zeroRtt then .stop (h.error s 0xA v) else decodeAckFrame cfg h s false false 2 (b :: t)
  else if v = 3 then
    if cfg.epoch = .zeroRtt then .stop (h.error s 0xA v) else decodeAckFrame cfg h s true false 3 (b :: t)
  else if cfg.epoch ≠ .zeroRtt ∧ cfg.epoch ≠ .oneRtt ∧ v ≠ 0 ∧ v ≠ 1 ∧ v ≠ 0x1c ∧ v ≠ 6 then
    .stop (h.error s 0xA v)
  else if cfg.epoch = .zeroRtt ∧ (v = 6 ∨ v = 0x1e ∨ v = 7 ∨ v = 0x1b ∨ v = 0x19) then
    .stop (h.error s 0xA v)
  else decodeSwitch cfg h s b t

/-- State at the end of the loop: `accepted` if `bytes` is not `NULL`; the values of `ack_needed` and
`is_path_probing_packet`. -/
structure Result (σ : Type) where
  state : σ
  accepted : Bool
  ack : Bool
  probing : Bool
deriving DecidableEq, Repr

/-- The loop, frames.c 6394-6648. `none` when the number of iterations reaches the first argument before
the end. -/
def decodeLoop (cfg : Cfg) (h : Handler σ) : Nat → σ → (ack probing : Bool) → Bytes → Option (Result σ)
  | _, s, ack, probing, [] => some ⟨s, true, ack, probing⟩
  | 0, _, _, _, _ :: _ => none
  | n + 1, s, ack, probing, b :: t =>
    match decodeOne cfg h s b t with
    | .stop s' => some ⟨s', false, ack, probing⟩
    | .cont s' rest a p => decodeLoop cfg h n s' (ack || a) (probing && p) rest

/-- `picoquic_decode_frames`, frames.c 6376-6648, with at most as many iterations as bytes. -/
def decodeFrames (cfg : Cfg) (h : Handler σ) (s : σ) (bs : Bytes) : Option (Result σ) :=
  decodeLoop cfg h bs.length s false true bs

/-- The end of `picoquic_decode_frames`, frames.c 6650-6661: is an ACK scheduled, and the new value of
`last_non_path_probing_pn`. -/
def afterLoop (cfg : Cfg) (r : Result σ) (pn last : Nat) : Bool × Nat :=
  if r.accepted then
    (r.ack, if cfg.epoch = .oneRtt ∧ r.probing = false ∧ pn > last then pn else last)
  else (false, last)

/-- The loop of `picoquic_decode_closing_frames`, frames.c 6975-6998: is there a close frame. `none` when
the number of iterations is reached. -/
def closingLoop : Nat → Bytes → Option Bool
  | _, [] => some false
  | 0, _ :: _ => none
  | n + 1, b :: t =>
    if b = 0x1c ∨ b = 0x1d then some true
    else match skipFrame (b :: t) with
      | none => some false
      | some x => if x.ret then closingLoop n ((b :: t).drop x.consumed) else some false

/-- `picoquic_decode_closing_frames`, frames.c 6975-6998. -/
def decodeClosingFrames (bs : Bytes) : Option Bool := closingLoop bs.length bs

end Picoquic.Frames
