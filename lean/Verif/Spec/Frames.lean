import Verif.Spec.Ack
/-!
# Specification of QUIC frames

The frames of RFC 9000 (section 19), RFC 9221 (datagrams) and of the extensions supported: delayed
acknowledgements, time stamps, multipath, BDP, address discovery. `layout` is the field list of each
frame, to be compared with the figures of these documents.
-/

namespace Picoquic.Spec
open Picoquic

/-- A frame and the value of its fields. `padding n` and `ping n` are `n + 1` such frames in a row.
`explicit` tells if a STREAM or DATAGRAM frame has a length field. -/
inductive Frame
  | padding (n : Nat)
  | ping (n : Nat)
  | ack (c : AckContent)
  | resetStream (id error finalSize : Nat)
  | stopSending (id error : Nat)
  | crypto (offset : Nat) (data : Bytes)
  | newToken (token : Bytes)
  | stream (id offset : Nat) (fin : Bool) (data : Bytes) (explicit : Bool)
  | maxData (limit : Nat)
  | maxStreamData (id limit : Nat)
  | maxStreams (bidir : Bool) (limit : Nat)
  | dataBlocked (limit : Nat)
  | streamDataBlocked (id limit : Nat)
  | streamsBlocked (bidir : Bool) (limit : Nat)
  | newConnectionId (path : Option Nat) (seq retirePriorTo : Nat) (cid token : Bytes)
  | retireConnectionId (path : Option Nat) (seq : Nat)
  | pathChallenge (data : Nat)
  | pathResponse (data : Nat)
  | connectionClose (error frameType : Nat) (reason : Bytes)
  | applicationClose (error : Nat) (reason : Bytes)
  | handshakeDone
  | datagram (data : Bytes) (explicit : Bool)
  | ackFrequency (seq packets delay reordering : Nat)
  | immediateAck
  | timeStamp (time : Nat)
  | pathAbandon (path reason : Nat)
  | pathStatus (available : Bool) (path seq : Nat)
  | maxPathId (limit : Nat)
  | pathsBlocked (limit : Nat)
  | pathCidBlocked (path seq : Nat)
  | bdp (lifetime capacity minRtt : Nat) (ip : Bytes)
  | observedAddress (v6 : Bool) (seq : Nat) (ip : Bytes) (port : Nat)
deriving DecidableEq, Repr

/-- A field: given bytes, a big endian integer of `size` bytes, or a variable length integer in any of
its encodings. -/
inductive Field
  | raw (bs : Bytes)
  | fixed (size n : Nat)
  | int (n : Nat)

/-- `bs` is a sequence of encodings of these fields. -/
def Encodes : List Field → Bytes → Prop
  | [], bs => bs = []
  | .raw r :: fields, bs => ∃ t, bs = r ++ t ∧ Encodes fields t
  | .fixed size n :: fields, bs => ∃ p t, bs = p ++ t ∧ p.length = size ∧ bigEndian p = n ∧ Encodes fields t
  | .int n :: fields, bs => ∃ p t, bs = p ++ t ∧ Varint p n ∧ Encodes fields t

/-- The fields of the frames other than ACK and STREAM. A frame type of one byte is written in one byte
(RFC 9000 section 12.4); the types of extensions may be written in any way. -/
def layout : Frame → List Field
  | .padding n => [.raw (List.replicate (n + 1) 0)]
  | .ping n => [.raw (List.replicate (n + 1) 1)]
  | .ack _ => []
  | .resetStream id error finalSize => [.raw [0x04], .int id, .int error, .int finalSize]
  | .stopSending id error => [.raw [0x05], .int id, .int error]
  | .crypto offset data => [.raw [0x06], .int offset, .int data.length, .raw data]
  | .newToken token => [.raw [0x07], .int token.length, .raw token]
  | .stream .. => []
  | .maxData limit => [.raw [0x10], .int limit]
  | .maxStreamData id limit => [.raw [0x11], .int id, .int limit]
  | .maxStreams bidir limit => [.raw [if bidir then 0x12 else 0x13], .int limit]
  | .dataBlocked limit => [.raw [0x14], .int limit]
  | .streamDataBlocked id limit => [.raw [0x15], .int id, .int limit]
  | .streamsBlocked bidir limit => [.raw [if bidir then 0x16 else 0x17], .int limit]
  | .newConnectionId none seq retire cid token =>
    [.raw [0x18], .int seq, .int retire, .fixed 1 cid.length, .raw cid, .raw token]
  | .newConnectionId (some path) seq retire cid token =>
    [.int 0x15228c09, .int path, .int seq, .int retire, .fixed 1 cid.length, .raw cid, .raw token]
  | .retireConnectionId none seq => [.raw [0x19], .int seq]
  | .retireConnectionId (some path) seq => [.int 0x15228c0a, .int path, .int seq]
  | .pathChallenge data => [.raw [0x1a], .fixed 8 data]
  | .pathResponse data => [.raw [0x1b], .fixed 8 data]
  | .connectionClose error frameType reason =>
    [.raw [0x1c], .int error, .int frameType, .int reason.length, .raw reason]
  | .applicationClose error reason => [.raw [0x1d], .int error, .int reason.length, .raw reason]
  | .handshakeDone => [.raw [0x1e]]
  | .datagram data false => [.raw [0x30], .raw data]
  | .datagram data true => [.raw [0x31], .int data.length, .raw data]
  | .ackFrequency seq packets delay reordering =>
    [.int 0xAF, .int seq, .int packets, .int delay, .int reordering]
  | .immediateAck => [.int 0x1F]
  | .timeStamp time => [.int 757, .int time]
  | .pathAbandon path reason => [.int 0x15228c05, .int path, .int reason]
  | .pathStatus available path seq =>
    [.int (if available then 0x15228c08 else 0x15228c07), .int path, .int seq]
  | .maxPathId limit => [.int 0x15228c0c, .int limit]
  | .pathsBlocked limit => [.int 0x15228c0d, .int limit]
  | .pathCidBlocked path seq => [.int 0x15228c0e, .int path, .int seq]
  | .bdp lifetime capacity minRtt ip =>
    [.int 0xebd9, .int lifetime, .int capacity, .int minRtt, .int ip.length, .raw ip]
  | .observedAddress v6 seq ip port =>
    [.int (if v6 then 0x9f81a7 else 0x9f81a6), .int seq, .raw ip, .fixed 2 port]

/-- The sizes prescribed. -/
def SizesOk : Frame → Prop
  | .newConnectionId _ _ _ _ token => token.length = 16
  | .observedAddress v6 _ ip _ => ip.length = if v6 then 16 else 4
  | .bdp _ _ _ ip => ip.length = 4 ∨ ip.length = 16
  | _ => True

/-- `bs` is this frame. -/
def IsFrame (bs : Bytes) (f : Frame) : Prop :=
  match f with
  | .ack c =>
    ∃ t body, bs = t ++ body ∧ IsAckBody body c ∧
      (match c.pathId with | none => t = [u8 c.type] | some _ => Varint t c.type)
  | .stream id offset fin data explicit => IsStreamFrame bs id offset fin data explicit
  | f => Encodes (layout f) bs ∧ SizesOk f

/-- A frame without length field extends to the end of the packet; `padding` and `ping` stand for all
the frames in a row. -/
def EndsWith (f : Frame) (rest : Bytes) : Prop :=
  match f with
  | .padding _ => rest.head? ≠ some 0
  | .ping _ => rest.head? ≠ some 1
  | .stream _ _ _ _ explicit => explicit = false → rest = []
  | .datagram _ explicit => explicit = false → rest = []
  | _ => True

/-- `bs` starts with the frame `f`, `rest` is what follows. -/
def StartsWith (bs : Bytes) (f : Frame) (rest : Bytes) : Prop :=
  ∃ p, bs = p ++ rest ∧ IsFrame p f ∧ EndsWith f rest

/-- The payload `bs` of a packet is this sequence of frames. -/
inductive IsPayload : Bytes → List Frame → Prop
  | nil : IsPayload [] []
  | cons {bs rest : Bytes} {f : Frame} {fs : List Frame} :
      StartsWith bs f rest → IsPayload rest fs → IsPayload bs (f :: fs)

/-! ## Where frames may appear -/

/-- The four kinds of protected packets. -/
inductive Epoch
  | initial
  | zeroRtt
  | handshake
  | oneRtt
deriving DecidableEq, Repr

/-- The kind of a packet received, the role of the receiver, the extensions negotiated, and the limits the
receiver announced: `min_ack_delay` and `max_datagram_frame_size`. -/
structure Cfg where
  epoch : Epoch
  client : Bool
  multipath : Bool
  addressDiscovery : Bool
  ackFrequency : Bool
  timeStamp : Bool
  bdp : Bool
  minAckDelay : Nat
  maxDatagram : Nat
deriving DecidableEq, Repr

/-- RFC 9000, table 3 (column "Pkts"), and the extensions: only in 1-RTT packets, but for BDP and
datagrams. -/
def AllowedIn (e : Epoch) : Frame → Prop
  | .padding _ | .ping _ | .connectionClose .. => True
  | .ack c => if c.pathId.isSome then e = .oneRtt else e ≠ .zeroRtt
  | .crypto .. => e ≠ .zeroRtt
  | .newToken _ | .pathResponse _ | .handshakeDone => e = .oneRtt
  | .retireConnectionId .. => e = .oneRtt
  | .newConnectionId path .. => e = .oneRtt ∨ (e = .zeroRtt ∧ path = none)
  | .resetStream .. | .stopSending .. | .stream .. | .maxData _ | .maxStreamData .. | .maxStreams ..
  | .dataBlocked _ | .streamDataBlocked .. | .streamsBlocked .. | .pathChallenge _
  | .applicationClose .. | .datagram .. | .bdp .. => e = .zeroRtt ∨ e = .oneRtt
  | .ackFrequency .. | .immediateAck | .timeStamp _ | .pathAbandon .. | .pathStatus .. | .maxPathId _
  | .pathsBlocked _ | .pathCidBlocked .. | .observedAddress .. => e = .oneRtt

/-- The frames only a server may send, and those of extensions, which must have been negotiated. -/
def Negotiated (cfg : Cfg) : Frame → Prop
  | .newToken _ | .handshakeDone => cfg.client = true
  | .ack c => c.pathId.isSome → cfg.multipath = true
  | .newConnectionId path .. | .retireConnectionId path _ => path.isSome → cfg.multipath = true
  | .pathAbandon .. | .pathStatus .. | .maxPathId _ | .pathsBlocked _ | .pathCidBlocked .. =>
    cfg.multipath = true
  | .observedAddress .. => cfg.addressDiscovery = true
  | .ackFrequency .. | .immediateAck => cfg.ackFrequency = true
  | .timeStamp _ => cfg.timeStamp = true
  | .bdp .. => cfg.client = true → cfg.bdp = true ∧ cfg.epoch = .oneRtt
  | _ => True

/-- Limits on the values of the fields. -/
def ValidFields (cfg : Cfg) : Frame → Prop
  | .stream _ offset _ data _ => offset + data.length < 2 ^ 62
  | .newConnectionId _ seq retire cid _ => retire ≤ seq ∧ cid.length ≤ 20
  | .datagram data _ => data.length ≤ cfg.maxDatagram
  | .ackFrequency _ packets delay _ => cfg.minAckDelay ≤ delay ∧ packets ≠ 0
  | _ => True

/-- The receiver may accept this frame. -/
def Acceptable (cfg : Cfg) (f : Frame) : Prop := AllowedIn cfg.epoch f ∧ Negotiated cfg f ∧ ValidFields cfg f

end Picoquic.Spec
