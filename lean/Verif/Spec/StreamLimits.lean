import Verif.Model.StreamLimits
/-!
# Specification vocabulary for stream limits
-/

namespace Picoquic.Spec
open Picoquic Picoquic.StreamLimits

/-- Identifier of the stream number `k` (from 0) opened by the client or by the server (RFC 9000,
section 2.1). -/
def streamId (byClient unidir : Bool) (k : Nat) : Nat :=
  4 * k + (if unidir then 2 else 0) + (if byClient then 0 else 1)

/-- Identifiers of the streams created, in order. -/
def createdIn : List Event → List Nat
  | [] => []
  | .created id :: es => id :: createdIn es
  | _ :: es => createdIn es

/-- Values of the MAX_DATA frames sent, in order. -/
def maxDataSent : List Event → List Nat
  | [] => []
  | .maxData v :: es => v :: maxDataSent es
  | _ :: es => maxDataSent es

/-- Values of the MAX_STREAM_DATA frames sent for stream `id`, in order. -/
def maxStreamDataSent (id : Nat) : List Event → List Nat
  | [] => []
  | .maxStreamData j v :: es => if j = id then v :: maxStreamDataSent id es else maxStreamDataSent id es
  | _ :: es => maxStreamDataSent id es

/-- Counts of the MAX_STREAMS frames sent, in order. -/
def maxStreamsSent (unidir : Bool) : List Event → List Nat
  | [] => []
  | .maxStreams u n :: es => if u = unidir then n :: maxStreamsSent unidir es else maxStreamsSent unidir es
  | _ :: es => maxStreamsSent unidir es

/-- Values of the MAX_DATA frames received. -/
def maxDataReceived : List Op → List Nat
  | [] => []
  | .maxData v :: ops => v :: maxDataReceived ops
  | _ :: ops => maxDataReceived ops

/-- Values of the MAX_STREAM_DATA frames received for stream `id`. -/
def maxStreamDataReceived (id : Nat) : List Op → List Nat
  | [] => []
  | .maxStreamData j v :: ops =>
    if j = id then v :: maxStreamDataReceived id ops else maxStreamDataReceived id ops
  | _ :: ops => maxStreamDataReceived id ops

/-- Counts of the MAX_STREAMS frames received. -/
def maxStreamsReceived (unidir : Bool) : List Op → List Nat
  | [] => []
  | .maxStreams u n :: ops =>
    if u = unidir then n :: maxStreamsReceived unidir ops else maxStreamsReceived unidir ops
  | _ :: ops => maxStreamsReceived unidir ops

/-- The largest of a number and of a list of numbers. -/
def largest (x : Nat) (l : List Nat) : Nat := l.foldl max x

/-- The last of a number and of a list of numbers. -/
def latest (x : Nat) (l : List Nat) : Nat := l.foldl (fun _ y => y) x

/-- The limit on sending on a stream before any MAX_STREAM_DATA frame, from the peer's transport
parameters (RFC 9000, section 18.2): `bidi_local` is about the streams opened by the peer. -/
def initialSendLimit (client : Bool) (peer : Tp) (id : Nat) : Nat :=
  let byClient := id % 2 == 0
  let unidir := id / 2 % 2 == 1
  if byClient = client then
    if unidir then peer.maxStreamDataUni else peer.maxStreamDataBidiRemote
  else
    if unidir then 0 else peer.maxStreamDataBidiLocal

/-- The limit on receiving on a stream before any MAX_STREAM_DATA frame, from the local transport
parameters. -/
def initialReceiveLimit (client : Bool) (tp : Tp) (id : Nat) : Nat :=
  let byClient := id % 2 == 0
  let unidir := id / 2 % 2 == 1
  if byClient = client then
    if unidir then 0 else tp.maxStreamDataBidiLocal
  else
    if unidir then tp.maxStreamDataUni else tp.maxStreamDataBidiRemote

/-- Bytes asked for by `picoquic_open_flow_control` calls. -/
def expectedTotal : List Op → Nat
  | [] => 0
  | .openFlowControl _ _ e :: ops => e + expectedTotal ops
  | _ :: ops => expectedTotal ops

/-- Bounds on the inputs of one operation: amounts of data below 2^57, and stream identifiers of the
application below 2^62. -/
def SaneOp : Op → Prop
  | .write id => id < 2 ^ 62
  | .peerFrame id => id < 2 ^ 62
  | .maxStreamData id _ => id < 2 ^ 62
  | .maxStreams _ n => n < 2 ^ 62
  | .prepareMaxData d l _ _ => d < 2 ^ 57 ∧ l < 2 ^ 57
  | .requiredMaxStreamData _ k _ _ => k < 2 ^ 57
  | .openFlowControl _ k e => k < 2 ^ 57 ∧ e < 2 ^ 57
  | _ => True

/-- Bounds that hold in any real history: what is decoded from a frame is below 2^62 (C02), a
connection moves less than 2^57 bytes and has less than 2^50 events. -/
def Sane (ops : List Op) : Prop := (∀ op ∈ ops, SaneOp op) ∧ ops.length < 2 ^ 50 ∧ expectedTotal ops ≤ 2 ^ 60

/-- Bounds on the local transport parameters. -/
def SaneTp (tp : Tp) : Prop :=
  tp.maxData < 2 ^ 57 ∧ tp.maxStreamDataBidiLocal < 2 ^ 57 ∧ tp.maxStreamDataBidiRemote < 2 ^ 57 ∧
  tp.maxStreamDataUni < 2 ^ 57 ∧ tp.maxStreams false < 2 ^ 50 ∧ tp.maxStreams true < 2 ^ 50

/-- Stream `id` was found complete while it existed, in history `ops` from state `c`. -/
def CompletedIn (c : Conn) (ops : List Op) (id : Nat) : Prop :=
  ∃ before after, ops = before ++ .complete id :: after ∧ ∃ s ∈ (run c before).1.streams, s.id = id

/-- A frame that refers to stream `id`. -/
def FrameOn (op : Op) (id : Nat) : Prop := op = .peerFrame id ∨ ∃ v, op = .maxStreamData id v

end Picoquic.Spec
