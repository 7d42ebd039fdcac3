import Verif.Model.StreamSend
/-!
# Specification of the sending of streams

Functions of what is seen from outside: the calls and the frames received (`Op`), the data accepted and
the frames written (`Event`).
-/

namespace Picoquic.Spec
open Picoquic Picoquic.StreamSend

/-- The bytes sent on stream `id`, in the order of the STREAM frames. -/
def sentBytes (id : Nat) (ev : List Event) : Bytes :=
  ev.flatMap fun e => match e with
    | .stream i _ _ data _ => if i = id then data else []
    | _ => []

/-- The bytes accepted from the application for stream `id`, in the order of the calls. -/
def acceptedBytes (id : Nat) (ev : List Event) : Bytes :=
  ev.flatMap fun e => match e with
    | .accepted i data _ => if i = id then data else []
    | _ => []

/-- The number of bytes sent on all streams. -/
def totalSent (ev : List Event) : Nat :=
  (ev.map fun e => match e with
    | .stream _ _ _ data _ => data.length
    | _ => 0).sum

/-- The largest connection limit given by the peer. -/
def peerConnLimit (start : Nat) (ops : List Op) : Nat :=
  ops.foldl (fun m op => match op with
    | .maxData v => max m v
    | .params v _ _ => max m v
    | _ => m) start

/-- The largest limit given by the peer for stream `id`. -/
def peerStreamLimit (id : Nat) (ops : List Op) : Nat :=
  ops.foldl (fun m op => match op with
    | .create i v _ => if i = id then max m v else m
    | .maxStreamData i v => if i = id then max m v else m
    | .params _ _ v => max m (v id)
    | _ => m) 0

/-- The application asks for the end of stream `id` in a call that succeeds. -/
def finAccepted (id : Nat) (ev : List Event) : Prop := ∃ data, Event.accepted id data true ∈ ev

/-- The application writes no data on the stream after it has asked for the end of the stream, and does not
ask for it in a call that fails. -/
def EndsOnce (id : Nat) (ev : List Event) : Prop :=
  (∀ pre post data fin, ev = pre ++ Event.accepted id data fin :: post → finAccepted id pre → data = []) ∧
  ∀ data, Event.refused id data true ∉ ev

/-! ## Choice of a stream -/

/-- A RESET_STREAM frame was requested and not sent. -/
def ResetPending (s : Stream) : Prop := s.resetRequested = true ∧ s.resetSent = false

/-- A STOP_SENDING frame was requested and not sent. -/
def StopPending (s : Stream) : Prop := s.stopRequested = true ∧ s.stopSent = false

/-- The stream has data or FIN to send, and the limits allow at least one byte. `path` is the path of the
packet, if streams may be bound to a path. -/
def HasDataToSend (c : Conn) (path : Option Nat) (s : Stream) : Prop :=
  s.sentOffset < s.maxdataRemote ∧ c.dataSent < c.maxdataRemote ∧
  (s.isActive = true ∨ s.queue ≠ [] ∨ (s.finRequested = true ∧ s.finSent = false)) ∧
  (path = none ∨ s.affinity = none ∨ s.affinity = path)

/-- The stream is a local one: client streams are even. -/
def LocalId (client : Bool) (id : Nat) : Prop := id % 2 = 0 ↔ client = true

/-- The endpoint may send on the stream: all but the unidirectional streams of the peer. Bit 1 is set for
unidirectional streams. -/
def CanSend (client : Bool) (id : Nat) : Prop := LocalId client id ∨ id / 2 % 2 = 0

/-- The limit on the number of streams allows the stream. -/
def StreamAllowed (c : Conn) (id : Nat) : Prop :=
  LocalId c.client id → id ≤ c.maxStreamIdRemote (decide (id / 2 % 2 = 1))

/-- Something may be sent on the stream. -/
def Ready (c : Conn) (path : Option Nat) (id : Nat) : Prop :=
  StreamAllowed c id ∧ (StopPending (c.get id) ∨ CanSend c.client id ∧ (ResetPending (c.get id) ∨
    (c.get id).resetSent = false ∧ HasDataToSend c path (c.get id)))

/-- Stream `id` is a right choice among the streams `l`. The priority is a number, smaller first. At odd
priorities, streams are served one after the other. At even priorities, a stream that has a RESET_STREAM or
STOP_SENDING to send goes first, then the one that waits since the longest time. -/
def BestChoice (c : Conn) (path : Option Nat) (l : List Nat) (id : Nat) : Prop :=
  id ∈ l ∧ Ready c path id ∧
  ∀ j ∈ l, Ready c path j →
    (c.get id).priority ≤ (c.get j).priority ∧
    ((c.get id).priority = (c.get j).priority → (c.get id).priority % 2 = 1 → id ≤ j) ∧
    ((c.get id).priority = (c.get j).priority → (c.get id).priority % 2 = 0 →
      ((ResetPending (c.get id) ∨ StopPending (c.get id)) ∧
        (ResetPending (c.get j) ∨ StopPending (c.get j) → id ≤ j)) ∨
      (¬ (ResetPending (c.get j) ∨ StopPending (c.get j)) ∧ (c.get id).lastSent ≤ (c.get j).lastSent))

/-- The use of the API for which the choice of streams is proved, and limits on the number of streams that
are not zero: see the violations of C39 and C50 for what happens otherwise. -/
def OpOk (c : Conn) : Op → Prop
  /- no data after the FIN, and no FIN in a call that fails -/
  | .write id data fin => CanSend c.client id ∧ ((c.get id).finRequested = true → data = []) ∧
      (fin = true → (c.get id).resetSent = false ∧ (c.get id).stopReceived = false)
  | .markActive id _ => CanSend c.client id
  /- the stream is not reset while it is marked active, nor when it is finished -/
  | .reset id _ acked => CanSend c.client id ∧ (c.get id).isActive = false ∧ acked = false
  | .maxStreams _ n => 1 ≤ n ∧ n ≤ 2 ^ 60
  /- the transport parameters are known since the start -/
  | .params _ _ _ => False
  | _ => True

/-- `OpOk` all along a history. -/
def HistoryOk (c : Conn) : List Op → Prop
  | [] => True
  | op :: ops => OpOk c op ∧ HistoryOk (step c op).1 ops

end Picoquic.Spec
