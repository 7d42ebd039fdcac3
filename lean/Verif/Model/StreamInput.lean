import Verif.Model.Bytes
/-!
# Reception of stream data

Model of the receive side of streams in `picoquic/frames.c`: flow control, reassembly, delivery to the
application callback, RESET_STREAM.

Simplifications. The splay tree of received chunks (ordered by offset) is the list of its nodes in
order: C04 proves that the splay tree behaves as such a list. The application uses the callback
(no direct receive function), the callback returns 0 and does not call back into the stream. Memory
allocation succeeds. Offsets are below 2^62, as checked by `picoquic_decode_stream_frame`
(frames.c 1320), so 64 bit arithmetic does not wrap around.
-/

namespace Picoquic.StreamInput
open Picoquic

/-- `picoquic_stream_data_node_t`: data received ahead of sequence. -/
structure Chunk where
  offset : Nat
  bytes : Bytes
deriving DecidableEq, Repr

/-- End of a chunk. -/
def Chunk.stop (c : Chunk) : Nat := c.offset + c.bytes.length

/-- The receive side of `picoquic_stream_head_t`. `sendClosed` and `sendAcked` stand for the send
side conditions of `picoquic_is_stream_closed` and `picoquic_is_stream_acked`; `deleted` is true
once the stream was removed from the stream tree. -/
structure Stream where
  maxdataLocal : Nat
  finOffset : Nat := 0
  consumed : Nat := 0
  finReceived : Bool := false
  finSignalled : Bool := false
  resetReceived : Bool := false
  resetSignalled : Bool := false
  stopSending : Bool := false
  discarded : Bool := false
  tree : List Chunk := []
  isClosed : Bool := false
  sendClosed : Bool := false
  sendAcked : Bool := false
  deleted : Bool := false
deriving DecidableEq, Repr

/-- A call of the application callback on a stream. -/
inductive Event where
  /-- `picoquic_callback_stream_data` -/
  | data (bytes : Bytes)
  /-- `picoquic_callback_stream_fin`, possibly with data -/
  | fin (bytes : Bytes)
  /-- `picoquic_callback_stream_reset` -/
  | reset
deriving DecidableEq, Repr

/-- `PICOQUIC_TRANSPORT_FLOW_CONTROL_ERROR`, picoquic.h. -/
def FLOW_CONTROL_ERROR : Nat := 3
/-- `PICOQUIC_TRANSPORT_STREAM_LIMIT_ERROR`, picoquic.h. -/
def STREAM_LIMIT_ERROR : Nat := 4
/-- `PICOQUIC_TRANSPORT_FINAL_OFFSET_ERROR`, picoquic.h. -/
def FINAL_OFFSET_ERROR : Nat := 6

/-- The connection: its limit, the data charged to it, and the streams known so far. -/
structure Conn where
  maxdataLocal : Nat
  dataReceived : Nat := 0
  error : Option Nat := none
  ids : List Nat := []
  get : Nat → Stream

/-- `picosplay_insert` of a chunk: after the chunks whose offset is not larger. -/
def insertChunk (c : Chunk) : List Chunk → List Chunk
  | [] => [c]
  | d :: ds => if c.offset < d.offset then c :: d :: ds else d :: insertChunk c ds

/-- `picosplay_find_previous` and `picosplay_next` as used in frames.c 1150-1163: the last chunk
whose offset is at most `off`, and the chunks after it (all of them if there is none). -/
def splitAt (off : Nat) : List Chunk → Option Chunk × List Chunk
  | [] => (none, [])
  | d :: ds =>
    if d.offset ≤ off then
      match splitAt off ds with
      | (none, rest) => (some d, rest)
      | r => r
    else (none, d :: ds)

/-- `add_chunk_node`, frames.c 1091-1126: insertion of `len` bytes of the frame starting at offset
`ofs`. `begin` is the offset of the frame. -/
def addChunkNode (tree : List Chunk) (ofs len begin_ : Nat) (bytes : Bytes) : List Chunk :=
  insertChunk ⟨ofs, (bytes.drop (ofs - begin_)).take len⟩ tree

/-- The loop of `picoquic_queue_network_input`, frames.c 1166-1180. `next` runs over the chunks
following the previous one. Returns the tree, the offset reached, and whether a chunk was added. -/
def queueLoop (begin_ stop : Nat) (bytes : Bytes) :
    List Chunk → Nat → Bool → List Chunk → List Chunk × Nat × Bool
  | tree, fdo, added, [] => (tree, fdo, added)
  | tree, fdo, added, next :: rest =>
    if fdo < stop ∧ next.offset < stop then
      if next.offset > fdo then
        queueLoop begin_ stop bytes (addChunkNode tree fdo (next.offset - fdo) begin_ bytes) next.stop
          true rest
      else queueLoop begin_ stop bytes tree next.stop added rest
    else (tree, fdo, added)

/-- Where the new data starts given the chunk found at or before it, frames.c 1139-1151. -/
def startAfter (fdo : Nat) : Option Chunk → Nat
  | none => fdo
  | some p => if fdo > p.stop then fdo else p.stop

/-- `picoquic_queue_network_input`, frames.c 1129-1188. -/
def queueNetworkInput (tree : List Chunk) (consumed offset : Nat) (bytes : Bytes) :
    List Chunk × Bool :=
  let stop := offset + bytes.length
  let fdo := if offset < consumed then consumed else offset
  if fdo < stop then
    let (prev, nexts) := splitAt fdo tree
    let (tree, fdo, added) := queueLoop offset stop bytes tree (startAfter fdo prev) false nexts
    if fdo < stop then (addChunkNode tree fdo (stop - fdo) offset bytes, true) else (tree, added)
  else (tree, false)

/-- `picoquic_stream_data_chunk_callback`, frames.c 1051-1072. -/
def chunkCallback (s : Stream) (data : Bytes) : Stream × List Event :=
  let s := { s with consumed := s.consumed + data.length }
  if s.consumed ≥ s.finOffset ∧ s.finReceived ∧ ¬ s.finSignalled then
    ({ s with finSignalled := true }, if s.stopSending || s.discarded then [] else [.fin data])
  else
    (s, if data.length > 0 ∧ ¬ (s.stopSending || s.discarded) then [.data data] else [])

/-- The loop of `picoquic_stream_data_callback`, frames.c 1078-1085, on the chunks of the tree. -/
def dataCallbackLoop (s : Stream) : List Chunk → Stream × List Event
  | [] => ({ s with tree := [] }, [])
  | c :: cs =>
    if c.offset ≤ s.consumed then
      let start := s.consumed - c.offset
      if c.bytes.length ≥ start then
        let (s1, ev1) := chunkCallback s (c.bytes.drop start)
        let (s2, ev2) := dataCallbackLoop s1 cs
        (s2, ev1 ++ ev2)
      else dataCallbackLoop s cs
    else ({ s with tree := c :: cs }, [])

/-- `picoquic_stream_data_callback`, frames.c 1074-1089. -/
def dataCallback (s : Stream) : Stream × List Event :=
  let (s1, ev1) := dataCallbackLoop s s.tree
  let (s2, ev2) := chunkCallback s1 []
  (s2, ev1 ++ ev2)

/-- `picoquic_delete_stream_if_closed`, frames.c 133-149, with `picoquic_is_stream_closed` and
`picoquic_is_stream_acked` (frames.c 97-131). -/
def deleteIfClosed (s : Stream) : Stream :=
  let recvClosed := (s.finReceived && s.finSignalled) || (s.resetReceived && s.resetSignalled)
  let s := { s with isClosed := s.isClosed || (s.sendClosed && recvClosed) }
  { s with deleted := s.deleted || (s.isClosed && s.sendAcked) }

/-- Outcome of the functions below. -/
structure Out where
  dataReceived : Nat
  stream : Stream
  events : List Event
  error : Option Nat

/-- `picoquic_flow_control_check_stream_offset`, frames.c 197-221. Returns the new
`cnx->data_received` and stream, or the error. -/
def flowControlCheck (maxdata dataReceived : Nat) (s : Stream) (newFin : Nat) :
    Except Nat (Nat × Stream) :=
  if newFin > s.maxdataLocal then .error FLOW_CONTROL_ERROR
  else if newFin > s.finOffset then
    let newBytes := newFin - s.finOffset
    if newBytes > maxdata ∨ maxdata - newBytes < dataReceived then .error FLOW_CONTROL_ERROR
    else .ok (dataReceived + newBytes, { s with finOffset := newFin })
  else .ok (dataReceived, s)

/-- Delivery of the data of an accepted frame, frames.c 1241-1272. `notify` is `should_notify`, set
when this frame carries the first FIN. -/
def deliver (s : Stream) (offset : Nat) (bytes : Bytes) (notify : Bool) : Stream × List Event :=
  if s.consumed ≥ offset then
    if offset + bytes.length ≥ s.consumed then
      let (s1, ev1) := chunkCallback s (bytes.drop (s.consumed - offset))
      let (s2, ev2) := dataCallback s1
      (s2, ev1 ++ ev2)
    else (s, [])
  else
    let (tree, added) := queueNetworkInput s.tree s.consumed offset bytes
    let s := { s with tree := tree }
    if notify || added then dataCallback s else (s, [])

/-- End of `picoquic_stream_network_input`, frames.c 1277-1296 (flags that schedule MAX_STREAM_DATA
frames and acknowledgements are not modelled). -/
def finish (s : Stream) : Stream := if s.finSignalled then deleteIfClosed s else s

/-- `picoquic_stream_network_input`, frames.c 1190-1300, for a stream that exists. -/
def streamNetworkInput (maxdata dataReceived : Nat) (s : Stream) (offset : Nat) (fin : Bool)
    (bytes : Bytes) : Out :=
  let newFin := offset + bytes.length
  if s.finReceived then
    if (if fin then s.finOffset ≠ newFin else newFin > s.finOffset) then
      ⟨dataReceived, s, [], some FINAL_OFFSET_ERROR⟩
    else
      let (s, ev) := deliver s offset bytes false
      ⟨dataReceived, finish s, ev, none⟩
  else
    let s := if fin then { s with finReceived := true } else s
    if newFin > s.finOffset then
      match flowControlCheck maxdata dataReceived s newFin with
      | .error e => ⟨dataReceived, s, [], some e⟩
      | .ok (dr, s) =>
        let (s, ev) := deliver s offset bytes fin
        ⟨dr, finish s, ev, none⟩
    else
      let (s, ev) := deliver s offset bytes fin
      ⟨dataReceived, finish s, ev, none⟩

/-- `picoquic_decode_stream_reset_frame`, frames.c 270-320, for a stream that exists. -/
def streamReset (maxdata dataReceived : Nat) (s : Stream) (finalOffset : Nat) : Out :=
  if (s.finReceived || s.resetReceived) && decide (finalOffset ≠ s.finOffset) then
    ⟨dataReceived, s, [], some FINAL_OFFSET_ERROR⟩
  else
    match flowControlCheck maxdata dataReceived s finalOffset with
    | .error e => ⟨dataReceived, s, [], some e⟩
    | .ok (dr, s) =>
      if s.resetReceived then ⟨dr, s, [], none⟩
      else
        let s := { s with resetReceived := true }
        if s.resetSignalled then ⟨dr, s, [], none⟩
        else
          let ev := if s.discarded then [] else [Event.reset]
          ⟨dr, deleteIfClosed { s with resetSignalled := true }, ev, none⟩

/-- What may happen on the connection. The last four are local: the application asks the peer to stop
sending, or discards the stream; new limits are advertised; the send side of a stream progresses. -/
inductive Op where
  | frame (id offset : Nat) (fin : Bool) (bytes : Bytes)
  | reset (id finalOffset : Nat)
  | stopSending (id : Nat)
  | discard (id : Nat)
  | raiseStream (id newMax : Nat)
  | raiseConn (increase : Nat)
  | sendSide (id : Nat) (closed acked : Bool)

/-- Parameters: which new streams the peer may create (`picoquic_create_missing_streams`; see
C33), their initial limit (`picoquic_create_stream`, quicctx.c 3455-3486), and which of them are
unidirectional: these are created with the send side finished (frames.c 85-91). -/
structure Params where
  mayCreate : Nat → Bool
  initialMax : Nat → Nat
  receiveOnly : Nat → Bool := fun _ => false

/-- Update of one stream of the connection. -/
def Conn.set (c : Conn) (id : Nat) (s : Stream) : Conn :=
  { c with get := fun i => if i = id then s else c.get i }

/-- `picoquic_find_or_create_stream`, frames.c 183-192: `none` when the connection is put in error. The
implicit creation of lower numbered streams is delayed until they are used. -/
def findOrCreate (p : Params) (c : Conn) (id : Nat) : Option Conn :=
  if id ∈ c.ids then some c
  else if p.mayCreate id then
    some { c.set id { maxdataLocal := p.initialMax id, sendClosed := p.receiveOnly id } with ids := id :: c.ids }
  else none

/-- A frame received on a stream: the stream is found or created; if it was deleted the frame is
ignored (frames.c 1201-1204, 289-291). -/
def onFrame (p : Params) (c : Conn) (id : Nat) (f : Nat → Nat → Stream → Out) : Conn × List Event :=
  match findOrCreate p c id with
  | none => ({ c with error := some STREAM_LIMIT_ERROR }, [])
  | some c =>
    if (c.get id).deleted then (c, [])
    else
      let o := f c.maxdataLocal c.dataReceived (c.get id)
      ({ c.set id o.stream with dataReceived := o.dataReceived, error := o.error }, o.events)

/-- One operation. Once the connection is in error, frames are no longer processed
(`picoquic_decode_frames` stops, and the connection is closing). Events carry the stream. -/
def step (p : Params) (c : Conn) : Op → Conn × List Event
  | .frame id offset fin bytes =>
    if c.error.isSome then (c, [])
    else onFrame p c id (fun m d s => streamNetworkInput m d s offset fin bytes)
  | .reset id finalOffset =>
    if c.error.isSome then (c, []) else onFrame p c id (fun m d s => streamReset m d s finalOffset)
  | .stopSending id => (if id ∈ c.ids then c.set id { c.get id with stopSending := true } else c, [])
  | .discard id => (if id ∈ c.ids then c.set id { c.get id with discarded := true } else c, [])
  | .raiseStream id newMax =>
    (if id ∈ c.ids ∧ newMax ≥ (c.get id).maxdataLocal then
      c.set id { c.get id with maxdataLocal := newMax } else c, [])
  | .raiseConn increase => ({ c with maxdataLocal := c.maxdataLocal + increase }, [])
  | .sendSide id closed acked =>
    (if id ∈ c.ids then
      c.set id (deleteIfClosed { c.get id with
        sendClosed := (c.get id).sendClosed || closed, sendAcked := (c.get id).sendAcked || acked })
      else c, [])

/-- The stream concerned by an operation. -/
def Op.id : Op → Nat
  | .frame id _ _ _ | .reset id _ | .stopSending id | .discard id | .raiseStream id _
  | .sendSide id _ _ => id
  | .raiseConn _ => 0

/-- A sequence of operations: final state, and callbacks with the stream they are for. -/
def run (p : Params) : Conn → List Op → Conn × List (Nat × Event)
  | c, [] => (c, [])
  | c, op :: ops =>
    let (c1, e1) := step p c op
    let (c2, e2) := run p c1 ops
    (c2, e1.map (fun e => (op.id, e)) ++ e2)

/-- The stream `id`, or what it will be when created, `picoquic_find_or_create_stream` frames.c
183-192. -/
def sOf (p : Params) (c : Conn) (id : Nat) : Stream :=
  if id ∈ c.ids then c.get id else { maxdataLocal := p.initialMax id, sendClosed := p.receiveOnly id }

/-- The connection before any stream is created, `picoquic_create_cnx` quicctx.c 3943. -/
def initial (maxdata : Nat) : Conn := { maxdataLocal := maxdata, get := fun _ => { maxdataLocal := 0 } }

end Picoquic.StreamInput
