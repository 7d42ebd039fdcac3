import Verif.Model.IntFormat
/-!
# Stream creation and limits

Model of `picoquic_create_missing_streams` and of the frames that move flow control and stream limits:
MAX_DATA, MAX_STREAM_DATA, MAX_STREAMS, STREAMS_BLOCKED, in `picoquic/frames.c`.

Simplifications. The splay tree of streams is a list (C04). Memory allocation succeeds. Frames are
given by their decoded fields (C02 is about decoding). After a connection error nothing else is
processed: the connection leaves the ready state. When a stream completes and when it is deleted are
inputs of the model, because they depend on data and acknowledgements (see `StreamInput`).
-/

namespace Picoquic.StreamLimits
open Picoquic

/-- `PICOQUIC_TRANSPORT_STREAM_LIMIT_ERROR`, picoquic.h. -/
def STREAM_LIMIT_ERROR : Nat := 4
/-- `PICOQUIC_TRANSPORT_STREAM_STATE_ERROR`, picoquic.h. -/
def STREAM_STATE_ERROR : Nat := 5

/-- `IS_CLIENT_STREAM_ID`, picoquic_internal.h 851: bit 0 is clear. -/
def isClientStreamId (id : Nat) : Bool := id % 2 == 0
/-- `IS_BIDIR_STREAM_ID`, picoquic_internal.h 852: bit 1 is clear. Here, its negation. -/
def isUnidirStreamId (id : Nat) : Bool := id / 2 % 2 == 1
/-- `IS_LOCAL_STREAM_ID`, picoquic_internal.h 853: bit 0 of `id ^ client_mode`. -/
def isLocalStreamId (id : Nat) (client : Bool) : Bool := (id + client.toNat) % 2 == 1
/-- `STREAM_ID_FROM_RANK`, picoquic_internal.h 854. The low two bits of the shifted value are zero,
so the bitwise or is an addition. `rank - 1` and the shift are 64 bit operations. -/
def streamIdFromRank (rank : Nat) (client unidir : Bool) : Nat :=
  u64 (u64 (rank + 18446744073709551615) * 4) + 2 * unidir.toNat + (!client).toNat
/-- `STREAM_RANK_FROM_ID`, picoquic_internal.h 855. -/
def streamRankFromId (id : Nat) : Nat := u64 (id + 4) / 4
/-- `STREAM_TYPE_FROM_ID`, picoquic_internal.h 856. -/
def streamTypeFromId (id : Nat) : Nat := id % 4
/-- `NEXT_STREAM_ID_FOR_TYPE`, picoquic_internal.h 857. -/
def nextStreamIdForType (id : Nat) : Nat := id + 4

/-- The limits of `picoquic_stream_head_t`. -/
structure Stream where
  id : Nat
  maxdataLocal : Nat
  maxdataRemote : Nat
  maxStreamUpdated : Bool := false
deriving DecidableEq, Repr

/-- Transport parameters used here, `picoquic_tp_t`. `maxStreams false` is
`initial_max_stream_id_bidir`, `maxStreams true` is `initial_max_stream_id_unidir`: both are counts of
streams. -/
structure Tp where
  maxData : Nat
  maxStreamDataBidiLocal : Nat
  maxStreamDataBidiRemote : Nat
  maxStreamDataUni : Nat
  maxStreams : Bool → Nat

/-- The part of `picoquic_cnx_t` about limits. The functions of a Boolean give the bidirectional value
on `false` and the unidirectional value on `true`. -/
structure Conn where
  client : Bool
  localTp : Tp
  remoteTp : Tp
  maxdataLocal : Nat
  maxdataRemote : Nat
  maxStreamIdLocal : Bool → Nat
  maxStreamIdLocalComputed : Bool → Nat
  maxStreamIdRemote : Bool → Nat
  nextStreamId : Nat → Nat
  streams : List Stream
  error : Option Nat

/-- What an operation does, as seen from outside. -/
inductive Event where
  /-- a stream is created -/
  | created (id : Nat)
  /-- MAX_DATA frame written in a packet -/
  | maxData (v : Nat)
  /-- MAX_STREAM_DATA frame written in a packet -/
  | maxStreamData (id v : Nat)
  /-- MAX_STREAMS frame written in a packet -/
  | maxStreams (unidir : Bool) (count : Nat)
deriving DecidableEq, Repr

/-- Update of one of two values. -/
def setB (f : Bool → Nat) (u : Bool) (v : Nat) : Bool → Nat := fun w => if w = u then v else f w
/-- Update of one value of an array. -/
def setN (f : Nat → Nat) (i v : Nat) : Nat → Nat := fun j => if j = i then v else f j

/-- `picoquic_find_stream`, quicctx.c 3425-3431. -/
def findStream (c : Conn) (id : Nat) : Option Stream := c.streams.find? (fun s => s.id == id)

/-- The stream made by `picoquic_create_stream`, quicctx.c 3464-3490: its initial limits. -/
def newStream (c : Conn) (id : Nat) : Stream :=
  if isLocalStreamId id c.client then
    if isUnidirStreamId id then ⟨id, 0, c.remoteTp.maxStreamDataUni, false⟩
    else ⟨id, c.localTp.maxStreamDataBidiLocal, c.remoteTp.maxStreamDataBidiRemote, false⟩
  else
    if isUnidirStreamId id then ⟨id, c.localTp.maxStreamDataUni, 0, false⟩
    else ⟨id, c.localTp.maxStreamDataBidiRemote, c.remoteTp.maxStreamDataBidiLocal, false⟩

/-- `picoquic_create_stream`, quicctx.c 3455-3508. The list of output streams is not modelled here. -/
def createStream (c : Conn) (id : Nat) : Conn :=
  { c with
    streams := c.streams ++ [newStream c id]
    nextStreamId :=
      if id ≥ c.nextStreamId (streamTypeFromId id) then
        setN c.nextStreamId (streamTypeFromId id) (nextStreamIdForType id)
      else c.nextStreamId }

/-- The loop of `picoquic_create_missing_streams`, frames.c 76-91. The fuel `id + 1` given by
`createMissingStreams` is never exhausted. -/
def createLoop : Nat → Conn → Nat → Conn × List Event
  | 0, c, _ => (c, [])
  | fuel + 1, c, id =>
    let next := c.nextStreamId (streamTypeFromId id)
    if id ≥ next then
      let r := createLoop fuel (createStream c next) id
      (r.1, .created next :: r.2)
    else (c, [])

/-- `picoquic_connection_error`: the first error is kept. -/
def setError (c : Conn) (e : Nat) : Conn := { c with error := some (c.error.getD e) }

/-- `picoquic_create_missing_streams`, frames.c 56-95. -/
def createMissingStreams (c : Conn) (id : Nat) (isRemote : Bool) : Conn × List Event :=
  let expectClient := xor c.client isRemote
  let next := c.nextStreamId (streamTypeFromId id)
  if isRemote ∧ id < next then (c, [])
  else if isClientStreamId id ≠ expectClient then (setError c STREAM_LIMIT_ERROR, [])
  else if isRemote ∧ id > c.maxStreamIdLocal (isUnidirStreamId id) then
    (setError c STREAM_LIMIT_ERROR, [])
  else if id < next then (setError c STREAM_STATE_ERROR, [])
  else createLoop (id + 1) c id

/-- `picoquic_find_or_create_stream`, frames.c 181-190. -/
def findOrCreateStream (c : Conn) (id : Nat) (isRemote : Bool) : Conn × List Event :=
  match findStream c id with
  | some _ => (c, [])
  | none => createMissingStreams c id isRemote

/-- `picoquic_find_stream_for_writing`, sender.c 49-75. A wrong parity is refused to the application
without a connection error. -/
def findStreamForWriting (c : Conn) (id : Nat) : Conn × List Event :=
  match findStream c id with
  | some _ => (c, [])
  | none =>
    if isClientStreamId id ≠ c.client then (c, [])
    else createMissingStreams c id false

/-- Update of the streams with identifier `id`. -/
def updateStream (c : Conn) (id : Nat) (f : Stream → Stream) : Conn :=
  { c with streams := c.streams.map (fun s => if s.id = id then f s else s) }

/-- `picoquic_decode_max_data_frame`, frames.c 4230-4243. -/
def decodeMaxData (c : Conn) (maxdata : Nat) : Conn :=
  if maxdata > c.maxdataRemote then { c with maxdataRemote := maxdata } else c

/-- `picoquic_decode_max_stream_data_frame`, frames.c 4295-4325. -/
def decodeMaxStreamData (c : Conn) (id maxdata : Nat) : Conn × List Event :=
  let r := findOrCreateStream c id true
  (updateStream r.1 id
    (fun s => if maxdata > s.maxdataRemote then { s with maxdataRemote := maxdata } else s), r.2)

/-- `picoquic_decode_max_streams_frame`, frames.c 4444-4481. -/
def decodeMaxStreams (c : Conn) (unidir : Bool) (rank : Nat) : Conn :=
  let id := streamIdFromRank rank c.client unidir
  let c := if id > c.maxStreamIdRemote unidir then
      { c with maxStreamIdRemote := setB c.maxStreamIdRemote unidir id }
    else c
  if id ≥ 4611686018427387904 then setError c STREAM_LIMIT_ERROR else c

/-- `picoquic_decode_streams_blocked_frame`, frames.c 4850-4865. -/
def decodeStreamsBlocked (c : Conn) (unidir : Bool) (limit : Nat) : Conn :=
  if limit > streamRankFromId (c.maxStreamIdLocal unidir) then setError c STREAM_LIMIT_ERROR else c

/-- `picoquic_update_max_stream_ID_local`, frames.c 4422-4442, once the stream is complete in both
directions. -/
def updateMaxStreamIdLocal (c : Conn) (id : Nat) : Conn :=
  match findStream c id with
  | none => c
  | some s =>
    if c.client ≠ isClientStreamId id ∧ s.maxStreamUpdated = false then
      { updateStream c id (fun s => { s with maxStreamUpdated := true }) with
        maxStreamIdLocalComputed := setB c.maxStreamIdLocalComputed (isUnidirStreamId id)
          (u64 (c.maxStreamIdLocalComputed (isUnidirStreamId id) + 4)) }
    else c

/-- `picoquic_delete_stream`, quicctx.c 3510-3513. -/
def deleteStream (c : Conn) (id : Nat) : Conn := { c with streams := c.streams.filter (fun s => s.id ≠ id) }

/-- Result of `picoquic_cc_increased_window`, cc_common.c 275-288, for a previous window `prev`. The
code multiplies `prev` by 2, or, in floating point, by `rtt_min / 100000` where `rtt_min` is cut to
610000. Here the result is any number, given by the input `w`, up to 7 times `prev`. -/
def increasedWindow (w prev : Nat) : Nat := min w (7 * prev)

/-- `picoquic_format_max_data_frame`, frames.c 4211-4228. -/
def formatMaxData (c : Conn) (increase room : Nat) : Conn × List Event :=
  let v := u64 (c.maxdataLocal + increase)
  match (framesUint8Encode 0x10).seq (framesVarintEncode v) room with
  | some _ => ({ c with maxdataLocal := v }, [.maxData v])
  | none => (c, [])

/-- The decision to send MAX_DATA, sender.c 3376-3388. `w` stands for the result of
`picoquic_cc_increased_window`, `limit` is `quic->max_data_limit`. -/
def prepareMaxData (c : Conn) (dataReceived limit w room : Nat) : Conn × List Event :=
  if limit ≠ 0 then
    if u64 (dataReceived + u64 (3 * limit) / 4) > c.maxdataLocal then
      formatMaxData c (u64 (u64 (dataReceived + limit) + 18446744073709551616 - c.maxdataLocal)) room
    else (c, [])
  else if u64 (2 * dataReceived) > c.maxdataLocal then formatMaxData c (increasedWindow w c.maxdataLocal) room
  else (c, [])

/-- `picoquic_format_max_stream_data_frame`, frames.c 4271-4292. -/
def formatMaxStreamData (c : Conn) (id newMax room : Nat) : Conn × List Event :=
  match (framesUint8Encode 0x11).seq ((framesVarintEncode id).seq (framesVarintEncode newMax)) room with
  | some _ => (updateStream c id (fun s => { s with maxdataLocal := newMax }), [.maxStreamData id newMax])
  | none => (c, [])

/-- One iteration of `picoquic_format_required_max_stream_data_frames`, frames.c 4355-4380, on stream
`id`. `w` stands for the result of `picoquic_cc_increased_window` and `consumed` is
`stream->consumed_offset`. -/
def requiredMaxStreamData (c : Conn) (id consumed w room : Nat) : Conn × List Event :=
  match findStream c id with
  | none => (c, [])
  | some s =>
    if u64 (2 * consumed) > s.maxdataLocal then
      formatMaxStreamData c id (u64 (s.maxdataLocal + increasedWindow w s.maxdataLocal)) room
    else (c, [])

/-- `picoquic_open_flow_control`, sender.c 284-318: the application expects `expected` bytes. The
frames are written in a buffer of 512 bytes and queued. The first frame takes at most 17 bytes, so
that the second one always fits. -/
def openFlowControl (c : Conn) (id consumed expected : Nat) : Conn × List Event :=
  match findStream c id with
  | none => (c, [])
  | some s =>
    let required := u64 (consumed + expected)
    if required > s.maxdataLocal then
      let r := formatMaxStreamData c id required 512
      let r2 := formatMaxData r.1 expected (512 - 17)
      (r2.1, r.2 ++ r2.2)
    else (c, [])

/-- One half of `picoquic_format_max_streams_frame_if_needed`, frames.c 4384-4420. -/
def formatMaxStreamsHalf (c : Conn) (unidir : Bool) (room : Nat) : Conn × List Event × Nat :=
  if u64 (c.maxStreamIdLocalComputed unidir + u64 (2 * c.localTp.maxStreams unidir)) >
      c.maxStreamIdLocal unidir then
    let new := u64 (c.maxStreamIdLocal unidir + u64 (4 * c.localTp.maxStreams unidir))
    match (framesUint8Encode (if unidir then 0x13 else 0x12)).seq
        (framesVarintEncode (streamRankFromId new)) room with
    | some b =>
      ({ c with maxStreamIdLocal := setB c.maxStreamIdLocal unidir new },
        [.maxStreams unidir (streamRankFromId new)], room - b.length)
    | none => (c, [], room)
  else (c, [], room)

/-- `picoquic_format_max_streams_frame_if_needed`, frames.c 4384-4420. -/
def formatMaxStreams (c : Conn) (room : Nat) : Conn × List Event :=
  let r := formatMaxStreamsHalf c false room
  let r2 := formatMaxStreamsHalf r.1 true r.2.2
  (r2.1, r.2.1 ++ r2.2.1)

/-- The check of `picoquic_format_stream_frame`, frames.c 1638-1643, and of
`picoquic_find_ready_stream_path`, frames.c 1377-1382: stream data may be sent on stream `id`. -/
def maySendOn (c : Conn) (id : Nat) : Bool :=
  if isClientStreamId id = c.client then id ≤ c.maxStreamIdRemote (isUnidirStreamId id) else true

/-- Frames received and local actions. -/
inductive Op where
  /-- STREAM, RESET_STREAM or STOP_SENDING frame on stream `id` -/
  | peerFrame (id : Nat)
  | maxStreamData (id v : Nat)
  | maxData (v : Nat)
  | maxStreams (unidir : Bool) (count : Nat)
  | streamsBlocked (unidir : Bool) (limit : Nat)
  /-- the application writes on stream `id` -/
  | write (id : Nat)
  /-- stream `id` is complete -/
  | complete (id : Nat)
  /-- stream `id` is deleted -/
  | delete (id : Nat)
  | prepareMaxData (dataReceived limit window room : Nat)
  | requiredMaxStreamData (id consumed window room : Nat)
  | openFlowControl (id consumed expected : Nat)
  | prepareMaxStreams (room : Nat)

/-- One operation, when there was no error before. -/
def stepOk (c : Conn) : Op → Conn × List Event
  | .peerFrame id => findOrCreateStream c id true
  | .maxStreamData id v => decodeMaxStreamData c id v
  | .maxData v => (decodeMaxData c v, [])
  | .maxStreams u n => (decodeMaxStreams c u n, [])
  | .streamsBlocked u n => (decodeStreamsBlocked c u n, [])
  | .write id => findStreamForWriting c id
  | .complete id => (updateMaxStreamIdLocal c id, [])
  | .delete id => (deleteStream c id, [])
  | .prepareMaxData d l w r => prepareMaxData c d l w r
  | .requiredMaxStreamData id k w r => requiredMaxStreamData c id k w r
  | .openFlowControl id k e => openFlowControl c id k e
  | .prepareMaxStreams r => formatMaxStreams c r

/-- One operation. -/
def step (c : Conn) (op : Op) : Conn × List Event :=
  match c.error with
  | some _ => (c, [])
  | none => stepOk c op

/-- A history. -/
def run (c : Conn) : List Op → Conn × List Event
  | [] => (c, [])
  | op :: ops =>
    let r := step c op
    let r2 := run r.1 ops
    (r2.1, r.2 ++ r2.2)

/-- The limit set by the transport parameter `initial_max_streams_*`, transport.c 608-617 and 652-660;
`none` when the parameter is absent (transport.c 507 and 512). -/
def limitOfTp (client unidir : Bool) : Option Nat → Nat
  | none => 0
  | some count => streamIdFromRank (if count = 0xFFFFFFFF then 0 else count) client unidir

/-- A connection after `picoquic_create_cnx` (quicctx.c 3900-3949) and the reception of the peer's
transport parameters. `peerStreams` gives the `initial_max_streams_*` parameters, if present. -/
def initial (client : Bool) (localTp remoteTp : Tp) (peerStreams : Bool → Option Nat) : Conn :=
  { client, localTp, remoteTp
    maxdataLocal := localTp.maxData
    maxdataRemote := remoteTp.maxData
    maxStreamIdLocal := fun u => streamIdFromRank (localTp.maxStreams u) client u
    maxStreamIdLocalComputed := fun u => streamTypeFromId (streamIdFromRank (localTp.maxStreams u) client u)
    maxStreamIdRemote := fun u => limitOfTp client u (peerStreams u)
    nextStreamId := fun i => i
    streams := []
    error := none }

end Picoquic.StreamLimits
