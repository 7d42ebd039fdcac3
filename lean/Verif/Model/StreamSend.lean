import Verif.Model.StreamFrame
import Verif.Model.StreamLimits
/-!
# Sending stream data

Model of the send side of streams in `picoquic/frames.c`, `sender.c` and `quicctx.c`: data queued by the
application, the list of output streams, the choice of the next stream, the STREAM, RESET_STREAM and
STOP_SENDING frames.

Simplifications. The tree of streams (ordered by identifier, C04) is the ordered list of the identifiers
of the streams that exist, and a function that gives the streams. The flag `is_output_stream` is the
presence in the list of output streams. Memory allocation succeeds. The application answers a poll at
most once, and does not call the API during the poll. A stream may be deleted at any time once its send
side is closed (see `picoquic_delete_stream_if_closed` in `StreamInput`).
-/

namespace Picoquic.StreamSend
open Picoquic Picoquic.StreamFrame
open Picoquic.StreamLimits (isClientStreamId isUnidirStreamId isLocalStreamId streamIdFromRank
  streamRankFromId streamTypeFromId nextStreamIdForType setB setN)

/-- The send side of `picoquic_stream_head_t`. `queue` has the remaining bytes of each node of
`send_queue`; the code adds no empty node. -/
structure Stream where
  id : Nat := 0
  priority : Nat := 0
  maxdataRemote : Nat := 0
  sentOffset : Nat := 0
  isActive : Bool := false
  queue : List Bytes := []
  finRequested : Bool := false
  finSent : Bool := false
  resetRequested : Bool := false
  resetSent : Bool := false
  localError : Nat := 0
  stopRequested : Bool := false
  stopSent : Bool := false
  stopError : Nat := 0
  stopReceived : Bool := false
  finReceived : Bool := false
  resetReceived : Bool := false
  lastSent : Nat := 0
  affinity : Option Nat := none
deriving DecidableEq, Repr

/-- The fields of `picoquic_cnx_t` used here. -/
structure Conn where
  client : Bool
  maxdataRemote : Nat
  dataSent : Nat
  maxStreamIdRemote : Bool → Nat
  nextStreamId : Nat → Nat
  ids : List Nat
  get : Nat → Stream
  output : List Nat

/-- Update of one stream. -/
def Conn.set (c : Conn) (id : Nat) (s : Stream) : Conn :=
  { c with get := fun i => if i = id then s else c.get i }

/-- What an operation does, as seen from outside. -/
inductive Event where
  /-- data of the application was accepted, by `picoquic_add_to_stream` (that returns 0) or as the answer to
  a poll; `fin` is the FIN flag given by the application -/
  | accepted (id : Nat) (data : Bytes) (fin : Bool)
  /-- `picoquic_add_to_stream` returned an error -/
  | refused (id : Nat) (data : Bytes) (fin : Bool)
  /-- a STREAM frame was written, as `raw` -/
  | stream (id offset : Nat) (fin : Bool) (data raw : Bytes)
  /-- a RESET_STREAM frame was written -/
  | reset (id error finalSize : Nat)
  /-- a STOP_SENDING frame was written -/
  | stopSending (id error : Nat)
deriving DecidableEq, Repr

/-! ## The list of output streams -/

/-- `picoquic_compare_stream_priority` is negative, quicctx.c 3299-3313. -/
def before (s t : Stream) : Bool :=
  s.priority < t.priority ∨ (s.priority = t.priority ∧ s.id < t.id)

/-- The loop of `picoquic_insert_output_stream`, quicctx.c 3341-3369. The comparison cannot give 0, as
the stream is not in the list. -/
def insertLoop (get : Nat → Stream) (id : Nat) : List Nat → List Nat
  | [] => [id]
  | x :: l => if before (get id) (get x) then id :: x :: l else x :: insertLoop get id l

/-- The check of the limit on streams, quicctx.c 3321-3325: is the stream of the peer or below the
limit. -/
def allowedStream (c : Conn) (id : Nat) : Bool :=
  if isClientStreamId id = c.client then id ≤ c.maxStreamIdRemote (isUnidirStreamId id) else true

/-- `picoquic_insert_output_stream`, quicctx.c 3317-3375. Insertion behind the last stream, tried first in
the code, gives the same list as the loop when the list is in order; here the test is kept. -/
def insertOutput (c : Conn) (id : Nat) : Conn :=
  if id ∈ c.output then c
  else if ¬ allowedStream c id then c
  else
    match c.output.getLast? with
    | none => { c with output := [id] }
    | some last =>
      if before (c.get id) (c.get last) then { c with output := insertLoop c.get id c.output }
      else { c with output := c.output ++ [id] }

/-- `picoquic_remove_output_stream`, quicctx.c 3377-3398. -/
def removeOutput (c : Conn) (id : Nat) : Conn := { c with output := c.output.filter (· ≠ id) }

/-- The streams before and after `id` in a list. -/
def neighbours (id : Nat) : List Nat → Option Nat × Option Nat
  | [] => (none, none)
  | [_] => (none, none)
  | x :: y :: l =>
    if x = id then (none, some y)
    else if y = id then (some x, l.head?)
    else neighbours id (y :: l)

/-- `picoquic_reorder_output_stream`, quicctx.c 3405-3417. -/
def reorderOutput (c : Conn) (id : Nat) : Conn :=
  if id ∈ c.output then
    let n := neighbours id c.output
    if (n.1.any fun p => before (c.get id) (c.get p)) || (n.2.any fun x => before (c.get x) (c.get id)) then
      insertOutput (removeOutput c id) id
    else c
  else c

/-- `picoquic_add_output_streams`, quicctx.c 3432-3449: the streams from the first new one on, up to the
first one above the new limit. -/
def addOutputStreams (c : Conn) (old new : Nat) (unidir : Bool) : Conn :=
  let first := streamIdFromRank (streamRankFromId old + 1) c.client unidir
  if first ∈ c.ids then
    let l := (c.ids.dropWhile (· < first)).takeWhile (fun i => ¬ (i > old ∧ i > new))
    (l.filter (fun i => i > old ∧ isLocalStreamId i c.client ∧ isUnidirStreamId i = unidir)).foldl insertOutput c
  else c

/-- Insertion in the ordered list of streams. -/
def insertId (id : Nat) : List Nat → List Nat
  | [] => [id]
  | x :: l => if id < x then id :: x :: l else x :: insertId id l

/-- The new stream in the tree, quicctx.c 3464-3496 and 3504-3506. -/
def addStream (c : Conn) (id maxdata priority : Nat) : Conn :=
  { c with
    get := fun i => if i = id then { id := id, priority := priority, maxdataRemote := maxdata } else c.get i
    ids := insertId id c.ids
    nextStreamId := setN c.nextStreamId (streamTypeFromId id) (nextStreamIdForType id) }

/-- `picoquic_create_stream`, quicctx.c 3455-3508, for the next stream of its type (streams are created in
order, see C33). `maxdata` is the initial limit, `priority` the default priority. Unidirectional streams
of the peer are not put in the output list. -/
def createStream (c : Conn) (id maxdata priority : Nat) : Conn :=
  if id = c.nextStreamId (streamTypeFromId id) then
    if isLocalStreamId id c.client then
      if id ≤ c.maxStreamIdRemote (isUnidirStreamId id) then insertOutput (addStream c id maxdata priority) id
      else addStream c id maxdata priority
    else if isUnidirStreamId id then addStream c id maxdata priority
    else insertOutput (addStream c id maxdata priority) id
  else c

/-! ## Calls of the application -/

/-- `picoquic_add_to_stream_with_ctx`, sender.c 217-275, on a stream that exists. The boolean tells if the
call succeeds. -/
def addToStream (s : Stream) (data : Bytes) (fin : Bool) : Stream × Bool :=
  if fin ∧ s.finRequested ∧ data.length > 0 then (s, false)
  else
    let s := if fin then { s with finRequested := true } else s
    if s.resetSent ∨ s.stopReceived then (s, false)
    else
      let s := if data.length > 0 then { s with queue := s.queue ++ [data] } else s
      ({ s with isActive := false }, true)

/-- `picoquic_mark_active_stream`, sender.c 131-160. -/
def markActive (s : Stream) (active : Bool) : Stream :=
  if active then
    if ¬ s.finRequested ∧ ¬ s.resetRequested then { s with isActive := true } else s
  else { s with isActive := false }

/-- `picoquic_reset_stream`, sender.c 325-350. `acked` is the result of `picoquic_check_sack_list`. -/
def requestReset (s : Stream) (error : Nat) (acked : Bool) : Stream :=
  if s.finSent ∧ ¬ acked then s
  else if ¬ s.resetRequested then { s with localError := error, resetRequested := true }
  else s

/-! ## The choice of the next stream -/

/-- Is there something to send on the stream, frames.c 1361-1367: flow control and data or FIN, and the
path is not excluded. -/
def hasData (c : Conn) (path : Option Nat) (s : Stream) : Bool :=
  c.maxdataRemote > c.dataSent ∧ s.sentOffset < s.maxdataRemote ∧
    (s.isActive ∨ s.queue ≠ [] ∨ (s.finRequested ∧ ¬ s.finSent)) ∧
    ¬ (path ≠ none ∧ s.affinity ≠ path ∧ s.affinity ≠ none)

/-- Frames 1368-1369: a RESET_STREAM or STOP_SENDING frame is to be sent. -/
def isUrgent (s : Stream) : Bool := (s.resetRequested && !s.resetSent) || (s.stopRequested && !s.stopSent)

/-- Frames 1395: nothing will be sent any more on the stream. -/
def isExhausted (s : Stream) : Bool :=
  ((s.finRequested && s.finSent) || (s.resetRequested && s.resetSent)) && (!s.stopRequested || s.stopSent)

/-- The loop of `picoquic_find_ready_stream_path`, frames.c 1352-1413, over the rest of the list of
output streams, with the stream found so far. Returns the stream found and the streams to remove. The
flags for BLOCKED frames are not modelled. -/
def findLoop (c : Conn) (path : Option Nat) (found : Option Nat) : List Nat → Option Nat × List Nat
  | [] => (found, [])
  | id :: l =>
    let s := c.get id
    if found.any fun f => s.priority > (c.get f).priority then (found, [])
    else if isUrgent s then (some id, [])
    else if hasData c path s then
      if s.sentOffset = 0 ∧ ¬ allowedStream c id then findLoop c path found l
      else if s.priority % 2 ≠ 0 then (some id, [])
      else
        match found with
        | none => findLoop c path (some id) l
        | some f => findLoop c path (some (if s.lastSent < (c.get f).lastSent then id else f)) l
    else if isExhausted s then
      let r := findLoop c path found l
      (r.1, id :: r.2)
    else findLoop c path found l

/-- `picoquic_find_ready_stream_path`, frames.c 1344-1416. -/
def findReady (c : Conn) (path : Option Nat) : Option Nat × Conn :=
  let r := findLoop c path none c.output
  (r.1, r.2.foldl removeOutput c)

/-! ## Frames -/

/-- `a - b` on 64 bits. -/
def sub64 (a b : Nat) : Nat := u64 (a + 18446744073709551616 - b)

/-- The answer of the application to a poll (`picoquic_callback_prepare_to_send`): the data given through
`picoquic_provide_stream_data_buffer`, the FIN, and whether the stream remains active. -/
structure Answer where
  data : Bytes
  fin : Bool
  stillActive : Bool

/-- The allowed length, frames.c 1684-1696. -/
def allowedSpace (c : Conn) (s : Stream) (space : Nat) : Nat :=
  let a := if space > sub64 s.maxdataRemote s.sentOffset then sub64 s.maxdataRemote s.sentOffset else space
  if a > sub64 c.maxdataRemote c.dataSent then sub64 c.maxdataRemote c.dataSent else a

/-- Result of writing a frame: connection, events, and number of bytes written. -/
abbrev Written := Conn × List Event × Nat

/-- `picoquic_format_stream_frame`, polled data, frames.c 1698-1749. An answer that is too long is
refused by `picoquic_provide_stream_data_buffer`, and counts as no answer. -/
def formatPolled (c : Conn) (s : Stream) (header : Bytes) (room time : Nat) (answer : Answer) : Written :=
  let space := room - header.length
  let a := if answer.data.length ≤ allowedSpace c s space then answer else ⟨[], false, false⟩
  if a.data.length = 0 ∧ a.fin = false then (c.set s.id { s with isActive := a.stillActive }, [], 0)
  else
    let raw := polledFrame header space a.data a.fin
    let s' := { s with
      sentOffset := s.sentOffset + a.data.length, lastSent := time
      isActive := if a.fin then false else a.stillActive
      finRequested := s.finRequested || a.fin
      finSent := s.finSent || a.fin }
    let c := { c.set s.id s' with dataSent := c.dataSent + a.data.length }
    (if a.fin then removeOutput c s.id else c,
      [.accepted s.id a.data a.fin, .stream s.id s.sentOffset a.fin a.data raw], raw.length)

/-- `picoquic_format_stream_frame`, queued data, frames.c 1750-1806. -/
def formatQueued (c : Conn) (s : Stream) (header : Bytes) (room time : Nat) : Written :=
  let space := room - header.length
  let front := s.queue.headD []
  let data := front.take (allowedSpace c s space)
  let queue := if data.length > 0 then
      (if front.drop data.length = [] then s.queue.tail else front.drop data.length :: s.queue.tail)
    else s.queue
  let s' := { s with
    queue := queue, sentOffset := s.sentOffset + data.length
    lastSent := if data.length > 0 then time else s.lastSent
    finSent := s.finSent || (queue.isEmpty && s.finRequested) }
  let c' := { c.set s.id s' with dataSent := c.dataSent + data.length }
  if queue = [] then
    let raw := queuedFrame header space data s.finRequested
    (c', [.stream s.id s.sentOffset s.finRequested data raw], raw.length)
  else if data.length = 0 then (c', [], 0)
  else
    let raw := queuedFrame header space data false
    (c', [.stream s.id s.sentOffset false data raw], raw.length)

/-- `picoquic_format_stream_reset_frame`, frames.c 228-262. -/
def formatReset (c : Conn) (s : Stream) (room : Nat) : Written :=
  match (framesUint8Encode 4).seq ((framesVarintEncode s.id).seq
      ((framesVarintEncode s.localError).seq (framesVarintEncode s.sentOffset))) room with
  | some b =>
    (c.set s.id { s with resetSent := true, finSent := true, queue := [] },
      [.reset s.id s.localError s.sentOffset], b.length)
  | none => (c, [], 0)

/-- `picoquic_format_stop_sending_frame`, frames.c 876-901. -/
def formatStopSending (c : Conn) (s : Stream) (room : Nat) : Written :=
  if s.finReceived ∨ s.resetReceived then (c.set s.id { s with stopSent := true }, [], 0)
  else
    match (framesUint8Encode 5).seq ((framesVarintEncode s.id).seq (framesVarintEncode s.stopError)) room with
    | some b => (c.set s.id { s with stopSent := true }, [.stopSending s.id s.stopError], b.length)
    | none => (c, [], 0)

/-- `picoquic_format_stream_frame`, frames.c 1632-1822, on the stream chosen by `findReady`. When the
stream is above the limit the function returns NULL; the list of output streams has no such stream. -/
def formatStreamFrame (c : Conn) (id room time : Nat) (answer : Answer) : Written :=
  let s := c.get id
  if ¬ allowedStream c id then (c, [], 0)
  else if s.resetSent then (c, [], 0)
  else if s.resetRequested then formatReset c s room
  else if s.stopRequested ∧ ¬ s.stopSent then formatStopSending c s room
  else if ¬ s.isActive ∧ s.queue = [] ∧ (¬ s.finRequested ∨ s.finSent) then (c, [], 0)
  else
    match formatStreamFrameHeader s.id s.sentOffset room with
    | none => (c, [], 0)
    | some header =>
      if s.isActive ∧ s.queue = [] ∧ ¬ s.finRequested then formatPolled c s header room time answer
      else formatQueued c s header room time

/-- At most `turns` turns of the loop of `picoquic_format_available_stream_frames`, frames.c 1838-1853, with
the stream found and the space left. The Boolean tells if the loop has ended. `answers` are the answers of
the application, by number of turns left. When `picoquic_format_stream_frame` returns NULL the code goes on
with a null pointer as position in the packet; here the position does not change. -/
def sendTurns (path : Option Nat) (priority time : Nat) (answers : Nat → Answer) :
    Nat → Conn → Option Nat → Nat → Conn × List Event × Bool
  | 0, c, _, _ => (c, [], false)
  | _ + 1, c, none, _ => (c, [], true)
  | n + 1, c, some id, room =>
    if (c.get id).priority ≤ priority ∧ room > 0 then
      let w := formatStreamFrame c id room time (answers n)
      let r := findReady w.1 path
      if r.1.isSome ∧ room - w.2.2 ≤ 17 then (r.2, w.2.1, true)
      else
        let t := sendTurns path priority time answers n r.2 r.1 (room - w.2.2)
        (t.1, w.2.1 ++ t.2.1, t.2.2)
    else (c, [], true)

/-- `picoquic_format_available_stream_frames`, frames.c 1829-1863, stopped after `turns` turns. -/
def sendStreams (c : Conn) (path : Option Nat) (priority room time : Nat) (answers : Nat → Answer)
    (turns : Nat) : Conn × List Event × Bool :=
  let r := findReady c path
  sendTurns path priority time answers turns r.2 r.1 room

/-! ## Histories -/

/-- What may happen. -/
inductive Op where
  | create (id maxdata priority : Nat)
  /-- `picoquic_add_to_stream` -/
  | write (id : Nat) (data : Bytes) (fin : Bool)
  /-- `picoquic_mark_active_stream` -/
  | markActive (id : Nat) (active : Bool)
  /-- `picoquic_set_stream_priority` -/
  | setPriority (id priority : Nat)
  /-- `picoquic_set_stream_path_affinity` -/
  | setAffinity (id : Nat) (path : Option Nat)
  /-- `picoquic_reset_stream` -/
  | reset (id error : Nat) (acked : Bool)
  /-- `picoquic_stop_sending` -/
  | stopSending (id error : Nat)
  /-- STOP_SENDING received -/
  | stopReceived (id : Nat)
  /-- FIN received -/
  | finReceived (id : Nat)
  /-- RESET_STREAM received -/
  | resetReceived (id : Nat)
  | maxData (v : Nat)
  | maxStreamData (id v : Nat)
  | maxStreams (unidir : Bool) (count : Nat)
  /-- the transport parameters of the peer are received: connection limit, stream counts, and initial
  limit of each stream -/
  | params (maxdata : Nat) (count : Bool → Option Nat) (stream : Nat → Nat)
  /-- the send side is closed and the stream is deleted -/
  | delete (id : Nat)
  /-- the stream frames of a packet are prepared, for at most `turns` turns of the loop -/
  | send (path : Option Nat) (priority room time : Nat) (answers : Nat → Answer) (turns : Nat)

/-- Update of a stream if it exists. -/
def onStream (c : Conn) (id : Nat) (f : Stream → Stream) : Conn :=
  if id ∈ c.ids then c.set id (f (c.get id)) else c

/-- `picoquic_decode_max_streams_frame`, frames.c 4452-4473. -/
def decodeMaxStreams (c : Conn) (unidir : Bool) (count : Nat) : Conn :=
  let new := streamIdFromRank count c.client unidir
  let old := c.maxStreamIdRemote unidir
  if new > old then
    addOutputStreams { c with maxStreamIdRemote := setB c.maxStreamIdRemote unidir new } old new unidir
  else c

/-- Transport parameter `initial_max_streams_*`, transport.c 608-617 and 652-660, after
`picoquic_clear_transport_extensions` (transport.c 510 and 515) has cleared the limit. -/
def paramStreams (c : Conn) (unidir : Bool) (count : Option Nat) : Conn :=
  let c := { c with maxStreamIdRemote := setB c.maxStreamIdRemote unidir 0 }
  match count with
  | none => c
  | some n =>
    let new := streamIdFromRank (if n = 0xFFFFFFFF then 0 else n) c.client unidir
    addOutputStreams { c with maxStreamIdRemote := setB c.maxStreamIdRemote unidir new } 0 new unidir

/-- One operation. -/
def step (c : Conn) : Op → Conn × List Event
  | .create id maxdata priority => (createStream c id maxdata priority, [])
  | .write id data fin =>
    if id ∈ c.ids then
      let r := addToStream (c.get id) data fin
      (c.set id r.1, [if r.2 then .accepted id data fin else .refused id data fin])
    else (c, [])
  | .markActive id active => (onStream c id (fun s => markActive s active), [])
  | .setPriority id priority =>
    (if id ∈ c.ids then reorderOutput (c.set id { c.get id with priority := priority }) id else c, [])
  | .setAffinity id path => (onStream c id (fun s => { s with affinity := path }), [])
  | .reset id error acked => (onStream c id (fun s => requestReset s error acked), [])
  | .stopSending id error =>
    (if id ∈ c.ids ∧ ¬ (c.get id).resetReceived ∧ ¬ (c.get id).stopRequested then
      insertOutput (c.set id { c.get id with stopError := error, stopRequested := true }) id
    else c, [])
  | .stopReceived id =>
    (onStream c id (fun s => if ¬ s.resetRequested ∧ ¬ s.finSent then { s with stopReceived := true } else s), [])
  | .finReceived id => (onStream c id (fun s => { s with finReceived := true }), [])
  | .resetReceived id => (onStream c id (fun s => { s with resetReceived := true }), [])
  | .maxData v => (if v > c.maxdataRemote then { c with maxdataRemote := v } else c, [])
  | .maxStreamData id v =>
    (onStream c id (fun s => if v > s.maxdataRemote then { s with maxdataRemote := v } else s), [])
  | .maxStreams unidir count => (decodeMaxStreams c unidir count, [])
  | .params maxdata count stream =>
    let c := { c with
      maxdataRemote := maxdata
      get := fun i => { c.get i with maxdataRemote := max (c.get i).maxdataRemote (stream i) } }
    (paramStreams (paramStreams c false (count false)) true (count true), [])
  | .delete id =>
    (if id ∈ c.ids ∧ ((c.get id).finSent ∨ (c.get id).resetSent ∨
        (isLocalStreamId id c.client = false ∧ isUnidirStreamId id)) then
      removeOutput { c with ids := c.ids.filter (· ≠ id) } id
    else c, [])
  | .send path priority room time answers turns =>
    let w := sendStreams c path priority room time answers turns
    (w.1, w.2.1)

/-- A history. -/
def run (c : Conn) : List Op → Conn × List Event
  | [] => (c, [])
  | op :: ops =>
    let r := step c op
    let r2 := run r.1 ops
    (r2.1, r.2 ++ r2.2)

/-- A connection without streams, with the limits of the peer. -/
def initial (client : Bool) (maxdata : Nat) (limit : Bool → Nat) : Conn :=
  { client, maxdataRemote := maxdata, dataSent := 0, maxStreamIdRemote := limit
    nextStreamId := fun i => i, ids := [], get := fun _ => {}, output := [] }

end Picoquic.StreamSend
