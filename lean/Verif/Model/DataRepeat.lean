import Verif.Model.StreamFrame
import Verif.Model.Frames
import Verif.Model.Sack
/-!
# Repetition of stream data

Model of the queue of packets with stream data to send again: `picoquic/frames.c` 1877-2245, the part of
`picoquic/loss_recovery.c` 677-784 about STREAM frames, and the acknowledgement of STREAM frames, frames.c
3416-3445.

A packet is the list of the bytes of its payload, from `offset` to `length`. Packets marked as MTU probe, ack
trap, multipath probe or preemptively repeated are not modelled.
-/

namespace Picoquic.Repeat
open Picoquic Picoquic.Sack Picoquic.StreamFrame

/-- What the code reads in a stream: `reset_sent`, `stream_priority`, `sack_list`. -/
structure StreamState where
  resetSent : Bool
  priority : Nat
  sack : SackList

/-- `picoquic_find_stream`. -/
abbrev Streams := Nat → Option StreamState

/-- A packet in the queue, picoquic_internal.h 386-429: `rest` are the bytes from `data_repeat_frame` to
`length`, `done` is `data_repeat_index - data_repeat_frame`, then `data_repeat_priority`,
`data_repeat_stream_id`, `data_repeat_stream_offset` and `data_repeat_stream_data_length`. -/
structure Queued where
  rest : Bytes
  done : Nat
  priority : Nat
  id : Nat
  offset : Nat
  dataLength : Nat
deriving DecidableEq, Repr

/-- `PICOQUIC_IN_RANGE(b, picoquic_frame_type_stream_range_min, picoquic_frame_type_stream_range_max)`. -/
def isStreamType (b : UInt8) : Bool := decide (8 ≤ b.toNat) && decide (b.toNat < 16)

/-- `offset + data_length - ((fin) ? 0 : 1)`, in 64 bits. -/
def endOf (offset len : Nat) (fin : Bool) : Nat := (offset + len + 2 ^ 64 - (if fin then 0 else 1)) % 2 ^ 64

/-- The test of frames.c 2064-2072 and 3174-3193: the stream exists, was not reset, and the range, with one more
octet for the FIN, is not entirely acknowledged. -/
def needed (streams : Streams) (id offset len : Nat) (fin : Bool) : Bool :=
  match streams id with
  | none => false
  | some s => !s.resetSent && !checkSackList s.sack offset (endOf offset len fin)

/-- The end of the copy of a frame without length field, frames.c 2095-2124. `h` is the header. Returns the bytes
written and the number of bytes not sent. -/
def writeNoLength (h : Bytes) (fin : Bool) (data : Bytes) (room : Nat) : Bytes × Nat :=
  if h.length + data.length ≤ room then
    (List.replicate (room - h.length - data.length) 0 ++ (orHead (if fin then 1 else 0) h ++ data), 0)
  else if room - h.length < 512 then ([], data.length)
  else (h ++ data.take (room - h.length), data.length - (room - h.length))

/-- The copy of the bytes that are needed, frames.c 2073-2125: what is written in `room` bytes, and the number of
bytes not sent. -/
def writeRepeat (id offset : Nat) (fin : Bool) (data : Bytes) (room : Nat) : Bytes × Nat :=
  match formatStreamFrameHeader id offset room with
  | none => ([], data.length)
  | some h =>
    if h.length = room then ([], data.length)
    else
      match framesVarintEncode data.length (room - h.length) with
      | none => writeNoLength h fin data room
      | some l =>
        if h.length + l.length + data.length ≤ room then
          (orHead (if fin then 1 else 0) (orHead 2 h) ++ (l ++ data), 0)
        else writeNoLength h fin data room

/-- The number of bytes of the data already sent, frames.c 2047-2060. -/
def alreadySent (done consumed dataLength : Nat) : Nat :=
  if done > consumed then
    if done - consumed ≤ dataLength then done - consumed else dataLength
  else 0

/-- The new position in the packet, frames.c 2128-2137. -/
def progress (q : Queued) (consumed dataLength notSent : Nat) : Queued :=
  if notSent = 0 then { q with rest := q.rest.drop (consumed + dataLength), done := 0 }
  else if notSent < dataLength then { q with done := consumed + dataLength - notSent }
  else q

/-- `picoquic_copy_stream_frame_for_retransmit`, frames.c 2024-2141: what is written in `room` bytes, and the new
state of the packet. `none` if the frame is malformed. The sum `offset + already_sent` does not wrap. -/
def copyFrame (streams : Streams) (q : Queued) (room : Nat) : Option (Bytes × Queued) :=
  match parseStreamHeader q.rest with
  | none => none
  | some h =>
    let k := alreadySent q.done h.consumed h.dataLength
    let data := ((q.rest.drop h.consumed).take h.dataLength).drop k
    let w := if needed streams h.id (h.offset + k) (h.dataLength - k) h.fin then
        writeRepeat h.id (h.offset + k) h.fin data room
      else ([], 0)
    some (w.1, progress q h.consumed h.dataLength w.2)

/-- The fields set for the frame in front, frames.c 1957-1979. -/
def setKeys (streams : Streams) (q : Queued) : Option Queued :=
  match parseStreamHeader q.rest with
  | none => none
  | some h =>
    some { q with
      priority := (match streams h.id with | none => 0 | some s => s.priority)
      id := h.id, offset := h.offset, dataLength := h.dataLength }

/-- `picoquic_queue_data_repeat_adjust`, frames.c 1950-1998: moves to the next STREAM frame. `none` for the error
-1. The loop is given its maximal number of rounds. -/
def adjust (streams : Streams) : Nat → Queued → Option Queued
  | 0, _ => none
  | fuel + 1, q =>
    match q.rest with
    | [] => some q
    | b :: _ =>
      if isStreamType b then setKeys streams q
      else
        match Frames.skipFrame q.rest with
        | none => none
        | some x =>
          if x.ret then adjust streams fuel { q with rest := q.rest.drop x.consumed, done := 0 } else none

/-- What becomes of the packet in `picoquic_copy_single_stream_frame_for_retransmit`. -/
inductive Copied
  | dequeued
  | requeued (q : Queued)
  | kept (q : Queued)
deriving DecidableEq, Repr

/-- `picoquic_copy_single_stream_frame_for_retransmit`, frames.c 2157-2204. `none` if the packet is malformed. -/
def copySingle (streams : Streams) (q : Queued) (room : Nat) : Option (Bytes × Copied) :=
  match (if isStreamType (q.rest.headD 0) then copyFrame streams q room else some ([], q)) with
  | none => none
  | some (out, q1) =>
    match adjust streams (q1.rest.length + 1) q1 with
    | none => none
    | some q2 =>
      if q2.rest = [] then some (out, .dequeued)
      else if q2.rest.length < q.rest.length then some (out, .requeued q2)
      else some (out, .kept q2)

/-- Insertion in a list at a given place. -/
def insertAt (n : Nat) (q : Queued) (l : List Queued) : List Queued := l.take n ++ q :: l.drop n

/-- `picoquic_copy_stream_frames_for_retransmit`, frames.c 2206-2245. The queue is the list of the packets from
first to last in the tree; `place` is the place where a packet is inserted, which depends on the comparisons.
Returns the bytes written in `room` bytes and the queue. `none` for the internal error. The loop goes on only if
a packet was removed from the queue, `fuel` is at least the length of the queue plus one. -/
def copyLoop (place : List Queued → Queued → Nat) (streams : Streams) (current : Nat) :
    Nat → List Queued → Nat → Option (Bytes × List Queued)
  | 0, queue, _ => some ([], queue)
  | _ + 1, [], _ => some ([], [])
  | fuel + 1, q :: queue, room =>
    if q.priority > current then some ([], q :: queue)
    else
      match copySingle streams q room with
      | none => none
      | some (out, .dequeued) =>
        if out.length < room then
          match copyLoop place streams current fuel queue (room - out.length) with
          | none => none
          | some (out', queue') => some (out ++ out', queue')
        else some (out, queue)
      | some (out, .requeued q') => some (out, insertAt (place queue q') q' queue)
      | some (out, .kept q') => some (out, q' :: queue)

/-- `picoquic_queue_data_repeat_packet`, frames.c 2000-2013, for a packet not in the queue. -/
def enqueue (place : List Queued → Queued → Nat) (streams : Streams) (payload : Bytes) (queue : List Queued) :
    List Queued :=
  match adjust streams (payload.length + 1) ⟨payload, 0, 0, 0, 0, 0⟩ with
  | none => queue
  | some q => if q.rest = [] then queue else insertAt (place queue q) q queue

/-- The part of `picoquic_copy_before_retransmit` about STREAM frames, loss_recovery.c 712-776: the value of
`add_to_data_repeat_queue`. `none` if the packet is malformed. The frames of other types are skipped; it is
assumed that their processing does not fail. -/
def scanLost (streams : Streams) : Nat → Bytes → Option Bool
  | 0, _ => none
  | fuel + 1, bs =>
    match bs with
    | [] => some false
    | b :: _ =>
      match Frames.skipFrame bs with
      | none => none
      | some x =>
        if x.ret then
          match (if isStreamType b then
              (parseStreamHeader (bs.take x.consumed)).map fun h => needed streams h.id h.offset h.dataLength h.fin
            else some false) with
          | none => none
          | some add => (scanLost streams fuel (bs.drop x.consumed)).map fun r => add || r
        else none

/-- `picoquic_update_sack_list` on the list of a stream, if it exists. -/
def recordAck (streams : Streams) (id lo hi : Nat) : Streams := fun i =>
  match streams i with
  | none => none
  | some s => if i = id then some { s with sack := (updateSackList s.sack lo hi 0).1 } else some s

/-- The part of `picoquic_process_ack_of_frames`, frames.c 3450-3591, about STREAM frames, with
`picoquic_process_ack_of_stream_frame`, 3416-3445. The other frames are skipped by `skipFrame`. The deletion of
a stream closed by the acknowledgement is not done here. -/
def ackFrames : Nat → Bytes → Streams → Streams
  | 0, _, streams => streams
  | fuel + 1, bs, streams =>
    match bs with
    | [] => streams
    | b :: _ =>
      if isStreamType b then
        match parseStreamHeader bs with
        | none => streams
        | some h =>
          ackFrames fuel (bs.drop (h.consumed + h.dataLength))
            (recordAck streams h.id h.offset (endOf h.offset h.dataLength h.fin))
      else
        match Frames.skipFrame bs with
        | none => streams
        | some x => if x.ret then ackFrames fuel (bs.drop x.consumed) streams else streams

/-- The state of the connection: the streams, the packets in flight (`pending_first` ...), the packets kept for
the detection of spurious losses (`retransmitted_newest` ...), and the queue. -/
structure World where
  streams : Streams
  inflight : List Bytes
  retransmitted : List Bytes
  queue : List Queued

/-- A new connection. Every stream has its initial state; a stream which was not created yet did not send
anything. -/
def World.init : World := ⟨fun _ => some ⟨false, 9, SackList.init⟩, [], [], []⟩

/-- A packet is sent: the frames `pre`, then, in the room left, those of the queue of repeated data, then
`post`: sender.c 2829-2879 and `picoquic_queue_for_retransmit`, sender.c 934-965. The packet sent, and the
state. `none` for the internal error. -/
def send (w : World) (place : List Queued → Queued → Nat) (current room : Nat) (pre post : Bytes) :
    Option (Bytes × World) :=
  match copyLoop place w.streams current (w.queue.length + 1) w.queue room with
  | none => none
  | some (out, queue) =>
    some (pre ++ (out ++ post), { w with inflight := w.inflight ++ [pre ++ (out ++ post)], queue := queue })

/-- A packet in flight is lost, loss_recovery.c 786-870 and `picoquic_dequeue_retransmit_packet`, sender.c
967-1030. `keep` tells if it is kept for the detection of spurious losses. -/
def lose (w : World) (place : List Queued → Queued → Nat) (i : Nat) (keep : Bool) : World :=
  match w.inflight[i]? with
  | none => w
  | some p =>
    { w with
      inflight := w.inflight.eraseIdx i
      retransmitted := if keep then w.retransmitted ++ [p] else w.retransmitted
      queue := if scanLost w.streams (p.length + 1) p = some true then enqueue place w.streams p w.queue
        else w.queue }

/-- A packet in flight is acknowledged, `picoquic_process_ack_range`, frames.c 3593-3659. -/
def ack (w : World) (i : Nat) : World :=
  match w.inflight[i]? with
  | none => w
  | some p => { w with
      inflight := w.inflight.eraseIdx i, streams := ackFrames (p.length + 1) p w.streams }

/-- A packet declared lost is acknowledged, `picoquic_check_spurious_retransmission`, frames.c 2501-2580. -/
def lateAck (w : World) (i : Nat) : World :=
  match w.retransmitted[i]? with
  | none => w
  | some p => { w with
      retransmitted := w.retransmitted.eraseIdx i, streams := ackFrames (p.length + 1) p w.streams }

/-- A packet declared lost long ago is forgotten, `picoquic_dequeue_old_retransmitted_packets`, frames.c
2582-2606. -/
def forget (w : World) (i : Nat) : World := { w with retransmitted := w.retransmitted.eraseIdx i }

/-- RESET_STREAM is sent on a stream. -/
def resetStream (w : World) (id : Nat) : World :=
  { w with streams := fun i => if i = id then (w.streams i).map fun s => { s with resetSent := true } else w.streams i }

/-- A stream is deleted, `picoquic_delete_stream_if_closed`, frames.c 133-149. -/
def closeStream (w : World) (id : Nat) : World :=
  { w with streams := fun i => if i = id then none else w.streams i }

/-- `picoquic_set_stream_priority`. -/
def setPriority (w : World) (id priority : Nat) : World :=
  { w with streams := fun i => if i = id then (w.streams i).map fun s => { s with priority := priority }
      else w.streams i }

/-! ## The order of the queue -/

/-- The fields of a packet from byte 96 to byte 152, picoquic_internal.h 386-429, on a machine with pointers of 8
bytes: the node of the queue is at byte 24. -/
structure PacketKeys where
  inflightPrior : Nat
  frame : Nat
  index : Nat
  priority : Nat
  id : Nat
  offset : Nat
  dataLength : Nat
deriving DecidableEq, Repr

/-- The difference of two `uint64_t`, converted to `int64_t`. -/
def diff64 (a b : Nat) : Int := (BitVec.ofNat 64 a - BitVec.ofNat 64 b).toInt

/-- The comparisons of `picoquic_queue_data_repeat_compare`, frames.c 1893-1914, between the values read for
`data_repeat_priority`, `data_repeat_stream_id`, `data_repeat_stream_offset` and
`data_repeat_stream_data_length` in both packets. -/
def compareRead (lp lid loff llen rp rid roff rlen : Nat) : Int :=
  if lp > rp then 1
  else if lp < rp then -1
  else
    let ret := diff64 lid rid
    if ret = 0 then
      let ret := diff64 loff roff
      if ret = 0 then diff64 rlen llen else ret
    else ret

/-- `picoquic_queue_data_repeat_compare`, frames.c 1888-1916, as `picosplay_insert` calls it (picosplay.c 118): with
the packets, and not with their nodes. The conversion of a node to its packet subtracts the 24 bytes before the
node from the address of the packet, so that each field is read 24 bytes before its place. -/
def repeatCompare (l r : PacketKeys) : Int :=
  compareRead l.inflightPrior l.frame l.index l.priority r.inflightPrior r.frame r.index r.priority

end Picoquic.Repeat
