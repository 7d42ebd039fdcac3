import Verif.Model.Frames
/-!
# Queued frames and datagrams

Model of the queues of miscellaneous frames and of datagrams (quicctx.c 4504-4590), of the functions which copy
them into packets (frames.c 4547-4600, 4905-4912, 5022-5058, sender.c 2724-2747), and of the interface by which
the application writes datagrams in the packet which is being prepared (frames.c 5060-5203).

What the functions write is returned as a list of pieces, each with its bytes; the payload of the packet is the
bytes of all pieces in order. The doubly linked lists are lists, and an allocation never fails. The wake time
and the flags `more_data` and `is_pure_ack` are not modelled.
-/

namespace Picoquic.Dgram
open Picoquic Picoquic.Frames

/-- `picoquic_misc_frame_header_t`, picoquic_internal.h 870-877: the packet context (0 for application packets) and
the bytes of the frame. `content` is not in the code: it is what the application submitted, when the frame is a
datagram, and is only used in the statements. -/
structure Item where
  pc : Nat
  bytes : Bytes
  content : Option Bytes := none
deriving DecidableEq, Repr

/-- The fields of `picoquic_cnx_t` and `picoquic_path_t` which are used: `first_misc_frame`, `first_datagram`,
`is_datagram_ready` of the connection and of the path, `remote_parameters.max_datagram_frame_size`. -/
structure State where
  misc : List Item := []
  queue : List Item := []
  ready : Bool := false
  pathReady : Bool := false
  remoteMax : Nat := 0
deriving DecidableEq, Repr

/-- What is placed in a packet: frames of other parts of the code, a frame of the first queue, one of the second
queue, or a datagram written by the application, with all the bytes used for it. -/
inductive Piece where
  | other (bytes : Bytes)
  | misc (pc : Nat) (bytes : Bytes)
  | queued (content : Option Bytes) (bytes : Bytes)
  | written (content : Bytes) (bytes : Bytes)
deriving DecidableEq, Repr

def Piece.bytes : Piece → Bytes
  | .other bs => bs
  | .misc _ bs => bs
  | .queued _ bs => bs
  | .written _ bs => bs

/-- The payload made of these pieces. -/
def payload (pieces : List Piece) : Bytes := pieces.flatMap Piece.bytes

/-- What the application does in the callback `picoquic_callback_prepare_datagram`: nothing, or a call of
`picoquic_provide_datagram_buffer_ex` with the length of `data` and this value of `is_active` (0 to 3), followed by
a copy of `data` in the buffer if there is one. -/
structure Reply where
  data : Bytes
  active : Nat
deriving DecidableEq, Repr

/-- `picoquic_queue_misc_frame`, quicctx.c 4525-4555: at the end of the list. -/
def queueMisc (s : State) (pc : Nat) (bytes : Bytes) : State := { s with misc := s.misc ++ [{ pc := pc, bytes := bytes }] }

/-- `picoquic_queue_datagram_frame`, frames.c 5022-5044, with the codes of picoquic.h; the buffer has
`PICOQUIC_MAX_PACKET_SIZE` bytes. -/
def queueDatagram (s : State) (data : Bytes) : State × Nat :=
  if data.length > 1200 then (s, 0x43B)
  else
    match formatDatagram data 1536 with
    | none => (s, 0x410)
    | some frame => ({ s with queue := s.queue ++ [{ pc := 0, bytes := frame, content := some data }] }, 0)

/-- `picoquic_queue_handshake_done_frame`, frames.c 4905-4911: in the queue of the datagrams. -/
def queueHandshakeDone (s : State) : State := { s with queue := s.queue ++ [{ pc := 0, bytes := [0x1e] }] }

/-- `picoquic_purge_misc_frames_after_ready`, quicctx.c 4557-4569. -/
def purge (s : State) : State := { s with misc := s.misc.filter (fun i => decide (i.pc = 0)) }

/-- `picoquic_find_first_misc_frame`, frames.c 4566-4575, and `picoquic_delete_misc_or_dg`, quicctx.c 4571-4589:
the first frame for this context, and the list without it. -/
def takeFirst (pc : Nat) : List Item → Option (Item × List Item)
  | [] => none
  | i :: rest =>
    if i.pc = pc then some (i, rest)
    else
      match takeFirst pc rest with
      | none => none
      | some (x, list) => some (x, i :: list)

/-- `picoquic_format_misc_frames_in_context`, frames.c 4581-4600, with `picoquic_format_first_misc_or_dg_frame`,
frames.c 4547-4562: the frames in order, until one does not fit. The loop also stops after an empty frame. `fuel`
is the length of the list. -/
def formatMisc (pc : Nat) : Nat → List Item → Nat → List Item × List Piece
  | 0, list, _ => (list, [])
  | fuel + 1, list, room =>
    match takeFirst pc list with
    | none => (list, [])
    | some (i, rest) =>
      if i.bytes.length > room then (list, [])
      else if i.bytes.length = 0 then (rest, [.misc pc i.bytes])
      else
        let r := formatMisc pc fuel rest (room - i.bytes.length)
        (r.1, .misc pc i.bytes :: r.2)

/-- `picoquic_provide_datagram_buffer_ex`, frames.c 5087-5135, with the copy of the data by the application: the
flags, and the bytes from `bytes0` to `after_data`. `room` is `bytes_max - bytes0`, and the type of the frame was
written before. -/
def provide (s : State) (room allowed : Nat) (r : Reply) : State × Bytes :=
  let s1 := { s with ready := decide (r.active % 2 = 1), pathReady := decide (r.active / 2 % 2 = 1) }
  if r.data.length > 0 ∧ r.data.length ≤ allowed then
    match framesVarintEncode r.data.length (room - 1) with
    | some l =>
      if 1 + l.length + r.data.length > room then
        (s1, List.replicate (room - (1 + r.data.length)) 0 ++ 0x30 :: r.data)
      else (s1, 0x31 :: (l ++ r.data))
    | none => (s1, List.replicate (room - (1 + r.data.length)) 0 ++ 0x30 :: r.data)
  else (s1, [])

/-- `picoquic_format_ready_datagram_frame`, frames.c 5150-5203; the callback never fails. -/
def formatReady (s : State) (room : Nat) (r : Reply) : State × Bytes :=
  if room < 17 then (s, [])
  else provide s room (min (room - 1) s.remoteMax) r

/-- The loop of sender.c 2735-2742, with the replies of the application in order; after the last one it does
nothing in the callback. -/
def readyLoop : State → Nat → List Reply → State × List Piece
  | s, _, [] => (s, [])
  | s, room, r :: rest =>
    if s.ready || s.pathReady then
      let x := formatReady s room r
      if x.2 = [] then (x.1, [])
      else
        let y := readyLoop x.1 (room - x.2.length) rest
        (y.1, .written r.data x.2 :: y.2)
    else (s, [])

/-- `picoquic_prepare_datagram_ready`, sender.c 2725-2748, with `picoquic_format_first_datagram_frame`, frames.c
5046-5058: one frame of the queue, or, if it is empty, datagrams of the application. -/
def prepareDatagrams (s : State) (room : Nat) (replies : List Reply) : State × List Piece :=
  match s.queue with
  | [] => readyLoop s room replies
  | i :: rest =>
    if i.bytes.length > room then (s, [])
    else ({ s with queue := rest }, [.queued i.content i.bytes])

/-- The parts of the preparation of a packet, in any order and number (sender.c 3395-3580): frames of other parts
of the code, which are only written if they fit; frames of other parts of the code which fill the packet (a STREAM
frame without length); the miscellaneous frames of this context; datagrams. -/
inductive Seg where
  | other (bytes : Bytes)
  | fill (bytes : Bytes)
  | misc (pc : Nat)
  | datagrams (replies : List Reply)
deriving DecidableEq, Repr

/-- One part. -/
def segment (s : State) (room : Nat) : Seg → State × List Piece
  | .other bs => if bs.length ≤ room then (s, [.other bs]) else (s, [])
  | .fill bs => if bs.length = room then (s, [.other bs]) else (s, [])
  | .misc pc =>
    let r := formatMisc pc s.misc.length s.misc room
    ({ s with misc := r.1 }, r.2)
  | .datagrams replies => prepareDatagrams s room replies

/-- The whole packet. -/
def build : State → Nat → List Seg → State × List Piece
  | s, _, [] => (s, [])
  | s, room, g :: rest =>
    let x := segment s room g
    let y := build x.1 (room - (payload x.2).length) rest
    (y.1, x.2 ++ y.2)

/-- The calls of the application and of the stack. -/
inductive Event where
  | queueMisc (pc : Nat) (bytes : Bytes)
  | queueDatagram (data : Bytes)
  | handshakeDone
  | ready (onPath value : Bool)
  | purge
  | packet (room : Nat) (segs : List Seg)
deriving DecidableEq, Repr

/-- One event, with the code returned and the pieces of the packet if there is one. -/
def step (s : State) : Event → State × Nat × List Piece
  | .queueMisc pc bytes => (queueMisc s pc bytes, 0, [])
  | .queueDatagram data => ((queueDatagram s data).1, (queueDatagram s data).2, [])
  | .handshakeDone => (queueHandshakeDone s, 0, [])
  | .ready onPath value => (if onPath then { s with pathReady := value } else { s with ready := value }, 0, [])
  | .purge => (purge s, 0, [])
  | .packet room segs => ((build s room segs).1, 0, (build s room segs).2)

/-- A history: each event with the code returned and the pieces. -/
def run : State → List Event → State × List (Event × Nat × List Piece)
  | s, [] => (s, [])
  | s, ev :: rest =>
    let r := step s ev
    let r2 := run r.1 rest
    (r2.1, (ev, r.2) :: r2.2)

/-- `picoquic_decode_datagram_frame_header`, frames.c 4944-4960: the bytes which are reported to the application as
lost (loss_recovery.c 732-748) or as acknowledged (frames.c 3569-3582); `bs` starts with the type of the frame. -/
def reported : Bytes → Option Bytes
  | [] => none
  | b :: t =>
    if b &&& 1 = 0 then some t
    else (framesVarintDecode t).bind fun l => if l.1 > l.2.length then none else some (l.2.take l.1)

end Picoquic.Dgram
