import Verif.Spec.Buffers

/-!
# The buffers of received data

Model of `picoquic_stream_data_node_alloc`, `picoquic_stream_data_node_recycle` (quicctx.c 3170-3213),
`add_chunk_node` (frames.c 1091-1126) and of the life of `decrypted_data` in `picoquic_incoming_segment`
(packet.c 2072-2351). The trees of all the streams and connections of the QUIC context are one list; which pieces are
new is decided by `picoquic_queue_network_input` (C05), here it is part of the input. TLS data leave only after
the frames (packet.c 1424-1970: `picoquic_tls_stream_process` follows `picoquic_decode_frames`). Memory is never
short.
-/

namespace Picoquic.Buffers
open Picoquic.Spec

/-- Waiting data: `id` is the buffer (`picoquic_stream_data_node_t`); `crypto` tells if it is in a tree of a
CRYPTO stream; `expect`, for the statements, is what arrived. -/
structure Held where
  crypto : Bool
  id : Nat
  expect : Bytes
deriving DecidableEq, Repr

/-- The memory. `pool` is the list `p_first_data_node`; `fresh` the next buffer that `malloc` gives; `freed` the
buffers given to `free`; `ptr` is `bytes` of a buffer with the length, as a place in `data` (`none` is NULL); `data` is
`data` of a buffer. `log` is what was given to the application or to TLS, with what arrived. -/
structure Mem where
  pool : List Nat := []
  fresh : Nat := 0
  freed : List Nat := []
  ptr : Nat → Option (Nat × Nat) := fun _ => none
  data : Nat → Bytes := fun _ => []
  held : List Held := []
  log : List (Bytes × Bytes) := []

/-- A function changed in one place. -/
def upd {α : Type} (f : Nat → α) (e : Nat) (v : α) : Nat → α := fun i => if i = e then v else f i

/-- `picoquic_stream_data_node_alloc`, quicctx.c 3190-3213. -/
def alloc (m : Mem) : Mem × Nat :=
  match m.pool with
  | [] => ({ m with fresh := m.fresh + 1, ptr := upd m.ptr m.fresh none }, m.fresh)
  | a :: p => ({ m with pool := p, ptr := upd m.ptr a none }, a)

/-- `picoquic_stream_data_node_recycle`, quicctx.c 3170-3181. -/
def recycle (limit : Nat) (m : Mem) (id : Nat) : Mem :=
  if m.pool.length < limit then { m with pool := id :: m.pool } else { m with freed := id :: m.freed }

/-- `add_chunk_node`, frames.c 1091-1126. `none` is an access to a buffer that was freed. `text` is only
for `expect`. -/
def addChunk (text : Bytes) (cur : Nat) (crypto last : Bool) (m : Mem) (p : Nat × Nat) : Option Mem :=
  if cur ∈ m.freed then none
  else if m.ptr cur ≠ none ∨ last = false then
    let a := alloc m
    some { a.1 with
      data := upd a.1.data a.2 (part (a.1.data cur) p)
      ptr := upd a.1.ptr a.2 (some (0, p.2))
      held := a.1.held ++ [⟨crypto, a.2, part text p⟩] }
  else
    some { m with ptr := upd m.ptr cur (some p), held := m.held ++ [⟨crypto, cur, part text p⟩] }

/-- All the pieces of a frame, frames.c 1158-1184. -/
def addChunks (text : Bytes) (cur : Nat) (crypto last : Bool) (m : Mem) : List (Nat × Nat) → Option Mem
  | [] => some m
  | p :: l => match addChunk text cur crypto last m p with
    | none => none
    | some m1 => addChunks text cur crypto last m1 l

/-- Data are given to the application or to TLS and their buffer is recycled, frames.c 1078-1085, tls_api.c
2457-2533, quicctx.c 3183-3188. `none` is an access to a buffer that was freed, or through NULL. -/
def leave (limit : Nat) (m : Mem) (i : Nat) : Option Mem :=
  match m.held[i]? with
  | none => some m
  | some h =>
    if h.id ∈ m.freed then none
    else match m.ptr h.id with
    | none => none
    | some p => some (recycle limit
        { m with held := m.held.eraseIdx i, log := m.log ++ [(part (m.data h.id) p, h.expect)] } h.id)

/-- While the frames are processed, data leave only the trees of streams, frames.c 1245, 1269. -/
def leaveStream (limit : Nat) (m : Mem) (i : Nat) : Option Mem :=
  match m.held[i]? with
  | none => some m
  | some h => if h.crypto then some m else leave limit m i

/-- The data that leave while a frame is processed. -/
def leaveStreams (limit : Nat) (m : Mem) : List Nat → Option Mem
  | [] => some m
  | i :: l => match leaveStream limit m i with
    | none => none
    | some m1 => leaveStreams limit m1 l

/-- The data that leave after the frames. -/
def leaveAll (limit : Nat) (m : Mem) : List Nat → Option Mem
  | [] => some m
  | i :: l => match leave limit m i with
    | none => none
    | some m1 => leaveAll limit m1 l

/-- The frames of a packet. For a STREAM frame the test for the last frame (frames.c 1302-1308, 1332) is right: yes
only if nothing but padding follows. For a CRYPTO frame (frames.c 2307) the test looks behind the next
`data_length` bytes, and its answer is any. -/
def decodeFrames (limit : Nat) (text : Bytes) (cur : Nat) (m : Mem) : List WaitFrame → Option Mem
  | [] => some m
  | f :: l =>
    match addChunks text cur f.crypto (f.last && (f.crypto || l.isEmpty)) m f.pieces with
    | none => none
    | some m1 => match leaveStreams limit m1 f.drops with
      | none => none
      | some m2 => decodeFrames limit text cur m2 l

/-- The end of `picoquic_incoming_segment`, packet.c 2349-2351. -/
def endPacket (limit : Nat) (cur : Nat) (m : Mem) : Option Mem :=
  if cur ∈ m.freed then none
  else if m.ptr cur = none then some (recycle limit m cur) else some m

/-- The packet is decrypted into a buffer (packet.c 2072-2080), the frames are processed, then TLS. -/
def packet (limit : Nat) (m : Mem) (text : Bytes) (frames : List WaitFrame) (drops : List Nat) : Option Mem :=
  let a := alloc m
  match decodeFrames limit text a.2 { a.1 with data := upd a.1.data a.2 text } frames with
  | none => none
  | some m1 => match leaveAll limit m1 drops with
    | none => none
    | some m2 => endPacket limit a.2 m2

/-- One operation. -/
def step (limit : Nat) (m : Mem) : BufferOp → Option Mem
  | .packet text frames drops => packet limit m text frames drops
  | .drop i => leave limit m i

/-- A history. -/
def run (limit : Nat) (m : Mem) : List BufferOp → Option Mem
  | [] => some m
  | op :: ops => match step limit m op with
    | none => none
    | some m1 => run limit m1 ops

/-- `PICOQUIC_MAX_PACKETS_IN_POOL`, picoquic_internal.h 51. -/
def LIMIT : Nat := 0x2000

/-- `PICOQUIC_MAX_PACKET_SIZE`, the size of `data` (picoquic_internal.h 39, 367). -/
def BUFFER_SIZE : Nat := 1536

end Picoquic.Buffers
