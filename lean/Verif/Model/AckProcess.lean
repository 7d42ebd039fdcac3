import Verif.Model.IntFormat
/-!
# Receiving ACK frames

Model of `picoquic_parse_ack_header` (frames.c 2456-2499), `picoquic_check_spurious_retransmission`
(2501-2580), `picoquic_dequeue_old_retransmitted_packets` (2582-2606), `picoquic_find_acked_packet`
(2974-2995), `picoquic_process_ack_range` (3593-3659), `picoquic_decode_ack_frame` (3661-3812), and
`picoquic_queue_for_retransmit`, `picoquic_dequeue_retransmit_packet` (sender.c 934-1030).

A context is one packet number space with one path: `send_path` of every packet is that path. RTT,
bandwidth and ECN accounting, and the processing of the frames of an acknowledged packet, are not
modelled; `acked` records the packets for which `picoquic_process_ack_of_frames` is called.
-/

namespace Picoquic.Ack
open Picoquic

/-- `picoquic_packet_t`, picoquic_internal.h 386-429. `size` is `length + checksum_overhead`. -/
structure Pkt where
  seq : Nat
  size : Nat
  sendTime : Nat
  trap : Bool
deriving DecidableEq, Repr

/-- `picoquic_packet_context_t`. -/
structure Ctx where
  /-- From `pending_first` (oldest) to `pending_last`. -/
  pending : List Pkt
  /-- From `retransmitted_newest` to `retransmitted_oldest`. -/
  lost : List Pkt
  /-- `highest_acknowledged`, `UINT64_MAX` if none. -/
  highest : Nat
  /-- `send_sequence`. -/
  nextSeq : Nat
  /-- `latest_time_acknowledged`. -/
  latest : Nat
  /-- `bytes_in_transit` of the path. -/
  inTransit : Nat
  acked : List Pkt
deriving DecidableEq, Repr

/-- Connection errors: `PICOQUIC_TRANSPORT_FRAME_FORMAT_ERROR`, `PICOQUIC_TRANSPORT_PROTOCOL_VIOLATION`. -/
inductive Error
  | frameFormat
  | protocolViolation
deriving DecidableEq, Repr

/-- `picoquic_dequeue_retransmit_packet`, sender.c 990-1000: the bytes in transit after removing `p`. -/
def leaveTransit (inTransit : Nat) (p : Pkt) : Nat :=
  if p.trap then inTransit
  else if inTransit > p.size then inTransit - p.size
  else 0

/-- `picoquic_queue_for_retransmit`, sender.c 934-965, with the number and time that
`picoquic_finalize_and_protect_packet` gives (sender.c 1109-1190); the length queued is the length after
protection, `size`. -/
def send (c : Ctx) (size now : Nat) : Ctx :=
  { c with
    pending := c.pending ++ [{ seq := c.nextSeq, size := size, sendTime := now, trap := false }]
    nextSeq := c.nextSeq + 1
    inTransit := c.inTransit + size }

/-- `picoquic_insert_hole_in_send_sequence_if_needed`, sender.c 1067-1100: a number is skipped. It has no
effect unless the queue is not empty and its last packet is not a hole already. -/
def insertHole (c : Ctx) (now : Nat) : Ctx :=
  match c.pending.getLast? with
  | none => c
  | some p =>
    if p.trap then c
    else
      { c with
        pending := c.pending ++ [{ seq := c.nextSeq, size := 0, sendTime := now, trap := true }]
        nextSeq := c.nextSeq + 1 }

/-- `picoquic_dequeue_retransmit_packet`, sender.c 967-1030, for the packet at position `k` declared lost
(loss_recovery.c 440-): it goes to the list of lost packets if `keep`, unless it is a hole. -/
def declareLost (c : Ctx) (k : Nat) (keep : Bool) : Ctx :=
  match c.pending[k]? with
  | none => c
  | some p =>
    { c with
      pending := c.pending.eraseIdx k
      inTransit := leaveTransit c.inTransit p
      lost := if keep && !p.trap then p :: c.lost else c.lost }

/-- Working state of the processing of one frame. `older` are the pending packets from `top_packet`
towards older ones, `newer` the others, oldest first. `lostRest` are the lost packets from
`p_retransmitted_previous` on, `lostPassed` those before it, last passed first. -/
structure Work where
  older : List Pkt
  newer : List Pkt
  lostPassed : List Pkt
  lostRest : List Pkt
  inTransit : Nat
  acked : List Pkt

/-- The walk of `picoquic_find_acked_packet`, frames.c 2989-2991, from packet `p` with newer packets
`next`. -/
def climb (largest : Nat) : (older : List Pkt) → (p : Pkt) → (next : List Pkt) → List Pkt × List Pkt
  | older, p, [] => (p :: older, [])
  | older, p, q :: next =>
    if p.seq < largest then climb largest (p :: older) q next else (p :: older, q :: next)

/-- `picoquic_find_acked_packet`, frames.c 2974-2995: the packets from the top packet towards older ones,
the newer packets, and `is_new_ack`. -/
def findAcked (c : Ctx) (largest : Nat) : List Pkt × List Pkt × Bool :=
  let isNew := decide (largest > c.highest ∨ c.highest = UINT64_MAX)
  match c.pending with
  | [] => ([], [], isNew)
  | p :: next =>
    if isNew then
      let r := climb largest [] p next
      (r.1, r.2, true)
    else ([p], next, false)

/-- The steps `p = p->packet_previous` over packets above `highest`, frames.c 3603-3604. -/
def passOver (highest : Nat) : (older newer : List Pkt) → List Pkt × List Pkt
  | [], newer => ([], newer)
  | p :: older, newer =>
    if p.seq > highest then passOver highest older (p :: newer) else (p :: older, newer)

/-- `picoquic_process_ack_range`, frames.c 3593-3659. `highest--` wraps at zero only when the range is
exhausted. -/
def processRange : (highest range : Nat) → Work → Work × Bool
  | _, 0, w => (w, true)
  | highest, range + 1, w =>
    let o := passOver highest w.older w.newer
    match o.1 with
    | [] => ({ w with older := [], newer := o.2 }, true)
    | p :: older =>
      if p.seq = highest then
        if p.trap then ({ w with older := p :: older, newer := o.2 }, false)
        else
          processRange (highest - 1) range
            { w with older := older, newer := o.2
                     inTransit := leaveTransit w.inTransit p, acked := w.acked ++ [p] }
      else processRange (highest - 1) range { w with older := p :: older, newer := o.2 }

/-- `picoquic_check_spurious_retransmission`, frames.c 2501-2580. -/
def checkSpurious (start stop : Nat) : (rest passed acked : List Pkt) → List Pkt × List Pkt × List Pkt
  | [], passed, acked => (passed, [], acked)
  | p :: rest, passed, acked =>
    if p.seq ≥ start then
      if p.seq ≤ stop then checkSpurious start stop rest passed (acked ++ [p])
      else checkSpurious start stop rest (p :: passed) acked
    else (passed, p :: rest, acked)

/-- One range: frames.c 3732-3758. Result: the number of packets in the range and the remaining bytes. -/
def ackRange (largest : Nat) (w : Work) (bs : Bytes) : Work × Except Error (Nat × Bytes) :=
  match framesVarintDecode bs with
  | none => (w, .error .frameFormat)
  | some (r, bs) =>
    let range := r + 1
    if largest + 1 < range then (w, .error .frameFormat)
    else
      match processRange largest range w with
      | (w, false) => (w, .error .protocolViolation)
      | (w, true) =>
        let x := checkSpurious (largest + 1 - range) largest w.lostRest w.lostPassed w.acked
        ({ w with lostPassed := x.1, lostRest := x.2.1, acked := x.2.2 }, .ok (range, bs))

/-- The loop over ranges, frames.c 3732-3783, by number of blocks left. -/
def ackLoop : (numBlock largest : Nat) → Work → Bytes → Work × Except Error Bytes
  | 0, largest, w, bs =>
    match ackRange largest w bs with
    | (w, .error e) => (w, .error e)
    | (w, .ok (_, bs)) => (w, .ok bs)
  | numBlock + 1, largest, w, bs =>
    match ackRange largest w bs with
    | (w, .error e) => (w, .error e)
    | (w, .ok (range, bs)) =>
      match framesVarintDecode bs with
      | none => (w, .error .frameFormat)
      | some (gap, bs) =>
        let blockToBlock := gap + 1 + range
        if largest < blockToBlock then (w, .error .frameFormat)
        else ackLoop numBlock (largest - blockToBlock) w bs

/-- `picoquic_parse_ack_header`, frames.c 2456-2499: path identifier (0 if absent), largest, delay, number
of blocks, remaining bytes; `none` for -1. The acknowledgement delay is shifted on 64 bits. -/
def parseAckHeader (hasPath : Bool) (exponent : Nat) (bs : Bytes) : Option (Nat × Nat × Nat × Nat × Bytes) :=
  match bs with
  | [] => none
  | b :: _ =>
    let body := bs.drop (decodeVarintLength b)
    match (if hasPath then framesVarintDecode body else some (0, body)) with
    | none => none
    | some (path, r0) =>
      match framesVarintDecode r0 with
      | none => none
      | some (largest, r1) =>
        match framesVarintDecode r1 with
        | none => none
        | some (delay, r2) =>
          match framesVarintDecode r2 with
          | none => none
          | some (numBlock, r3) => some (path, largest, u64 (delay <<< exponent), numBlock, r3)

/-- The end of `picoquic_dequeue_old_retransmitted_packets`, frames.c 2594-2602: drops the oldest lost
packets. -/
def dequeueOld (latest : Nat) (lost : List Pkt) : List Pkt :=
  if latest > 1000000 then
    (lost.reverse.dropWhile (fun p => decide (p.sendTime < latest - 1000000))).reverse
  else lost

/-- The three ECN counts, frames.c 3788-3792. -/
def skipEcn (ecn : Bool) (bs : Bytes) : Option Bytes :=
  if ecn then
    match framesVarintDecode bs with
    | none => none
    | some (_, r0) =>
      match framesVarintDecode r0 with
      | none => none
      | some (_, r1) =>
        match framesVarintDecode r1 with
        | none => none
        | some (_, r2) => some r2
  else some bs

/-- Outcome: the remaining bytes, or the connection error; `malformed` is a `NULL` without connection
error (missing ECN counts; `picoquic_decode_frames` then stops, packet.c 2313). -/
inductive Outcome
  | ok (rest : Bytes)
  | error (e : Error)
  | malformed
deriving DecidableEq, Repr

/-- `picoquic_decode_ack_frame`, frames.c 3661-3812. `multipath` is `is_multipath_enabled`; the context of
the path named in the frame is the context given. -/
def decodeAck (c : Ctx) (ecn hasPath multipath : Bool) (exponent : Nat) (bs : Bytes) : Ctx × Outcome :=
  match parseAckHeader hasPath exponent bs with
  | none => (c, .error .frameFormat)
  | some (_, largest, _, numBlock, r) =>
    if hasPath && !multipath then (c, .error .protocolViolation)
    else if largest ≥ c.nextSeq then (c, .error .protocolViolation)
    else
      let f := findAcked c largest
      let highest := if f.2.2 then largest else c.highest
      let latest :=
        match f.1 with
        | [] => c.latest
        | top :: _ => if f.2.2 && c.latest < top.sendTime then top.sendTime else c.latest
      let x := ackLoop numBlock largest
        { older := f.1, newer := f.2.1, lostPassed := [], lostRest := c.lost
          inTransit := c.inTransit, acked := c.acked } r
      let c' : Ctx :=
        { c with
          pending := x.1.older.reverse ++ x.1.newer
          lost := dequeueOld latest (x.1.lostPassed.reverse ++ x.1.lostRest)
          highest := highest, latest := latest
          inTransit := x.1.inTransit, acked := x.1.acked }
      match x.2 with
      | .error e => (c', .error e)
      | .ok bs =>
        match skipEcn ecn bs with
        | none => (c', .malformed)
        | some bs => (c', .ok bs)

/-- `picoquic_init_packet_ctx`, quicctx.c 2693-2708: an empty context. The first number is 0, or chosen at
random (`random_initial`); `highest_acknowledged` is the number before, which wraps to `UINT64_MAX`. -/
def Ctx.init (first start : Nat) : Ctx :=
  { pending := [], lost := [], highest := if first = 0 then UINT64_MAX else first - 1, nextSeq := first
    latest := start, inTransit := 0, acked := [] }

/-- What happens to a context: a packet is sent, a number is skipped, the packet at some position is
declared lost, an ACK frame arrives. -/
inductive Op
  | send (size now : Nat)
  | hole (now : Nat)
  | lose (k : Nat) (keep : Bool)
  | ack (ecn hasPath multipath : Bool) (exponent : Nat) (bs : Bytes)
deriving DecidableEq, Repr

/-- One step. -/
def step (c : Ctx) : Op → Ctx
  | .send size now => send c size now
  | .hole now => insertHole c now
  | .lose k keep => declareLost c k keep
  | .ack ecn hasPath multipath exponent bs => (decodeAck c ecn hasPath multipath exponent bs).1

/-- A history. -/
def run (c : Ctx) (ops : List Op) : Ctx := ops.foldl step c

end Picoquic.Ack
