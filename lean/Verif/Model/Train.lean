/-!
# Filling the send buffer of the application

Model of the two loops of `picoquic_prepare_packet_ex` (`picoquic/sender.c`), which write segments (QUIC packets) one behind
the other to make a datagram, and datagrams one behind the other to make a train. What is in a segment is the business
of an arbitrary function. Only the case where the packets go to the main addresses of the path is modelled
(`tuple == path_x->first_tuple`), and no allocation fails. `send_buffer_max - *send_length` is a truncated subtraction
here; in C it would wrap if more was written than there is room for.
-/

namespace Picoquic.Train

/-- `PICOQUIC_MIN_SEGMENT_SIZE`, picoquic_internal.h 41. -/
def MIN_SEGMENT_SIZE : Nat := 256

/-- `PICOQUIC_ENFORCED_INITIAL_MTU`, picoquic_internal.h 42. -/
def MIN_BUFFER : Nat := 1200

/-- What `picoquic_prepare_segment` returns, sender.c 3724-3787: whether the return code is 0, `packet->length`,
`*send_length`, and whether the packet type is 1-RTT. -/
structure Seg where
  ok : Bool
  packetLength : Nat
  length : Nat
  oneRtt : Bool
deriving DecidableEq, Repr

/-- The call: the size of the buffer of the application, `path_x->send_mtu`, whether the application asked for a train
(`send_msg_size` is not NULL), `dont_coalesce_init`, and `picoquic_prepare_segment`, which is given the room that is
available. `σ` is the state of the connection. -/
structure Call (σ : Type) where
  bufferMax : Nat
  mtu : Nat
  train : Bool
  dontCoalesce : Bool
  prepare : σ → Nat → σ × Seg

/-- The end of the making of a datagram: the state, `packet_size`, whether `ret` is 0, and the rooms which were granted, as
`(start, available)` relative to the start of the datagram. -/
structure Made (σ : Type) where
  state : σ
  size : Nat
  ok : Bool
  rooms : List (Nat × Nat)

/-- The inner loop, sender.c 3943-4009. `first` is the room for the first segment, `size` is `packet_size`. The first
argument bounds the number of turns. -/
def makeDatagram (c : Call σ) (first : Nat) : Nat → σ → Nat → Made σ
  | 0, s, size => ⟨s, size, true, []⟩
  | fuel + 1, s, size =>
    if 0 < size ∧ c.mtu < size + MIN_SEGMENT_SIZE then ⟨s, size, true, []⟩
    else
      let available := if 0 < size then c.mtu - size else first
      let (s, g) := c.prepare s available
      if g.ok then
        if g.packetLength = 0 ∨ g.oneRtt ∨ g.length = 0 ∨ c.dontCoalesce then ⟨s, size + g.length, true, [(size, available)]⟩
        else
          let r := makeDatagram c first fuel s (size + g.length)
          { r with rooms := (size, available) :: r.rooms }
      else ⟨s, size, decide (size ≠ 0), [(size, available)]⟩

/-- Outcome of `picoquic_prepare_packet_ex`: the sizes of the datagrams, `*send_length`, `*send_msg_size`, whether the return
code is 0, and the rooms which were granted, relative to the start of the buffer. -/
structure Filled (σ : Type) where
  state : σ
  sizes : List Nat
  sendLength : Nat
  msgSize : Nat
  ok : Bool
  rooms : List (Nat × Nat)

/-- The outer loop, sender.c 3926-4068: `len` is `*send_length`, `msg` is `*send_msg_size`. -/
def fill (c : Call σ) : Nat → σ → Nat → Nat → Filled σ
  | 0, s, len, msg => ⟨s, [], len, msg, true, []⟩
  | fuel + 1, s, len, msg =>
    let packetMax := c.bufferMax - len
    let packetMax := if c.train ∧ 0 < msg ∧ 0 < len ∧ packetMax > msg then msg else packetMax
    let d := makeDatagram c packetMax (c.mtu + 2) s 0
    let rooms := d.rooms.map (fun r => (len + r.1, r.2))
    let len := len + d.size
    let stop : Filled σ := ⟨d.state, [d.size], len, msg, d.ok, rooms⟩
    if !c.train then stop
    else
      let msg' := if d.size > msg then d.size else msg
      if d.size < msg then stop
      else if d.size = msg ∧ len + msg > c.bufferMax then stop
      else if !d.ok then { stop with msgSize := msg' }
      else
        let r := fill c fuel d.state len msg'
        { r with sizes := d.size :: r.sizes, rooms := rooms ++ r.rooms }

/-- `picoquic_prepare_packet_ex`, sender.c 3865-4081, from the check of the buffer on: `none` for a buffer which is too
small. -/
def prepareTrain (c : Call σ) (s : σ) : Option (Filled σ) :=
  if c.bufferMax < MIN_BUFFER then none else some (fill c (c.bufferMax + 2) s 0 c.mtu)

end Picoquic.Train
