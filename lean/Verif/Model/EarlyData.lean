import Verif.Model.Bytes

/-!
# Early data

Model of a client that resumes a session: the limits remembered from the previous session, the stream data sent in 0-RTT
packets before the parameters of the server are known, the parameters, the answer of the server to the early data, and
what follows. Only the bidirectional streams that the client opens are modelled, by their rank: 0 is the first. Their
data are counted, not stored (C48). A packet carries one frame. Loss of packets other than by refusal is not modelled
(C29, C30, C82), nor is the limit of what may be in flight (C71), nor the end of the data (C49).
-/

namespace Picoquic.EarlyData

/-- The limits that a server gives in its transport parameters: `initial_max_data`,
`initial_max_stream_data_bidi_remote`, and `initial_max_streams_bidi`. -/
structure Limits where
  data : Nat
  stream : Nat
  count : Nat
deriving DecidableEq, Repr

/-- The fields of `picoquic_stream_head_t` used here: `maxdata_remote`, `sent_offset`, and the bytes in the queue. -/
structure Stream where
  max : Nat
  sent : Nat
  queued : Nat
deriving DecidableEq, Repr

/-- A STREAM frame: in a 0-RTT packet or not, for the first time or again, with rank of the stream, offset, length. -/
structure Sent where
  early : Bool
  again : Bool
  rank : Nat
  offset : Nat
  length : Nat
deriving DecidableEq, Repr

/-- The fields of `picoquic_cnx_t` used here: `maxdata_remote`, `data_sent`,
`remote_parameters.initial_max_stream_data_bidi_remote`, `max_stream_id_bidir_remote` as a number of streams, the
streams, the frames in 0-RTT packets that have no acknowledgement, whether the parameters of the server came,
`zero_rtt_data_accepted`, and whether there are 0-RTT keys. -/
structure Client where
  maxData : Nat := 0
  dataSent : Nat := 0
  initial : Nat := 0
  count : Nat := 0
  stream : Nat → Option Stream := fun _ => none
  early : List Sent := []
  ready : Bool := false
  accepted : Bool := false
  keys : Bool := false

/-- `picoquic_start_client_cnx`, quicctx.c 4164-4174, and `picoquic_initialize_tls_stream`, tls_api.c 2158-2176, with the
limits of a ticket if there is one. `STREAM_ID_FROM_RANK` (picoquic_internal.h 854) of 0 is above all IDs. The streams
that exist are not changed. -/
def start (c : Client) : Option Limits → Client
  | some r => { c with maxData := r.data, initial := r.stream, count := if r.count = 0 then 2 ^ 62 else r.count,
                       keys := true }
  | none => { c with maxData := 0, initial := 0, count := 2 ^ 62, keys := false }

/-- `picoquic_add_to_stream`, sender.c 211-273, which makes the stream if there is none, quicctx.c 3465-3468. -/
def write (c : Client) (k n : Nat) : Client :=
  let s := match c.stream k with
    | some s => s
    | none => { max := c.initial, sent := 0, queued := 0 }
  { c with stream := fun j => if j = k then some { s with queued := s.queued + n } else c.stream j }

/-- A packet with data of a stream, with room for `room` bytes of them: `picoquic_find_ready_stream`, frames.c 1361-1382,
and `picoquic_format_stream_frame`, frames.c 1638-1643 and 1676-1687. It is a 0-RTT packet
(`picoquic_prepare_packet_0rtt`, sender.c 1573-1664) before the parameters of the server came, if there are keys. -/
def send (c : Client) (k room : Nat) : Client × List Sent :=
  match c.stream k with
  | none => (c, [])
  | some s =>
    if (c.ready || c.keys) && decide (c.dataSent < c.maxData) && decide (s.sent < s.max) && decide (0 < s.queued) &&
        decide (k < c.count) && decide (0 < room) then
      let n := min (min s.queued room) (min (s.max - s.sent) (c.maxData - c.dataSent))
      let f : Sent := { early := !c.ready, again := false, rank := k, offset := s.sent, length := n }
      ({ c with
          dataSent := c.dataSent + n
          stream := fun j => if j = k then some { s with sent := s.sent + n, queued := s.queued - n } else c.stream j
          early := if c.ready then c.early else c.early ++ [f] }, [f])
    else (c, [])

/-- The parameters of the server, `picoquic_receive_transport_extensions`, transport.c 499-616, with
`picoquic_update_stream_initial_remote`, frames.c 155-179, which raises the limit of a stream and never lowers it; and
the answer to the early data, tls_api.c 2505-2514. A number of streams of 0 is above all IDs. -/
def params (c : Client) (p : Limits) (accepted : Bool) : Client :=
  { c with
    maxData := p.data
    initial := p.stream
    count := if p.count = 0 then 2 ^ 62 else p.count
    stream := fun j => (c.stream j).map (fun s => { s with max := if s.max < p.stream then p.stream else s.max })
    ready := true
    accepted := accepted }

/-- A 0-RTT packet is repeated: `picoquic_is_packet_probably_lost`, loss_recovery.c 548-552, takes every 0-RTT packet for
lost if the early data were refused, but none before the handshake is over (loss_recovery.c 316-320). Its data are sent
again in a 1-RTT packet, as they were (C30), with no look at the limits. -/
def repeatEarly (c : Client) : Client × List Sent :=
  if c.ready && !c.accepted then
    match c.early with
    | [] => (c, [])
    | f :: l => ({ c with early := l }, [{ f with early := false, again := true }])
  else (c, [])

/-- What happens once the connection is started. -/
inductive Op
  | write (rank n : Nat)
  | send (rank room : Nat)
  | repeatEarly
  /-- MAX_DATA, frames.c 4235-4237. -/
  | maxData (n : Nat)
  /-- MAX_STREAM_DATA, frames.c 4310-4313. -/
  | maxStreamData (rank n : Nat)
  /-- MAX_STREAMS, frames.c 4456-4459. -/
  | maxStreams (n : Nat)
deriving DecidableEq, Repr

def step (c : Client) : Op → Client × List Sent
  | .write k n => (write c k n, [])
  | .send k room => send c k room
  | .repeatEarly => repeatEarly c
  | .maxData n => ({ c with maxData := if c.maxData < n then n else c.maxData }, [])
  | .maxStreamData k n =>
    ({ c with stream := fun j => if j = k then (c.stream k).map (fun s => { s with max := if s.max < n then n else s.max })
                                 else c.stream j }, [])
  | .maxStreams n => ({ c with count := if c.count < n then n else c.count }, [])

/-- A history. -/
def run (c : Client) : List Op → Client × List Sent
  | [] => (c, [])
  | o :: os =>
    let r := step c o
    let r' := run r.1 os
    (r'.1, r.2 ++ r'.2)

end Picoquic.EarlyData
