import Verif.Model.IntFormat
/-!
# The limit of what a server sends to an address that is not validated

Model of the accounting of the data received and sent by a server connection during the handshake: `picoquic/packet.c` and
`picoquic/sender.c`. What the packets contain is arbitrary.
-/

namespace Picoquic.Amplification

/-- The parts of `picoquic_cnx_t` which are used here, for a server. -/
structure Amp where
  /-- `initial_validated` -/
  validated : Bool
  /-- `initial_data_received` -/
  received : Nat
  /-- `initial_data_sent` -/
  sent : Nat
  /-- `initial_cnxid`: the destination of the first packet of the client -/
  initialCid : Cid
  /-- `path[0]->first_tuple->p_local_cnxid->cnx_id` -/
  localCid : Cid

/-- A packet in a datagram, as it was decrypted and found to belong to the connection. -/
inductive Seg
  /-- an Initial packet from the expected source. `ackRandom`: it acknowledges a packet with a random number,
  packet.c 1426-1431 -/
  | initial (dcid : Cid) (ackRandom : Bool)
  | zeroRtt (dcid : Cid)
  | handshake (dcid : Cid)
  /-- a packet that is not accounted: it is not decrypted, or of another type -/
  | other (dcid : Cid)

/-- The destination of a packet. -/
def Seg.dcid : Seg → Cid
  | .initial d _ | .zeroRtt d | .handshake d | .other d => d

/-- The accounting in `picoquic_incoming_segment`, packet.c 2186-2261, in `picoquic_incoming_client_initial`, packet.c 1384-1432, before
the states in which Initial packets are ignored, and in `picoquic_incoming_client_handshake`, packet.c 1740. `first` is
`is_first_segment`, `len` the length of the datagram. -/
def segment (c : Amp) (len : Nat) (first : Bool) (s : Seg) : Amp :=
  match s with
  | .initial d ackRandom =>
    if d = c.initialCid ∨ d = c.localCid then
      { c with
        received := if first then u64 (c.received + len) else c.received
        validated := c.validated || (decide (0 < c.localCid.length) && decide (d = c.localCid)) || ackRandom }
    else c
  | .zeroRtt _ => { c with received := if first then u64 (c.received + len) else c.received }
  | .handshake _ => { c with validated := true }
  | .other _ => c

/-- The loop of `picoquic_incoming_packet_ex`, packet.c 2367-2390, with the start of `picoquic_incoming_segment`, packet.c 2082-2112. `prev` is
`previous_dest_id`. -/
def segments (len : Nat) : Amp → Cid → List Seg → Amp
  | c, _, [] => c
  | c, prev, s :: ss =>
    if prev = [] then segments len (segment c len true s) s.dcid ss
    else if s.dcid = prev then segments len (segment c len false s) prev ss
    else c

/-- A datagram. -/
def datagram (c : Amp) (len : Nat) (ss : List Seg) : Amp := segments len c [] ss

/-- The limit in `picoquic_prepare_packet_server_init`, sender.c 2189-2196 and 2293-2296, and in `picoquic_prepare_packet_almost_ready`,
sender.c 2932 and 2940-2945 and 3223-3227: the connection, and the number of bytes sent. `make` is what the rest of the function
does with the room. -/
def prepare (c : Amp) (bufferMax mtu : Nat) (make : Nat → Nat) : Amp × Nat :=
  let room := if bufferMax > mtu then mtu else bufferMax
  if !c.validated ∧ u64 (c.sent + room) > u64 (3 * c.received) then (c, 0)
  else
    let n := make room
    (if !c.validated then { c with sent := u64 (c.sent + n) } else c, n)

/-- `picoquic_prepare_packet_closing`, sender.c 2300-2535: there is no check and no accounting. -/
def prepareClosing (c : Amp) (bufferMax mtu : Nat) (make : Nat → Nat) : Amp × Nat :=
  let room := if bufferMax > mtu then mtu else bufferMax
  (c, make room)

end Picoquic.Amplification
