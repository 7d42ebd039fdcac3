import Verif.Spec.Sooner

/-!
# Packets that come before their keys

Model of `picoquic_incoming_not_decrypted` (packet.c 1996-2044), of `picoquic_process_sooner_packets`
(packet.c 2416-2480), and of the part of `picoquic_incoming_segment` and `picoquic_incoming_packet_ex`
(packet.c 2048-2396) that leads to them. Decryption is the question whether the keys are there and
the packet is not forged. All packets have the connection ID of the connection, which is not empty,
and a datagram is not longer than 1536 bytes. What a packet contains is reduced to its number and to
the keys that it gives. The errors in the content of packets are not modelled.
-/

namespace Picoquic.Sooner
open Picoquic.Spec

/-- The fields of `picoquic_cnx_t` used here: `client_mode`, `cnx_state >= picoquic_state_ready`, the
two keys (`crypto_context[epoch].pn_dec` and `aead_decrypt`, which are set together), the numbers
of the packets received, `first_sooner` (first element first) and `recycle_sooner_needed`. `done`
lists the packets processed, in order. -/
structure Cnx where
  client : Bool
  ready : Bool := false
  handshakeKey : Bool := false
  oneRttKey : Bool := false
  stash : List (List Sealed) := []
  recycle : Bool := false
  done : List Nat := []
deriving DecidableEq, Repr

/-- `pn_dec != NULL` for the epoch of the packet, packet.c 540 and 587-602. -/
def hasKey (c : Cnx) : NeedKey → Bool
  | .early => true
  | .handshake => c.handshakeKey
  | .oneRtt => c.oneRttKey

/-- `picoquic_incoming_not_decrypted`, packet.c 1996-2044: the rest of the datagram is copied and put
first in the list. -/
def notDecrypted (c : Cnx) (p : Sealed) (rest : List Sealed) : Cnx :=
  if c.ready then c
  else if (p.need = .handshake ∧ c.client = true) ∨ p.need = .oneRtt then
    { c with stash := (p :: rest) :: c.stash }
  else c

/-- The processing of a packet that is authentic and new, packet.c 2174-2262: the keys that it gives
(`picoquic_update_traffic_key_callback`, tls_api.c 1299-1311, sets the flag unless the state is
ready), then the state, which TLS does not let become ready before both keys are there; the number is recorded (packet.c 2293-2301). -/
def processed (c : Cnx) (p : Sealed) : Cnx :=
  { c with
    handshakeKey := c.handshakeKey || p.givesHandshake
    oneRttKey := c.oneRttKey || p.givesOneRtt
    recycle := c.recycle || ((p.givesHandshake || p.givesOneRtt) && !c.ready)
    ready := c.ready || (p.completes && (c.handshakeKey || p.givesHandshake)
      && (c.oneRttKey || p.givesOneRtt))
    done := c.done ++ [p.num] }

/-- `picoquic_incoming_segment`, packet.c 2048-2353: the new state, and whether it returns 0.
A forged packet is dropped and 0 is returned; for a packet already received it is −1 (packet.c
2306-2336). -/
def segment (c : Cnx) (p : Sealed) (rest : List Sealed) : Cnx × Bool :=
  if hasKey c p.need then
    if p.forged then (c, true)
    else if p.num ∈ c.done then (c, false)
    else (processed c p, true)
  else (notDecrypted c p rest, true)

/-- The loop of `picoquic_incoming_packet_ex`, packet.c 2370-2388; that of
`picoquic_process_sooner_packets`, packet.c 2448-2461, is the same. -/
def datagram (c : Cnx) : List Sealed → Cnx
  | [] => c
  | p :: rest =>
    let x := segment c p rest
    if x.2 then datagram x.1 rest else x.1

/-- If the keys of the first packet of a stored datagram are there, packet.c 2427-2442. -/
def couldTry (c : Cnx) : List Sealed → Bool
  | [] => false
  | p :: _ => match p.need with
    | .handshake => c.handshakeKey
    | .oneRtt => c.oneRttKey
    | .early => false

/-- The loop of `picoquic_process_sooner_packets`, packet.c 2423-2479. `c.stash` holds what has been
put first in the list since the loop began, `kept` the packets already visited and kept, `todo`
those not yet visited: the list is `c.stash ++ kept ++ todo`. A packet is taken out of the list by
writing the link to it: if `previous` is `NULL` (nothing kept) this is `first_sooner`, and what
has been put before is not in the list any more. -/
def soonerLoop (c : Cnx) (kept : List (List Sealed)) : List (List Sealed) → Cnx
  | [] => { c with stash := c.stash ++ kept }
  | d :: todo =>
    if couldTry c d then
      let c' := datagram c d
      if kept = [] then soonerLoop { c' with stash := [] } kept todo
      else soonerLoop c' kept todo
    else soonerLoop c (kept ++ [d]) todo

/-- `picoquic_process_sooner_packets`, packet.c 2416-2480. -/
def processSooner (c : Cnx) : Cnx :=
  soonerLoop { c with recycle := false, stash := [] } [] c.stash

/-- `picoquic_incoming_packet_ex`, or the start of `picoquic_prepare_packet_ex`, sender.c 3882-3884. -/
def step (c : Cnx) : ArriveOp → Cnx
  | .datagram d => datagram c d
  | .prepare => if c.recycle then processSooner c else c

/-- A history. -/
def run (c : Cnx) (ops : List ArriveOp) : Cnx := ops.foldl step c

end Picoquic.Sooner
