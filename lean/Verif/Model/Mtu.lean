import Verif.Model.Bytes
/-!
# Path MTU discovery

Model of the parts of picoquic/sender.c, frames.c, loss_recovery.c and quicctx.c that read or write `send_mtu` and `send_mtu_max_tried` of a path. Sizes are sizes of UDP payloads, that is,
`length + checksum_overhead` of a packet.
-/

namespace Picoquic.Mtu
open Picoquic

/-- `PICOQUIC_MAX_PACKET_SIZE`, picoquic_internal.h 39: the room of the buffer of a packet, picoquic_internal.h 350 and 428. -/
def MAX_PACKET_SIZE : Nat := 1536

/-- `PICOQUIC_PRACTICAL_MAX_MTU`, picoquic_internal.h 44. -/
def PRACTICAL_MAX_MTU : Nat := 1440

/-- `PICOQUIC_MTU_LOSS_THRESHOLD`, picoquic_internal.h 70. -/
def LOSS_THRESHOLD : Nat := 10

/-- `remote_parameters.max_packet_size` and `mtu_max`, both `uint32_t`. -/
structure Cfg where
  remote : Nat
  mtuMax : Nat
deriving DecidableEq, Repr

/-- The fields of `picoquic_path_t` about its MTU, picoquic_internal.h 1179, 1180 and 1213: `send_mtu`, `send_mtu_max_tried`, `mtu_probe_sent`, `nb_mtu_losses`. `v6` tells if the
address of the peer is an IPv6 address. -/
structure Path where
  v6 : Bool
  mtu : Nat
  tried : Nat := 0
  probeSent : Bool := false
  losses : Nat := 0
deriving DecidableEq, Repr

/-- `PICOQUIC_INITIAL_MTU_IPV4` and `PICOQUIC_INITIAL_MTU_IPV6`, picoquic.h 144-145, as used by quicctx.c 1679 and 2673. -/
def initialMtu (v6 : Bool) : Nat := if v6 then 1232 else 1252

/-- `PICOQUIC_MTU_OVERHEAD`, picoquic.h 775. -/
def overhead (v6 : Bool) : Nat := if v6 then 48 else 28

/-- `cnx->quic->mtu_max - PICOQUIC_MTU_OVERHEAD(...)`, a `uint32_t`. -/
def localMax (c : Cfg) (v6 : Bool) : Nat := (c.mtuMax + 2 ^ 32 - overhead v6) % 2 ^ 32

/-- A new path, quicctx.c 1655 and 1679. -/
def newPath (v6 : Bool) : Path := { v6 := v6, mtu := initialMtu v6 }

/-- `picoquic_next_mtu_probe_length`, sender.c 1467-1506. -/
def nextProbe (c : Cfg) (p : Path) : Nat :=
  if p.tried = 0 then
    if c.remote > 0 then
      max p.mtu
        (if c.mtuMax > 0 ∧ c.remote > localMax c p.v6 then localMax c p.v6
         else if c.remote > MAX_PACKET_SIZE then MAX_PACKET_SIZE
         else c.remote)
    else if c.mtuMax > 0 then localMax c p.v6
    else PRACTICAL_MAX_MTU
  else if p.tried > 1500 then 1500
  else if p.tried > 1400 then 1400
  else (p.mtu + p.tried) / 2

/-- `picoquic_pmtud_policy_enum`, picoquic.h 199-204. -/
inductive Policy
  | basic
  | required
  | delayed
  | blocked
deriving DecidableEq, Repr

/-- `picoquic_pmtu_discovery_status_enum`, picoquic_internal.h 171-177. -/
inductive Status
  | notNeeded
  | optional
  | required
deriving DecidableEq, Repr

/-- `picoquic_is_mtu_probe_needed`, sender.c 1509-1549. `ready` tells if the state of the connection is one of the three of lines 1513-1515, `queued` is `nb_bytes_queued`. -/
def probeNeeded (c : Cfg) (p : Path) (ready : Bool) (pol : Policy) (queued : Nat) : Status :=
  if ready ∧ p.probeSent = false ∧ pol ≠ .blocked then
    if p.tried = 0 ∨ p.tried > 1400 then
      if nextProbe c p > p.mtu then
        if pol = .required then .required
        else if ((queued / p.mtu - queued / nextProbe c p) * 60) % 2 ^ 64 > nextProbe c p then .required
        else if pol = .basic then .optional
        else .notNeeded
      else .notNeeded
    else .notNeeded
  else .notNeeded

/-- `picoquic_prepare_mtu_probe`, sender.c 1552-1568: the length of the packet without its checksum. `none` if it writes outside of the buffer of the packet. -/
def prepareProbe (c : Cfg) (p : Path) (header checksum bufMax : Nat) : Option Nat :=
  if header ≥ MAX_PACKET_SIZE then none
  else if min (nextProbe c p) bufMax < checksum + (header + 1) then none
  else if min (nextProbe c p) bufMax - checksum > MAX_PACKET_SIZE then none
  else some (min (nextProbe c p) bufMax - checksum)

/-- If a probe is sent, sender.c 3143-3146 and 3542-3546. `idle` tells if there is nothing else in the packet, and the congestion window is open. -/
def mayProbe (c : Cfg) (p : Path) (ready : Bool) (pol : Policy) (queued : Nat) (idle : Bool) (bufMax : Nat) : Bool :=
  idle && decide (probeNeeded c p ready pol queued ≠ .notNeeded) && decide (bufMax > p.mtu)

/-- The path when a probe was sent, sender.c 3152 and 3552. -/
def probed (p : Path) : Path := { p with probeSent := true }

/-- `picoquic_reset_path_mtu`, quicctx.c 2670-2678. -/
def reset (p : Path) : Path := { p with mtu := initialMtu p.v6, tried := 0, probeSent := false }

/-- A packet is acknowledged, frames.c 3627-3632. -/
def acked (p : Path) (size : Nat) : Path :=
  if size = p.mtu then { p with losses := 0 }
  else if size > p.mtu then { p with mtu := size, probeSent := false }
  else p

/-- A packet that was thought to be lost is acknowledged, frames.c 2536-2542. -/
def ackedLate (p : Path) (size : Nat) : Path :=
  if size > p.mtu then { p with mtu := size, tried := if size > p.tried then size else p.tried, probeSent := false }
  else p

/-- `picoquic_check_path_mtu_on_losses`, loss_recovery.c 874-894. -/
def checkLoss (p : Path) (size : Nat) (timer ready : Bool) : Path :=
  if (size = p.mtu ∨ timer = true) ∧ ready = true then
    if p.losses + 1 > LOSS_THRESHOLD ∨ timer = true then reset { p with losses := p.losses + 1 } else { p with losses := p.losses + 1 }
  else p

/-- The loss of an MTU probe, loss_recovery.c 693-700; `force` if `force_queue` is 1. -/
def lostProbe (p : Path) (size : Nat) (force : Bool) : Path :=
  { p with probeSent := false, tried := if force then p.tried else size }

/-- A packet is lost: `picoquic_retransmit_needed_packet`, loss_recovery.c 801-849. -/
def lost (p : Path) (size : Nat) (probe timer ready : Bool) : Path :=
  if probe then lostProbe (checkLoss p size timer ready) size false else checkLoss p size timer ready

/-- A packet of a path that is abandoned, loss_recovery.c 984-991. -/
def abandoned (p : Path) (size : Nat) (probe : Bool) : Path := if probe then lostProbe p size true else p

/-- A tuple with other addresses becomes the first of the path, frames.c 4761-4770. -/
def moved (p : Path) (v6 : Bool) : Path := reset { p with v6 := v6 }

end Picoquic.Mtu
