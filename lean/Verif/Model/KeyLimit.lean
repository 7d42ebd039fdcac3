import Verif.Model.KeyUpdate
/-!
# Key updates that are started after a number of packets

Model of the part of `picoquic_prepare_packet_ready` in `picoquic/sender.c` which starts a key update when many packets were sent, of the
count of packets in `picoquic_prepare_packet_ex`, and of the numbers that are left out to detect early acknowledgements.
-/

namespace Picoquic.KeyLimit
open Picoquic.KeyUpdate

/-- The parts of `picoquic_cnx_t` which are used here. -/
structure Kl where
  k : Kx
  /-- `nb_packets_sent` -/
  nbSent : Nat
  /-- `crypto_epoch_length_max` -/
  limit : Nat

/-- `picoquic_set_crypto_epoch_length`, quicctx.c 910-914. -/
def setLimit (s : Kl) (n : Nat) : Kl := { s with limit := if n = 0 then 4194304 else n }

/-- The start of a key update, sender.c 3290-3300. The difference is one of 64-bit numbers. -/
def autoRotate (s : Kl) (now : Nat) : Kl :=
  if u64 (s.nbSent + 18446744073709551616 - s.k.epochSeq) > s.limit ∧ now > s.k.guard then
    match startRotation s.k with
    | some k => { s with k := k }
    | none => s
  else s

/-- A number is left out, sender.c 1083-1091. The choice of the numbers is not modelled. -/
def skipNumber (s : Kl) (path : Nat) : Kl :=
  { s with k := { s.k with sendSeq := upd s.k.sendSeq (s.k.ctx path) (s.k.sendSeq (s.k.ctx path) + 1) } }

/-- A packet is encrypted and sent: sender.c 1122-1126 and 4020. -/
def emit (s : Kl) (path : Nat) : Kl × List Pkt :=
  ({ s with k := (send s.k path).1, nbSent := s.nbSent + 1 }, [(send s.k path).2])

/-- `picoquic_prepare_packet_ready`, sender.c 3239-3495: a number may be left out, lines 3265-3268, a key update may be started, and there
may be a packet to send. -/
def prepare (s : Kl) (now path : Nat) (hole sends : Bool) : Kl × List Pkt :=
  let s := autoRotate (if hole then skipNumber s path else s) now
  if sends then emit s path else (s, [])

/-- A 1-RTT packet sent by another function, such as `picoquic_prepare_path_control_packet`: no key update is started. -/
def control (s : Kl) (path : Nat) : Kl × List Pkt := emit s path

end Picoquic.KeyLimit
