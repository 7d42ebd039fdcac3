import Verif.Model.Bytes
/-!
# Marks of congestion and signs of loss

Model of `picoquic_ecn_accounting` in `picoquic/packet.c`, of the counts in the ACK frames of `picoquic/frames.c`, and of the loss bits in
`picoquic_protect_packet` of `picoquic/sender.c` and `picoquic_parse_short_packet_header` of `picoquic/packet.c`. Counters do not reach 2^64.
-/

namespace Picoquic.PathMarks

/-- The counters of `picoquic_ack_context_t`: `ecn_ect0_total_local`, `ecn_ect1_total_local`, `ecn_ce_total_local`, `sending_ecn_ack`. -/
structure Local where
  ect0 : Nat
  ect1 : Nat
  ce : Nat
  sending : Bool
deriving DecidableEq

/-- `picoquic_ecn_accounting`, packet.c 1858-1883, called by packet.c 2302 for a packet that was processed without error. -/
def account (l : Local) (ecn : Nat) : Local :=
  match ecn % 4 with
  | 1 => { l with ect1 := l.ect1 + 1, sending := true }
  | 2 => { l with ect0 := l.ect0 + 1, sending := true }
  | 3 => { l with ce := l.ce + 1, sending := true }
  | _ => l

/-- The counts of an ACK frame. -/
structure Counts where
  ect0 : Nat
  ect1 : Nat
  ce : Nat
deriving DecidableEq

/-- The counts in an ACK frame, frames.c 3824-3829 and 3925-3936: `none` for a frame without counts. The encoding is in `AckFormat`. `fits` tells
whether there was room for them. -/
def ackCounts (l : Local) (fits : Bool) : Option Counts := if l.sending ∧ fits then some ⟨l.ect0, l.ect1, l.ce⟩ else none

/-- The counters of `picoquic_packet_context_t`, and the number of times that the congestion control was told. -/
structure Remote where
  ect0 : Nat
  ect1 : Nat
  ce : Nat
  told : Nat
deriving DecidableEq

/-- The counts of an ACK frame are received, frames.c 3788-3809. -/
def ackReceived (r : Remote) : Option Counts → Remote
  | none => r
  | some c =>
    let r := if c.ect0 > r.ect0 then { r with ect0 := c.ect0 } else r
    let r := if c.ect1 > r.ect1 then { r with ect1 := c.ect1 } else r
    if c.ce > r.ce then { r with ce := c.ce, told := r.told + 1 } else r

/-- `q_square`, `nb_losses_found` and `nb_losses_reported` of a path. -/
structure LossState where
  square : Nat
  found : Nat
  reported : Nat
deriving DecidableEq

/-- The loss bits of a 1-RTT packet, sender.c 872-883: the state, and what is added to the first byte, in which both bits are 0. -/
def lossBits (s : LossState) : LossState × Nat :=
  let s := { s with square := s.square + 1 }
  let q := if s.square / 64 % 2 ≠ 0 then 16 else 0
  if s.found > s.reported then ({ s with reported := s.reported + 1 }, q + 8) else (s, q)

/-- The bits of a packet that was received, packet.c 446-447: the report of a loss and the square signal. -/
def parseLoss (b : Nat) : Bool × Bool := (b / 8 % 2 == 1, b / 16 % 2 == 1)

/-- A packet is found lost, loss_recovery.c 911. -/
def lossFound (s : LossState) : LossState := { s with found := s.found + 1 }

end Picoquic.PathMarks
