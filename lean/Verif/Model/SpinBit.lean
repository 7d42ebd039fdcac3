import Verif.Model.Bytes
/-!
# The latency spin bit

Model of `picoquic/spinbit.c`, of the first byte of 1-RTT packets in `picoquic_create_packet_header` of `picoquic/sender.c` and
`picoquic_parse_short_packet_header` of `picoquic/packet.c`, and of the choice of the policy in `picoquic/quicctx.c`.
-/

namespace Picoquic.SpinBit

/-- The parts of `picoquic_cnx_t` which are used here. -/
structure End where
  /-- `client_mode` -/
  client : Bool
  /-- `spin_policy`: 0 for basic, 1 for random, 2 for null, 3 for `picoquic_spinbit_on`, which is no entry of the table. -/
  policy : Nat
  /-- `current_spin` of each path -/
  spin : Nat → Bool

/-- `spinbit_incoming` of the table, spinbit.c 32-35, 46-51, 63-68 and 80-84, called by packet.c 1950 for every 1-RTT packet. `none`: a read
outside the table. -/
def incoming (e : End) (path : Nat) (bit : Bool) : Option End :=
  match e.policy with
  | 0 => some { e with spin := fun p => if p = path then (bit ^^ e.client) else e.spin p }
  | 1 => some e
  | 2 => some e
  | _ => none

/-- `spinbit_outgoing` of the table, spinbit.c 37-42, 53-57, 70-74 and 80-84. `none`: a read outside the table. -/
def outgoing (e : End) (rand : Nat) : Option Nat :=
  match e.policy with
  | 0 => some (if e.spin 0 then 32 else 0)
  | 1 => some (if rand / 32 % 2 = 1 then 32 else 0)
  | 2 => some 0
  | _ => none

/-- The first byte of a 1-RTT packet, sender.c 660-672: `phase` is the key phase, `greased` tells whether the QUIC bit was cleared. The
bits do not overlap, so that the sum is the bitwise or. -/
def firstByte (e : End) (phase greased : Bool) (rand : Nat) : Option Nat :=
  (outgoing e rand).map fun s => (if phase then 4 else 0) + (if greased then 0 else 64) + s

/-- The spin bit of a packet that was received, packet.c 438. -/
def parseSpin (b : Nat) : Bool := b / 32 % 2 == 1

/-- `picoquic_set_default_spinbit_policy`, quicctx.c 810-821: `none` for an error. -/
def setDefault (policy : Nat) : Option Nat := if policy ≤ 3 then some policy else none

/-- `picoquic_set_spinbit_policy`, quicctx.c 823-835: `none` for an error. -/
def setPolicy (e : End) (policy : Nat) : Option End := if policy < 3 then some { e with policy := policy } else none

/-- `picoquic_cnx_set_spinbit_policy`, quicctx.c 4278-4281. -/
def cnxSetPolicy (e : End) (policy : Nat) : End := { e with policy := policy }

/-- The policy of a new connection, quicctx.c 3955-3966, with `PICOQUIC_SPIN_RESERVE_MOD_256`. -/
def create (client : Bool) (default rand : Nat) : End :=
  ⟨client, if default = 0 then (if rand % 256 < 17 then 2 else default) else if default = 3 then 0 else default, fun _ => false⟩

end Picoquic.SpinBit
