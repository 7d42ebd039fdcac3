/-!
# Specification: packets that come before their keys

What arrives, as seen from outside: a datagram is a list of packets. Nothing here refers to the
model of the code.
-/

namespace Picoquic.Spec

/-- The keys that a packet needs. `early`: keys that are there from the start (Initial). -/
inductive NeedKey where
  | early
  | handshake
  | oneRtt
deriving DecidableEq, Repr

/-- A packet: its number (unique among the packets of the peer), the keys it needs, whether it was
made by somebody who has not these keys, the keys that become available once it is processed (it
carries the last part of some message of the handshake), and whether the handshake is complete
then. -/
structure Sealed where
  num : Nat
  need : NeedKey
  forged : Bool := false
  givesHandshake : Bool := false
  givesOneRtt : Bool := false
  completes : Bool := false
deriving DecidableEq, Repr

/-- What happens to an endpoint: a datagram arrives, or it prepares its next packet. -/
inductive ArriveOp where
  | datagram (d : List Sealed)
  | prepare
deriving DecidableEq, Repr

end Picoquic.Spec
