import Verif.Model.PreferredMove
import Verif.Spec.Unreachable
/-!
# Specification of the preferred address
-/

namespace Picoquic.Spec
open Picoquic Picoquic.Unreachable

/-- The value of the transport parameter, RFC 9000, section 18.2: IPv4 address and port, IPv6 address and port, with the
most significant byte first, then a connection ID and a token. A port 0 is for no address. -/
structure PreferredValue where
  ip4 : Bytes
  port4 : UInt8 × UInt8
  ip6 : Bytes
  port6 : UInt8 × UInt8
  cid : Bytes
  token : Bytes

/-- The lengths are right. -/
def PreferredValue.Legal (v : PreferredValue) : Prop :=
  v.ip4.length = 4 ∧ v.ip6.length = 16 ∧ 1 ≤ v.cid.length ∧ v.cid.length ≤ 20 ∧ v.token.length = 16

/-- The bytes of the value. -/
def PreferredValue.bytes (v : PreferredValue) : Bytes :=
  v.ip4 ++ [v.port4.1, v.port4.2] ++ v.ip6 ++ [v.port6.1, v.port6.2] ++ [UInt8.ofNat v.cid.length] ++ v.cid ++ v.token

/-- The port in two bytes, the most significant one first. -/
def portOf (b : UInt8 × UInt8) : Nat := b.1.toNat * 256 + b.2.toNat

/-- The same bytes in the other order. -/
def portSwapped (b : UInt8 × UInt8) : Nat := b.2.toNat * 256 + b.1.toNat

/-- The ports to which nothing is sent. -/
def protectedPorts : List Nat :=
  [0, 7, 17, 19, 53, 111, 123, 137, 138, 161, 389, 500, 520, 1900, 5353, 11211, 20800, 27015]

/-- An IP address as a number, the most significant byte first. -/
def addressNumber : Bytes → Nat
  | [] => 0
  | b :: bs => b.toNat * 256 ^ bs.length + addressNumber bs

/-- What a client does that has read the parameter: the destination and the local address of a probe, if it sends one.
The host is little-endian or not, the protection of ports is disabled or not, the connection ID could be stored or not,
and `now` gives the addresses in use. -/
def moveAfter (little disabled stashed : Bool) (now : Tuple) (v : PreferredValue) : Option (Sock × Option Sock) :=
  PreferredMove.prepareMove little disabled stashed now (TransportParams.preferredDecode v.bytes).1

end Picoquic.Spec
