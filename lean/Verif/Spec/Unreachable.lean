import Verif.Model.Unreachable
/-!
# Specification of addresses
-/

namespace Picoquic.Spec
open Picoquic.Unreachable

/-- An address of the Internet, with a port. -/
inductive NetAddr
  | v4 (ip port : Nat)
  | v6 (ip port : Nat)
deriving DecidableEq

/-- The address in a socket address structure, if there is one. -/
def netAddr (s : Sock) : Option NetAddr :=
  if s.family = 2 then some (.v4 s.ip4 s.port)
  else if s.family = 10 then some (.v6 s.ip6 s.port)
  else none

/-- The tuple joins these two addresses. -/
def Joins (t : Tuple) (loc peer : NetAddr) : Prop := netAddr t.loc = some loc ∧ netAddr t.peer = some peer

/-- The tuple leads to this address, from a local address that is not known. -/
def LeadsTo (t : Tuple) (peer : NetAddr) : Prop := t.loc.family = 0 ∧ netAddr t.peer = some peer

end Picoquic.Spec
