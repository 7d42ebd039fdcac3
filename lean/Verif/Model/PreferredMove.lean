import Verif.Model.TransportParams
import Verif.Model.Admission
import Verif.Model.Unreachable

/-!
# The move of a client to the address that the server prefers

Model of sender.c (`picoquic_prepare_server_address_migration`) and port_blocking.c (`picoquic_check_addr_blocked`). The
storage of the connection ID that comes with the address is C31, the probe itself is C37.
-/

namespace Picoquic.PreferredMove
open Picoquic Picoquic.Unreachable Picoquic.TransportParams Picoquic.Admission

/-- `ntohs`: the port on the network for the field of a socket address, which is read as an integer by the host;
`little` says that the host is a little-endian one. -/
def ntohs (little : Bool) (field : Nat) : Nat := if little then field % 256 * 256 + field / 256 else field

/-- The bytes of an IP address as a number (`memcpy` at sender.c 1824 and 1831). -/
def ipNumber (bs : Bytes) : Nat := bs.foldl (fun n b => n * 256 + b.toNat) 0

/-- `picoquic_check_addr_blocked`, port_blocking.c 146-160. -/
def addrBlocked (little : Bool) (s : Sock) : Bool :=
  portBlocked (if s.family = INET ∨ s.family = INET6 then ntohs little s.port else 65535) blockedPorts

/-- The destination, sender.c 1796-1832: `family` is the one of the present address of the peer. -/
def destination (family : Nat) (a : PreferredAddress) : Option Sock :=
  if a.ipv4Port ≠ 0 ∨ a.ipv6Port ≠ 0 then
    if a.ipv6Port ≠ 0 ∧ ¬ (a.ipv4Port ≠ 0 ∧ family = INET) then
      some { family := INET6, port := a.ipv6Port, ip6 := ipNumber a.ipv6 }
    else some { family := INET, port := a.ipv4Port, ip4 := ipNumber a.ipv4 }
  else none

/-- `picoquic_prepare_server_address_migration`, sender.c 1788-1850: the destination and the local address given to
`picoquic_probe_new_tuple`, if it is called. `stashed` says that the connection ID could be stored (1800-1808), `now` is
the tuple of the first path. -/
def prepareMove (little blockingDisabled stashed : Bool) (now : Tuple) (p : Option PreferredAddress) :
    Option (Sock × Option Sock) :=
  match p with
  | none => none
  | some a =>
    if stashed then
      match destination now.peer.family a with
      | none => none
      | some d =>
        if compareAddr d now.peer = false ∧ (blockingDisabled = true ∨ addrBlocked little d = false) then
          some (d, if now.loc.family ≠ 0 ∧ now.loc.family = d.family then some now.loc else none)
        else none
    else none

end Picoquic.PreferredMove
