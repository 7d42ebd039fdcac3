import Verif.Model.MultiPath

/-!
# Addresses, and destinations that cannot be reached

Model of util.c (`picoquic_compare_ip_addr`, `picoquic_get_addr_port`, `picoquic_compare_addr`) and quicctx.c
(`picoquic_find_path_by_address`, `picoquic_notify_destination_unreachable`).
-/

namespace Picoquic.Unreachable
open Picoquic.MultiPath

/-- A `struct sockaddr_storage`: the family, the port (at the same place in `sockaddr_in` and `sockaddr_in6`), the four
bytes of `sin_addr` and the sixteen bytes of `sin6_addr`. The two fields of addresses are at different places. -/
structure Sock where
  family : Nat := 0
  port : Nat := 0
  ip4 : Nat := 0
  ip6 : Nat := 0
deriving DecidableEq, Repr

/-- `AF_INET`, as used at util.c 516. -/
def INET : Nat := 2

/-- `AF_INET6`, as used at util.c 478. -/
def INET6 : Nat := 10

/-- `picoquic_compare_ip_addr`, util.c 473-495: `true` when the C function gives 0. -/
def compareIp (expected actual : Sock) : Bool :=
  if expected.family = actual.family then
    if expected.family = INET6 then decide (expected.ip6 = actual.ip6)
    else decide (expected.ip4 = actual.ip4)
  else false

/-- `picoquic_compare_addr`, util.c 504-512, with `picoquic_get_addr_port` (497-502). -/
def compareAddr (expected actual : Sock) : Bool :=
  compareIp expected actual && decide (expected.port = actual.port)

/-- The addresses of the first tuple of a path, picoquic_internal.h: `peer_addr`, `local_addr`. -/
structure Tuple where
  peer : Sock
  loc : Sock
deriving DecidableEq, Repr

/-- The loop of `picoquic_find_path_by_address`, quicctx.c 2016-2034, from path `i`: `pid` is `path_id`, `part` is
`*partial_match`. -/
def findLoop (loc peer : Sock) (nullFrom : Bool) : Nat → List Tuple → Option Nat → Option Nat → Option Nat × Option Nat
  | _, [], pid, part => (pid, part)
  | i, t :: ts, pid, part =>
    if compareAddr t.peer peer = true ∧ t.loc.family ≠ 0 ∧ compareAddr t.loc loc = true then (some i, part)
    else
      let part := if compareAddr t.peer peer = true ∧ t.loc.family = 0 then some i else part
      if pid = none ∧ nullFrom = true then findLoop loc peer nullFrom (i + 1) ts part none
      else findLoop loc peer nullFrom (i + 1) ts pid part

/-- `picoquic_find_path_by_address`, quicctx.c 1991-2038: the path, and the partial match. -/
def find (ts : List Tuple) (loc peer : Option Sock) : Option Nat × Option Nat :=
  match loc, peer with
  | none, none => (none, none)
  | some l, none => findLoop l {} true 0 ts none none
  | none, some p => findLoop {} p true 0 ts none none
  | some l, some p => findLoop l p (decide (l.family = 0)) 0 ts none none

/-- What a notification does: the paths, and the path for which a challenge is asked (`picoquic_set_path_challenge`,
modelled in C37). -/
structure Outcome where
  paths : List PathX
  challenge : Option Nat
deriving DecidableEq, Repr

/-- `picoquic_notify_destination_unreachable`, quicctx.c 2056-2080. `addrs` gives the addresses of each path from its
unique ID; `ready` is the test of the connection state at 2070. -/
def notify (multi ready : Bool) (now : Nat) (addrs : Nat → Tuple) (ps : List PathX) (peer loc : Option Sock) : Outcome :=
  match peer with
  | none => { paths := ps, challenge := none }
  | some _ =>
    match (find (ps.map fun p => addrs p.id) loc peer).1 with
    | none => { paths := ps, challenge := none }
    | some i =>
      if ps.all (fun p => p.demoted) then { paths := ps, challenge := if ready then some i else none }
      else { paths := demote multi now ps i, challenge := none }

end Picoquic.Unreachable
