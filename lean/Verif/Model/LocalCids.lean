import Verif.Model.Bytes
/-!
# The connection IDs issued by this endpoint

Model of the lists of local connection IDs (quicctx.c 3577-3842), of their registration in the table by which
packets are routed to connections (quicctx.c 1143-1157 and 4910-4932), of the RETIRE_CONNECTION_ID frame
(frames.c 683-722) and of the part of `picoquic_find_incoming_path` which concerns the local connection ID
(paths.c 655-719).

Simplifications. Without multipath: one path, and one list per connection. The endpoint has connection IDs of a
non-zero length. Memory allocation does not fail. The table is a list of pairs: the hash table is modelled and
proved in `Verif.Model.Hash`. The connection IDs which the random generator and the callback of the application
propose are given by the environment, and so is whether a frame fits in the packet.
-/

namespace Picoquic.LocalCids
open Picoquic

/-- `picoquic_local_cnxid_t`, picoquic_internal.h 951-960. -/
structure Local where
  seq : Nat
  cid : Bytes
  created : Nat
deriving DecidableEq, Repr

/-- The local connection IDs of a connection: `picoquic_local_cnxid_list_t`, picoquic_internal.h 962-973; the
sequence number of `path[0]->first_tuple->p_local_cnxid`; `remote_parameters.active_connection_id_limit`, which
has 32 bits; and whether the connection was closed by an error. -/
structure Conn where
  list : List Local := []
  next : Nat := 0
  retireBefore : Nat := 0
  oldest : Nat := 0
  nb : Nat := 0
  nbExpired : Nat := 0
  first : Option Nat := none
  limit : Nat := 0
  closed : Bool := false
deriving DecidableEq, Repr

/-- The connections of the endpoint, by number, and the table `table_cnx_by_id`. -/
structure Endpoint where
  conns : Nat → Option Conn := fun _ => none
  table : List (Bytes × Nat) := []

/-- What happens on the network, as seen by the peer: a connection ID was given to it with a value of 'retire
prior to' (0 in the handshake), one was retired, or the connection was deleted or closed with an error. -/
inductive Note where
  | issued (conn seq retirePrior : Nat) (cid : Bytes)
  | retired (conn seq : Nat)
  | deleted (conn : Nat)
  | error (conn code : Nat)
deriving DecidableEq, Repr

/-- `picoquic_cnx_by_id`, quicctx.c 4910-4932. -/
def lookup (table : List (Bytes × Nat)) (cid : Bytes) : Option Nat :=
  match table with
  | [] => none
  | (k, v) :: rest => if k = cid then some v else lookup rest cid

/-- `picoquic_register_cnx_id`, quicctx.c 1143-1157. -/
def register (table : List (Bytes × Nat)) (cid : Bytes) (conn : Nat) : List (Bytes × Nat) :=
  match lookup table cid with
  | some _ => table
  | none => (cid, conn) :: table

/-- Deletion of the entry of a connection ID in the table, quicctx.c 3694-3698. -/
def unregister (table : List (Bytes × Nat)) (cid : Bytes) : List (Bytes × Nat) :=
  table.filter (fun p => decide (p.1 ≠ cid))

/-- The search of an unused connection ID among the proposals, quicctx.c 3626-3639. -/
def choose (table : List (Bytes × Nat)) : Nat → List Bytes → Option Bytes
  | 0, _ => none
  | _ + 1, [] => none
  | n + 1, c :: rest =>
    match lookup table c with
    | none => some c
    | some _ => choose table n rest

/-- `picoquic_create_local_cnxid`, quicctx.c 3609-3677. -/
def create (table : List (Bytes × Nat)) (conn : Nat) (c : Conn) (now : Nat) (proposals : List Bytes) :
    Option (List (Bytes × Nat) × Conn × Local) :=
  match choose table 32 proposals with
  | none => none
  | some cid =>
    let l := { seq := c.next, cid := cid, created := now : Local }
    some (register table cid conn,
      { c with list := c.list ++ [l], next := c.next + 1, nb := c.nb + 1,
               oldest := if c.next = 0 then now else c.oldest }, l)

/-- `picoquic_delete_local_cnxid_listed`, quicctx.c 3679-3729. -/
def delete (table : List (Bytes × Nat)) (c : Conn) (l : Local) : List (Bytes × Nat) × Conn :=
  (unregister table l.cid,
    { c with list := c.list.erase l, nb := c.nb - 1
             first := if c.first = some l.seq then none else c.first
             nbExpired := if l.seq < c.retireBefore ∧ c.nbExpired > 0 then c.nbExpired - 1 else c.nbExpired })

/-- The loop of `picoquic_check_local_cnxid_ttl`, quicctx.c 3799-3811: the number of expired connection IDs, the
new value of `local_cnxid_retire_before` and of `local_cnxid_oldest_created`. -/
def expire (now ttl : Nat) : List Local → Nat × Nat × Nat → Nat × Nat × Nat
  | [], r => r
  | l :: rest, (n, before, oldest) =>
    if (now + 2 ^ 64 - l.created) % 2 ^ 64 ≥ ttl then
      expire now ttl rest (n + 1, if l.seq ≥ before then l.seq + 1 else before, oldest)
    else expire now ttl rest (n, before, if l.created < oldest then l.created else oldest)

/-- `picoquic_check_local_cnxid_ttl`, quicctx.c 3792-3821. -/
def checkTtl (c : Conn) (now ttl : Nat) : Conn :=
  if (now + 2 ^ 64 - c.oldest) % 2 ^ 64 ≥ ttl then
    let r := expire now ttl c.list (0, c.retireBefore, now)
    { c with nbExpired := r.1, retireBefore := r.2.1, oldest := r.2.2 }
  else c

/-- The conversion of the limit to `int`. -/
def toInt (n : Nat) : Int := if n < 2 ^ 31 then (n : Int) else (n : Int) - 2 ^ 32

/-- The condition to create one more connection ID, sender.c 2579-2581. -/
def wants (c : Conn) : Bool :=
  decide ((c.nb : Int) < toInt c.limit + c.nbExpired) && decide (c.nb ≤ 8 + c.nbExpired)

/-- The loop of `picoquic_format_new_local_id_as_needed`, sender.c 2578-2600. For each turn, the environment
gives the proposals and whether the frame fits. At the end of the list the packet is full. -/
def issueLoop (conn now : Nat) : List (List Bytes × Bool) → List (Bytes × Nat) → Conn →
    List (Bytes × Nat) × Conn × List Note
  | [], table, c => (table, c, [])
  | (proposals, fits) :: rest, table, c =>
    if wants c then
      match create table conn c now proposals with
      | none => (table, c, [])
      | some (table1, c1, l) =>
        if fits then
          let r := issueLoop conn now rest table1 c1
          (r.1, r.2.1, .issued conn l.seq c1.retireBefore l.cid :: r.2.2)
        else
          let d := delete table1 c1 l
          (d.1, { d.2 with next := d.2.next - 1 }, [])
    else (table, c, [])

/-- `picoquic_retire_local_cnxid`, quicctx.c 3766-3790. -/
def retire (table : List (Bytes × Nat)) (c : Conn) (seq : Nat) : List (Bytes × Nat) × Conn :=
  match c.list.find? (fun l => decide (l.seq = seq)) with
  | none => (table, c)
  | some l => delete table c l

/-- `PICOQUIC_TRANSPORT_PROTOCOL_VIOLATION`, picoquic.h 126. -/
def violation : Nat := 0xA

/-- Arrival of a packet with this destination connection ID, on the first address tuple or on another one:
`picoquic_find_incoming_path`, paths.c 655-716. -/
def arrive (c : Conn) (dest : Bytes) (onFirst : Bool) : Conn :=
  let own := (c.list.find? (fun l => decide (l.cid = dest))).map Local.seq
  let c1 := if c.first = none then { c with first := own } else c
  if onFirst then
    if c1.first = own then c1 else { c1 with first := own }
  else c1

/-- `picoquic_decode_retire_connection_id_frame`, frames.c 683-722, in that packet. -/
def decodeRetire (table : List (Bytes × Nat)) (conn : Nat) (c : Conn) (seq : Nat) :
    List (Bytes × Nat) × Conn × List Note :=
  if c.first = some seq then (table, { c with closed := true }, [.error conn violation])
  else
    let r := retire table c seq
    (r.1, r.2, if seq ∈ c.list.map Local.seq then [.retired conn seq] else [])

/-- Deletion of all the connection IDs of a connection, quicctx.c 3738-3765. -/
def deleteAll (table : List (Bytes × Nat)) : List Local → List (Bytes × Nat)
  | [] => table
  | l :: rest => deleteAll (unregister table l.cid) rest

/-- Change of the table of connections. -/
def setConn (e : Endpoint) (n : Nat) (c : Option Conn) : Nat → Option Conn :=
  fun m => if m = n then c else e.conns m

/-- The events at the endpoint. `open` is `picoquic_create_cnx` (quicctx.c 3866-3925) with the connection ID of
the handshake, the one of the preferred address if the proposals for it are given, and the limit of the peer
(which in fact arrives later). `issue` is the preparation of a packet, `packet` the arrival of a packet with
a RETIRE_CONNECTION_ID frame, routed by its destination connection ID, and `close` is `picoquic_delete_cnx`. -/
inductive Event where
  | open (conn now limit : Nat) (proposals : List Bytes) (preferred : Option (List Bytes))
  | issue (conn now ttl : Nat) (turns : List (List Bytes × Bool))
  | packet (dest : Bytes) (onFirst : Bool) (seq : Nat)
  | close (conn : Nat)
deriving DecidableEq, Repr

/-- One event: the new state and what the peer sees. -/
def step (e : Endpoint) : Event → Endpoint × List Note
  | .open n now limit proposals preferred =>
    match e.conns n with
    | some _ => (e, [])
    | none =>
      match create e.table n { limit := limit % 2 ^ 32 } now proposals with
      | none => (e, [])
      | some (t1, c1, l1) =>
        let c1 := { c1 with first := some l1.seq }
        match preferred.bind (create t1 n c1 now) with
        | none => ({ conns := setConn e n (some c1), table := t1 }, [.issued n l1.seq 0 l1.cid])
        | some (t2, c2, l2) =>
          ({ conns := setConn e n (some c2), table := t2 }, [.issued n l1.seq 0 l1.cid, .issued n l2.seq 0 l2.cid])
  | .issue n now ttl turns =>
    match e.conns n with
    | none => (e, [])
    | some c =>
      if c.closed then (e, [])
      else
        let r := issueLoop n now turns e.table (checkTtl c now ttl)
        ({ conns := setConn e n (some r.2.1), table := r.1 }, r.2.2)
  | .packet dest onFirst seq =>
    match lookup e.table dest with
    | none => (e, [])
    | some n =>
      match e.conns n with
      | none => (e, [])
      | some c =>
        if c.closed then (e, [])
        else
          let r := decodeRetire e.table n (arrive c dest onFirst) seq
          ({ conns := setConn e n (some r.2.1), table := r.1 }, r.2.2)
  | .close n =>
    match e.conns n with
    | none => (e, [])
    | some c => ({ conns := setConn e n none, table := deleteAll e.table c.list }, [.deleted n])

/-- A sequence of events. -/
def run : Endpoint → List Event → Endpoint × List Note
  | e, [] => (e, [])
  | e, ev :: rest =>
    let r := step e ev
    let r2 := run r.1 rest
    (r2.1, r.2 ++ r2.2)

end Picoquic.LocalCids
