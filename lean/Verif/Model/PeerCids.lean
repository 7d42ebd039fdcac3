import Verif.Model.Bytes
/-!
# The connection IDs issued by the peer

Model of the stash of connection IDs: quicctx.c 2713-3152, frames.c 452-522 and 737-779, and the address
tuples that use them: quicctx.c 1575-1621, 2100-2118, paths.c 92-121 and 266-286, frames.c 4745-4765.

Simplifications. Without multipath: there is one path and one stash. Memory allocation does not fail. The
fields of a frame are given decoded. The tables by address and reset secret are not modelled, nor the callback
which tells the application that it may create a path.

Memory. An element of the stash is allocated at an address never used before, and the address tuples hold the
address of an element. Reading at an address which is no more allocated is the outcome `dangling`.
-/

namespace Picoquic.PeerCids
open Picoquic

/-- `picoquic_remote_cnxid_t`, picoquic_internal.h 976-988. `refs` is `nb_path_references`. -/
structure Entry where
  addr : Nat
  seq : Nat
  cid : Bytes
  secret : Bytes
  refs : Nat := 0
  needsRemoval : Bool := false
  retireSent : Bool := false
  retireAcked : Bool := false
deriving DecidableEq, Repr

/-- The fields of a NEW_CONNECTION_ID frame. -/
structure NewCid where
  seq : Nat
  retirePrior : Nat
  cid : Bytes
  secret : Bytes
deriving DecidableEq, Repr

/-- The state of the path: `picoquic_remote_cnxid_stash_t` (picoquic_internal.h 990-996), the connection ID
`p_remote_cnxid` of each address tuple in the order of the list of tuples, the RETIRE_CONNECTION_ID frames sent
(their sequence numbers), `active_connection_id_limit`, `migration_disabled` of both sides and
`path_is_demoted`. -/
structure State where
  stash : List Entry
  retireBefore : Nat := 0
  tuples : List Nat
  nextAddr : Nat
  retires : List Nat := []
  limit : Nat
  remoteDisabled : Bool := false
  localDisabled : Bool := false
  demoted : Bool := false
deriving DecidableEq, Repr

/-- Result of an operation: success, an error code, or a read of freed memory. -/
inductive Outcome (α : Type) where
  | ok (a : α)
  | error (code : Nat)
  | dangling
deriving DecidableEq, Repr

/-- `PICOQUIC_TRANSPORT_FRAME_FORMAT_ERROR`, `PICOQUIC_TRANSPORT_CONNECTION_ID_LIMIT_ERROR` and
`PICOQUIC_TRANSPORT_PROTOCOL_VIOLATION`, picoquic.h 123-126. -/
def formatError : Nat := 0x7
def limitError : Nat := 0x9
def violation : Nat := 0xA
/-- `PICOQUIC_ERROR_CNXID_NOT_AVAILABLE` and `PICOQUIC_ERROR_MIGRATION_DISABLED`, picoquic.h 77-78. -/
def notAvailable : Nat := 0x400 + 33
def migrationDisabled : Nat := 0x400 + 34

/-- The state after the handshake: one tuple, with the connection ID number 0, quicctx.c 2735-2760. -/
def init (cid secret : Bytes) (limit : Nat) (remoteDisabled localDisabled : Bool) : State :=
  { stash := [{ addr := 0, seq := 0, cid := cid, secret := secret, refs := 1 }], tuples := [0], nextAddr := 1,
    limit := limit, remoteDisabled := remoteDisabled, localDisabled := localDisabled }

/-- The element at an address. -/
def lookup (stash : List Entry) (a : Nat) : Option Entry := stash.find? (fun e => decide (e.addr = a))

/-- `path_x->first_tuple->p_remote_cnxid`. -/
def firstEntry (s : State) : Option Entry :=
  match s.tuples with
  | [] => none
  | a :: _ => lookup s.stash a

/-- What the search of the stash finds. -/
inductive Scan where
  | fresh (received retired : Nat)
  | duplicate
  | conflict
deriving DecidableEq, Repr

/-- The search of the stash, quicctx.c 2788-2818. -/
def scan (f : NewCid) (retireBefore : Nat) : List Entry → Nat → Nat → Scan
  | [], received, retired => .fresh received retired
  | e :: rest, received, retired =>
    if f.cid = e.cid then
      if e.seq = f.seq ∧ f.secret = e.secret then .duplicate else .conflict
    else if e.seq = f.seq then .conflict
    else if f.secret = e.secret then .conflict
    else scan f retireBefore rest (received + 1)
      (if e.seq < retireBefore ∨ e.retireSent = true then retired + 1 else retired)

/-- `picoquic_add_remote_cnxid_to_stash`, quicctx.c 2762-2852. -/
def add (s : State) (f : NewCid) : Outcome State :=
  if f.cid.length = 0 ∨ f.cid.length > 20 then .error formatError
  else
    match firstEntry s with
    | none => .dangling
    | some first =>
      if first.cid.length = 0 then .error violation
      else
        match scan f (if f.retirePrior < s.retireBefore then s.retireBefore else f.retirePrior) s.stash 0 0 with
        | .conflict => .error violation
        | .duplicate => .ok s
        | .fresh received retired =>
          if received ≥ s.limit + retired ∨ received ≥ 2 * s.limit then .error limitError
          else .ok { s with
            stash := s.stash ++ [{ addr := s.nextAddr, seq := f.seq, cid := f.cid, secret := f.secret }]
            nextAddr := s.nextAddr + 1 }

/-- `picoquic_get_cnxid_from_stash`, quicctx.c 2920-2931. -/
def getFromStash : List Entry → Option Entry
  | [] => none
  | e :: rest =>
    if e.cid.length > 0 ∧ (e.refs ≠ 0 ∨ e.needsRemoval = true) then getFromStash rest else some e

/-- Change of the element at an address. -/
def update (a : Nat) (g : Entry → Entry) (stash : List Entry) : List Entry :=
  stash.map (fun e => if e.addr = a then g e else e)

/-- `picoquic_remove_cnxid_from_stash`, quicctx.c 2873-2907. -/
def remove (a : Nat) (stash : List Entry) : List Entry := stash.filter (fun e => decide (e.addr ≠ a))

/-- `picoquic_dereference_stashed_cnxid`, quicctx.c 2941-2965, for an element in the stash and a connection
which is not being deleted. -/
def dereference (s : State) (e : Entry) : State :=
  if e.refs ≤ 1 then
    let s1 := if e.retireSent then s else
      { s with retires := s.retires ++ [e.seq]
               stash := update e.addr (fun x => { x with retireSent := true }) s.stash }
    if e.retireAcked then { s1 with stash := remove e.addr s1.stash } else s1
  else { s with stash := update e.addr (fun x => { x with refs := x.refs - 1 }) s.stash }

/-- `picoquic_renew_path_connection_id`, quicctx.c 3092-3136. -/
def renew (s : State) : Outcome State :=
  match firstEntry s with
  | none => .dangling
  | some first =>
    if (s.remoteDisabled = true ∧ first.seq ≥ s.retireBefore) ∨ s.localDisabled = true then
      .error migrationDisabled
    else
      match getFromStash s.stash with
      | none => .error notAvailable
      | some e =>
        if e.seq = first.seq then .error notAvailable
        else
          let s1 := dereference s first
          .ok { s1 with
            tuples := e.addr :: s1.tuples.tail
            stash := update e.addr (fun x => { x with refs := x.refs + 1 }) s1.stash }

/-- The loop of `picoquic_remove_not_before_from_stash`, quicctx.c 2975-2998: the new stash and the
RETIRE_CONNECTION_ID frames queued. -/
def markOld (notBefore : Nat) : List Entry → List Entry × List Nat
  | [] => ([], [])
  | e :: rest =>
    let r := markOld notBefore rest
    let needs := e.needsRemoval || decide (e.seq < notBefore)
    if needs = true ∧ e.refs = 0 then
      let queued := if e.retireSent then r.2 else e.seq :: r.2
      if e.retireAcked then (r.1, queued)
      else ({ e with needsRemoval := needs, retireSent := true } :: r.1, queued)
    else ({ e with needsRemoval := needs } :: r.1, r.2)

/-- `picoquic_remove_not_before_from_stash`, quicctx.c 2967-3047. -/
def removeNotBefore (s : State) (notBefore : Nat) : Outcome State :=
  let m := markOld notBefore s.stash
  let s1 := { s with stash := m.1, retires := s.retires ++ m.2 }
  match firstEntry s1 with
  | none => .dangling
  | some first =>
    if first.seq < notBefore ∧ first.cid.length > 0 ∧ s.demoted = false then
      match renew s1 with
      | .ok s2 => .ok s2
      | .error _ => .error violation
      | .dangling => .dangling
    else .ok s1

/-- `picoquic_decode_new_connection_id_frame`, frames.c 452-522, once the frame is parsed. -/
def decodeNew (s : State) (f : NewCid) : Outcome State :=
  if f.retirePrior > f.seq then .error formatError
  else if f.cid.length > 20 then .error violation
  else
    match add s f with
    | .ok s1 =>
      if s1.retireBefore < f.retirePrior then
        removeNotBefore { s1 with retireBefore := f.retirePrior } f.retirePrior
      else .ok s1
    | .error c => .error c
    | .dangling => .dangling

/-- A new address tuple, created by `picoquic_probe_new_tuple` (quicctx.c 2266-2296) or on arrival of a packet
from a new address (paths.c 696-701), with `picoquic_assign_peer_cnxid_to_tuple` (quicctx.c 2100-2118). There
is no tuple if no connection ID is available. -/
def newTuple (s : State) : State :=
  match getFromStash s.stash with
  | none => s
  | some e => { s with tuples := s.tuples ++ [e.addr]
                       stash := update e.addr (fun x => { x with refs := x.refs + 1 }) s.stash }

/-- The tuple number `i` becomes the first one, frames.c 4761-4764. -/
def promote (s : State) (i : Nat) : State :=
  match s.tuples[i]? with
  | none => s
  | some a => { s with tuples := a :: s.tuples.eraseIdx i }

/-- The tuple number `i` failed and becomes the last one, paths.c 92-121. -/
def failed (s : State) (i : Nat) : State :=
  match s.tuples[i]? with
  | none => s
  | some a => { s with tuples := s.tuples.eraseIdx i ++ [a] }

/-- `picoquic_delete_tuple`, quicctx.c 1599-1621, called for any tuple but the first one (paths.c 266-286). -/
def deleteTuple (s : State) (i : Nat) : State := { s with tuples := s.tuples.eraseIdx (i + 1) }

/-- Acknowledgement of a packet with a RETIRE_CONNECTION_ID frame:
`picoquic_process_ack_of_retire_connection_id_frame`, frames.c 743-779. The packet is forgotten. -/
def ackRetire (s : State) (i : Nat) : State :=
  match s.retires[i]? with
  | none => s
  | some q =>
    match s.stash.find? (fun e => decide (e.seq = q)) with
    | none => { s with retires := s.retires.eraseIdx i }
    | some e => { s with retires := s.retires.eraseIdx i, stash := remove e.addr s.stash }

/-- Loss of a packet with a RETIRE_CONNECTION_ID frame: the frame is sent again if
`picoquic_check_retire_connection_id_needs_repeat` (frames.c 700-736) says so. The lost packet is kept in the
list of retransmitted packets, and its acknowledgement is still processed (frames.c 2501-2575). -/
def loseRetire (s : State) (i : Nat) : State :=
  match s.retires[i]? with
  | none => s
  | some q =>
    match s.stash.find? (fun e => decide (e.seq = q)) with
    | none => s
    | some e => if e.retireAcked then s else { s with retires := s.retires ++ [q] }

/-- The events in the life of the path. `renewed` is a renewal by the application or because the peer changed
its own connection ID (paths.c 660-668 and 705-713), whose failure is ignored. `demote` is
`picoquic_demote_path`, quicctx.c 1879-1897. `forget` is the deletion of a lost packet. -/
inductive Event where
  | newCid (f : NewCid)
  | newTuple
  | renewed
  | promote (i : Nat)
  | failed (i : Nat)
  | deleteTuple (i : Nat)
  | demote
  | ackRetire (i : Nat)
  | loseRetire (i : Nat)
  | forget (i : Nat)
deriving DecidableEq, Repr

/-- One event. -/
def step (s : State) : Event → Outcome State
  | .newCid f => decodeNew s f
  | .newTuple => .ok (newTuple s)
  | .renewed =>
    match renew s with
    | .ok s1 => .ok s1
    | .error _ => .ok s
    | .dangling => .dangling
  | .promote i => .ok (promote s i)
  | .failed i => .ok (failed s i)
  | .deleteTuple i => .ok (deleteTuple s i)
  | .demote => .ok { s with demoted := true }
  | .ackRetire i => .ok (ackRetire s i)
  | .loseRetire i => .ok (loseRetire s i)
  | .forget i => .ok { s with retires := s.retires.eraseIdx i }

/-- A sequence of events, until the connection is closed by an error. -/
def run (s : State) : List Event → Outcome State
  | [] => .ok s
  | e :: rest =>
    match step s e with
    | .ok s1 => run s1 rest
    | .error c => .error c
    | .dangling => .dangling

/-- The destination connection ID of a packet sent on the tuple number `i`, sender.c 673. -/
def destination (s : State) (i : Nat) : Outcome Entry :=
  match s.tuples[i]? with
  | none => .error 0
  | some a =>
    match lookup s.stash a with
    | none => .dangling
    | some e => .ok e

end Picoquic.PeerCids
