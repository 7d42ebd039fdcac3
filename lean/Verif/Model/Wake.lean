import Verif.Model.Splay
import Verif.Spec.Wake

/-!
# The wake list

Model of the part of `quicctx.c` (1095-1132, 1347-1490, 4886-4894) and `sender.c` (3841-3863,
4075-4078, 4134-4210) that decides which connection is served next and how long the application may
sleep. A connection is its identity with its `next_wake_time`; the tree is the splay tree of
`Verif/Model/Splay.lean`, in which the nodes are embedded in the connections. What the connection
itself decides when it is served (its timers, its packets) is an input. The calls and the events are
those of `Verif/Spec/Wake.lean`. Not modelled: the callbacks that create or delete connections, the
logs, the addresses.
-/

namespace Picoquic.Wake
open Picoquic.Splay Picoquic.Spec

/-- A connection: identity and `next_wake_time`. -/
abbrev Entry := Nat × Nat

/-- `picoquic_wake_list_compare`, quicctx.c 1355-1361. -/
def cmp (a b : Entry) : Int := wakeCompare a.2 b.2

/-- The fields of `picoquic_quic_t` used here: `cnx_wake_tree` and `pending_stateless_packet`
(picoquic_internal.h), with the `app_wake_time` of each connection. -/
structure Quic where
  tree : STree Entry
  app : Nat → Nat
  stateless : List (List UInt8)

/-- After `picoquic_wake_list_init`, quicctx.c 1376-1380. -/
def Quic.init : Quic := ⟨STree.empty, fun _ => 0, []⟩

/-- The node embedded in a connection, quicctx.c 1363-1366 (`cnx_wake_node`): in the model we look for
it everywhere in the tree, in C its address is known. -/
def locate (id : Nat) : Tree Entry → List (Anc Entry) → Option (Loc Entry)
  | .nil, _ => none
  | .node l e r, up =>
    if e.1 = id then some ⟨l, e, r, up⟩
    else match locate id l (.left e r :: up) with
      | some z => some z
      | none => locate id r (.right l e :: up)

/-- The node of a connection of this context. -/
def Quic.node (q : Quic) (id : Nat) : Option (Loc Entry) := locate id q.tree.root []

/-- `picoquic_remove_cnx_from_wake_list`, quicctx.c 1382-1385. `none`: failed assertion. -/
def remove (q : Quic) (z : Loc Entry) : Option Quic :=
  match deleteHint q.tree z with
  | none => none
  | some t => some { q with tree := t }

/-- `picoquic_insert_cnx_by_wake_time`, quicctx.c 1387-1390. -/
def insertCnx (q : Quic) (id t : Nat) : Option Quic :=
  match insert cmp q.tree (id, t) with
  | none => none
  | some t => some { q with tree := t }

/-- `picoquic_reinsert_by_wake_time`, quicctx.c 1392-1397. A connection that is not in the tree is
a use after free and is not modelled: the state does not change. -/
def reinsert (q : Quic) (id t : Nat) : Option Quic :=
  match q.node id with
  | none => some q
  | some z =>
    match remove q z with
    | none => none
    | some q' => insertCnx q' id t

/-- `picoquic_get_earliest_cnx_to_wake`, quicctx.c 1399-1408. -/
def earliest (q : Quic) (maxTime : Nat) : Option Entry :=
  match first q.tree with
  | none => none
  | some z => if maxTime ≠ 0 ∧ z.x.2 > maxTime then none else some z.x

/-- `picoquic_get_next_wake_time`, quicctx.c 1410-1427. -/
def nextWake (q : Quic) (now : Nat) : Nat :=
  if q.stateless ≠ [] then now
  else match first q.tree with
    | none => 2 ^ 64 - 1
    | some z => z.x.2

/-- `picoquic_get_next_wake_delay`, quicctx.c 1429-1454, for a `delay_max` that is not negative; the
sum is in `uint64_t`. -/
def wakeDelay (q : Quic) (now delayMax : Nat) : Nat :=
  let next := nextWake q now
  if next > now then
    if next ≥ (now + delayMax) % 2 ^ 64 then delayMax else next - now
  else 0

/-- `picoquic_get_wake_delay` with `picoquic_get_wake_time`, quicctx.c 1456-1490, for a connection
whose `next_wake_time` is `w`. -/
def cnxWakeDelay (q : Quic) (w now delayMax : Nat) : Nat :=
  let next := if q.stateless ≠ [] then now else w
  if next > now then
    if next ≥ (now + delayMax) % 2 ^ 64 then delayMax else next - now
  else 0

/-- `picoquic_queue_stateless_packet`, quicctx.c 1108-1118: at the end of the list. -/
def queueStateless (q : Quic) (p : List UInt8) : Quic := { q with stateless := q.stateless ++ [p] }

/-- The assignment of `app_wake_time`. -/
def setAppField (q : Quic) (id t : Nat) : Quic :=
  { q with app := fun i => if i = id then t else q.app i }

/-- `picoquic_set_app_wake_time`, quicctx.c 4888-4894. -/
def setApp (q : Quic) (id t : Nat) : Option Quic :=
  match q.node id with
  | none => some (setAppField q id t)
  | some z => if t ≠ 0 ∧ t < z.x.2 then reinsert (setAppField q id t) id t else some (setAppField q id t)

/-- `picoquic_handle_app_wake_time`, sender.c 3841-3852, with the number of callbacks. `again` are
the times that the application sets in the callbacks. -/
def handleApp (q : Quic) (id now : Nat) : List Nat → Option (Quic × Nat)
  | [] => if q.app id ≠ 0 ∧ q.app id ≤ now then some (setAppField q id 0, 1) else some (q, 0)
  | v :: vs =>
    if q.app id ≠ 0 ∧ q.app id ≤ now then
      match setApp (setAppField q id 0) id v with
      | none => none
      | some q' => match handleApp q' id now vs with
        | none => none
        | some (q'', n) => some (q'', n + 1)
    else some (q, 0)

/-- `picoquic_program_app_wake_time`, sender.c 3854-3863. -/
def programApp (q : Quic) (id next : Nat) : Nat :=
  if q.app id ≠ 0 ∧ q.app id < next then q.app id else next

/-- `picoquic_delete_cnx`, quicctx.c 4815: only the wake list. -/
def deleteCnx (q : Quic) (id : Nat) : Option Quic :=
  match q.node id with
  | none => some (setAppField q id 0)
  | some z => remove (setAppField q id 0) z

/-- `picoquic_create_cnx` when the connection ID or the path cannot be created, quicctx.c 3885-3888: it
calls `picoquic_delete_cnx`, which takes the connection out of the wake list (quicctx.c 4815)
although it was never put in it. All the pointers of its node are `NULL` (`memset`, quicctx.c 3853).
Only the wake list is modelled. -/
def failedCreate (q : Quic) (id : Nat) : Option Quic := remove q ⟨.nil, (id, 0), .nil, []⟩

/-- `picoquic_prepare_packet_ex`, sender.c 3866-4081: the wake times only. -/
def preparePacket (q : Quic) (id now : Nat) (r : Serve) : Option (Quic × Nat) :=
  match handleApp q id now r.again with
  | none => none
  | some (q', n) =>
    let next := if r.how = .ok then programApp q' id r.next else r.next
    match reinsert q' id next with
    | none => none
    | some q'' => some (q'', n)

/-- `picoquic_prepare_next_packet_ex`, sender.c 4134-4210. -/
def prepareNext (q : Quic) (now room : Nat) (r : Serve) : Option (Quic × WakeEvent) :=
  match q.stateless with
  | p :: ps => some ({ q with stateless := ps }, if p.length > room then .dropped p else .sent p)
  | [] =>
    match earliest q now with
    | none => some (q, .idle)
    | some e =>
      match preparePacket q e.1 now r with
      | none => none
      | some (q', n) =>
        if r.how = .disconnected then
          match (if r.client then reinsert q' e.1 (2 ^ 64 - 1) else deleteCnx q' e.1) with
          | none => none
          | some q'' => some (q'', .served e.1 n)
        else some (q', .served e.1 n)

/-- One call. `create` is `picoquic_create_cnx` (quicctx.c 3891-3894), for a new connection; `touch`
and `sleep` are the callers of `picoquic_reinsert_by_wake_time`. -/
def step (q : Quic) : WakeOp → Option (Quic × WakeEvent)
  | .create id t => match q.node id with
    | some _ => some (q, .none)
    | none => match insertCnx q id t with
      | none => none
      | some q' => some (q', .none)
  | .touch id t => match reinsert q id t with
    | none => none
    | some q' => some (q', .none)
  | .sleep id t => match reinsert q id t with
    | none => none
    | some q' => some (q', .none)
  | .alarm id t => match q.node id with
    | none => some (q, .none)
    | some _ => match setApp q id t with
      | none => none
      | some q' => some (q', .none)
  | .delete id => match deleteCnx q id with
    | none => none
    | some q' => some (q', .none)
  | .queue p => some (queueStateless q p, .none)
  | .prepare now room r => prepareNext q now room r

/-- A history. -/
def run (q : Quic) : List WakeOp → Option (Quic × List WakeEvent)
  | [] => some (q, [])
  | op :: ops => match step q op with
    | none => none
    | some (q', e) => match run q' ops with
      | none => none
      | some (q'', es) => some (q'', e :: es)

end Picoquic.Wake
