import Verif.Model.Bytes

/-!
# The choice of the path of the next packet, and the paths that are abandoned

Model of paths.c (`picoquic_verify_path_available`, `picoquic_sort_available_paths`, `picoquic_select_next_path_tuple`)
and quicctx.c (`picoquic_demote_path`, `picoquic_delete_abandoned_paths`, `picoquic_abandon_path`), with the use of the
chosen path in sender.c. What other modules compute for a path (pacing C25, congestion window, challenges C37, the need
of an acknowledgement C66, the stream that is next C39) is given as conditions of the call.
-/

namespace Picoquic.MultiPath

/-- A path, picoquic_internal.h: `unique_path_id`, `challenge_verified` and `challenge_failed` of the first tuple,
`path_is_demoted`, `path_is_backup`, `path_abandon_sent`, if `p_remote_cnxid` of the first tuple is not NULL,
`nb_retransmit`, `rtt_min`, `last_sent_time`, `retransmit_timer`, `demotion_time`. -/
structure PathX where
  id : Nat
  verified : Bool := false
  failed : Bool := false
  demoted : Bool := false
  backup : Bool := false
  abandonSent : Bool := false
  hasCid : Bool := true
  retransmit : Nat := 0
  rttMin : Nat := 0
  lastSent : Nat := 0
  timer : Nat := 0
  demotionTime : Nat := 0
deriving DecidableEq, Repr

/-- The conditions of a call, for each path ID: a challenge or response is due (paths.c 294-323); pacing authorizes
sending; there is room in the congestion window; nothing is in transit; datagrams are ready; the path of the stream that
is next; an acknowledgement is needed; the connection is ready. -/
structure Cond where
  control : Nat → Bool
  paced : Nat → Bool
  room : Nat → Bool
  idle : Nat → Bool
  datagram : Nat → Bool
  affinity : Option Nat
  ackNeeded : Bool
  ready : Bool

/-- The largest 64-bit value. -/
def MAX : Nat := 2 ^ 64 - 1

/-- The variables of `picoquic_verify_path_available`, paths.c 330-335. -/
structure Avail where
  backup : Option Nat := none
  bestBackup : Nat := MAX
  next : Option Nat := none
  best : Nat := MAX
  nb : Nat := 0
deriving DecidableEq, Repr

/-- One turn of the loop, paths.c 339-361. -/
def availStep (s : Avail) (i : Nat) (p : PathX) : Avail :=
  if p.verified = true ∧ p.demoted = false then
    if p.backup then
      if s.backup = none ∨ p.retransmit < s.bestBackup then { s with bestBackup := p.retransmit, backup := some i }
      else s
    else if p.retransmit < s.best then { s with best := p.retransmit, next := some i, nb := 1 }
    else { s with nb := s.nb + 1 }
  else s

/-- The loop, paths.c 337-362, from path `i`. -/
def availLoop (s : Avail) (i : Nat) : List PathX → Avail
  | [] => s
  | p :: ps => availLoop (availStep s i p) (i + 1) ps

/-- `picoquic_verify_path_available`, paths.c 328-375: the paths, the chosen path, `nb_available` and
`min_retransmit`. -/
def verifyAvailable (ps : List PathX) : List PathX × Option Nat × Nat × Nat :=
  let s := availLoop {} 0 ps
  if s.best > 0 ∧ s.bestBackup < s.best then
    (ps.modify (s.backup.getD 0) (fun p => { p with backup := false }), s.backup, 1, s.bestBackup)
  else (ps, s.next, s.nb, s.best)

/-- The variables of `picoquic_sort_available_paths`, paths.c 384-393. -/
structure Sorted where
  cwin : Option Nat := none
  pacing : Option Nat := none
  lastPacing : Nat := MAX
  lastCwin : Nat := MAX
  iMin : Option (Nat × PathX) := none
  minOk : Bool := false
  affinity : Option Nat := none
deriving DecidableEq, Repr

/-- The candidate for the least delay, paths.c 406-412. -/
def minStep (s : Sorted) (i : Nat) (p : PathX) : Sorted :=
  match s.iMin with
  | none => { s with iMin := some (i, p), minOk := false }
  | some m =>
    if p.retransmit < m.2.retransmit ∨ (p.retransmit = m.2.retransmit ∧ p.rttMin < m.2.rttMin) then
      { s with iMin := some (i, p), minOk := false }
    else s

/-- The path that was used least recently, among those that pacing allows; paths.c 418-424. -/
def pacingStep (s : Sorted) (i : Nat) (p : PathX) : Sorted :=
  if p.lastSent < s.lastPacing then
    { s with lastPacing := p.lastSent, pacing := some i,
             minOk := if s.iMin.map (fun m => m.1) = some i then true else s.minOk }
  else s

/-- The same among those with room in the window, paths.c 427-430. -/
def cwinStep (s : Sorted) (i : Nat) (p : PathX) : Sorted :=
  if p.lastSent < s.lastCwin then { s with lastCwin := p.lastSent, cwin := some i } else s

/-- The first path with affinity, paths.c 431-441. -/
def affinityStep (c : Cond) (s : Sorted) (i : Nat) (p : PathX) : Sorted :=
  if s.affinity = none ∧ (c.affinity = some p.id ∨ c.datagram p.id = true) then { s with affinity := some i } else s

/-- One turn of the loop of `picoquic_sort_available_paths`, paths.c 398-449. The counters for statistics are not
modelled. -/
def sortStep (c : Cond) (minRetransmit : Nat) (s : Sorted) (i : Nat) (p : PathX) : Sorted :=
  if p.backup = true ∨ p.verified = false ∨ p.demoted = true ∨ p.retransmit > minRetransmit then s
  else
    let s := minStep s i p
    if c.paced p.id then
      let s := pacingStep s i p
      if c.room p.id then affinityStep c (cwinStep s i p) i p else s
    else s

/-- The loop, paths.c 397-450. -/
def sortLoop (c : Cond) (minRetransmit : Nat) (s : Sorted) (i : Nat) : List PathX → Sorted
  | [] => s
  | p :: ps => sortLoop c minRetransmit (sortStep c minRetransmit s i p) (i + 1) ps

/-- The choice, paths.c 456-487. -/
def sortChoice (c : Cond) (s : Sorted) : Nat :=
  match s.iMin, c.ackNeeded && s.minOk with
  | some m, true => m.1
  | _, _ =>
    match s.cwin with
    | some i => s.affinity.getD i
    | none =>
      match s.pacing with
      | some i => i
      | none => 0

/-- `picoquic_demote_path`, quicctx.c 1891-1952. The PATH_ABANDON frame can always be queued, and the stash of the
path is found. -/
def demote (multi : Bool) (now : Nat) (ps : List PathX) (i : Nat) : List PathX :=
  match ps[i]? with
  | none => ps
  | some p =>
    if p.demoted then ps
    else
      let timer := if p.timer < 1000000 ∧ multi = false then 1000000 else p.timer
      let ps := ps.set i { p with demoted := true, demotionTime := now + 3 * timer }
      if multi then
        -- path 0 changes place with path 1: the test at 1913 is of path 0, not of the other one
        let swap := decide (i = 0) && decide (ps.length > 1) && p.hasCid
        let j := if swap then 1 else i
        let ps := if swap then (match ps with | a :: b :: l => b :: a :: l | l => l) else ps
        if j = 0 then ps
        else if p.abandonSent then ps
        else ps.modify j (fun p => { p with hasCid := false, abandonSent := true })
      else ps

/-- `picoquic_abandon_path`, quicctx.c 2409-2451, for the path at index `i`. -/
def abandon (now : Nat) (ps : List PathX) (i : Nat) : List PathX :=
  if ps.length ≤ 1 then ps else demote true now ps i

/-- The first loop of `picoquic_select_next_path_tuple`, paths.c 514-535, from path `i`, with at most `k` turns. The
result is the paths and the one that needs a control message or a probe. -/
def controlLoop (multi : Bool) (now : Nat) (c : Cond) : Nat → Nat → List PathX → List PathX × Option Nat
  | 0, _, ps => (ps, none)
  | k + 1, i, ps =>
    match ps[i]? with
    | none => (ps, none)
    | some p =>
      if p.demoted then controlLoop multi now c k (i + 1) ps
      else if multi = true ∧ p.failed = true ∧ p.abandonSent = false then
        controlLoop multi now c k (i + 1) (abandon now ps i)
      else if c.control p.id then (ps, some i)
      else if p.verified = true ∧ p.retransmit > 0 ∧ c.ready = true ∧ c.idle p.id = true then (ps, some i)
      else controlLoop multi now c k (i + 1) ps

/-- `picoquic_select_next_path_tuple`, paths.c 504-558: the paths and the index of the chosen one. -/
def select (multi : Bool) (now : Nat) (c : Cond) (ps : List PathX) : List PathX × Nat :=
  match controlLoop multi now c ps.length 0 ps with
  | (ps, some i) => (ps, i)
  | (ps, none) =>
    if ps.length = 1 then (ps, 0)
    else
      let v := verifyAvailable ps
      if v.2.2.1 < 2 then (v.1, v.2.1.getD 0)
      else (v.1, sortChoice c (sortLoop c v.2.2.2 {} 0 v.1))

/-- What the header of a short packet needs: the destination connection IDs of path 0, sender.c 758, and of the
chosen path, sender.c 673. `false` is a NULL pointer that is used. -/
def headerOk (ps : List PathX) (i : Nat) : Bool :=
  match ps[0]?, ps[i]? with
  | some p, some q => p.hasCid && q.hasCid
  | _, _ => false

/-- The paths at two places change places, quicctx.c 1842-1844. -/
def swapAt (ps : List PathX) (i j : Nat) : List PathX :=
  match ps[i]?, ps[j]? with
  | some p, some q => (ps.set i q).set j p
  | _, _ => ps

/-- The loop of `picoquic_delete_abandoned_paths`, quicctx.c 1814-1850; `stale` tells which paths were not used for
the idle time. -/
def cleanLoop (multi : Bool) (now : Nat) (stale : Nat → Bool) : Nat → Nat → Nat → List PathX → List PathX × Nat
  | 0, _, good, ps => (ps, good)
  | k + 1, cur, good, ps =>
    match ps[cur]? with
    | none => (ps, good)
    | some p =>
      let ps :=
        if p.demoted = false ∧ (p.failed = true ∨ (cur > 0 ∧ p.verified = true ∧ stale p.id = true)) then
          demote multi now ps cur
        else ps
      match ps[cur]? with
      | none => (ps, good)
      | some p =>
        if p.demoted = true ∧ now ≥ p.demotionTime then cleanLoop multi now stale k (cur + 1) good ps
        else cleanLoop multi now stale k (cur + 1) (good + 1) (if cur > good then swapAt ps cur good else ps)

/-- `picoquic_delete_abandoned_paths`, quicctx.c 1803-1863. Not modelled: the PATH_AVAILABLE frame for a backup path
that is left (1864-1885), which does not change which path is chosen. -/
def clean (multi : Bool) (now : Nat) (stale : Nat → Bool) (ps : List PathX) : List PathX :=
  let start := if multi = true ∧ ps.length > 1 then 0 else 1
  let r := cleanLoop multi now stale (ps.length - start) start start ps
  r.1.take r.2

/-- What happens to the paths of a connection with several paths. -/
inductive PathOp
  /-- The peer abandons the path: PATH_ABANDON, frames.c 5466-5471. -/
  | peerAbandons (id now : Nat)
  /-- The application abandons the path. -/
  | abandons (id now : Nat)
  /-- A path is added, with a connection ID. -/
  | add (id : Nat)
  /-- The status, the validation, and the measures of a path change. -/
  | status (id : Nat) (backup : Bool)
  | validate (id : Nat) (verified failed : Bool)
  | measure (id retransmit rttMin lastSent timer : Nat)
  /-- Paths that were abandoned are deleted. -/
  | clean (now : Nat) (stale : Nat → Bool)
  /-- A packet is prepared. -/
  | send (now : Nat) (c : Cond)

/-- The index of a path, quicctx.c 2041-2053. -/
def indexOf (ps : List PathX) (id : Nat) : Option Nat := ps.findIdx? (fun p => decide (p.id = id))

/-- One event, with several paths allowed. -/
def stepOp (ps : List PathX) : PathOp → List PathX
  | .peerAbandons id now =>
    match indexOf ps id with
    | none => ps
    | some i => demote true now ps i
  | .abandons id now =>
    match indexOf ps id with
    | none => ps
    | some i => abandon now ps i
  | .add id => ps ++ [{ id := id }]
  | .status id b => ps.map (fun p => if p.id = id then { p with backup := b } else p)
  | .validate id v f => ps.map (fun p => if p.id = id then { p with verified := v, failed := f } else p)
  | .measure id r t s w =>
    ps.map (fun p => if p.id = id then { p with retransmit := r, rttMin := t, lastSent := s, timer := w } else p)
  | .clean now stale => clean true now stale ps
  | .send now c => (select true now c ps).1

/-- A history. -/
def runOps (ps : List PathX) (ops : List PathOp) : List PathX := ops.foldl stepOp ps

/-- A packet is prepared for the chosen path and sent, which sets `last_sent_time`, sender.c 1185: the paths and the
choice. -/
def sendStep (ps : List PathX) (e : Nat × Cond) : List PathX × Nat :=
  let r := select true e.1 e.2 ps
  (r.1.modify r.2 (fun p => { p with lastSent := e.1 }), r.2)

/-- The choices for a sequence of packets. -/
def choices (ps : List PathX) : List (Nat × Cond) → List Nat
  | [] => []
  | e :: es => (sendStep ps e).2 :: choices (sendStep ps e).1 es

end Picoquic.MultiPath
