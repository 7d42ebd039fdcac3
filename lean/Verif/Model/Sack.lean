import Verif.Model.Bytes
/-!
# Selective acknowledgement lists

Model of `picoquic/sacks.c`. The splay tree `ack_tree`, ordered by `start_of_sack_range`, is
represented by the list of its items in key order (`Verif.Props.Splay` shows that the tree
behaves as such an ordered collection, including `find_previous`). Fields that C updates in place
are updated in place here.

Packet numbers and stream offsets are below 2^62, so the additions `end + 1` of the C code do not
wrap; they are natural numbers here. Allocation failure is not modelled.
-/

namespace Picoquic.Sack

/-- `PICOQUIC_MAX_ACK_RANGE_REPEAT`, picoquic_internal.h 117. -/
def MAX_ACK_RANGE_REPEAT : Nat := 4

/-- `picoquic_sack_item_t`, picoquic_internal.h 761-767. `sent0`/`sent1` are `nb_times_sent[0/1]`. -/
structure Item where
  start : Nat
  stop : Nat
  time : Nat
  sent0 : Nat
  sent1 : Nat
deriving DecidableEq, Repr

/-- `picoquic_sack_range_count_t`, picoquic_internal.h 769-771: number of items by number of times
sent. C uses an `int` array of size 4; it is a function here, only indices below 4 are used. -/
abbrev Counts := Nat → Int

/-- `counts[i] += d` -/
def Counts.add (c : Counts) (i : Nat) (d : Int) : Counts := fun j => if j = i then c j + d else c j

/-- `picoquic_sack_list_t`, picoquic_internal.h 773-778. -/
structure SackList where
  items : List Item
  ackHorizon : Nat
  horizonDelay : Int
  rc0 : Counts
  rc1 : Counts

/-- `picoquic_sack_list_init`, sacks.c 432-437. -/
def SackList.init : SackList := ⟨[], 0, 0, fun _ => 0, fun _ => 0⟩

/-- `picoquic_sack_list_is_empty`, sacks.c 123-126. -/
def SackList.isEmpty (s : SackList) : Bool := s.items.isEmpty

/-- Items whose start is at or below `pn` (they come first in key order). -/
def below (items : List Item) (pn : Nat) : List Item := items.takeWhile (fun i => i.start ≤ pn)

/-- The other items. -/
def above (items : List Item) (pn : Nat) : List Item := items.dropWhile (fun i => i.start ≤ pn)

/-- `picoquic_sack_find_range_below_number`, sacks.c 158-168. -/
def findRangeBelow (s : SackList) (pn : Nat) : Option Item := (below s.items pn).getLast?

/-- `picoquic_is_pn_already_received`, sacks.c 175-189. -/
def isPnAlreadyReceived (s : SackList) (pn : Nat) : Bool :=
  if s.horizonDelay > 0 ∧ pn < s.ackHorizon then true
  else
    match findRangeBelow s pn with
    | none => false
    | some i => decide (pn ≤ i.stop)

/-- Decrement of the counter of an item, sacks.c 112-116 and 490-492. -/
def uncount (c : Counts) (sent : Nat) : Counts :=
  if sent < MAX_ACK_RANGE_REPEAT then c.add sent (-1) else c

/-- `picoquic_sack_item_record_reset`, sacks.c 487-496, on the counters. -/
def recount (c : Counts) (sent : Nat) : Counts := (uncount c sent).add 0 1

/-- The extension loop of `picoquic_update_sack_list`, sacks.c 224-249, with `previous`, the items
after it and the counters. Returns the new `previous`, the remaining items and the counters. -/
def extendLoop (previous : Item) (after : List Item) (rc0 rc1 : Counts) (pnMax now : Nat) :
    Item × List Item × Counts × Counts :=
  match after with
  | [] =>
    if previous.stop < pnMax then
      ({ previous with stop := pnMax, time := now, sent0 := 0, sent1 := 0 }, [],
        recount rc0 previous.sent0, recount rc1 previous.sent1)
    else (previous, [], rc0, rc1)
  | next :: rest =>
    if previous.stop < pnMax then
      if next.start - 1 > pnMax then
        ({ previous with stop := pnMax, time := now, sent0 := 0, sent1 := 0 }, next :: rest,
          recount rc0 previous.sent0, recount rc1 previous.sent1)
      else
        extendLoop
          { previous with stop := next.stop, sent0 := 0, sent1 := 0,
                          time := if next.time > previous.time then next.time else previous.time }
          rest
          (uncount (recount rc0 previous.sent0) next.sent0)
          (uncount (recount rc1 previous.sent1) next.sent1)
          pnMax now
    else (previous, next :: rest, rc0, rc1)

/-- `picoquic_update_ack_horizon`, sacks.c 384-403: items, horizon and counters. -/
def horizonLoop (now : Nat) (delay : Int) (items : List Item) (horizon : Nat) (rc0 rc1 : Counts) :
    List Item × Nat × Counts × Counts :=
  match items with
  | [] => ([], horizon, rc0, rc1)
  | first :: rest =>
    if first.sent0 ≥ MAX_ACK_RANGE_REPEAT ∧ (now : Int) - first.time > delay then
      match rest with
      | [] => ([first], horizon, rc0, rc1)
      | next :: rest' =>
        horizonLoop now delay (next :: rest') (first.stop + 1)
          (uncount rc0 first.sent0) (uncount rc1 first.sent1)
    else (first :: rest, horizon, rc0, rc1)

/-- `picoquic_update_ack_horizon`, sacks.c 384-403. -/
def updateAckHorizon (s : SackList) (now : Nat) : SackList :=
  let r := horizonLoop now s.horizonDelay s.items s.ackHorizon s.rc0 s.rc1
  { s with items := r.1, ackHorizon := r.2.1, rc0 := r.2.2.1, rc1 := r.2.2.2 }

/-- The part of `picoquic_update_sack_list` before the horizon update, sacks.c 200-249.
Returns the code 1 (duplicate) or 0. -/
def updateCore (s : SackList) (pnMin pnMax now : Nat) : SackList × Nat :=
  let lo := below s.items pnMin
  let hi := above s.items pnMin
  let fresh : Item := ⟨pnMin, pnMax, now, 0, 0⟩
  match lo.getLast? with
  | none => noOverlap lo hi fresh
  | some previous =>
    if previous.stop + 1 < pnMin then noOverlap lo hi fresh
    else
      let r := extendLoop previous hi s.rc0 s.rc1 pnMax now
      ({ s with items := lo.dropLast ++ r.1 :: r.2.1, rc0 := r.2.2.1, rc1 := r.2.2.2 },
        if previous.stop < pnMax then 0 else 1)
where
  /-- sacks.c 203-223 followed by the loop. -/
  noOverlap (lo hi : List Item) (fresh : Item) : SackList × Nat :=
    match hi with
    | [] => ({ s with items := lo ++ [fresh], rc0 := s.rc0.add 0 1, rc1 := s.rc1.add 0 1 }, 0)
    | next :: rest =>
      if next.start - 1 > pnMax then
        ({ s with items := lo ++ fresh :: next :: rest,
                  rc0 := s.rc0.add 0 1, rc1 := s.rc1.add 0 1 }, 0)
      else
        let r := extendLoop { next with start := pnMin, time := now, sent0 := 0, sent1 := 0 } rest
          (recount s.rc0 next.sent0) (recount s.rc1 next.sent1) pnMax now
        ({ s with items := lo ++ r.1 :: r.2.1, rc0 := r.2.2.1, rc1 := r.2.2.2 }, 0)

/-- `picoquic_update_sack_list`, sacks.c 197-256. -/
def updateSackList (s : SackList) (pnMin pnMax now : Nat) : SackList × Nat :=
  let r := updateCore s pnMin pnMax now
  if s.horizonDelay > 0 then (updateAckHorizon r.1 now, r.2) else r

/-- The effect of `picoquic_record_pn_received` on the list, sacks.c 258-294 (the timestamps and
out-of-order flags of the acknowledgement context are modelled with the ACK logic). -/
def recordPnReceived (s : SackList) (pn now : Nat) : SackList × Nat := updateSackList s pn pn now

/-- `picoquic_check_sack_list`, sacks.c 328-340: `true` for the return value -1 ("nothing new"). -/
def checkSackList (s : SackList) (pnMin pnMax : Nat) : Bool :=
  match findRangeBelow s pnMin with
  | none => false
  | some i => decide (pnMax ≤ i.stop)

/-- `picoquic_process_ack_of_ack_range`, sacks.c 347-380. -/
def processAckOfAckRange (s : SackList) (start stop : Nat) : SackList :=
  let lo := below s.items start
  let hi := above s.items start
  match lo.getLast? with
  | none => s
  | some previous =>
    if previous.start = start then
      match hi with
      | [] =>
        if stop < previous.stop then
          { s with items := lo.dropLast ++ [{ previous with start := stop + 1 }] }
        else
          { s with items := lo.dropLast ++ [{ previous with start := previous.stop }] }
      | next :: rest =>
        if previous.stop = stop then
          if s.horizonDelay > 0 then
            { s with
              items := lo.dropLast ++
                { previous with
                  sent0 := if previous.sent0 < MAX_ACK_RANGE_REPEAT then MAX_ACK_RANGE_REPEAT
                           else previous.sent0
                  sent1 := if previous.sent1 < MAX_ACK_RANGE_REPEAT then MAX_ACK_RANGE_REPEAT
                           else previous.sent1 } :: next :: rest
              rc0 := uncount s.rc0 previous.sent0
              rc1 := uncount s.rc1 previous.sent1 }
          else
            { s with items := lo.dropLast ++ next :: rest
                     rc0 := uncount s.rc0 previous.sent0
                     rc1 := uncount s.rc1 previous.sent1 }
        else s
    else s

/-- `picoquic_sack_list_first`, sacks.c 408-412. -/
def sackListFirst (s : SackList) : Nat :=
  match s.items.head? with
  | none => UINT64_MAX
  | some i => i.start

/-- `picoquic_sack_list_last`, sacks.c 416-420. -/
def sackListLast (s : SackList) : Nat := lastStop s.items
where
  /-- End of the last item, 0 if there is none. -/
  lastStop (items : List Item) : Nat :=
    match items.getLast? with
    | none => 0
    | some i => i.stop

/-- `picoquic_sack_list_size`, sacks.c 498-501. -/
def sackListSize (s : SackList) : Nat := s.items.length

/-- `picoquic_sack_item_record_sent`, sacks.c 476-485, on the counters of one direction. -/
def recordSentCounts (c : Counts) (sent : Nat) : Counts :=
  let c := if sent < MAX_ACK_RANGE_REPEAT then c.add sent (-1) else c
  if sent + 1 < MAX_ACK_RANGE_REPEAT then c.add (sent + 1) 1 else c

end Picoquic.Sack

namespace Picoquic.Sack

/-- `picoquic_sack_item_record_sent`, sacks.c 476-485, for the item at position `k` of the list
(the caller holds a pointer to an item; here, its position in key order). `opp` is
`is_opportunistic`. -/
def recordSent (s : SackList) (k : Nat) (opp : Bool) : SackList :=
  match s.items[k]? with
  | none => s
  | some i =>
    if opp then
      { s with items := s.items.set k { i with sent1 := i.sent1 + 1 }
               rc1 := recordSentCounts s.rc1 i.sent1 }
    else
      { s with items := s.items.set k { i with sent0 := i.sent0 + 1 }
               rc0 := recordSentCounts s.rc0 i.sent0 }

/-- The operations picoquic performs on the record of received packets: a packet is received
(packet.c 2300), an acknowledgement of ours is acknowledged by the peer (frames.c 3035), a range is
written in an ACK frame (frames.c 3815-3956). -/
inductive Op
  | received (pn now : Nat)
  | ackOfAck (start stop : Nat)
  | sent (k : Nat) (opp : Bool)
deriving DecidableEq, Repr

/-- One operation. -/
def step (s : SackList) : Op → SackList
  | .received pn now => (recordPnReceived s pn now).1
  | .ackOfAck a b => processAckOfAckRange s a b
  | .sent k opp => recordSent s k opp

/-- A history of operations. -/
def run (s : SackList) (ops : List Op) : SackList := ops.foldl step s

end Picoquic.Sack
