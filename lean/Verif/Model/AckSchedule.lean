/-!
# When acknowledgements are sent, and the settings received from the peer

Model of the functions which decide when the packets of the application context are acknowledged (frames.c 4008-4113,
sacks.c 258-295, the last part of frames.c 3812-3956 and frames.c 3959-4006), and of the frames by which the peer
changes the settings: ACK_FREQUENCY (frames.c 5231-5270), IMMEDIATE_ACK (frames.c 5331-5345), PATH_AVAILABLE and
PATH_BACKUP (frames.c 5609-5650), MAX_PATH_ID (frames.c 5722-5747).

Only the application context is modelled. Times, gaps and delays are naturals, and sums of them do not wrap; the
sequence number of ACK_FREQUENCY is compared as in the code, with the initial value `UINT64_MAX`. Of the sets of
received packets only the largest number is kept (`none` if the set is empty). The paths are a list which does not
change. The recomputation of gap and delay from the round trip time (packet.c 1973, sender.c 2704), which is
skipped once the extension is negotiated, is not modelled.
-/

namespace Picoquic.AckSched

/-- One element of the array `act` of `picoquic_ack_context_t`, picoquic_internal.h: `ack_needed`,
`is_immediate_ack_required`, `ack_after_fin`, `out_of_order_received`, `time_oldest_unack_packet_received`,
`highest_ack_sent`, `highest_ack_sent_time`; initial values quicctx.c 2681-2691. -/
structure Act where
  needed : Bool := false
  immediate : Bool := false
  afterFin : Bool := false
  outOfOrder : Bool := false
  oldest : Nat := 0
  highest : Nat := 0
  highestTime : Nat := 0
deriving DecidableEq, Repr

/-- `picoquic_ack_context_t`: `act[0]` for the nominal path, `act[1]` for the opportunistic acknowledgements, and
the largest packet number of the set of received packets. -/
structure Ctx where
  act0 : Act := {}
  act1 : Act := {}
  largest : Option Nat := none
deriving DecidableEq, Repr

/-- The fields of `picoquic_path_t` which are used: `unique_path_id`, `ack_ctx`, `status_sequence_to_receive_next`,
`path_is_backup`. -/
structure Path where
  id : Nat
  ctx : Ctx := {}
  nextStatus : Nat := 0
  backup : Bool := false
deriving DecidableEq, Repr

/-- The fields of `picoquic_cnx_t` which are used: `is_multipath_enabled`, `is_ack_frequency_negotiated`,
`local_parameters.min_ack_delay`, `ack_ctx[application]`, `path`, `ack_frequency_sequence_remote` (initial value
`UINT64_MAX`, quicctx.c 4074), `ack_gap_remote`, `ack_delay_remote`, `ack_ignore_order_remote`,
`ack_reordering_threshold_remote`, `max_path_id_remote`. -/
structure State where
  multipath : Bool := false
  negotiated : Bool := true
  minDelay : Nat := 1000
  ctx : Ctx := {}
  paths : List Path := []
  seq : Nat := 2 ^ 64 - 1
  gap : Nat := 2
  delay : Nat := 1000
  ignoreOrder : Bool := false
  threshold : Nat := 0
  maxPathId : Nat := 0
deriving DecidableEq, Repr

/-- `picoquic_sack_list_last`, sacks.c 416-420: zero for an empty set. -/
def Ctx.last (c : Ctx) : Nat := c.largest.getD 0

/-- The element of `act` which is used: frames.c 4050, index `is_opportunistic`. -/
def Ctx.act (c : Ctx) (opp : Bool) : Act := if opp then c.act1 else c.act0

def Ctx.setAct (c : Ctx) (opp : Bool) (a : Act) : Ctx := if opp then { c with act1 := a } else { c with act0 := a }

/-- Replacement of the element of index `i` of the list of paths by its image. -/
def onPath (i : Nat) (f : Path → Path) : List Path → List Path
  | [] => []
  | p :: ps => match i with
    | 0 => f p :: ps
    | i + 1 => p :: onPath i f ps

/-- The statements common to both branches of `picoquic_set_ack_needed`, frames.c 4016-4021 and 4025-4028. -/
def Ctx.mark (c : Ctx) (now : Nat) : Ctx :=
  { c with act0 := { c.act0 with needed := true, oldest := now },
           act1 := { c.act1 with needed := true, oldest := now } }

/-- `picoquic_set_ack_needed`, frames.c 4008-4029, for a path: lines 4014-4020. -/
def Ctx.setNeededPath (c : Ctx) (now : Nat) (imm : Bool) : Ctx :=
  let c := { c with act0 := { c.act0 with immediate := c.act0.immediate || imm } }
  if c.act0.needed then c else c.mark now

/-- `picoquic_set_ack_needed`, frames.c 4022-4028, for the connection: nothing is done, not even recording that the
acknowledgement is required immediately, if an acknowledgement is already needed. -/
def Ctx.setNeededCnx (c : Ctx) (now : Nat) (imm : Bool) : Ctx :=
  if c.act0.needed then c
  else ({ c with act0 := { c.act0 with immediate := c.act0.immediate || imm } } : Ctx).mark now

/-- `picoquic_set_ack_needed`, frames.c 4008-4029, for a packet received on the path of index `i`. -/
def State.setNeeded (s : State) (now i : Nat) (imm : Bool) : State :=
  let s := if s.multipath then
    { s with paths := onPath i (fun p => { p with ctx := p.ctx.setNeededPath now imm }) s.paths } else s
  { s with ctx := s.ctx.setNeededCnx now imm }

/-- The flags set by `picoquic_record_pn_received`, sacks.c 269-290, in the context of the connection, when the
largest number received in the packet number space is `largest`. -/
def Ctx.order (c : Ctx) (largest : Option Nat) (pn : Nat) : Ctx :=
  match largest with
  | none => c
  | some l =>
    if pn > l then
      if pn > l + 1 then
        { c with act0 := { c.act0 with outOfOrder := true }, act1 := { c.act1 with outOfOrder := true } }
      else c
    else
      { c with
        act0 := if c.act0.needed && pn < c.act0.highest then { c.act0 with outOfOrder := true } else c.act0
        act1 := if c.act1.needed && pn < c.act1.highest then { c.act1 with outOfOrder := true } else c.act1 }

/-- The largest number after `picoquic_update_sack_list`, sacks.c 292. -/
def Ctx.receive (c : Ctx) (pn : Nat) : Ctx := { c with largest := some (max (c.largest.getD 0) pn) }

/-- `picoquic_record_pn_received`, sacks.c 258-295, for a packet received on the path of index `i`: in multipath the
numbers are those of the path, but the flags are those of the connection. -/
def State.recordPn (s : State) (i pn : Nat) : State :=
  if s.multipath then
    match s.paths[i]? with
    | none => s
    | some p => { s with ctx := s.ctx.order p.ctx.largest pn,
                         paths := onPath i (fun p => { p with ctx := p.ctx.receive pn }) s.paths }
  else { s with ctx := (s.ctx.order s.ctx.largest pn).receive pn }

/-- `picoquic_is_ack_needed_in_ctx`, frames.c 4050-4094, for the application context. `young` is the condition of
`picoquic_ack_gap_override_if_needed` (frames.c 4031-4048) under which the gap is 2. Returns the decision, the
wake time and the context. -/
def State.neededInCtx (s : State) (c : Ctx) (now : Nat) (young opp : Bool) (wake : Nat) : Bool × Nat × Ctx :=
  let a := c.act opp
  if a.needed then
    if a.immediate then (true, wake, c)
    else if a.afterFin then (true, wake, c.setAct opp { a with afterFin := false })
    else if a.outOfOrder && !s.ignoreOrder then (true, wake, c)
    else
      let gap := if young then 2 else s.gap
      if a.highest + gap ≤ c.last ∨ a.oldest + s.delay ≤ now then (true, wake, c)
      else if a.oldest + s.delay < wake then (false, a.oldest + s.delay, c)
      else (false, wake, c)
  else if a.highest + 8 ≤ c.last ∧ a.highestTime + s.delay ≤ now then
    if c.last = 2 ^ 64 - 1 then (false, wake, c) else (true, wake, c)
  else (false, wake, c)

/-- The loop of `picoquic_is_ack_needed` over the paths, frames.c 4104-4108, which stops at the first path for which
an acknowledgement is needed. -/
def State.neededOnPaths (s : State) (now : Nat) (young : Nat → Bool) (opp : Bool) :
    Nat → List Path → Nat → Bool × Nat × List Path
  | _, [], wake => (false, wake, [])
  | i, p :: ps, wake =>
    match s.neededInCtx p.ctx now (young i) opp wake with
    | (true, wake, c) => (true, wake, { p with ctx := c } :: ps)
    | (false, wake, c) =>
      let (r, wake, ps) := s.neededOnPaths now young opp (i + 1) ps wake
      (r, wake, { p with ctx := c } :: ps)

/-- `picoquic_is_ack_needed`, frames.c 4096-4113, for the application context: whether an acknowledgement is sent
now, the next wake time, and the state. -/
def State.isNeeded (s : State) (now : Nat) (young : Nat → Bool) (opp : Bool) (wake : Nat) : Bool × Nat × State :=
  match s.neededInCtx s.ctx now (young 0) opp wake with
  | (true, wake, c) => (true, wake, { s with ctx := c })
  | (false, wake, c) =>
    if s.multipath then
      let (r, wake, ps) := s.neededOnPaths now young opp 0 s.paths wake
      (r, wake, { s with ctx := c, paths := ps })
    else (false, wake, { s with ctx := c })

/-- What `picoquic_format_ack_frame_in_context` changes when an ACK frame is written, frames.c 3914-3923 and
3939-3953. -/
def Ctx.sent (c : Ctx) (now : Nat) (opp : Bool) : Ctx :=
  if opp then
    { c with act1 := { c.act1 with needed := false, afterFin := false, outOfOrder := false,
                                   highest := c.last, highestTime := now } }
  else
    { c with act0 := { c.act0 with needed := false, afterFin := false, outOfOrder := false, immediate := false,
                                   highest := c.last, highestTime := now } }

/-- The loop of `picoquic_format_ack_frame` over the paths, frames.c 3970-3995; `written` says for which paths a
frame is written: none is written if the room is too small, if nothing was received, or for a demoted path. -/
def sentOnPaths (now : Nat) (opp : Bool) : List Path → List Bool → List Path
  | [], _ => []
  | p :: ps, w =>
    { p with ctx := if w.headD false then p.ctx.sent now opp else p.ctx } :: sentOnPaths now opp ps w.tail

/-- `picoquic_format_ack_frame`, frames.c 3959-4006. In multipath the fields of the connection are computed from those
of the paths, except the order and immediate flags, which are not changed. -/
def State.sendAck (s : State) (now : Nat) (opp : Bool) (written : List Bool) : State :=
  if s.multipath then
    let ps := sentOnPaths now opp s.paths written
    { s with
      paths := ps
      ctx := s.ctx.setAct opp { s.ctx.act opp with
        needed := ps.any (fun p => (p.ctx.act opp).needed),
        afterFin := ps.any (fun p => (p.ctx.act opp).afterFin) } }
  else if written.headD false then { s with ctx := s.ctx.sent now opp } else s

/-- `int64_t delta = seq - old; delta > 0`, frames.c 5250-5251, for 64 bit numbers. -/
def newer (seq old : Nat) : Bool :=
  let delta := (seq + 2 ^ 64 - old) % 2 ^ 64
  decide (0 < delta ∧ delta < 2 ^ 63)

/-- `picoquic_decode_ack_frequency_frame`, frames.c 5231-5270: whether the frame is accepted, and the state. -/
def State.ackFrequency (s : State) (seq packets delay threshold : Nat) : Bool × State :=
  if !s.negotiated || delay < s.minDelay || packets == 0 then (false, s)
  else
    if newer seq s.seq then
      (true, { s with seq := seq, gap := packets, delay := delay, ignoreOrder := threshold == 0, threshold := threshold })
    else (true, s)

/-- `picoquic_decode_immediate_ack_frame`, frames.c 5331-5345; `last` if the frame ends the packet. -/
def State.immediateAck (s : State) (now i : Nat) (last : Bool) : Bool × State :=
  if last then (true, s)
  else if !s.negotiated then (false, s)
  else (true, s.setNeeded now i true)

/-- The part of `picoquic_decode_path_available_or_backup_frame` for the path found, frames.c 5636-5646. -/
def Path.status (p : Path) (backup : Bool) (seq : Nat) : Path :=
  if p.nextStatus > seq then p else { p with nextStatus := seq + 1, backup := backup }

/-- `picoquic_decode_path_available_or_backup_frame`, frames.c 5609-5650: the first path which has the identifier
(`picoquic_find_path_by_unique_id`) is changed. -/
def statusOnPaths (id : Nat) (backup : Bool) (seq : Nat) : List Path → List Path
  | [] => []
  | p :: ps => if p.id = id then p.status backup seq :: ps else p :: statusOnPaths id backup seq ps

def State.pathStatus (s : State) (id : Nat) (backup : Bool) (seq : Nat) : Bool × State :=
  if !s.multipath then (false, s) else (true, { s with paths := statusOnPaths id backup seq s.paths })

/-- `picoquic_decode_max_path_id_frame`, frames.c 5722-5747. -/
def State.maxPathIdFrame (s : State) (m : Nat) : Bool × State :=
  if !s.multipath then (false, s) else (true, { s with maxPathId := if s.maxPathId < m then m else s.maxPathId })

/-- What happens to a connection: frames of the peer, the number of a received packet being recorded (packet.c 2300),
a received packet being ack eliciting (frames.c 6651-6653), the end of a stream being received (frames.c 1293-1294),
the question whether an acknowledgement is needed, and an acknowledgement being written. -/
inductive Event where
  | ackFrequency (seq packets delay threshold : Nat)
  | immediateAck (now path : Nat) (last : Bool)
  | pathStatus (id : Nat) (backup : Bool) (seq : Nat)
  | maxPathId (m : Nat)
  | recordPn (path pn : Nat)
  | eliciting (now path : Nat)
  | fin
  | ask (now : Nat) (young : Nat → Bool) (opp : Bool) (wake : Nat)
  | ackSent (now : Nat) (opp : Bool) (written : List Bool)

def step (s : State) : Event → State
  | .ackFrequency seq p d t => (s.ackFrequency seq p d t).2
  | .immediateAck now i last => (s.immediateAck now i last).2
  | .pathStatus id b seq => (s.pathStatus id b seq).2
  | .maxPathId m => (s.maxPathIdFrame m).2
  | .recordPn i pn => s.recordPn i pn
  | .eliciting now i => s.setNeeded now i false
  | .fin => { s with ctx := { s.ctx with act0 := { s.ctx.act0 with afterFin := true },
                                          act1 := { s.ctx.act1 with afterFin := true } } }
  | .ask now young opp wake => (s.isNeeded now young opp wake).2.2
  | .ackSent now opp w => s.sendAck now opp w

def run (s : State) (evs : List Event) : State := evs.foldl step s

end Picoquic.AckSched
