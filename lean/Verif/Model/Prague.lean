import Verif.Model.Bytes

/-!
# The Prague congestion control

Model of `picoquic/prague.c`: the window of a path under the Prague algorithm, which reacts to the share of packets that
routers marked. Windows are natural numbers: the wrap-around of windows at 64 bits is not modelled, except where it can
be reached. Multipath is not modelled: there is one packet number space.
-/

namespace Picoquic.Prague

/-- `PICOQUIC_CWIN_INITIAL`, picoquic_internal.h. -/
def CWIN_INITIAL : Nat := 10 * 1536
/-- `PICOQUIC_CWIN_MINIMUM`, picoquic_internal.h. -/
def CWIN_MINIMUM : Nat := 2 * 1536

/-- Subtraction of `uint64_t`. -/
def subU (a b : Nat) : Nat := (a + 2 ^ 64 - b) % 2 ^ 64

/-- `picoquic_prague_state_t`, prague.c 101-114, `path_x->cwin`, and of the packet context the numbers of marked packets
that the peer reported. `ssthresh` is `none` for `UINT64_MAX`, which stands for no threshold. -/
structure State where
  slow : Bool := true
  cwin : Nat := CWIN_INITIAL
  alphaShifted : Nat := 0
  alpha : Nat := 0
  residual : Nat := 0
  ssthresh : Option Nat := none
  recoveryStart : Nat := 0
  updateSent : Nat := 0
  epochSend : Nat := 0
  epochEct1 : Nat := 0
  epochCe : Nat := 0
  ect1 : Nat := 0
  ce : Nat := 0
deriving DecidableEq, Repr

/-- What the functions read in the connection, the path and the acknowledgement: bytes acknowledged, packet size, time,
smoothed RTT, next packet number, highest number acknowledged, time at which that was sent, whether the sender had data
to send, whether the window blocked it, whether the RTT is long. The last four are results of functions not modelled
here: `target` is half the product of bandwidth and RTT, `longWin` the window scaled for long RTTs, `hystart` and
`lossTest` the tests of `picoquic/cc_common.c`. -/
structure Env where
  bytes : Nat := 0
  mtu : Nat := 1440
  now : Nat := 0
  srtt : Nat := 0
  sendSequence : Nat := 0
  highest : Option Nat := none
  latest : Nat := 0
  appSending : Bool := true
  blocked : Bool := true
  longRtt : Bool := false
  target : Nat := 0
  longWin : Nat := 0
  hystart : Bool := false
  lossTest : Bool := true
deriving DecidableEq, Repr

/-- `picoquic_prague_reset_l3s`, prague.c 156-165. -/
def resetL3s (s : State) (e : Env) : State :=
  { s with epochSend := e.sendSequence, epochEct1 := s.ect1, epochCe := s.ce, alpha := 0, alphaShifted := 0 }

/-- `picoquic_prague_reset`, prague.c 168-172, with `picoquic_prague_init_reno`, prague.c 116-122. -/
def reset (s : State) (e : Env) : State :=
  resetL3s { s with slow := true, ssthresh := none, alpha := 0, cwin := CWIN_INITIAL } e

/-- `picoquic_prague_enter_recovery`, prague.c 177-203. -/
def enterRecovery (s : State) (timeout : Bool) (e : Env) : State :=
  let t := if s.cwin / 2 < CWIN_MINIMUM then CWIN_MINIMUM else s.cwin / 2
  resetL3s { s with
    ssthresh := some t
    cwin := if timeout then CWIN_MINIMUM else t
    slow := timeout
    recoveryStart := e.now
    residual := 0 } e

/-- The new share of marks, prague.c 213-254: `alpha` and `alphaShifted`, or `none` if a subtraction goes below 0. -/
def newAlpha (s : State) (e : Env) : Option (Nat × Nat) :=
  if s.ect1 < s.epochEct1 || s.ce < s.epochCe then none
  else
    let dE := s.ect1 - s.epochEct1
    let dC := s.ce - s.epochCe
    let frac := if 0 < dC then dC * 1024 % 2 ^ 64 / (dC + dE) else 0
    let suspect := decide (s.updateSent ≠ 0) && decide (512 < frac) && decide (s.alpha < 128) &&
      decide (e.srtt < subU e.latest s.updateSent)
    let frac := if suspect then 128 else frac
    if 0 < dC ∨ 0 < dE then
      if s.alpha < frac && (decide (512 < frac) || suspect) then some (frac, frac * 16)
      else if s.alphaShifted + frac < s.alpha then none
      else some ((s.alphaShifted + frac - s.alpha) / 16, s.alphaShifted + frac - s.alpha)
    else some (s.alpha, s.alphaShifted)

/-- `picoquic_prague_update_alpha`, prague.c 205-277. -/
def updateAlpha (s : State) (e : Env) : Option State :=
  match e.highest with
  | none => some s
  | some h =>
    if s.epochSend < h then
      match newAlpha s e with
      | none => none
      | some (a, as) =>
        let s1 := { s with alpha := a, alphaShifted := as, updateSent := e.latest, epochSend := e.sendSequence,
                           epochEct1 := s.ect1, epochCe := s.ce }
        if s.epochCe < s.ce then
          if 512 < a then some (enterRecovery s1 false e)
          else
            let t := s.cwin - s.cwin * a / 2048
            let t := if t < CWIN_MINIMUM then CWIN_MINIMUM else t
            some { s1 with ssthresh := some t, cwin := t, slow := false }
        else some s1
    else some s

/-- The growth of the window in slow start, `picoquic_cc_slow_start_increase_ex2`, cc_common.c 219-240, or `none` if
`1024 - alpha` goes below 0. -/
def slowIncrease (s : State) (e : Env) : Option Nat :=
  if 1024 < s.alpha then none
  else if !e.blocked then some 0
  else if s.alpha ≠ 0 then
    if e.srtt ≤ 100000 then some (e.bytes * (1024 - s.alpha) / 1024)
    else some (e.bytes * e.srtt * (1024 - s.alpha) / 100000 / 1024)
  else some e.bytes

/-- The acknowledgement case after the update of the share, prague.c 303-325. The division is by the window. -/
def grow (s : State) (e : Env) : Option State :=
  if s.slow then
    if e.appSending then
      match slowIncrease s e with
      | none => none
      | some n =>
        some { s with
          cwin := s.cwin + n
          slow := match s.ssthresh with
            | none => true
            | some t => decide (s.cwin + n < t) }
    else some s
  else if s.cwin = 0 ∨ 1024 < s.alpha then none
  else
    let d := e.bytes * e.mtu + s.residual
    some { s with residual := d % s.cwin, cwin := s.cwin + d / s.cwin * (1024 - s.alpha) / 1024 }

/-- In the first slow start. -/
def State.first (s : State) : Bool := s.slow && s.ssthresh.isNone

/-- The acknowledgement case, prague.c 293-327. -/
def onAck (s : State) (e : Env) : Option State :=
  let s := if s.first then { s with cwin := if s.cwin < e.target then e.target else s.cwin } else s
  match updateAlpha s e with
  | none => none
  | some s => grow s e

/-- The case of a new mark, prague.c 328-339. -/
def onMark (s : State) (e : Env) : State :=
  if s.first then
    let c := if e.mtu < s.cwin then s.cwin - e.mtu else s.cwin
    { s with cwin := c, ssthresh := some c, slow := false }
  else s

/-- The cases of loss and timeout, prague.c 340-347. -/
def onLoss (s : State) (timeout : Bool) (e : Env) : State :=
  if e.lossTest && decide (e.srtt < subU e.now s.recoveryStart) then enterRecovery s timeout e else s

/-- Twice the threshold, prague.c 353: `2 * UINT64_MAX` wraps around. -/
def twice : Option Nat → Nat
  | none => 2 ^ 64 - 2
  | some t => 2 * t

/-- The case of a packet that was not lost, prague.c 348-358. -/
def onSpurious (s : State) (e : Env) : State :=
  if subU e.now s.recoveryStart < e.srtt then
    if s.cwin < twice s.ssthresh then { s with cwin := twice s.ssthresh, slow := false } else s
  else s

/-- The case of a measurement of the RTT, prague.c 359-378. -/
def onRtt (s : State) (e : Env) : State :=
  if s.first then
    let s := if e.longRtt then { s with cwin := if s.cwin < e.longWin then e.longWin else s.cwin } else s
    if e.hystart then { s with ssthresh := some s.cwin, slow := false } else s
  else s

/-- What happens to a path: the notifications of `picoquic_prague_notify`, and the counts of marks in an
acknowledgement. -/
inductive Event
  | ack (e : Env)
  | counts (ect1 ce : Nat) (e : Env)
  | loss (e : Env)
  | timeout (e : Env)
  | spurious (e : Env)
  | rtt (e : Env)
  | reset (e : Env)
deriving Repr

/-- `picoquic_prague_notify`, prague.c 281-391, and the counts of `picoquic_decode_ack_frame`, frames.c 3793-3809, which
only rise. -/
def step (s : State) : Event → Option State
  | .ack e => onAck s e
  | .counts ect1 ce e =>
    let s := { s with ect1 := if s.ect1 < ect1 then ect1 else s.ect1 }
    some (if s.ce < ce then onMark { s with ce := ce } e else s)
  | .loss e => some (onLoss s false e)
  | .timeout e => some (onLoss s true e)
  | .spurious e => some (onSpurious s e)
  | .rtt e => some (onRtt s e)
  | .reset e => some (reset s e)

def run (s : State) : List Event → Option State
  | [] => some s
  | v :: l => match step s v with
    | none => none
    | some s => run s l

end Picoquic.Prague
