import Verif.Model.Bytes
/-!
# New Reno congestion control

Model of `picoquic/newreno.c` and of the two helpers of `picoquic/cc_common.c` that it uses. Windows
are natural numbers: the 64 bit wrap-around of windows is not modelled.
-/

namespace Picoquic.NewReno

/-- `PICOQUIC_CWIN_INITIAL`, picoquic_internal.h. -/
def CWIN_INITIAL : Nat := 10 * 1536
/-- `PICOQUIC_CWIN_MINIMUM`, picoquic_internal.h. -/
def CWIN_MINIMUM : Nat := 2 * 1536

/-- `picoquic_newreno_alg_state_t`, cc_common.h. -/
inductive Alg where
  | slowStart
  | congestionAvoidance
deriving DecidableEq, Repr

/-- `picoquic_newreno_sim_state_t`, cc_common.h. -/
structure Sim where
  alg : Alg
  cwin : Nat
  residualAck : Nat
  ssthresh : Nat
  recoveryStart : Nat
  recoverySequence : Nat
deriving DecidableEq, Repr

/-- `picoquic_newreno_sim_reset`, newreno.c 36-43. -/
def Sim.reset : Sim := ⟨.slowStart, CWIN_INITIAL, 0, UINT64_MAX, 0, 0⟩

/-- The notifications handled by New Reno. -/
inductive Notification where
  | acknowledgement
  | ecnEc
  | repeated
  | timeout
  | spuriousRepeat
  | rttMeasurement
  | reset
  | seedCwin
  | other
deriving DecidableEq, Repr

/-- What the notification functions read in the connection, the path and the acknowledgement. The
last three are results of functions not modelled here: `targetWin` is half the product of
the peak bandwidth and the smoothed RTT, `longWin` the window scaled for long delays (a floating
point computation), and `hystart` the result of the HyStart test. -/
structure Env where
  bytesAcked : Nat
  lostPacket : Nat
  sendMtu : Nat
  now : Nat
  smoothedRtt : Nat
  sendSequence : Nat
  ackNumber : Nat
  ackSentTime : Nat
  multipath : Bool
  appSending : Bool
  longRtt : Bool
  targetWin : Nat
  longWin : Nat
  hystart : Bool
deriving Repr

/-- `picoquic_newreno_sim_enter_recovery`, newreno.c 47-72. -/
def enterRecovery (s : Sim) (n : Notification) (e : Env) : Sim :=
  let ssthresh := if s.cwin / 2 < CWIN_MINIMUM then CWIN_MINIMUM else s.cwin / 2
  { s with
    ssthresh := ssthresh
    cwin := if n = .timeout then CWIN_MINIMUM else ssthresh
    alg := if n = .timeout then .slowStart else .congestionAvoidance
    recoveryStart := e.now
    recoverySequence := e.sendSequence
    residualAck := 0 }

/-- `picoquic_newreno_sim_seed_cwin`, newreno.c 76-86. -/
def seedCwin (s : Sim) (seed : Nat) : Sim :=
  if s.alg = .slowStart ∧ s.ssthresh = UINT64_MAX ∧ seed > s.cwin then
    { s with cwin := seed, ssthresh := seed, alg := .congestionAvoidance }
  else s

/-- The acknowledgement case, newreno.c 100-124. The division is by the window: `none` if it is
zero. -/
def onAck (s : Sim) (e : Env) : Option Sim :=
  match s.alg with
  | .slowStart =>
    let cwin := s.cwin + e.bytesAcked
    some { s with cwin := cwin, alg := if cwin ≥ s.ssthresh then .congestionAvoidance else s.alg }
  | .congestionAvoidance =>
    let delta := e.bytesAcked * e.sendMtu + s.residualAck
    if s.cwin = 0 then none
    else some { s with residualAck := delta % s.cwin, cwin := s.cwin + delta / s.cwin }

/-- The spurious retransmission case, newreno.c 134-161. `now - recovery_start` is unsigned;
the clock is assumed not to go back. -/
def onSpurious (s : Sim) (e : Env) : Sim :=
  let inRecovery := e.now - s.recoveryStart < e.smoothedRtt ∧
    (if e.multipath then s.recoveryStart > e.ackSentTime else s.recoverySequence > e.ackNumber)
  if inRecovery ∧ s.ssthresh ≠ UINT64_MAX ∧ s.cwin < 2 * s.ssthresh then
    { s with cwin := 2 * s.ssthresh, alg := .congestionAvoidance }
  else s

/-- `picoquic_newreno_sim_notify`, newreno.c 91-173. -/
def simNotify (s : Sim) (n : Notification) (e : Env) : Option Sim :=
  match n with
  | .acknowledgement => onAck s e
  | .ecnEc | .repeated | .timeout =>
    some (if s.recoverySequence ≤ e.lostPacket then enterRecovery s n e else s)
  | .spuriousRepeat => some (onSpurious s e)
  | .reset => some Sim.reset
  | .seedCwin => some (seedCwin s e.bytesAcked)
  | .rttMeasurement | .other => some s

/-- The New Reno state of a path: the simulated state and `path_x->cwin`. -/
structure Reno where
  sim : Sim
  pathCwin : Nat
deriving DecidableEq, Repr

/-- `picoquic_newreno_reset`, newreno.c 184-189. -/
def Reno.init : Reno := ⟨Sim.reset, CWIN_INITIAL⟩

/-- Set both windows. -/
def Reno.setCwin (r : Reno) (w : Nat) : Reno := ⟨{ r.sim with cwin := w }, w⟩

/-- In the initial slow start, newreno.c 226 and 256. -/
def Reno.initialSlowStart (r : Reno) : Bool :=
  decide (r.sim.alg = .slowStart ∧ r.sim.ssthresh = UINT64_MAX)

/-- `picoquic_newreno_notify`, newreno.c 212-289. The update of pacing is not modelled here. -/
def notify (r : Reno) (n : Notification) (e : Env) : Option Reno :=
  let sim := fun (r : Reno) => (simNotify r.sim n e).map (fun s => (⟨s, s.cwin⟩ : Reno))
  match n with
  | .acknowledgement =>
    let r := if r.initialSlowStart then
      r.setCwin (if e.targetWin > r.pathCwin then e.targetWin else r.pathCwin) else r
    if e.appSending then sim r else some r
  | .seedCwin | .ecnEc | .repeated | .timeout | .spuriousRepeat => sim r
  | .rttMeasurement =>
    if r.initialSlowStart then
      let r := if e.longRtt then
        r.setCwin (if e.longWin > r.pathCwin then e.longWin else r.pathCwin) else r
      if e.hystart then
        some ⟨{ r.sim with ssthresh := r.sim.cwin, alg := .congestionAvoidance }, r.sim.cwin⟩
      else some r
    else some r
  | .reset => some Reno.init
  | .other => some r

end Picoquic.NewReno
