import Verif.Model.Bytes

/-!
# The FAST congestion control

Model of `picoquic/fastcc.c`: the window of a path under the algorithm "fast", which reacts to delays, losses and marks.
The code computes two products in `double`; here they are computed exactly and rounded down, which is the same for the
reduction if the window is below 2^53. Windows are natural numbers: their wrap-around at 64 bits is not modelled. The
filter of the RTT, `picoquic_cc_filter_rtt_min_max`, and the test of losses are not modelled: their results are inputs.
-/

namespace Picoquic.FastCc

/-- `PICOQUIC_CWIN_INITIAL`, picoquic_internal.h. -/
def CWIN_INITIAL : Nat := 10 * 1536
/-- `PICOQUIC_CWIN_MINIMUM`, picoquic_internal.h. -/
def CWIN_MINIMUM : Nat := 2 * 1536

/-- `picoquic_fastcc_alg_state_t`, fastcc.c 39-43. -/
inductive Mode
  | initial
  | eval
  | freeze
deriving DecidableEq, Repr

/-- `picoquic_fastcc_state_t`, fastcc.c 45-63, and `path_x->cwin`. -/
structure State where
  mode : Mode
  cwin : Nat
  endOfFreeze : Nat
  recoverySequence : Nat
  rttMin : Nat
  threshold : Nat
  rolling : Nat
  last : List Nat
  events : Nat
  wasTimeout : Bool
  wasNotDelay : Bool
  trusted : Bool
  endOfEpoch : Nat
  sinceRtt : Nat
deriving DecidableEq, Repr

/-- What the functions read: time, next packet number, highest number acknowledged, bytes acknowledged, measured RTT,
smoothed RTT, whether the sender had data to send, and the results of the filter and of the test of losses. -/
structure Env where
  now : Nat := 0
  sequence : Nat := 0
  acked : Nat := 0
  bytes : Nat := 0
  rtt : Nat := 0
  srtt : Nat := 0
  appSending : Bool := true
  filterInit : Bool := true
  sampleMax : Nat := 0
  lossTest : Bool := true
deriving DecidableEq, Repr

/-- `picoquic_fastcc_delay_threshold`, fastcc.c 65-72. -/
def delayThreshold (r : Nat) : Nat := if 25000 < r / 8 then 25000 else r / 8

/-- `picoquic_fastcc_reset`, fastcc.c 74-83, and `picoquic_fastcc_init`, fastcc.c 94-118. -/
def init (e : Env) : State where
  mode := .initial
  cwin := CWIN_INITIAL
  endOfFreeze := 0
  recoverySequence := 0
  rttMin := e.srtt
  threshold := delayThreshold e.srtt
  rolling := e.srtt
  last := List.replicate 6 0
  events := 0
  wasTimeout := false
  wasNotDelay := false
  trusted := false
  endOfEpoch := e.now + 1000000
  sinceRtt := 0

/-- `picoquic_fastcc_seed_cwin`, fastcc.c 85-92. -/
def seed (s : State) (n : Nat) : State :=
  if s.mode = .initial ∧ s.cwin < n then { s with cwin := n } else s

/-- `fastcc_notify_congestion`, fastcc.c 126-161. -/
def congestion (s : State) (e : Env) (isDelay isTimeout : Bool) : State :=
  if s.mode = .freeze && (!isTimeout || !s.wasTimeout) && (!isDelay || !s.wasNotDelay) then s
  else
    let c := if isDelay then s.cwin - s.cwin / 8 else s.cwin / 2
    { s with
      wasNotDelay := !isDelay
      wasTimeout := isTimeout
      mode := .freeze
      endOfFreeze := (e.now + s.rttMin) % 2 ^ 64
      recoverySequence := e.sequence
      events := 0
      cwin := if isTimeout || decide (c < CWIN_MINIMUM) then CWIN_MINIMUM else c }

/-- The end of a freeze, fastcc.c 179-193. -/
def thaw (s : State) (e : Env) : State :=
  if s.mode = .freeze && (decide (s.endOfFreeze < e.now) || decide (s.recoverySequence ≤ e.acked)) then
    { s with
      mode := if s.wasTimeout then .initial else .eval
      wasNotDelay := false
      wasTimeout := false
      events := 0
      sinceRtt := 0 }
  else s

/-- The smallest of the values that are not 0, or `UINT64_MAX`, fastcc.c 232-239. -/
def minOf (l : List Nat) : Nat := l.foldr (fun x m => if 0 < x ∧ x < m then x else m) (2 ^ 64 - 1)

/-- The minimum of the RTT, fastcc.c 226-252. -/
def epoch (s : State) (e : Env) : State :=
  if e.filterInit then
    if s.endOfEpoch < e.now then
      let m := minOf (s.last.take 5)
      { s with rttMin := m, threshold := delayThreshold m, last := s.rolling :: s.last.take 5, rolling := e.sampleMax,
               endOfEpoch := e.now + 1000000 }
    else if e.sampleMax < s.rolling ∨ s.rolling = 0 then
      { s with rolling := e.sampleMax, rttMin := if e.sampleMax < s.rttMin then e.sampleMax else s.rttMin }
    else s
  else s

/-- The delay beyond the minimum, fastcc.c 255-267. -/
def delay (s : State) (e : Env) : State × Nat :=
  if e.rtt < s.rttMin then ({ s with threshold := delayThreshold s.rttMin }, 0)
  else if s.trusted then (s, e.rtt - s.rttMin)
  else ({ s with rttMin := e.rtt, rolling := e.rtt, trusted := true }, 0)

/-- How much the window grows, fastcc.c 269-282: all the bytes acknowledged, or a quarter, less the nearer the delay is to
the threshold. -/
def gain (s : State) (d : Nat) : Nat :=
  if s.mode = .initial then s.sinceRtt else s.sinceRtt * (s.threshold - d) / (4 * s.threshold)

/-- The case of a measurement of the RTT, fastcc.c 220-293. -/
def onRtt (s : State) (e : Env) : State :=
  let s := epoch s e
  if s.mode = .freeze then s
  else
    let (s, d) := delay s e
    if d < s.threshold then
      { s with events := 0, cwin := if e.appSending then s.cwin + gain s d else s.cwin, sinceRtt := 0 }
    else if 4 ≤ s.events + 1 then congestion { s with events := s.events + 1 } e true false
    else { s with events := s.events + 1 }

/-- The notifications. -/
inductive Event
  | ack (e : Env)
  | mark (e : Env)
  | loss (e : Env)
  | timeout (e : Env)
  | spurious (e : Env)
  | rtt (e : Env)
  | reset (e : Env)
  | seed (e : Env)
deriving Repr

def Event.env : Event → Env
  | .ack e | .mark e | .loss e | .timeout e | .spurious e | .rtt e | .reset e | .seed e => e

/-- `picoquic_fastcc_notify`, fastcc.c 169-307, after `thaw`. -/
def act (s : State) : Event → State
  | .ack e => if s.mode = .freeze then s else { s with sinceRtt := s.sinceRtt + e.bytes }
  | .mark e => congestion s e false false
  | .loss e => if e.lossTest then congestion s e false false else s
  | .timeout e => if e.lossTest then congestion s e false true else s
  | .spurious _ => { s with events := s.events - 1 }
  | .rtt e => onRtt s e
  | .reset e => init e
  | .seed e => seed s e.bytes

def step (s : State) (v : Event) : State := act (thaw s v.env) v

def run (s : State) (l : List Event) : State := l.foldl step s

end Picoquic.FastCc
