import Verif.Model.Bytes
/-!
# Round trip time estimation and the retransmission timer

Model of `picoquic/timing.c`. The statistics are natural numbers: 64 bit wrap-around of sums of round
trip times is not modelled. The left shifts of the retransmission timer are modelled modulo 2^64,
and a shift by 64 bits or more is undefined behaviour, `none`.
-/

namespace Picoquic.Timing

/-- The statistics of `picoquic_path_t` used by timing.c. -/
structure Rtt where
  isInitialized : Bool
  rttMin : Nat
  rttMax : Nat
  smoothed : Nat
  variant : Nat
  retransmitTimer : Nat
  sample : Nat
  nbInPeriod : Nat
  sumInPeriod : Nat
  minInPeriod : Nat
  maxInPeriod : Nat
  timePrevious : Nat
  packetPrevious : Nat
deriving DecidableEq, Repr

/-- Initial values, `picoquic_create_path` quicctx.c 1665-1668 (the rest is zeroed). -/
def Rtt.init : Rtt := ⟨false, 0, 0, 250000, 0, 250000, 0, 0, 0, 0, 0, 0, 0⟩

/-- The arguments of `picoquic_update_path_rtt` and the connection values it reads. `highest` is
`pkt_ctx->highest_acknowledged`, `none` if there is no packet context. `usable` is
`epoch >= 0`. -/
structure Measure where
  usable : Bool
  sendTime : Nat
  now : Nat
  ackDelay : Nat
  ready : Bool
  localMaxAckDelay : Nat
  remoteMaxAckDelay : Nat
  highest : Option Nat
deriving DecidableEq, Repr

/-- The sample, timing.c 196-208. -/
def sampleOf (r : Rtt) (m : Measure) : Nat :=
  if m.now > m.sendTime then
    let est := m.now - m.sendTime
    if r.isInitialized && decide (m.ackDelay > 0) && m.ready then
      let d := if m.ackDelay > m.localMaxAckDelay then m.localMaxAckDelay else m.ackDelay
      if r.rttMin + d < est then est - d else est
    else est
  else 0

/-- Accumulation during the measurement period, timing.c 209-241. -/
def accumulate (r : Rtt) (est : Nat) : Rtt :=
  let nb := r.nbInPeriod + 1
  { r with
    sample := est
    nbInPeriod := nb
    sumInPeriod := r.sumInPeriod + est
    minInPeriod := if nb = 1 then est else if est < r.minInPeriod then est else r.minInPeriod
    maxInPeriod := if nb = 1 then est else if est > r.maxInPeriod then est else r.maxInPeriod
    retransmitTimer := if r.retransmitTimer < est then est else r.retransmitTimer
    rttMin := if r.rttMin > est then est else r.rttMin
    rttMax := if r.rttMax < est then est else r.rttMax }

/-- The deviation sample, timing.c 265-279. -/
def varSample (r : Rtt) : Nat :=
  if r.smoothed > r.maxInPeriod then r.smoothed - r.minInPeriod
  else if r.smoothed < r.minInPeriod then r.maxInPeriod - r.smoothed
  else
    let lo := r.smoothed - r.minInPeriod
    let hi := r.maxInPeriod - r.smoothed
    if lo > hi then lo else hi

/-- End of the period, timing.c 249-303. -/
def endPeriod (r : Rtt) (m : Measure) (est : Nat) : Rtt :=
  let avg := if r.nbInPeriod > 1 then r.sumInPeriod / r.nbInPeriod else est
  let r1 : Rtt :=
    if !r.isInitialized then
      { r with smoothed := avg, variant := avg / 2, rttMin := r.minInPeriod, isInitialized := true }
    else
      { r with variant := (3 * r.variant + varSample r) / 4, smoothed := (7 * r.smoothed + avg) / 8 }
  { r1 with
    timePrevious := m.now
    retransmitTimer := r1.smoothed + 3 * r1.variant + m.remoteMaxAckDelay
    packetPrevious := m.highest.getD r1.packetPrevious
    nbInPeriod := 0
    sumInPeriod := 0
    maxInPeriod := 0
    minInPeriod := UINT64_MAX }

/-- `picoquic_update_path_rtt`, timing.c 179-319, for a non NULL path. One way delays and the
notifications to congestion control and to the application are not modelled. -/
def updatePathRtt (r : Rtt) (m : Measure) : Rtt :=
  if !r.isInitialized || m.usable then
    let est := sampleOf r m
    let r := accumulate r est
    if (match m.highest with | none => true | some h => decide (h > r.packetPrevious)) ||
        decide (r.timePrevious + est / 4 > m.now) then endPeriod r m est
    else r
  else r

/-- `PICOQUIC_INITIAL_MAX_RETRANSMIT_TIMER`, picoquic_internal.h. -/
def INITIAL_MAX_RETRANSMIT_TIMER : Nat := 1000000
/-- `PICOQUIC_LARGE_RETRANSMIT_TIMER`, picoquic_internal.h. -/
def LARGE_RETRANSMIT_TIMER : Nat := 2000000
/-- `PICOQUIC_TARGET_SATELLITE_RTT`, picoquic_internal.h. -/
def TARGET_SATELLITE_RTT : Nat := 610000
/-- `PICOQUIC_MICROSEC_HANDSHAKE_MAX / 1000`, picoquic_internal.h. -/
def HANDSHAKE_MAX_MS : Nat := 30000

/-- What `picoquic_current_retransmit_timer` reads. `handshake` is
`cnx_state < picoquic_state_client_ready_start`; `idleTimeout` is in microseconds and
`maxIdleTimeout`, the local parameter, in milliseconds. -/
structure TimerEnv where
  retransmitTimer : Nat
  idleTimeout : Nat
  maxIdleTimeout : Nat
  handshake : Bool
  rttMin : Nat
  smoothed : Nat
deriving DecidableEq, Repr

/-- Backoff by the number of retransmissions, timing.c 46-58. -/
def backoff (t nb : Nat) : Nat :=
  if nb = 0 then t
  else if nb < 3 then u64 (t * 2 ^ nb)
  else
    let n1 := if nb - 2 > 18 then 18 else nb - 2
    let rto := u64 (t * 2 ^ (2 + n1 / 4))
    u64 (rto + u64 ((n1 % 4) * rto) / 4)

/-- `picoquic_current_retransmit_timer`, timing.c 42-88. -/
def currentRetransmitTimer (e : TimerEnv) (nb : Nat) : Option Nat :=
  let rto := backoff e.retransmitTimer nb
  let rto := if nb > 0 ∧ e.idleTimeout > 15 ∧ rto > e.idleTimeout / 16 then e.idleTimeout / 16
    else rto
  if e.handshake then
    if HANDSHAKE_MAX_MS < e.maxIdleTimeout then
      if nb ≥ 64 then none
      else
        let rto := u64 (e.retransmitTimer * 2 ^ nb)
        let cap := u64 (e.maxIdleTimeout * 100)
        some (if rto > cap then cap else rto)
    else some (if rto > INITIAL_MAX_RETRANSMIT_TIMER then INITIAL_MAX_RETRANSMIT_TIMER else rto)
  else if rto > LARGE_RETRANSMIT_TIMER then
    let alt := if e.rttMin > TARGET_SATELLITE_RTT then u64 (e.smoothed * 3) / 2
      else LARGE_RETRANSMIT_TIMER
    some (if alt < rto then alt else rto)
  else some rto

end Picoquic.Timing
