import Verif.Model.Bytes

/-!
# The test of delays in slow start

Model of cc_common.c (`picoquic_cc_filter_rtt_min_max`, `picoquic_cc_hystart_test`), which is used by New Reno, Cubic and
Prague. Numbers are not bounded: the counter `nb_rtt_excess` is an `int`, the delays and times are 64-bit ones.
-/

namespace Picoquic.SlowStart

/-- `PICOQUIC_MIN_MAX_RTT_SCOPE`, cc_common.h 29. -/
def SCOPE : Nat := 7

/-- `picoquic_min_max_rtt_t`, cc_common.h 61-74, without the fields for losses: `last_rtt_sample_time`,
`rtt_filtered_min`, `nb_rtt_excess`, `sample_current`, `is_init`, `sample_min`, `sample_max`, `samples`. -/
structure Track where
  lastTime : Nat := 0
  filteredMin : Nat := 0
  excess : Nat := 0
  cur : Nat := 0
  init : Bool := false
  min : Nat := 0
  max : Nat := 0
  samples : List Nat := List.replicate 7 0
deriving DecidableEq, Repr

/-- The loop of `picoquic_cc_filter_rtt_min_max`, cc_common.c 90-96. -/
def minMax : List Nat → Nat → Nat → Nat × Nat
  | [], mn, mx => (mn, mx)
  | s :: l, mn, mx =>
    if s < mn then minMax l s mx
    else if s > mx then minMax l mn s
    else minMax l mn mx

/-- `picoquic_cc_filter_rtt_min_max`, cc_common.c 70-97. -/
def filterMinMax (t : Track) (rtt : Nat) : Track :=
  let samples := t.samples.set t.cur rtt
  let init := decide (t.cur + 1 ≥ SCOPE) || t.init
  let xMax := if init then SCOPE else t.cur + 1
  let r := minMax ((samples.take xMax).drop 1) (samples.headD 0) (samples.headD 0)
  { t with samples := samples, init := init, cur := if t.cur + 1 ≥ SCOPE then 0 else t.cur + 1, min := r.1, max := r.2 }

/-- The test of `picoquic_cc_hystart_test`, cc_common.c 166-189, after the sample was taken. -/
def judge (t : Track) : Bool × Track :=
  if t.init then
    let fm := if t.filteredMin = 0 ∨ t.filteredMin > t.max then t.max else t.filteredMin
    if t.min > fm then
      if t.min > fm + fm / 4 then
        (decide (t.excess + 1 ≥ SCOPE), { t with filteredMin := fm, excess := t.excess + 1 })
      else (false, { t with filteredMin := fm })
    else (false, { t with filteredMin := fm, excess := 0 })
  else (false, t)

/-- `picoquic_cc_hystart_test`, cc_common.c 158-193: if slow start is to be left, and the new state. -/
def hystartTest (t : Track) (rtt now : Nat) : Bool × Track :=
  if now > t.lastTime + 1000 then judge { filterMinMax t rtt with lastTime := now }
  else (false, t)

/-- The fields of `picoquic_min_max_rtt_t` for the volume of losses, cc_common.h 68-69: `smoothed_bytes_sent_16`,
`smoothed_bytes_lost_16`. -/
structure LossTrack where
  sent : Nat := 0
  lost : Nat := 0
deriving DecidableEq, Repr

/-- The events of `picoquic_cc_hystart_loss_volume_test`. -/
inductive VolumeEvent
  | acknowledgement
  | timeout
  | repeated
  | other
deriving DecidableEq, Repr

/-- `picoquic_cc_hystart_loss_volume_test`, cc_common.c 130-156. The quotient of two integers, a `double`, is compared to
0.15 as an exact number here. The numbers have no bounds; `C108_loss_bounds` shows that 64 bits are enough. -/
def lossVolumeTest (t : LossTrack) (e : VolumeEvent) (acked lost : Nat) : Bool × LossTrack :=
  let l := t.lost - t.lost / 16 + lost
  let s := t.sent - t.sent / 16 + (acked + lost)
  (match e with
    | .acknowledgement => decide (s > 0 ∧ 20 * l > 3 * s)
    | .timeout => true
    | .repeated => false
    | .other => false,
   { sent := s, lost := l })

/-- The part of `BBRCheckStartupLongRtt`, bbr.c 2139-2152, that decides to leave the start-up phase of BBR on links of long
delay, the only use of `picoquic_cc_hystart_loss_volume_test`: `delay` is the result of `picoquic_cc_hystart_test`, `marks`
the test of marks at 2143. The result is the decision and the new state. -/
def longStartup (delay marks : Bool) (t : LossTrack) (acked lost : Nat) : Bool × LossTrack :=
  if delay then (true, t)
  else if marks then (true, t)
  else lossVolumeTest t .repeated acked lost

end Picoquic.SlowStart
