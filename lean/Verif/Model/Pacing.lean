/-!
# Pacing

Model of `picoquic/pacing.c`. Times are microseconds, the bucket is in nanoseconds. The 64 bit
counters are mathematical integers (no wrap-around below 2^54 microseconds). The two floating point
products of `picoquic_update_pacing_parameters` are not modelled: their results, converted to
integers, are arbitrary inputs of the model.
-/

namespace Picoquic.Pacing

/-- `picoquic_pacing_t`, picoquic_internal.h (the fields that drive the bucket). -/
structure Pacing where
  evaluationTime : Nat
  bucket : Int
  bucketMax : Int
  packetTime : Int
  bandwidthPause : Bool
deriving DecidableEq, Repr

/-- `picoquic_pacing_init`, pacing.c 28-35. -/
def init (now : Nat) : Pacing := ⟨now, 16, 16, 1, false⟩

/-- `picoquic_update_pacing_bucket`, pacing.c 39-52. -/
def updateBucket (p : Pacing) (now : Nat) : Pacing :=
  let b := if p.bucket < -p.packetTime then -p.packetTime else p.bucket
  if now > p.evaluationTime then
    let b := b + ((now - p.evaluationTime : Nat) : Int) * 1000
    { p with bucket := if b > p.bucketMax then p.bucketMax else b, evaluationTime := now }
  else { p with bucket := b }

/-- `picoquic_is_pacing_blocked`, pacing.c 57-60. -/
def isBlocked (p : Pacing) : Bool := decide (p.bucket < p.packetTime)

/-- Result of the authorization test. -/
structure Auth where
  pacing : Pacing
  nextTime : Nat
  ok : Bool
deriving DecidableEq, Repr

/-- `picoquic_is_authorized_by_pacing`, pacing.c 69-105. `next_pacing_time` is computed as
`current_time + 1 + bucket_required / 1000`; the required amount is positive there. -/
def isAuthorized (p : Pacing) (now nextTime : Nat) (train : Bool) : Auth :=
  let p := updateBucket p now
  if p.bucket < p.packetTime then
    let required :=
      if train || p.bandwidthPause then
        (if p.bucketMax > 10 * p.packetTime then 10 * p.packetTime else p.bucketMax) - p.bucket
      else p.packetTime - p.bucket
    let next : Int := now + 1 + required.tdiv 1000
    if next < nextTime then ⟨{ p with bandwidthPause := false }, next.toNat, false⟩
    else ⟨p, nextTime, false⟩
  else ⟨p, nextTime, true⟩

/-- The integer part of `picoquic_update_pacing_parameters`, pacing.c 155-175. `packetNs` and
`quantumNs` are the values of `(uint64_t)(packet_time * 1000000000.0)` and
`(uint64_t)(quantum_time * 1000000000.0)`. -/
def updateParameters (p : Pacing) (packetNs quantumNs smoothedRtt : Nat) : Pacing :=
  let rtt := smoothedRtt * 1000
  let packetTime : Nat := if packetNs = 0 then 1 else if packetNs > rtt then rtt else packetNs
  let bucketMax : Nat := if quantumNs = 0 then 16 * packetTime else quantumNs
  { p with packetTime := packetTime, bucketMax := bucketMax,
           bucket := if p.bucket > bucketMax then bucketMax else p.bucket }

/-- `picoquic_update_pacing_window`, pacing.c 187-233. For large windows it calls
`picoquic_update_pacing_parameters`. -/
def updateWindow (p : Pacing) (cwin mtu smoothedRtt packetNs quantumNs : Nat) : Pacing :=
  let rtt := smoothedRtt * 1000
  if cwin < mtu * 8 ∨ rtt ≤ 1000 then
    { p with bucketMax := rtt, packetTime := 1,
             bucket := if p.bucket > rtt then rtt else p.bucket }
  else updateParameters p packetNs quantumNs smoothedRtt

/-- `packet_time_nanosec` in `picoquic_update_pacing_data_after_send`, pacing.c 243. -/
def cost (p : Pacing) (length mtu : Nat) : Int := (p.packetTime * length + (mtu - 1 : Nat)) / mtu

/-- `picoquic_update_pacing_data_after_send`, pacing.c 238-245. -/
def afterSend (p : Pacing) (length mtu now : Nat) : Pacing :=
  let p := updateBucket p now
  { p with bucket := p.bucket - cost p length mtu }

end Picoquic.Pacing
