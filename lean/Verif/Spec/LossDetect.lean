import Verif.Model.LossDetect
/-!
# Loss detection: the rules
-/

namespace Picoquic.Spec
open Picoquic Picoquic.LossDetect

/-- A packet sent `n` or more numbers later was acknowledged. -/
def laterAcked (e : Env) (p : Pkt) (n : Nat) : Prop := e.highest ≠ UINT64_MAX ∧ p.seq + n ≤ e.highest

/-- The time after which a packet that was overtaken is lost: the retransmission timeout of the path, or if that is less, the round trip time of the packet that was acknowledged, a quarter of the smoothed round
trip time (5 milliseconds at most), and the longest delay of acknowledgements. -/
def overtakenFor (e : Env) (a : Path) : Nat := min a.rto ((e.ackTime - e.latestSent) + min (a.srtt / 4) 5000 + e.maxAckDelay)

/-- Numbers and times are far from the limits of 64 bits, and the packet was sent before the one that was acknowledged, if that has a larger number. -/
def plausible (e : Env) (a : Path) (p : Pkt) : Prop :=
  p.seq < 2 ^ 62 ∧ (e.highest = UINT64_MAX ∨ e.highest < 2 ^ 62) ∧ e.ackTime < 2 ^ 61 ∧ a.srtt < 2 ^ 60 ∧ e.maxAckDelay < 2 ^ 60 ∧
  (laterAcked e p 1 → p.sent ≤ e.latestSent ∧ e.latestSent ≤ e.ackTime)

/-- Nothing special about the connection or the packet: no repetition of the first packets was asked for, the packet was really sent, its path exists and is in use, and 0-RTT packets were accepted. -/
def plain (e : Env) (a : Path) (p : Pkt) : Prop :=
  e.initialRepeat = false ∧ p.orphan = false ∧ p.trap = false ∧ a.demoted = false ∧ (p.zero = true → e.zeroAccepted = true ∧ (e.st = 13 ∨ e.st = 14))

/-- The send time of the last packet of a queue. -/
def lastTime (q : List Pkt) : Nat := (q.getLast?.map (·.sent)).getD 0

/-- A packet repeated because of a timer, with something to repeat. -/
def isProbe : Ev → Bool
  | .timer p => !p.pure
  | _ => false

end Picoquic.Spec
