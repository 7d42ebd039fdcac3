import Verif.Model.FastCc

/-!
# Specification of the FAST congestion control
-/

namespace Picoquic.Spec

open Picoquic.FastCc

/-- The event is no sign of congestion. -/
def Harmless : Event → Bool
  | .ack _ | .spurious _ | .seed _ => true
  | _ => false

/-- The events are within a round trip that began at time `now` with packet number `n`: not later than `rtt`, before any
packet sent since is acknowledged; and the algorithm is not reset. -/
def WithinRound (now n rtt : Nat) (l : List Event) : Prop :=
  ∀ v ∈ l, v.env.now ≤ now + rtt ∧ v.env.acked < n ∧ ∀ e, v ≠ .reset e

/-- The bytes that the events acknowledge. -/
def ackedBytes : List Event → Nat
  | [] => 0
  | .ack e :: l => e.bytes + ackedBytes l
  | _ :: l => ackedBytes l

/-- The algorithm is neither reset nor given a window remembered from an earlier connection. -/
def Undisturbed (l : List Event) : Prop := ∀ v ∈ l, (∀ e, v ≠ .reset e) ∧ ∀ e, v ≠ .seed e

/-- The path is not frozen when an event comes at time `now` with `acked` the highest packet acknowledged: the last
reduction is more than its freeze ago, or packets sent since are acknowledged. -/
def Thawed (s : State) (e : Env) : Prop :=
  s.mode ≠ .freeze ∨ s.endOfFreeze < e.now ∨ s.recoverySequence ≤ e.acked

/-- Only measurements of the RTT. -/
def OnlyRtt (l : List Event) : Prop := ∀ v ∈ l, ∃ e, v = .rtt e

end Picoquic.Spec
