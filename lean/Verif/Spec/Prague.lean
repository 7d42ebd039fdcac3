import Verif.Model.Prague

/-!
# Specification of the Prague congestion control

Kinds of events and of histories.
-/

namespace Picoquic.Spec

open Picoquic.Prague

/-- The packet size is at most the largest that the library uses. -/
def SmallPackets (l : List Event) : Prop :=
  ∀ v ∈ l, match v with
    | .ack e | .counts _ _ e | .loss e | .timeout e | .spurious e | .rtt e | .reset e => e.mtu ≤ 1536

/-- No packet was reported as marked by a router. -/
def NoMarks (l : List Event) : Prop := ∀ v ∈ l, match v with
  | .counts _ ce _ => ce = 0
  | _ => True

/-- The event is not a sign of congestion. -/
def NoCongestion : Event → Prop
  | .loss _ | .timeout _ | .reset _ => False
  | .counts _ ce _ => ce = 0
  | _ => True

/-- Acknowledgements, with any counts of marks, of packets up to number `n`. -/
def AcksUpTo (n : Nat) (l : List Event) : Prop := ∀ v ∈ l, match v with
  | .ack e => ∀ h, e.highest = some h → h ≤ n
  | .counts _ _ _ => True
  | _ => False

end Picoquic.Spec
