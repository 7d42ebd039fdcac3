import Verif.Model.Train
/-!
# Specification of trains of datagrams
-/

namespace Picoquic.Spec
open Picoquic.Train

/-- Segments keep to the room they are given. -/
def FitsRoom (c : Call σ) : Prop := ∀ s room, (c.prepare s room).2.length ≤ room

/-- No segment is longer than the MTU: no MTU probe is sent. -/
def NoProbe (c : Call σ) : Prop := ∀ s room, (c.prepare s room).2.length ≤ c.mtu

/-- All segments are 1-RTT packets, as when the connection is established. -/
def OnlyOneRtt (c : Call σ) : Prop := ∀ s room, (c.prepare s room).2.oneRtt = true

/-- The sizes of the pieces when `n` bytes are cut every `m` bytes, as the application or the system does with a train. -/
def cutEvery (m : Nat) : Nat → Nat → List Nat
  | 0, _ => []
  | fuel + 1, n => if n = 0 then [] else if n ≤ m then [n] else m :: cutEvery m fuel (n - m)

end Picoquic.Spec
