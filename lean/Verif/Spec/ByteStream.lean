import Verif.Model.StreamInput
/-!
# Specification of in-order delivery

A stream is a function from positions to bytes. The application sees a sequence of events; this file
says which sequences of events deliver a stream in order.
-/

namespace Picoquic.Spec
open Picoquic Picoquic.StreamInput

/-- `n` bytes of the stream `S` from position `o`. -/
def slice (S : Nat → UInt8) (o n : Nat) : Bytes := (List.range n).map (fun i => S (o + i))

/-- The bytes `b`, starting at position `o`, are all allowed at their position by `A`. -/
def Agree (A : Nat → UInt8 → Prop) (o : Nat) (b : Bytes) : Prop := ∀ i x, b[i]? = some x → A (o + i) x

/-- The data of a sequence of events. -/
def dataOf : List Event → Bytes
  | [] => []
  | .data b :: es => b ++ dataOf es
  | .fin b :: es => b ++ dataOf es
  | .reset :: es => dataOf es

/-- The number of end of stream events. -/
def finCount : List Event → Nat
  | [] => 0
  | .fin _ :: es => finCount es + 1
  | _ :: es => finCount es

/-- The events of one stream. -/
def eventsOn (id : Nat) (es : List (Nat × Event)) : List Event :=
  (es.filter (fun e => decide (e.1 = id))).map (fun e => e.2)

/-- Among `ops`, a STREAM frame of stream `id` carries byte `x` at position `i`. -/
def Carries (ops : List Op) (id i : Nat) (x : UInt8) : Prop :=
  ∃ offset fin bytes, Op.frame id offset fin bytes ∈ ops ∧ offset ≤ i ∧ bytes[i - offset]? = some x

/-- Among `ops`, a STREAM frame of stream `id` carries position `i`. -/
def Received (ops : List Op) (id i : Nat) : Prop :=
  ∃ offset fin bytes, Op.frame id offset fin bytes ∈ ops ∧ offset ≤ i ∧ i < offset + bytes.length

/-- Among `ops`, a STREAM frame of stream `id` has the FIN flag. -/
def FinReceived (ops : List Op) (id : Nat) : Prop := ∃ offset bytes, Op.frame id offset true bytes ∈ ops

/-- A correct sender of the byte stream `S` on stream `id`, of final size `F` if it ends: the data is
the stream's, nothing is sent past the final size, and FIN is on frames that end there. It does not
reset the stream. -/
def Honest (S : Nat → UInt8) (F : Option Nat) (ops : List Op) (id : Nat) : Prop :=
  (∀ offset fin bytes, Op.frame id offset fin bytes ∈ ops →
    bytes = slice S offset bytes.length ∧ (∀ f, F = some f → offset + bytes.length ≤ f) ∧
    (fin = true → F = some (offset + bytes.length))) ∧
  ∀ final, Op.reset id final ∉ ops

/-- The application reads stream `id`: it neither asked the peer to stop nor discarded it. -/
def Reading (ops : List Op) (id : Nat) : Prop := Op.stopSending id ∉ ops ∧ Op.discard id ∉ ops

end Picoquic.Spec

namespace Picoquic.Spec
open Picoquic Picoquic.StreamInput

/-- The end of the data announced by an operation on stream `id`. -/
def endOn (id : Nat) : Op → Nat
  | .frame j offset _ bytes => if j = id then offset + bytes.length else 0
  | .reset j final => if j = id then final else 0
  | _ => 0

/-- The highest offset announced on stream `id`. -/
def highest (ops : List Op) (id : Nat) : Nat := (ops.map (endOn id)).foldl max 0

/-- By how much an operation raises the connection limit. -/
def increaseOf : Op → Nat
  | .raiseConn n => n
  | _ => 0

/-- The connection limit after `ops`: the initial limit and the increases announced since. -/
def connLimit (max0 : Nat) (ops : List Op) : Nat := max0 + (ops.map increaseOf).sum

end Picoquic.Spec
