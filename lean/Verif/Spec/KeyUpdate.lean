import Verif.Model.KeyUpdate
/-!
# Specification of key updates
-/

namespace Picoquic.Spec
open Picoquic.KeyUpdate

/-- Two ends, and all the packets that each one has sent, the last one first. -/
structure KuSys where
  ep : Bool → Kx
  sent : Bool → List Pkt

/-- What happens. `x` is the end that acts. -/
inductive KuEvent
  /-- a packet is sent on a path -/
  | send (x : Bool) (path : Nat)
  /-- one of the packets sent by the other end arrives, at any time, in any order, any number of times -/
  | deliver (x : Bool) (now rto i : Nat)
  /-- a packet arrives which the other end did not send -/
  | forge (x : Bool) (now rto path pn : Nat) (phase : Bool)
  /-- a key update is asked for -/
  | rotate (x : Bool)

/-- A function changed at one place. -/
def kuSet {α : Type} (f : Bool → α) (x : Bool) (v : α) : Bool → α := fun y => if y = x then v else f y

/-- One event. -/
def kuStep (s : KuSys) : KuEvent → KuSys
  | .send x path =>
    ⟨kuSet s.ep x (KeyUpdate.send (s.ep x) path).1, kuSet s.sent x ((KeyUpdate.send (s.ep x) path).2 :: s.sent x)⟩
  | .deliver x now rto i =>
    match (s.sent (!x))[i]? with
    | some p => { s with ep := kuSet s.ep x (receive (s.ep x) now rto p).1 }
    | none => s
  | .forge x now rto path pn phase => { s with ep := kuSet s.ep x (receive (s.ep x) now rto ⟨path, pn, phase, none⟩).1 }
  | .rotate x =>
    match startRotation (s.ep x) with
    | some k => { s with ep := kuSet s.ep x k }
    | none => s

/-- All the events. -/
def kuRun (s : KuSys) (es : List KuEvent) : KuSys := es.foldl kuStep s

/-- An end when the handshake is complete: first keys, no packet received. -/
def kuFresh (multipath : Bool) (first : Nat) : Kx :=
  ⟨multipath, true, 0, 0, none, none, none, 0, 0, false, false, fun _ => 0, 0, 0, fun _ => first, 0⟩

/-- Both ends when the handshake is complete. `first` are the first packet numbers. -/
def kuStart (multipath : Bool) (first : Bool → Nat) : KuSys := ⟨fun x => kuFresh multipath (first x), fun _ => []⟩

/-- RFC 9001 section 6.1: a key update is started only when the other end has received a packet with the current keys. -/
def KuRule (s : KuSys) : KuEvent → Prop
  | .rotate x => (startRotation (s.ep x)).isSome → (s.ep (!x)).dec = (s.ep x).enc
  | _ => True

/-- All events keep to the rule. -/
def KuObeys : KuSys → List KuEvent → Prop
  | _, [] => True
  | s, e :: es => KuRule s e ∧ KuObeys (kuStep s e) es

end Picoquic.Spec
