import Verif.Model.KeyLimit
/-!
# Specification of the number of packets per key
-/

namespace Picoquic.Spec
open Picoquic.KeyUpdate Picoquic.KeyLimit

/-- One end, and all the packets that it has sent, the last one first. -/
structure KlSys where
  s : Kl
  sent : List Pkt

/-- What happens at this end. -/
inductive KlEvent
  /-- the time to send has come: a number may be left out, and there may be something to send -/
  | prepare (now path : Nat) (hole sends : Bool)
  /-- a packet that checks a new address -/
  | control (path : Nat)
  /-- a packet arrives, any packet -/
  | receive (now rto : Nat) (p : Pkt)
  /-- the application asks for a key update -/
  | ask

/-- One event. -/
def klStep (y : KlSys) : KlEvent → KlSys
  | .prepare now path hole sends => ⟨(prepare y.s now path hole sends).1, (prepare y.s now path hole sends).2 ++ y.sent⟩
  | .control path => ⟨(control y.s path).1, (control y.s path).2 ++ y.sent⟩
  | .receive now rto p => { y with s := { y.s with k := (KeyUpdate.receive y.s.k now rto p).1 } }
  | .ask =>
    match startRotation y.s.k with
    | some k => { y with s := { y.s with k := k } }
    | none => y

/-- All the events. -/
def klRun (y : KlSys) (es : List KlEvent) : KlSys := es.foldl klStep y

/-- An end when the handshake is complete: first keys. The first packet number is `first`, and `n` packets were sent on the connection. -/
def klStart (multipath : Bool) (first n limit : Nat) : KlSys :=
  ⟨⟨⟨multipath, true, 0, 0, none, none, none, 0, 0, false, false, fun _ => 0, 0, 0, fun _ => first, 0⟩, n, limit⟩, []⟩

/-- The number of packets that were encrypted with a key. -/
def klCount (sent : List Pkt) (key : Nat) : Nat := (sent.filter fun p => p.key == some key).length

/-- The number of times that the limit is not looked at, or that a number is left out. -/
def klExtra : List KlEvent → Nat
  | [] => 0
  | .prepare _ _ true _ :: es => klExtra es + 1
  | .control _ :: es => klExtra es + 1
  | _ :: es => klExtra es

/-- The number of packets that check addresses. -/
def klControls : List KlEvent → Nat
  | [] => 0
  | .control _ :: es => klControls es + 1
  | _ :: es => klControls es

/-- The clock has started. -/
def klTimed : KlEvent → Prop
  | .prepare now _ _ _ => 0 < now
  | _ => True

/-- Whenever a key update is due, the other end has answered the last one, some time ago, and has sent as many packets as this end had sent then. -/
def KlAnswered : KlSys → List KlEvent → Prop
  | _, [] => True
  | y, e :: es =>
    (match e with
      | .prepare now _ _ _ => y.s.k.epochSeq + y.s.limit < y.s.nbSent →
          y.s.k.dec = y.s.k.enc ∧ y.s.k.epochSeq ≤ y.s.k.lastRecv ∧ y.s.k.guard < now
      | _ => True) ∧ KlAnswered (klStep y e) es

/-- No number is left out, the application does not ask for key updates, and neither does the other end. -/
def KlQuiet : KlSys → List KlEvent → Prop
  | _, [] => True
  | y, e :: es =>
    (match e with
      | .prepare _ _ hole _ => hole = false
      | .receive _ _ _ => (klStep y e).s.k.enc = y.s.k.enc
      | .control _ => True
      | .ask => False) ∧ KlQuiet (klStep y e) es

end Picoquic.Spec
