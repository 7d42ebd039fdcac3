import Verif.Model.SpinBit
/-!
# Specification of the spin bit
-/

namespace Picoquic.Spec
open Picoquic.SpinBit

/-- A packet on the way: the path and the spin bit. -/
structure SpinPkt where
  path : Nat
  bit : Bool
deriving DecidableEq

/-- Two ends and the packets on the way from the client to the server and back, the oldest one first. -/
structure SpinSys where
  client : End
  server : End
  up : List SpinPkt
  down : List SpinPkt

/-- What happens. `up` tells whether it is about the direction from the client to the server. -/
inductive SpinEvent
  /-- a packet is sent on a path -/
  | send (up : Bool) (path rand : Nat)
  /-- a packet on the way arrives, the oldest one if the number is 0 -/
  | deliver (up : Bool) (i : Nat)
  /-- a packet on the way is lost -/
  | lose (up : Bool) (i : Nat)

/-- One event. -/
def spinStep (y : SpinSys) : SpinEvent → SpinSys
  | .send true path rand =>
    match firstByte y.client false false rand with
    | some b => { y with up := y.up ++ [⟨path, parseSpin b⟩] }
    | none => y
  | .send false path rand =>
    match firstByte y.server false false rand with
    | some b => { y with down := y.down ++ [⟨path, parseSpin b⟩] }
    | none => y
  | .deliver true i =>
    match y.up[i]? with
    | some p => { y with server := (incoming y.server p.path p.bit).getD y.server, up := y.up.eraseIdx i }
    | none => y
  | .deliver false i =>
    match y.down[i]? with
    | some p => { y with client := (incoming y.client p.path p.bit).getD y.client, down := y.down.eraseIdx i }
    | none => y
  | .lose true i => { y with up := y.up.eraseIdx i }
  | .lose false i => { y with down := y.down.eraseIdx i }

/-- All the events. -/
def spinRun (y : SpinSys) (es : List SpinEvent) : SpinSys := es.foldl spinStep y

/-- Two new ends that use the spin bit. -/
def spinStart : SpinSys := ⟨⟨true, 0, fun _ => false⟩, ⟨false, 0, fun _ => false⟩, [], []⟩

/-- One path, and packets that arrive do so in order. -/
def spinInOrder : SpinEvent → Prop
  | .send _ path _ => path = 0
  | .deliver _ i => i = 0
  | .lose _ _ => True

/-- The number of changes in a sequence of bits. -/
def spinEdges : List Bool → Nat
  | a :: b :: l => (if a = b then 0 else 1) + spinEdges (b :: l)
  | _ => 0

/-- The bits on the whole way from the client to the server and back, the oldest one first: those that come back, the one that the server
will send, those that go there, and the one that the client will send. -/
def spinWay (y : SpinSys) : List Bool :=
  y.down.map (·.bit) ++ [y.server.spin 0] ++ y.up.map (·.bit) ++ [y.client.spin 0]

end Picoquic.Spec
