import Verif.Model.PathMarks
/-!
# Specification of marks and signs of loss
-/

namespace Picoquic.Spec
open Picoquic.PathMarks

/-- The receiver of packets with the marks of all packets that arrived, the frames it has sent, the oldest one first, and the sender. -/
structure MarkSys where
  recv : Local
  arrived : List Nat
  frames : List (Option Counts)
  snd : Remote

/-- What happens. -/
inductive MarkEvent
  /-- a packet arrives with a type-of-service byte -/
  | arrive (tos : Nat)
  /-- the receiver sends an ACK frame, with room for the counts or not -/
  | ack (fits : Bool)
  /-- one of the ACK frames arrives, in any order -/
  | ackArrives (i : Nat)

/-- One event. -/
def markStep (y : MarkSys) : MarkEvent → MarkSys
  | .arrive tos => { y with recv := account y.recv tos, arrived := y.arrived ++ [tos] }
  | .ack fits => { y with frames := y.frames ++ [ackCounts y.recv fits] }
  | .ackArrives i =>
    match y.frames[i]? with
    | some f => { y with snd := ackReceived y.snd f }
    | none => y

/-- All the events. -/
def markRun (y : MarkSys) (es : List MarkEvent) : MarkSys := es.foldl markStep y

/-- Nothing has arrived. -/
def markStart : MarkSys := ⟨⟨0, 0, 0, false⟩, [], [], ⟨0, 0, 0, 0⟩⟩

/-- The number of packets that arrived with a mark: 2 for ECT(0), 1 for ECT(1), 3 for congestion experienced. -/
def marked (arrived : List Nat) (mark : Nat) : Nat := (arrived.filter fun t => t % 4 == mark).length

/-- What happens to the loss bits: a packet is sent, or a packet is found lost. -/
inductive LossEvent
  | send
  | found

/-- The state, and the bits of the packets sent, the oldest one first. -/
def lossRun (s : LossState) : List LossEvent → LossState × List Nat
  | [] => (s, [])
  | .send :: es => ((lossRun (lossBits s).1 es).1, (lossBits s).2 :: (lossRun (lossBits s).1 es).2)
  | .found :: es => lossRun (lossFound s) es

/-- The number of packets sent. -/
def lossSent : List LossEvent → Nat
  | [] => 0
  | .send :: es => lossSent es + 1
  | .found :: es => lossSent es

/-- The number of losses found. -/
def lossCount : List LossEvent → Nat
  | [] => 0
  | .send :: es => lossCount es
  | .found :: es => lossCount es + 1

/-- The number of packets with a report of a loss. -/
def lossReports (bits : List Nat) : Nat := (bits.filter fun b => (parseLoss b).1).length

end Picoquic.Spec
