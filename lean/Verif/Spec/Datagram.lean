import Verif.Spec.DataRepeat
import Verif.Model.Datagram
/-!
# Specification of the queued frames and of the datagrams
-/

namespace Picoquic.Spec
open Picoquic Picoquic.Dgram

/-- The contents of the DATAGRAM frames, in order. -/
def datagramsOf : List Frame → List Bytes
  | [] => []
  | .datagram data _ :: fs => data :: datagramsOf fs
  | _ :: fs => datagramsOf fs

/-- Frames of other kinds. -/
def WithoutDatagram (bs : Bytes) : Prop := ∃ fs, IsPayload bs fs ∧ datagramsOf fs = []

/-- The same, and none extends to the end of the packet. -/
def ClosedWithoutDatagram (bs : Bytes) : Prop := ∃ fs, IsPayload bs fs ∧ datagramsOf fs = [] ∧ ∀ f ∈ fs, Closed f

/-- The datagrams placed in a packet, in order: those of the queue and those written by the application. -/
def handedOver : List Piece → List Bytes
  | [] => []
  | .queued (some data) _ :: ps => data :: handedOver ps
  | .written data _ :: ps => data :: handedOver ps
  | _ :: ps => handedOver ps

/-- The datagrams taken from the queue, in order. -/
def takenFromQueue : List Piece → List Bytes
  | [] => []
  | .queued (some data) _ :: ps => data :: takenFromQueue ps
  | _ :: ps => takenFromQueue ps

/-- The datagrams written by the application in the packet, in order. -/
def writtenByApp : List Piece → List Bytes
  | [] => []
  | .written data _ :: ps => data :: writtenByApp ps
  | _ :: ps => writtenByApp ps

/-- The miscellaneous frames placed for this context, in order. -/
def miscPlaced (pc : Nat) : List Piece → List Bytes
  | [] => []
  | .misc pc' bytes :: ps => if pc' = pc then bytes :: miscPlaced pc ps else miscPlaced pc ps
  | _ :: ps => miscPlaced pc ps

/-- What the other parts of the code and the application put in packets is made of whole frames, without
datagrams; a packet has at most 1536 bytes. -/
def LegitSeg : Seg → Prop
  | .other bs => ClosedWithoutDatagram bs
  | .fill bs => WithoutDatagram bs
  | _ => True

def LegitEvent : Event → Prop
  | .queueMisc _ bs => ClosedWithoutDatagram bs
  | .packet room segs => room ≤ 1536 ∧ ∀ g ∈ segs, LegitSeg g
  | _ => True

/-- All the pieces placed in packets, in order. -/
def allPieces (log : List (Event × Nat × List Piece)) : List Piece := log.flatMap fun r => r.2.2

/-- The datagrams which `picoquic_queue_datagram_frame` accepted, in order. -/
def acceptedDatagrams : List (Event × Nat × List Piece) → List Bytes
  | [] => []
  | (.queueDatagram data, code, _) :: log => if code = 0 then data :: acceptedDatagrams log else acceptedDatagrams log
  | _ :: log => acceptedDatagrams log

/-- The frames queued by `picoquic_queue_misc_frame` for this context, in order. -/
def queuedMisc (pc : Nat) : List Event → List Bytes
  | [] => []
  | .queueMisc pc' bytes :: evs => if pc' = pc then bytes :: queuedMisc pc evs else queuedMisc pc evs
  | _ :: evs => queuedMisc pc evs

/-- The datagrams which wait. -/
def waitingDatagrams : List Item → List Bytes
  | [] => []
  | i :: is => match i.content with
    | some data => data :: waitingDatagrams is
    | none => waitingDatagrams is

/-- The frames which wait for this context. -/
def waitingMisc (pc : Nat) : List Item → List Bytes
  | [] => []
  | i :: is => if i.pc = pc then i.bytes :: waitingMisc pc is else waitingMisc pc is

end Picoquic.Spec
