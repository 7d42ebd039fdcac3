import Verif.Model.AckSchedule
/-!
# Specification of sequence numbered updates and of the deadline of acknowledgements
-/

namespace Picoquic.Spec
open Picoquic.AckSched

/-- Among the updates received, `f` is the one with the highest number, and the first received with this number. -/
def Newest {α : Type} (number : α → Nat) (received : List α) (f : α) : Prop :=
  ∃ before after, received = before ++ f :: after ∧
    (∀ g ∈ before, number g < number f) ∧ ∀ g ∈ after, number g ≤ number f

/-- The ACK_FREQUENCY frames among the events: number, packets, delay, reordering threshold. -/
def frequencyFrames (evs : List Event) : List (Nat × Nat × Nat × Nat) :=
  evs.filterMap fun
    | .ackFrequency s p d t => some (s, p, d, t)
    | _ => none

/-- The PATH_BACKUP (true) and PATH_AVAILABLE (false) frames for a path: number, type. -/
def statusFrames (id : Nat) (evs : List Event) : List (Nat × Bool) :=
  evs.filterMap fun
    | .pathStatus i b s => if i = id then some (s, b) else none
    | _ => none

/-- The limits of the MAX_PATH_ID frames. -/
def pathLimits (evs : List Event) : List Nat :=
  evs.filterMap fun
    | .maxPathId m => some m
    | _ => none

/-- The time at which a packet which requires an acknowledgement was received. -/
def arrival : Event → Option Nat
  | .eliciting now _ => some now
  | .immediateAck now _ _ => some now
  | _ => none

/-- Time does not go back between the packets received. -/
def Chronological (evs : List Event) : Prop := (evs.filterMap arrival).Pairwise (· ≤ ·)

/-- The position in the packets sent of the acknowledgement of packets received on path `i`: there is a single packet
number space unless multipath is negotiated. -/
def spaceOf (multipath : Bool) (i : Nat) : Nat := if multipath then i else 0

/-- The event is an acknowledgement sent on the nominal path, of the packets received on path `i`. -/
def Acknowledges (multipath : Bool) (i : Nat) : Event → Prop
  | .ackSent _ false w => w[spaceOf multipath i]? = some true
  | _ => False

/-- What an observer knows of a packet number space: the largest packet number received, the largest one when the last
acknowledgement was sent, and whether a packet which requires an acknowledgement was received since. -/
structure Seen where
  largest : Nat := 0
  acked : Nat := 0
  pending : Bool := false

def Seen.step (multipath : Bool) (i : Nat) (g : Seen) : Event → Seen
  | .recordPn j pn => if spaceOf multipath j = spaceOf multipath i then { g with largest := max g.largest pn } else g
  | .eliciting _ j => if spaceOf multipath j = spaceOf multipath i then { g with pending := true } else g
  | .immediateAck _ j false => if spaceOf multipath j = spaceOf multipath i then { g with pending := true } else g
  | .ackSent _ false w =>
    if w[spaceOf multipath i]? = some true then { g with acked := g.largest, pending := false } else g
  | _ => g

def seen (multipath : Bool) (i : Nat) (evs : List Event) : Seen := evs.foldl (Seen.step multipath i) {}

/-- A connection on which nothing was received: the extension is negotiated, all contexts are initial. -/
def NothingReceived (s : State) : Prop :=
  s.negotiated = true ∧ s.seq = 2 ^ 64 - 1 ∧ s.ctx = {} ∧ ∀ p ∈ s.paths, p.ctx = {} ∧ p.nextStatus = 0

/-- Path `i` exists. -/
def PathExists (s : State) (i : Nat) : Prop := s.multipath = true → i < s.paths.length

end Picoquic.Spec
