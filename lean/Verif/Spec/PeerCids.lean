import Verif.Model.PeerCids
/-!
# Specification of the storage of the connection IDs of the peer
-/

namespace Picoquic.Spec
open Picoquic Picoquic.PeerCids

/-- No sequence number has two connection IDs and no connection ID has two sequence numbers. -/
def OneToOne (stash : List Entry) : Prop :=
  stash.Pairwise (fun a b => a.seq ≠ b.seq ∧ a.cid ≠ b.cid)

/-- The largest 'retire prior to' field received. -/
def retirePriorTo : List Event → Nat
  | [] => 0
  | .newCid f :: rest => max f.retirePrior (retirePriorTo rest)
  | _ :: rest => retirePriorTo rest

/-- No frame announces a sequence number which an earlier frame asked to retire. -/
def NoLate (evs : List Event) : Prop :=
  ∀ before f after, evs = before ++ Event.newCid f :: after → retirePriorTo before ≤ f.seq

/-- No frame announces a sequence number for which a RETIRE_CONNECTION_ID frame was sent and may still be
acknowledged, except as a repetition while that connection ID is still stored. -/
def NoReannounce (s0 : State) (evs : List Event) : Prop :=
  ∀ before f after s, evs = before ++ Event.newCid f :: after → run s0 before = .ok s →
    f.seq ∉ s.retires ∨ ∃ e ∈ s.stash, e.seq = f.seq

/-- The frame is a repetition of the one which brought this connection ID. -/
def SameCid (e : Entry) (f : NewCid) : Prop := e.seq = f.seq ∧ e.cid = f.cid ∧ e.secret = f.secret

/-- The frame contradicts what is known: same sequence number or same connection ID, but it is not a
repetition. -/
def Contradicts (e : Entry) (f : NewCid) : Prop := (e.seq = f.seq ∨ e.cid = f.cid) ∧ ¬ SameCid e f

/-- Packets sent on some address tuple have the connection ID with this sequence number. -/
def InUse (s : State) (seq : Nat) : Prop := ∃ i e, destination s i = .ok e ∧ e.seq = seq

end Picoquic.Spec
