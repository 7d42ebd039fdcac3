import Verif.Model.LocalCids
/-!
# Specification of the connection IDs issued by this endpoint

What the peers know: which connection IDs were given to them and are not retired.
-/

namespace Picoquic.Spec
open Picoquic Picoquic.LocalCids

/-- A connection ID known to a peer: connection, sequence number and value. -/
structure Known where
  conn : Nat
  seq : Nat
  cid : Bytes
deriving DecidableEq, Repr

/-- What the peers know after one more note. -/
def knownStep (s : List Known) : Note → List Known
  | .issued n q _ c => s ++ [⟨n, q, c⟩]
  | .retired n q => s.filter (fun k => ¬ (k.conn = n ∧ k.seq = q))
  | .deleted n => s.filter (fun k => k.conn ≠ n)
  | .error _ _ => s

/-- The connection IDs issued and not retired. -/
def known (notes : List Note) : List Known := notes.foldl knownStep []

/-- The endpoint is reached from its start by some sequence of events, and the peers saw these notes. -/
def Reached (e : Endpoint) (notes : List Note) : Prop := ∃ evs, run {} evs = (e, notes)

/-- The sequence numbers of the connection IDs issued by connection number `n` since it was last deleted. -/
def numbersStep (n : Nat) (s : List Nat) : Note → List Nat
  | .issued m q _ _ => if m = n then s ++ [q] else s
  | .deleted m => if m = n then [] else s
  | .retired _ _ => s
  | .error _ _ => s

def numbers (n : Nat) (notes : List Note) : List Nat := notes.foldl (numbersStep n) []

/-- How many of the known connection IDs of connection `n` the peer may still use, when it was asked to retire
those below `rp`. -/
def usable (s : List Known) (n rp : Nat) : Nat := (s.filter (fun k => decide (k.conn = n ∧ rp ≤ k.seq))).length

end Picoquic.Spec
