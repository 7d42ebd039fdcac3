import Verif.Model.PathValidation
import Verif.Spec.Varint
/-!
# Specification of the validation of paths
-/

namespace Picoquic.Spec
open Picoquic Picoquic.Paths

/-- This history of events, with what each produced, starts with a connection between these two addresses, and
the path is in this state after it. -/
def PathReached (peer loc : Addr) (p : Path) (hist : List (Event × List Note)) : Prop :=
  ∃ a b c evs, run (init peer loc a b c) evs = (p, hist)

/-- All that was produced in a history. -/
def produced (hist : List (Event × List Note)) : List Note := hist.flatMap Prod.snd

/-- The address pairs which are valid after one more note: those which were validated and not suspended. -/
def validStep (s : List (Addr × Addr)) : Note → List (Addr × Addr)
  | .validated q l => (q, l) :: s
  | .suspended q l => s.filter (fun x => decide (x ≠ (q, l)))
  | _ => s

/-- The valid address pairs after a history which starts with this one. -/
def validAddrs (peer loc : Addr) (notes : List Note) : List (Addr × Addr) := notes.foldl validStep [(peer, loc)]

/-- A packet with these addresses is one of the tuple with these addresses: the same peer, and the same local
address, or the same IP address when the local port is not known. -/
def SameTuple (src dst peer loc : Addr) : Prop := src = peer ∧ (dst = loc ∨ loc.port = 0 ∧ dst.ip = loc.ip)

/-- PATH_CHALLENGE and PATH_RESPONSE frames with these 8 bytes. -/
def challengeFrame (d : Bytes) : Bytes := 0x1a :: d
def responseFrame (d : Bytes) : Bytes := 0x1b :: d

/-- The event is a notification that an address is unreachable. -/
def IsUnreachable : Event → Prop
  | .unreachable .. => True
  | _ => False

instance : DecidablePred IsUnreachable := fun ev => by
  cases ev <;> unfold IsUnreachable <;> infer_instance

/-- A preparation with room for a challenge and a response. -/
def IsPreparation (ev : Event) : Prop := ∃ now room rto d, ev = .prepare now room rto d ∧ 18 ≤ room

/-- The event is the preparation of a packet. -/
def IsPrepare : Event → Prop
  | .prepare .. => True
  | _ => False

/-- The event is a challenge with this value. -/
def CarriesChallenge (d : Bytes) : Event → Prop
  | .challenge _ _ data => ∃ rest, data = d ++ rest
  | _ => False

end Picoquic.Spec
