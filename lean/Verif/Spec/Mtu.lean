import Verif.Model.Mtu
/-!
# Histories of a path, and limits on the size of packets
-/

namespace Picoquic.Spec
open Picoquic

/-- What happens on a path. A packet is named by its rank among those that were sent. A packet of data is no longer than the MTU of the path. -/
inductive MtuOp
  | data (size : Nat)
  | probe (ready : Bool) (pol : Mtu.Policy) (queued : Nat) (idle : Bool) (header checksum bufMax : Nat)
  | ack (k : Nat)
  | ackLate (k : Nat)
  | lose (k : Nat) (timer ready : Bool)
  | abandon (k : Nat)
  | move (v6 : Bool)

/-- A path, the packets that were sent on it, with their sizes and if they are probes, and the sizes of those that were acknowledged. -/
structure MtuHist where
  path : Mtu.Path
  sent : List (Nat × Bool) := []
  acks : List Nat := []

/-- A step; `none` if a probe is written outside of its buffer. -/
def mtuStep (c : Mtu.Cfg) (h : MtuHist) : MtuOp → Option MtuHist
  | .data size => if size ≤ h.path.mtu then some { h with sent := h.sent ++ [(size, false)] } else some h
  | .probe ready pol queued idle header checksum bufMax =>
    if Mtu.mayProbe c h.path ready pol queued idle bufMax then
      match Mtu.prepareProbe c h.path header checksum bufMax with
      | none => none
      | some length => some { h with path := Mtu.probed h.path, sent := h.sent ++ [(length + checksum, true)] }
    else some h
  | .ack k =>
    match h.sent[k]? with
    | none => some h
    | some (size, _) => some { h with path := Mtu.acked h.path size, acks := size :: h.acks }
  | .ackLate k =>
    match h.sent[k]? with
    | none => some h
    | some (size, _) => some { h with path := Mtu.ackedLate h.path size, acks := size :: h.acks }
  | .lose k timer ready =>
    match h.sent[k]? with
    | none => some h
    | some (size, probe) => some { h with path := Mtu.lost h.path size probe timer ready }
  | .abandon k =>
    match h.sent[k]? with
    | none => some h
    | some (size, probe) => some { h with path := Mtu.abandoned h.path size probe }
  | .move v6 => some { h with path := Mtu.moved h.path v6 }

/-- All the steps. -/
def mtuRun (c : Mtu.Cfg) (h : MtuHist) : List MtuOp → Option MtuHist
  | [] => some h
  | op :: ops =>
    match mtuStep c h op with
    | none => none
    | some h => mtuRun c h ops

/-- The largest UDP payload that both ends allow: the peer with its transport parameter, this end with its largest MTU, if it has set one, from which the IP and UDP headers are
subtracted. -/
def MtuAllows (c : Mtu.Cfg) (v6 : Bool) (size : Nat) : Prop :=
  size ≤ c.remote ∧ (c.mtuMax ≠ 0 → size + (if v6 then 48 else 28) ≤ c.mtuMax)

/-- A round of discovery: if a probe is needed, it is sent, with room for `bufMax` bytes, and it arrives or it is lost. The path, and if a probe was sent. -/
def mtuRound (c : Mtu.Cfg) (p : Mtu.Path) (pol : Mtu.Policy) (queued bufMax : Nat) (arrives : Bool) : Mtu.Path × Bool :=
  if Mtu.mayProbe c p true pol queued true bufMax then
    (if arrives then Mtu.acked (Mtu.probed p) (min (Mtu.nextProbe c p) bufMax) else Mtu.lost (Mtu.probed p) (min (Mtu.nextProbe c p) bufMax) true false true, true)
  else (p, false)

/-- The path after some rounds, the number of probes that arrived, and of those that were lost. -/
def mtuRounds (c : Mtu.Cfg) (p : Mtu.Path) : List (Mtu.Policy × Nat × Nat × Bool) → Mtu.Path × Nat × Nat
  | [] => (p, 0, 0)
  | (pol, queued, bufMax, arrives) :: rs =>
    let r := mtuRound c p pol queued bufMax arrives
    let rest := mtuRounds c r.1 rs
    (rest.1, (if r.2 ∧ arrives then 1 else 0) + rest.2.1, (if r.2 ∧ arrives = false then 1 else 0) + rest.2.2)

/-- Losses of packets of the size of the path (`none`) and acknowledgments of shorter packets (`some`). -/
def blackHole (full : Nat) (p : Mtu.Path) : List (Option Nat) → Mtu.Path
  | [] => p
  | none :: es => blackHole full (Mtu.lost p full false false true) es
  | some size :: es => blackHole full (Mtu.acked p size) es

end Picoquic.Spec
