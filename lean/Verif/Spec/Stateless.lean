import Verif.Model.Stateless
import Verif.Spec.Varint
/-!
# Specification of version negotiation and stateless resets
-/

namespace Picoquic.Spec
open Picoquic.Packet Picoquic.Stateless

/-- `bytes` is a list of version numbers, of 4 bytes each, the most significant one first. -/
inductive VersionList : List Nat → Bytes → Prop
  | nil : VersionList [] []
  | cons {v : Nat} {vs : List Nat} {p bytes : Bytes} (h : p.length = 4) (hv : bigEndian p = v) (t : VersionList vs bytes) :
    VersionList (v :: vs) (p ++ bytes)

/-- A version negotiation packet, RFC 9000 section 17.2.1: the form bit, version 0, destination, source, and the versions. -/
def VnMessage (dest source : Cid) (versions : List Nat) (p : Bytes) : Prop :=
  ∃ first tail, 128 ≤ first.toNat ∧ VersionList versions tail ∧
    p = first :: ([0, 0, 0, 0] ++ (UInt8.ofNat dest.length :: dest) ++ (UInt8.ofNat source.length :: source) ++ tail)

/-- The random number generators keep to their contract. -/
structure GoodRandom (rnd : ResetRandom) : Prop where
  uniform : ∀ n, 0 < n → rnd.uniform n < n
  bytes : ∀ n, (rnd.bytes n).length = n

/-- A packet that belongs to no connection: when it comes, its length, its header, and the random numbers. -/
structure ResetEvent where
  blocked : Bool
  now : Nat
  length : Nat
  ph : Ph
  rnd : ResetRandom

/-- The times at which stateless resets are sent in answer to a sequence of packets. -/
def resetTimes (blockingDisabled : Bool) (secretOf : Cid → Bytes) : ResetCtx → List ResetEvent → List Nat
  | _, [] => []
  | c, e :: es =>
    let r := unknownPacket c blockingDisabled e.blocked e.now e.length e.ph e.rnd secretOf
    match r.2 with
    | some _ => e.now :: resetTimes blockingDisabled secretOf r.1 es
    | none => resetTimes blockingDisabled secretOf r.1 es

/-- `q` is a stateless reset that some host sends in answer to `p`. -/
def ResetAnswers (p q : Bytes) : Prop :=
  ∃ c blockingDisabled blocked now ph rnd secretOf, GoodRandom rnd ∧ (∀ cid, (secretOf cid : Bytes).length = 16) ∧
    (unknownPacket c blockingDisabled blocked now p.length ph rnd secretOf).2 = some q

end Picoquic.Spec
