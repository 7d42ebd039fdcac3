import Verif.Model.Admission
/-!
# Specification of address tokens
-/

namespace Picoquic.Spec
open Picoquic.Packet Picoquic.Admission

/-- What is known about the AEAD: the text is recovered, and there is a tag of 16 bytes. -/
structure Sealing (k : TokenKeys) : Prop where
  recover : ∀ s a t, k.dec s a (k.enc s a t) = some t
  length : ∀ s a t, (k.enc s a t).length = t.length + 16

/-- A token which the server gave to the client at address `ip`: in a Retry packet, or for later connections in a NEW_TOKEN frame. -/
structure Issued where
  ip : Bytes
  token : Bytes
  retry : Bool
  time : Nat
  /-- for a Retry packet: the destination connection ID of the client's packet -/
  odcid : Cid
  /-- for a Retry packet: the connection ID chosen by the server -/
  rcid : Cid

/-- The microseconds during which a token may be used: 124 seconds, or 48 hours. -/
def Issued.life (i : Issued) : Nat := if i.retry then 124000000 else 172800000000

/-- An Initial packet that was screened. -/
structure Admitted where
  now : Nat
  first : First
  outcome : Screened

/-- A connection was created for the packet and the address was taken to be valid. -/
def Admitted.Validated (a : Admitted) : Prop := ∃ odcid, a.outcome = .created true odcid

/-- Tokens cannot be forged, nor moved to another address: what can be decrypted was given to this address. -/
def Unforged (k : TokenKeys) (issued : List Issued) (p : First) : Prop :=
  ∀ sequence sealed text, framesUint64Decode p.token = some (sequence, sealed) → k.dec sequence p.ip sealed = some text →
    ∃ i ∈ issued, i.ip = p.ip ∧ i.token = p.token

/-- The histories of a server: its settings may change at any time, tokens are given out, Initial packets arrive. The
last two arguments are the tokens given out and the packets screened, the last ones first. -/
inductive Happens (k : TokenKeys) : Nat → Server → List Issued → List Admitted → Prop
  | start {s : Server} (keys : s.keys = k) (used : s.used = []) : Happens k 0 s [] []
  | settings {t : Nat} {s s' : Server} {is : List Issued} {as : List Admitted} (h : Happens k t s is as) (keys : s'.keys = s.keys)
      (used : s'.used = s.used) : Happens k t s' is as
  | retry {t now : Nat} {s : Server} {is : List Issued} {as : List Admitted} {ip token : Bytes} {odcid rcid : Cid} {pn : Nat}
      {r0 : UInt8} {rnd : Bytes} (h : Happens k t s is as) (time : t ≤ now) (end_ : now + 124000000 < 2 ^ 64)
      (odcid_length : 1 ≤ odcid.length ∧ odcid.length ≤ 20) (rcid_length : rcid.length ≤ 20) (number : pn < 2 ^ 32)
      (make : prepareToken k ip (now + TOKEN_DELAY_SHORT) odcid rcid pn r0 rnd = some token) :
      Happens k now s (⟨ip, token, true, now, odcid, rcid⟩ :: is) as
  | newToken {t now : Nat} {s : Server} {is : List Issued} {as : List Admitted} {ip token : Bytes} {r0 : UInt8} {rnd : Bytes}
      (h : Happens k t s is as) (time : t ≤ now) (end_ : now + 172800000000 < 2 ^ 64)
      (make : prepareToken k ip (now + TOKEN_DELAY_LONG) [] [] 0 r0 rnd = some token) :
      Happens k now s (⟨ip, token, false, now, [], []⟩ :: is) as
  | initial {t now : Nat} {s : Server} {is : List Issued} {as : List Admitted} {p : First} (h : Happens k t s is as) (time : t ≤ now)
      (unforged : Unforged k is p) :
      Happens k now (screen s now p).2 is (⟨now, p, (screen s now p).1⟩ :: as)

end Picoquic.Spec
