import Verif.Model.Amplification
/-!
# Specification of the limit of amplification
-/

namespace Picoquic.Spec
open Picoquic.Amplification

/-- What happens to a server connection during the handshake. -/
inductive AmpEvent
  /-- a datagram of `len` bytes with these packets -/
  | receive (len : Nat) (ss : List Seg)
  /-- the connection is asked for a packet; `make` is the length it would give it, for the room it has -/
  | send (bufferMax mtu : Nat) (make : Nat → Nat)
  /-- the same in the states where the connection is being closed -/
  | close (bufferMax mtu : Nat) (make : Nat → Nat)

/-- What was seen on the network: bytes received, bytes sent, and how many of these while closing. -/
structure AmpSeen where
  cnx : Amp
  received : Nat
  sent : Nat
  closing : Nat

/-- One event. -/
def ampStep (a : AmpSeen) : AmpEvent → AmpSeen
  | .receive len ss => { a with cnx := datagram a.cnx len ss, received := a.received + len }
  | .send b m f => { a with cnx := (prepare a.cnx b m f).1, sent := a.sent + (prepare a.cnx b m f).2 }
  | .close b m f =>
    { a with cnx := (prepareClosing a.cnx b m f).1, sent := a.sent + (prepareClosing a.cnx b m f).2,
             closing := a.closing + (prepareClosing a.cnx b m f).2 }

/-- All the events, from the creation of a connection for a client at an unknown address. -/
def ampRun (initialCid localCid : Cid) (es : List AmpEvent) : AmpSeen :=
  es.foldl ampStep ⟨⟨false, 0, 0, initialCid, localCid⟩, 0, 0, 0⟩

/-- Packets keep to their room, datagrams have less than 65536 bytes, and 0-RTT packets have a destination. -/
def AmpEvent.Fits : AmpEvent → Prop
  | .receive _ ss => ∀ d, Seg.zeroRtt d ∈ ss → d ≠ []
  | .send _ m f | .close _ m f => m < 65536 ∧ ∀ room, f room ≤ room

/-- A packet that only a client at its true address can send: it is encrypted with keys of the handshake, or it has the connection ID
chosen by the server, or it acknowledges a packet number that was chosen at random. -/
def ProvesAddress (localCid : Cid) : Seg → Prop
  | .handshake _ => True
  | .initial d ackRandom => (d = localCid ∧ localCid ≠ []) ∨ ackRandom = true
  | _ => False

end Picoquic.Spec
