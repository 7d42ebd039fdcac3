/-!
# Specification: no nonce twice

The authenticated encryption of packets is broken if two packets are encrypted with the same key and
the same nonce. Nothing here refers to the model of the code.
-/

namespace Picoquic.Spec

/-- A key. The number tells the keys of the same kind apart: Initial and 0-RTT keys are new after a
Retry, 1-RTT keys after each key update. -/
inductive SealKey where
  | initial (n : Nat)
  | handshake
  | zeroRtt (n : Nat)
  | oneRtt (n : Nat)
deriving DecidableEq, Repr

/-- An encryption: the key, the identifier of the path (0 if there is one path only) and the number
of the packet. -/
structure NonceUse where
  key : SealKey
  path : Nat
  num : Nat
deriving DecidableEq, Repr

/-- The nonce, up to the constant that each key comes with: 96 bits, the path in the first 32, the
number in the last 64. -/
def NonceUse.nonce (s : NonceUse) : Nat := s.path % 2 ^ 32 * 2 ^ 64 + s.num % 2 ^ 64

/-- No two encryptions have the same key and the same nonce. -/
def NonceUnique (l : List NonceUse) : Prop := (l.map (fun s => (s.key, s.nonce))).Nodup

/-- What happens to a connection. `start` is the packet number with which a new numbering starts. -/
inductive NonceOp where
  /-- An Initial packet is sent. -/
  | initial
  /-- A Handshake packet is sent. -/
  | handshake
  /-- The client prepares a packet and has data for a 0-RTT packet. `blocked`: what TLS has to send
  cannot be sent, because of the congestion window. -/
  | zeroRtt (blocked : Bool)
  /-- A 1-RTT packet is sent on a path. -/
  | oneRtt (i : Nat)
  /-- A packet number is skipped on a path. -/
  | skip (i : Nat)
  /-- A Retry packet has arrived. -/
  | retry
  /-- TLS has completed the handshake. -/
  | complete (start : Nat)
  /-- The last part of the handshake has been sent. -/
  | ready
  /-- The keys are updated. -/
  | rotate
  /-- Connection IDs for one more path are given to the peer. -/
  | giveIds
  /-- The peer gives connection IDs for a path. -/
  | getIds (path : Nat)
  /-- A packet arrives with a connection ID given for this path. -/
  | arrive (path start : Nat)
  /-- The application asks for a new path. -/
  | probe (start : Nat)
  /-- A path is given up. -/
  | abandon (i : Nat)
deriving DecidableEq, Repr

/-- The number with which a numbering starts, if one does. -/
def NonceOp.start : NonceOp → Nat
  | .complete s => s
  | .arrive _ s => s
  | .probe s => s
  | _ => 0

end Picoquic.Spec
