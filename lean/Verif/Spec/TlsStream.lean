import Verif.Spec.ByteStream
import Verif.Spec.Frames

/-!
# Specification: the messages of the handshake

TLS writes and reads one byte stream per encryption level (0 Initial, 1 0-RTT, 2 Handshake, 3 1-RTT). QUIC
carries them in CRYPTO frames. TLS itself is any machine.
-/

namespace Picoquic.Spec

/-- What TLS does with bytes of a level: the new state, if it failed, and what it writes at which
levels. `reads` is the level from which it reads. -/
structure TlsMachine (σ : Type) where
  reads : σ → Nat
  handle : σ → Nat → Bytes → σ × Bool × List (Nat × Bytes)

/-- TLS never goes back to a level. -/
def TlsMachine.Forward {σ : Type} (T : TlsMachine σ) : Prop :=
  ∀ s e b, T.reads s ≤ T.reads (T.handle s e b).1

/-- What happens: a CRYPTO frame arrives in a packet of a level; the packet is complete, and TLS is
called; a packet of a level is prepared with some room for a CRYPTO frame. -/
inductive CryptoOp where
  | crypto (level offset : Nat) (bytes : Bytes)
  | process
  | send (level room : Nat)
deriving DecidableEq, Repr

/-- The bytes of one level, in the order of a list of pieces with their levels. -/
def atLevel (e : Nat) : List (Nat × Bytes) → Bytes
  | [] => []
  | p :: l => if p.1 = e then p.2 ++ atLevel e l else atLevel e l

/-- The history contains a frame of the level with this byte at this position. -/
def ArrivedByte (ops : List CryptoOp) (e i : Nat) (x : UInt8) : Prop :=
  ∃ o b j, .crypto e o b ∈ ops ∧ b[j]? = some x ∧ i = o + j

/-- TLS goes on to the next level only after it was given all of the `N e` bytes of a level. `count` is the
number of bytes it was given. -/
structure TlsMachine.Counts {σ : Type} (T : TlsMachine σ) (N : Nat → Nat) (count : σ → Nat → Nat) : Prop where
  add : ∀ s e b i, count (T.handle s e b).1 i = if i = e then count s i + b.length else count s i
  leaves : ∀ s e, e < T.reads s → N e ≤ count s e

end Picoquic.Spec
