import Verif.Spec.ByteStream

/-!
# Specification: the buffers of received data

A packet is decrypted into a buffer. Data that must wait (because earlier data are missing) stay in buffers until
they are given to the application or to TLS.
-/

namespace Picoquic.Spec

/-- A frame of a received packet. `pieces` are the parts of the packet (start, length) that are new data and must
wait; `[]` for frames without such data. `last` is the answer of the test whether the frame is the last one; for
frames that are not CRYPTO frames the answer yes is right. `drops` are positions, in the list of waiting data, of data
that leave while the frame is processed. -/
structure WaitFrame where
  crypto : Bool
  pieces : List (Nat × Nat)
  last : Bool
  drops : List Nat
deriving DecidableEq, Repr

/-- What happens: a packet with its text, its frames and the data that leave after the frames (TLS); or data leave
between packets. -/
inductive BufferOp where
  | packet (text : Bytes) (frames : List WaitFrame) (drops : List Nat)
  | drop (position : Nat)
deriving DecidableEq, Repr

/-- The number of pieces that must wait in a packet. -/
def piecesOf : BufferOp → Nat
  | .packet _ frames _ => (frames.map (fun f => f.pieces.length)).sum
  | .drop _ => 0

/-- A part of a packet. -/
def part (text : Bytes) (p : Nat × Nat) : Bytes := (text.drop p.1).take p.2

end Picoquic.Spec
