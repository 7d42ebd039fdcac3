import Verif.Model.EarlyData

/-!
# Specification of early data

What the server allows, as it said so, and which frames keep to it.
-/

namespace Picoquic.Spec

open Picoquic.EarlyData

/-- What the server allows: bytes in all, bytes on each stream, and streams. -/
structure Allowed where
  data : Nat
  stream : Nat → Nat
  count : Nat

/-- What is allowed by transport parameters. -/
def allowedBy (l : Limits) : Allowed := { data := l.data, stream := fun _ => l.stream, count := l.count }

/-- The server raises a limit. -/
def raised (a : Allowed) : Op → Allowed
  | .maxData n => { a with data := max a.data n }
  | .maxStreamData k n => { a with stream := fun j => if j = k then max (a.stream j) n else a.stream j }
  | .maxStreams n => { a with count := max a.count n }
  | _ => a

/-- What is allowed after a history. -/
def allowedAfter (a : Allowed) (ops : List Op) : Allowed := ops.foldl raised a

/-- The frame is for a stream that may exist and for bytes that may be sent on it. -/
def Keeps (a : Allowed) (f : Sent) : Prop := f.rank < a.count ∧ f.offset + f.length ≤ a.stream f.rank

/-- The number of bytes sent, each counted once. -/
def newBytes (l : List Sent) : Nat := (l.map (fun f => if f.again then 0 else f.length)).sum

/-- What the application and the sender do without the server. -/
def OfClient : Op → Bool
  | .write _ _ => true
  | .send _ _ => true
  | _ => false

/-- No limit is below the remembered one. A server that accepts early data may not lower them (RFC 9000, 7.4.1). -/
def NotLower (r l : Limits) : Prop := r.data ≤ l.data ∧ r.stream ≤ l.stream ∧ r.count ≤ l.count

/-- The number of bytes sent on a stream, each counted once. -/
def newBytesOn (k : Nat) (l : List Sent) : Nat :=
  (l.map (fun f => if f.again = false ∧ f.rank = k then f.length else 0)).sum

/-- The number of bytes that the application wrote on a stream. -/
def writtenOn (k : Nat) (l : List Op) : Nat :=
  (l.map (fun o => match o with | .write j n => if j = k then n else 0 | _ => 0)).sum

end Picoquic.Spec
