import Verif.Model.H3Datagram
import Verif.Spec.StreamFrame
/-!
# Uses of HTTP/3 datagrams
-/

namespace Picoquic.Spec
open Picoquic Picoquic.H3Datagram

/-- The application of a session asks to send, or the connection asks for a datagram. -/
inductive H3DgOp
  | mark (stream : Nat)
  | prepare (space : Nat) (app : Nat → Nat → Reply)

/-- The context after one of them, and the datagram. -/
def h3DgStep (c : Ctx) : H3DgOp → Ctx × Option (Nat × Option Bytes)
  | .mark stream => (H3Datagram.mark c stream, none)
  | .prepare space app => H3Datagram.prepare space app c

/-- The sessions that send, in order. -/
def h3DgSenders (c : Ctx) : List H3DgOp → List Nat
  | [] => []
  | op :: ops =>
    match (h3DgStep c op).2 with
    | some (p, _) => p :: h3DgSenders (h3DgStep c op).1 ops
    | none => h3DgSenders (h3DgStep c op).1 ops

/-- The number of times that the connection asks. -/
def h3DgAsks : List H3DgOp → Nat
  | [] => 0
  | .mark _ :: ops => h3DgAsks ops
  | .prepare .. :: ops => h3DgAsks ops + 1

/-- The session always has something to send and says so, and the space is more than the longest number. -/
def h3DgBusy (p : Nat) : H3DgOp → Prop
  | .mark _ => True
  | .prepare space app => 8 < space ∧ ∀ n, (app p n).data ≠ [] ∧ ((app p n).more = true ∨ (app p n).marked = true)

/-- No two sessions are on the same stream. -/
def distinctSessions (c : Ctx) : Prop := (c.sessions.map (·.stream)).Nodup

end Picoquic.Spec
