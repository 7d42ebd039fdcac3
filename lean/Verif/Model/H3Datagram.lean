import Verif.Model.IntFormat
/-!
# HTTP/3 datagrams

Model of /repo/picohttp/h3zero_common.c 171-214 and 1578-1769: the sessions of an HTTP/3 connection share its datagrams; each datagram starts with the number of the stream of its session, divided by four.

Simplifications. Memory allocation does not fail. The application of a session, when it is asked for a datagram, asks for a buffer (`h3zero_provide_datagram_buffer`) at most once and may mark its own session, not those of
others; it does not add or delete sessions meanwhile. A buffer of the length asked for is given in the packet, if the length is no more than the space (Model/Datagram.lean has the datagrams of QUIC).
-/

namespace Picoquic.H3Datagram
open Picoquic

/-- `h3zero_stream_prefix_t`, h3zero_common.h 169-176: the stream of the session, whether it has a `function_call`, whether `h3zero_find_stream` finds a context for the stream, `ready_to_send_datagrams`. -/
structure Session where
  stream : Nat
  handler : Bool
  open_ : Bool
  ready : Bool := false
deriving DecidableEq, Repr

/-- Parts of `h3zero_callback_ctx_t`: the list of the sessions, `last_datagram_prefix`; and `is_datagram_ready` of the connection. -/
structure Ctx where
  sessions : List Session
  last : Nat := 0
  active : Bool := false
deriving DecidableEq, Repr

/-- `h3zero_declare_stream_prefix`, h3zero_common.c 185-214: the new context, and whether the session is added. -/
def declare (c : Ctx) (stream : Nat) (handler open_ : Bool) : Ctx × Bool :=
  if (c.sessions.find? (fun x => decide (x.stream = stream))).isSome then (c, false)
  else ({ c with sessions := c.sessions ++ [{ stream, handler, open_ }] }, true)

/-- Arrival of a datagram: `h3zero_callback_datagram`, h3zero_common.c 1598-1622. The session to which the rest is given, and the rest. -/
def receive (c : Ctx) (bytes : Bytes) : Option (Nat × Bytes) :=
  match framesVarintDecode bytes with
  | none => none
  | some (q, rest) =>
    match c.sessions.find? (fun x => decide (x.stream = u64 (q * 4))) with
    | none => none
    | some x => if x.handler = false then none else if x.open_ = false then none else some (x.stream, rest)

/-- What the application of a session does when it is asked for a datagram: the data of the buffer that it asks for (empty if it asks for none), the `ready_to_send` of that call, and whether it
calls `h3zero_set_datagram_ready`. -/
structure Reply where
  data : Bytes := []
  more : Bool := false
  marked : Bool := false
deriving DecidableEq, Repr

/-- `h3zero_provide_datagram_buffer`, h3zero_common.c 1651-1666: the datagram in the packet. -/
def provide (space : Nat) (header data : Bytes) : Option Bytes :=
  if data.length + header.length ≤ space then some (header ++ data) else none

/-- `h3zero_callback_prepare_datagram_in_context`, h3zero_common.c 1668-1702: the session after it, and, if `data_sent`, the datagram (`none` if the application asked for more than the space). -/
def poll (space : Nat) (app : Nat → Nat → Reply) (x : Session) : Session × Option (Option Bytes) :=
  if x.ready = true ∧ x.handler = true then
    match framesVarintEncode (x.stream >>> 2) 8 with
    | none => ({ x with ready := false }, none)
    | some header =>
      if space > header.length then
        let r := app x.stream (space - header.length)
        ({ x with ready := r.marked || r.more }, if r.data.length > 0 then some (provide space header r.data) else none)
      else ({ x with ready := false }, none)
  else (x, none)

/-- A loop over sessions until one sends, h3zero_common.c 1713-1722 and 1726-1738: the sessions after it, the one that sent with its datagram, and `still_active`. -/
def pollAll (space : Nat) (app : Nat → Nat → Reply) : List Session → List Session × Option (Nat × Option Bytes) × Bool
  | [] => ([], none, false)
  | x :: xs =>
    match poll space app x with
    | (x', some d) => (x' :: xs, some (x.stream, d), x'.ready)
    | (x', none) => let r := pollAll space app xs; (x' :: r.1, r.2.1, x'.ready || r.2.2)

/-- The sessions up to the one of the last datagram, and those after it: h3zero_common.c 1707-1708. `none` if there is no such session. -/
def splitLast (last : Nat) : List Session → Option (List Session × List Session)
  | [] => none
  | x :: xs =>
    if x.stream = last then some ([x], xs)
    else
      match splitLast last xs with
      | none => none
      | some (front, back) => some (x :: front, back)

/-- `last_datagram_prefix` after the loops, 1695. -/
def lastAfter (last : Nat) : Option (Nat × Option Bytes) → Nat
  | none => last
  | some (p, _) => p

/-- `h3zero_callback_prepare_datagram`, h3zero_common.c 1704-1750: the context after it, and the session that sent with its datagram. When all sessions were polled (`all_checked`), the readiness comes from the loops;
otherwise from a look at all of them (1740-1747). -/
def prepare (space : Nat) (app : Nat → Nat → Reply) (c : Ctx) : Ctx × Option (Nat × Option Bytes) :=
  match splitLast c.last c.sessions with
  | none =>
    let r := pollAll space app c.sessions
    ({ sessions := r.1, last := lastAfter c.last r.2.1, active := r.2.2 || r.1.any (·.ready) }, r.2.1)
  | some (front, back) =>
    let r := pollAll space app back
    if r.2.1.isSome then
      ({ sessions := front ++ r.1, last := lastAfter c.last r.2.1, active := r.2.2 || (front ++ r.1).any (·.ready) }, r.2.1)
    else
      let q := pollAll space app front
      if q.2.1.isSome then
        ({ sessions := q.1 ++ r.1, last := lastAfter c.last q.2.1, active := (r.2.2 || q.2.2) || (q.1 ++ r.1).any (·.ready) }, q.2.1)
      else ({ sessions := q.1 ++ r.1, last := c.last, active := r.2.2 || q.2.2 }, none)

/-- The first session of a stream becomes ready. -/
def setReady (stream : Nat) : List Session → List Session
  | [] => []
  | x :: xs => if x.stream = stream then { x with ready := true } :: xs else x :: setReady stream xs

/-- `h3zero_set_datagram_ready`, h3zero_common.c 1752-1769. -/
def mark (c : Ctx) (stream : Nat) : Ctx :=
  if (c.sessions.find? (fun x => decide (x.stream = stream))).isSome then { c with sessions := setReady stream c.sessions, active := true } else c

end Picoquic.H3Datagram
