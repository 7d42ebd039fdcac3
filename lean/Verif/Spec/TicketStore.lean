import Verif.Model.TicketStore
/-!
# Uses of the store of session tickets
-/

namespace Picoquic.Spec
open Picoquic Picoquic.TicketStore

/-- A record whose values fit the fields, with ten parameters, and a ticket. -/
structure StorableTicket (t : Ticket) : Prop where
  expiry : t.expiry < 2 ^ 64
  sni : t.sni.length < 2 ^ 16
  alpn : t.alpn.length < 2 ^ 16
  version : t.version < 2 ^ 32
  ip : t.ip.length ≤ 16
  client : t.client.length ≤ 16
  count : t.tp.length = 10
  tp : ∀ x ∈ t.tp, x < 2 ^ 64
  ticket : 1 ≤ t.ticket.length ∧ t.ticket.length < 2 ^ 16

/-- What the file has of a record: the address of the server is only kept with that of the client. -/
def asFiled (t : Ticket) : Ticket := { t with ip := if t.client = [] then [] else t.ip }

/-- A use of the store: a ticket arrives from a server; a connection looks for a ticket; the application asks for one, to use it or not; a connection leaves address and measures; a new process. -/
inductive TicketOp
  | store (now : Nat) (sni alpn : Bytes) (version : Nat) (ticket : Bytes) (tp : List Nat)
  | resume (now : Nat) (sni alpn : Bytes) (version : Nat)
  | get (now : Nat) (sni alpn : Bytes) (version : Nat) (mark : Bool)
  | seed (now : Nat) (sni alpn : Bytes) (version id : Nat) (ip client : Bytes) (rtt cwin rttRemote cwinRemote : Nat)
  | restart (now later : Nat)
deriving DecidableEq, Repr

/-- The store after one use, and the ticket that it gives. -/
def ticketStep (s : List Ticket) : TicketOp → List Ticket × Option Ticket
  | .store now sni alpn version ticket tp => ((store now s sni alpn version ticket tp).1, none)
  | .resume now sni alpn version => (s, resume now s sni alpn version)
  | .get now sni alpn version mark => get now s sni alpn version mark
  | .seed now sni alpn version id ip client a b c d => (seed now s sni alpn version id ip client a b c d, none)
  | .restart now later => ((load later [] (save now s).1).1, none)

/-- The store after a history, from an empty store. -/
def ticketRun (s : List Ticket) : List TicketOp → List Ticket
  | [] => s
  | op :: ops => ticketRun (ticketStep s op).1 ops

/-- The tickets given by the uses of a history, with the uses. -/
def ticketTrace (s : List Ticket) : List TicketOp → List (TicketOp × Option Ticket)
  | [] => []
  | op :: ops => (op, (ticketStep s op).2) :: ticketTrace (ticketStep s op).1 ops

/-- The values fit, and the ticket can be saved and loaded. -/
def ticketFits : TicketOp → Prop
  | .store _ sni alpn version ticket tp => sni.length + alpn.length + ticket.length ≤ 1796 ∧ version < 2 ^ 32 ∧ tp.length = 6 ∧ ∀ x ∈ tp, x < 2 ^ 64
  | .seed _ _ _ _ _ ip client a b c d => ip.length ≤ 16 ∧ client.length ≤ 16 ∧ a < 2 ^ 64 ∧ b < 2 ^ 64 ∧ c < 2 ^ 64 ∧ d < 2 ^ 64
  | _ => True

/-- The application asks for a ticket of a server and marks it. -/
def isMarkedGet (x : Bytes) : TicketOp × Option Ticket → Bool
  | (.get _ _ _ _ true, some t) => decide (t.ticket = x)
  | _ => false

/-- The ticket is stored. -/
def isTicketStore (x : Bytes) : TicketOp → Bool
  | .store _ _ _ _ y _ => decide (y = x)
  | _ => false

/-- The application looks without marking. -/
def isLook : TicketOp → Bool
  | .get _ _ _ _ false => true
  | _ => false

end Picoquic.Spec
