import Verif.Model.TokenStore
/-!
# The store of session tickets

Model of /repo/picoquic/ticket_store.c: the tickets that a client keeps to resume sessions, their serialization and their file.

Simplifications. Memory allocation and file operations do not fail; a file is its bytes. The store is the list of its records in the order of the links. The size of a record in a file is written from the
memory of a `size_t`, on a little-endian machine with 64-bit pointers. The reads are those of Model/TokenStore.lean.
-/

namespace Picoquic.TicketStore
open Picoquic Picoquic.TokenStore

/-- `picoquic_stored_ticket_t`, picoquic_internal.h 466-482: `time_valid_until`, server name, protocol, version, address of the server, of the client as the server saw it, the ten parameters of `tp_0rtt`
(453-462), the ticket, `was_used`. -/
structure Ticket where
  expiry : Nat
  sni : Bytes
  alpn : Bytes
  version : Nat
  ip : Bytes
  client : Bytes
  tp : List Nat
  ticket : Bytes
  used : Bool := false
deriving DecidableEq, Repr

/-- `PICOQUIC_STORED_IP_MAX`, picoquic_internal.h 52. -/
def IP_MAX : Nat := 16

/-- `picoquic_format_ticket`, ticket_store.c 29-99. Without an address of the client, the length set to zero is that of the address of the server (73). -/
def format (expiry : Nat) (sni alpn : Bytes) (version : Nat) (ip client : Bytes) (tp : List Nat) (ticket : Bytes) : Ticket :=
  { expiry, sni, alpn, version, ip := if client.length = 0 then [] else ip.take IP_MAX, client := client.take IP_MAX, tp, ticket }

/-- Size of a serialized ticket, ticket_store.c 107-111. -/
def Ticket.size (t : Ticket) : Nat := 100 + t.sni.length + t.alpn.length + t.ticket.length + t.ip.length + t.client.length

/-- `picoquic_serialize_ticket`, ticket_store.c 101-158, in a buffer of `room` bytes: the bytes written, or `none` for `PICOQUIC_ERROR_FRAME_BUFFER_TOO_SMALL`. -/
def serialize (t : Ticket) (room : Nat) : Option Bytes :=
  if t.size > room then none
  else some (picoformat64 t.expiry ++ picoformat16 t.sni.length ++ t.sni ++ picoformat16 t.alpn.length ++ t.alpn ++ picoformat32 t.version ++
    [u8 t.ip.length] ++ t.ip ++ [u8 t.client.length] ++ t.client ++ (t.tp.map picoformat64).flatten ++ picoformat16 t.ticket.length ++ t.ticket)

/-- `PICOPARSE_32(bytes + i)`. -/
def read32 (bs : Bytes) (i : Nat) : Option Nat :=
  match read bs i 4 with
  | some [a, b, c, d] => some (parse32 a b c d)
  | _ => none

/-- `bytes[i]`. -/
def read8 (bs : Bytes) (i : Nat) : Option Nat :=
  match read bs i 1 with
  | some [a] => some a.toNat
  | _ => none

/-- `n` numbers of 64 bits, ticket_store.c 220-223. -/
def read64s (bs : Bytes) : Nat → Nat → Option (List Nat)
  | _, 0 => some []
  | i, n + 1 =>
    match read64 bs i, read64s bs (i + 8) n with
    | some x, some xs => some (x :: xs)
    | _, _ => none

/-- The variables of `picoquic_deserialize_ticket`, ticket_store.c 163-177. The strings are given by index and length. -/
structure Parse where
  required : Nat := 100
  index : Nat := 0
  expiry : Nat := 0
  sni : Nat × Nat := (0, 0)
  alpn : Nat × Nat := (0, 0)
  version : Nat := 0
  ip : Nat × Nat := (0, 0)
  client : Nat × Nat := (0, 0)
  tp : List Nat := List.replicate 10 0
  ticket : Nat × Nat := (0, 0)
deriving DecidableEq, Repr

/-- ticket_store.c 182-190. `none` for a read outside of the buffer. -/
def parse1 (bs : Bytes) (d : Parse) : Option Parse :=
  if d.required < bs.length then
    match read64 bs 0, read16 bs 8 with
    | some e, some n => some { d with expiry := e, sni := (10, n), required := d.required + n, index := 10 + n }
    | _, _ => none
  else some d

/-- ticket_store.c 192-198. -/
def parse2 (bs : Bytes) (d : Parse) : Option Parse :=
  if d.required < bs.length then
    match read16 bs d.index with
    | some n => some { d with alpn := (d.index + 2, n), required := d.required + n, index := d.index + 2 + n }
    | none => none
  else some d

/-- ticket_store.c 200-203. -/
def parse3 (bs : Bytes) (d : Parse) : Option Parse :=
  if d.required < bs.length then
    match read32 bs d.index with
    | some v => some { d with version := v, index := d.index + 4 }
    | none => none
  else some d

/-- ticket_store.c 205-210. -/
def parse4 (bs : Bytes) (d : Parse) : Option Parse :=
  if d.required < bs.length then
    match read8 bs d.index with
    | some n => some { d with ip := (d.index + 1, n), required := d.required + n, index := d.index + 1 + n }
    | none => none
  else some d

/-- ticket_store.c 212-217. -/
def parse5 (bs : Bytes) (d : Parse) : Option Parse :=
  if d.required < bs.length then
    match read8 bs d.index with
    | some n => some { d with client := (d.index + 1, n), required := d.required + n, index := d.index + 1 + n }
    | none => none
  else some d

/-- ticket_store.c 219-224. -/
def parse6 (bs : Bytes) (d : Parse) : Option Parse :=
  if d.required < bs.length then
    match read64s bs d.index 10 with
    | some xs => some { d with tp := xs, index := d.index + 80 }
    | none => none
  else some d

/-- ticket_store.c 226-231. -/
def parse7 (bs : Bytes) (d : Parse) : Option Parse :=
  if d.required < bs.length then
    match read16 bs d.index with
    | some n => some { d with ticket := (d.index + 2, n), required := d.required + n, index := d.index + 2 }
    | none => none
  else some d

/-- Result of `picoquic_deserialize_ticket`: a read outside of the buffer, an error, or the record and the length consumed. -/
inductive Deser
  | outside
  | invalid
  | ok (t : Ticket) (consumed : Nat)
deriving DecidableEq, Repr

/-- The end, ticket_store.c 233-254. -/
def parseEnd (bs : Bytes) (d : Parse) : Deser :=
  if d.required > bs.length then .invalid
  else
    match read bs d.sni.1 d.sni.2, read bs d.alpn.1 d.alpn.2, read bs d.ip.1 d.ip.2, read bs d.client.1 d.client.2, read bs d.ticket.1 d.ticket.2 with
    | some sni, some alpn, some ip, some client, some ticket => .ok (format d.expiry sni alpn d.version ip client d.tp ticket) d.required
    | _, _, _, _, _ => .outside

/-- `picoquic_deserialize_ticket`, ticket_store.c 160-257. -/
def deserialize (bs : Bytes) : Deser :=
  match ((((((parse1 bs {}).bind (parse2 bs)).bind (parse3 bs)).bind (parse4 bs)).bind (parse5 bs)).bind (parse6 bs)).bind (parse7 bs) with
  | some d => parseEnd bs d
  | none => .outside

/-- Until when a ticket is valid, ticket_store.c 276-283: issued (in milliseconds) and lifetime (in seconds, no more than 7 days) are in the ticket. -/
def validUntil (ticket : Bytes) : Nat :=
  let ttl := (read32 ticket 13).getD 0
  u64 (u64 ((read64 ticket 0).getD 0 * 1000) + (if ttl > 7 * 24 * 3600 then 7 * 24 * 3600 else ttl) * 1000000)

/-- Same server, protocol and version: ticket_store.c 306-310. -/
def sameKey (t : Ticket) (sni alpn : Bytes) (version : Nat) : Bool :=
  decide (t.sni.length = sni.length) && decide (t.alpn.length = alpn.length) && decide (t.sni = sni) && decide (t.alpn = alpn) && decide (t.version = version)

/-- `picoquic_store_ticket`, ticket_store.c 259-326, at time `now`: the new store, and whether the ticket was accepted. `tp` are the six parameters of the server (84-91); there is no address, as in
`picoquic_client_save_ticket_call_back`, tls_api.c 1130-1132. -/
def store (now : Nat) (s : List Ticket) (sni alpn : Bytes) (version : Nat) (ticket : Bytes) (tp : List Nat) : List Ticket × Bool :=
  if ticket.length < 17 then (s, false)
  else if now ≠ 0 ∧ validUntil ticket < now then (s, false)
  else
    let t := format (validUntil ticket) sni alpn version [] [] (tp ++ [0, 0, 0, 0]) ticket
    (t :: s.filter (fun o => !(decide (o.expiry ≤ t.expiry) && sameKey o sni alpn version)), true)

/-- The condition of `picoquic_get_stored_ticket`, ticket_store.c 336-346. -/
def found (now : Nat) (sni alpn : Bytes) (version : Nat) (unused : Bool) (id : Nat) (t : Ticket) : Bool :=
  decide (t.expiry > now) && decide (t.sni.length = sni.length) && decide (t.alpn.length = alpn.length) && decide (t.sni = sni) && decide (t.alpn = alpn) &&
    (decide (version = 0) || decide (t.version = version)) && (!unused || !t.used) &&
    (decide (id = 0) || decide ((if t.ticket.length < 8 then 0 else (read64 t.ticket 0).getD 0) = id))

/-- A connection to a server looks for a ticket: `picoquic_get_stored_ticket` called at tls_api.c 2160-2162. The store is not changed. -/
def resume (now : Nat) (s : List Ticket) (sni alpn : Bytes) (version : Nat) : Option Ticket := s.find? (found now sni alpn version true 0)

/-- The first record with a property is changed. -/
def updateFirst (p : Ticket → Bool) (f : Ticket → Ticket) : List Ticket → List Ticket
  | [] => []
  | t :: ts => if p t then f t :: ts else t :: updateFirst p f ts

/-- `picoquic_get_ticket_and_version`, ticket_store.c 354-383. -/
def get (now : Nat) (s : List Ticket) (sni alpn : Bytes) (version : Nat) (mark : Bool) : List Ticket × Option Ticket :=
  (updateFirst (found now sni alpn version mark 0) (fun t => { t with used := mark }) s, s.find? (found now sni alpn version mark 0))

/-- `picoquic_update_stored_ticket`, ticket_store.c 526-568: address and measures of the path. The loop at 542-556 ends at the first record, which was found with the same conditions (the version is not 0). -/
def seed (now : Nat) (s : List Ticket) (sni alpn : Bytes) (version id : Nat) (ip client : Bytes) (rtt cwin rttRemote cwinRemote : Nat) : List Ticket :=
  updateFirst (found now sni alpn version false id) (fun t => { t with ip := ip, client := client, tp := t.tp.take 6 ++ [rtt, cwin, rttRemote, cwinRemote] }) s

/-- `picoquic_save_tickets`, ticket_store.c 398-431, at time `now`: the file, and whether the function succeeds. -/
def save (now : Nat) : List Ticket → Bytes × Bool
  | [] => ([], true)
  | t :: ts =>
    if t.expiry > now ∧ t.used = false then
      match serialize t 2048 with
      | none => ([], false)
      | some r => let x := save now ts; (le32 r.length ++ r ++ x.1, x.2)
    else save now ts

/-- `offsetof(struct st_picoquic_stored_ticket_t, time_valid_until)`: five pointers and ten numbers. -/
def OFFSET : Nat := 120

/-- Result of reading one record of a file: the end of the file, an error, or a record and the rest of the file. -/
inductive Record
  | eof
  | invalid
  | record (t : Ticket) (rest : Bytes)
deriving DecidableEq, Repr

/-- The check of the size and the parsing of a record, ticket_store.c 455-472. -/
def loadBody (n : Nat) (rest : Bytes) : Record :=
  if n > 2048 ∨ n + OFFSET > 2048 then .invalid
  else if rest.length < n then .invalid
  else
    match deserialize (rest.take n) with
    | .ok t consumed => if consumed ≠ n then .invalid else .record t (rest.drop n)
    | _ => .invalid

/-- One round of the loop of `picoquic_load_tickets`, ticket_store.c 451-472. -/
def loadRecord : Bytes → Record
  | a :: b :: c :: d :: rest => loadBody (parseLe32 a b c d) rest
  | _ => .eof

/-- The loop of `picoquic_load_tickets`, ticket_store.c 450-493. `fuel` is larger than the number of rounds. -/
def loadLoop (now : Nat) : Nat → Bytes → List Ticket × Bool
  | 0, _ => ([], true)
  | fuel + 1, file =>
    match loadRecord file with
    | .eof => ([], true)
    | .invalid => ([], false)
    | .record t rest =>
      if t.expiry < now then loadLoop now fuel rest
      else (t :: (loadLoop now fuel rest).1, (loadLoop now fuel rest).2)

/-- `picoquic_load_tickets`, ticket_store.c 433-498, at time `now` of a file that exists: the new store, and whether the function succeeds. The first record loaded takes the place of the whole store. -/
def load (now : Nat) (s : List Ticket) (file : Bytes) : List Ticket × Bool :=
  let x := loadLoop now (file.length + 1) file
  (if x.1 = [] then s else x.1, x.2)

end Picoquic.TicketStore
