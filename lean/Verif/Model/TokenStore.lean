import Verif.Model.IntFormat
/-!
# The store of address validation tokens

Model of /repo/picoquic/token_store.c: serialization of a token, the store and its file.

Simplifications. Memory allocation and file operations do not fail; a file is its bytes. The store is the list
of its records in the order of the links. The size of a record in a file is written from the memory of a
`size_t`, on a little-endian machine with 64-bit pointers.
-/

namespace Picoquic.TokenStore
open Picoquic

/-- `picoquic_stored_token_t`, picoquic_internal.h 507-517: `time_valid_until`, the server name, the
address, the token and `was_used`. -/
structure Token where
  expiry : Nat
  sni : Bytes
  ip : Bytes
  token : Bytes
  used : Bool := false
deriving DecidableEq, Repr

/-- Size of a serialized token, token_store.c 68. -/
def Token.size (t : Token) : Nat := 14 + t.sni.length + t.ip.length + t.token.length

/-- `picoquic_serialize_token`, token_store.c 61-98, in a buffer of `room` bytes: the bytes written, or
`none` for `PICOQUIC_ERROR_FRAME_BUFFER_TOO_SMALL`. -/
def serialize (t : Token) (room : Nat) : Option Bytes :=
  if t.size > room then none
  else some (picoformat64 t.expiry ++ picoformat16 t.sni.length ++ t.sni ++
    picoformat16 t.ip.length ++ t.ip ++ picoformat16 t.token.length ++ t.token)

/-- A read of `n` bytes at index `i`; `none` if it is not within the buffer. -/
def read (bs : Bytes) (i n : Nat) : Option Bytes :=
  if i + n ≤ bs.length then some ((bs.drop i).take n) else none

/-- `PICOPARSE_16(bytes + i)`. -/
def read16 (bs : Bytes) (i : Nat) : Option Nat :=
  match read bs i 2 with
  | some [a, b] => some (parse16 a b)
  | _ => none

/-- `PICOPARSE_64(bytes + i)`. -/
def read64 (bs : Bytes) (i : Nat) : Option Nat :=
  match read bs i 8 with
  | some [a, b, c, d, e, f, g, h] => some (parse64 a b c d e f g h)
  | _ => none

/-- Result of `picoquic_deserialize_token`: a read outside of the buffer, an error, or the record and the
length consumed. -/
inductive Deser
  | outside
  | invalid
  | ok (t : Token) (consumed : Nat)
deriving DecidableEq, Repr

/-- The end of `picoquic_deserialize_token`, token_store.c 139-152, with the copies made by
`picoquic_format_token`, 29-59. -/
def deserFormat (bs : Bytes) (expiry required sniIndex sniLength ipIndex ipLength tokenIndex
    tokenLength : Nat) : Deser :=
  if required > bs.length then .invalid
  else
    match read bs sniIndex sniLength, read bs ipIndex ipLength, read bs tokenIndex tokenLength with
    | some sni, some ip, some token => .ok ⟨expiry, sni, ip, token, false⟩ required
    | _, _, _ => .outside

/-- The third part, token_store.c 132-137. -/
def deserToken (bs : Bytes) (expiry required index sniIndex sniLength ipIndex ipLength : Nat) : Deser :=
  if required < bs.length then
    match read16 bs index with
    | none => .outside
    | some n =>
      deserFormat bs expiry (required + n) sniIndex sniLength ipIndex ipLength (index + 2) n
  else deserFormat bs expiry required sniIndex sniLength ipIndex ipLength 0 0

/-- The second part, token_store.c 124-130. The length is cast to 8 bits. -/
def deserIp (bs : Bytes) (expiry required index sniIndex sniLength : Nat) : Deser :=
  if required < bs.length then
    match read16 bs index with
    | none => .outside
    | some n =>
      deserToken bs expiry (required + n % 256) (index + 2 + n % 256) sniIndex sniLength (index + 2)
        (n % 256)
  else deserToken bs expiry required index sniIndex sniLength 0 0

/-- `picoquic_deserialize_token`, token_store.c 100-155, of the bytes `bs`. -/
def deserialize (bs : Bytes) : Deser :=
  if 14 < bs.length then
    match read64 bs 0, read16 bs 8 with
    | some expiry, some n => deserIp bs expiry (14 + n) (10 + n) 10 n
    | _, _ => .outside
  else deserIp bs 0 14 0 0 0

/-- 24 hours in microseconds, token_store.c 173. -/
def DAY : Nat := 24 * 3600 * 1000000

/-- `picoquic_store_token`, token_store.c 157-202, at time `now`: the new store, and whether the
token was accepted. -/
def store (now : Nat) (s : List Token) (sni ip token : Bytes) : List Token × Bool :=
  if token.length < 1 ∨ sni.length = 0 then (s, false)
  else
    let t : Token := ⟨u64 (now + DAY), sni, ip, token, false⟩
    (t :: s.filter (fun o => !(decide (o.expiry ≤ t.expiry) && decide (o.sni.length = sni.length) &&
      decide (o.ip.length = ip.length) && decide (o.sni = sni) && decide (o.ip = ip))), true)

/-- The record selected by the loop of `picoquic_get_token`, token_store.c 217-233, as its index.
`best` is the index and the expiry of `best_match`. -/
def findToken (now : Nat) (sni ip : Bytes) : Nat → Option (Nat × Nat) → List Token → Option (Nat × Nat)
  | _, best, [] => best
  | i, best, t :: ts =>
    if t.expiry > now ∧ t.sni.length = sni.length ∧ t.sni = sni ∧ t.used = false then
      if ip.length > 0 then
        if t.ip.length = ip.length ∧ t.ip = ip then some (i, t.expiry)
        else findToken now sni ip (i + 1) best ts
      else
        match best with
        | none => findToken now sni ip (i + 1) (some (i, t.expiry)) ts
        | some b =>
          if t.expiry > b.2 then findToken now sni ip (i + 1) (some (i, t.expiry)) ts
          else findToken now sni ip (i + 1) best ts
    else findToken now sni ip (i + 1) best ts

/-- `picoquic_get_token`, token_store.c 204-244, at time `now`: the new store and the token, if any. -/
def get (now : Nat) (s : List Token) (sni ip : Bytes) (markUsed : Bool) : List Token × Option Bytes :=
  match findToken now sni ip 0 none s with
  | none => (s, none)
  | some (i, _) =>
    match s[i]? with
    | none => (s, none)
    | some t =>
      if t.token.length = 0 then (s, none)
      else (s.set i { t with used := markUsed }, some t.token)

/-- The 4 low bytes of a `size_t`, token_store.c 268. -/
def le32 (n : Nat) : Bytes := [u8 n, u8 (n >>> 8), u8 (n >>> 16), u8 (n >>> 24)]

/-- A `uint32_t` read from a file, token_store.c 300. -/
def parseLe32 (a b c d : UInt8) : Nat := a.toNat + b.toNat * 256 + c.toNat * 65536 + d.toNat * 16777216

/-- `picoquic_save_tokens`, token_store.c 246-280, at time `now`: the file, and whether the function
succeeds. -/
def save (now : Nat) : List Token → Bytes × Bool
  | [] => ([], true)
  | t :: ts =>
    if t.expiry > now ∧ t.used = false then
      match serialize t 2048 with
      | none => ([], false)
      | some r => let x := save now ts; (le32 r.length ++ r ++ x.1, x.2)
    else save now ts

/-- `offsetof(struct st_picoquic_stored_token_t, time_valid_until)`: four pointers. -/
def OFFSET : Nat := 32

/-- Result of reading one record of a file: the end of the file, an error, or a record and the rest of the
file. -/
inductive Record
  | eof
  | invalid
  | record (t : Token) (rest : Bytes)
deriving DecidableEq, Repr

/-- The check of the size and the parsing of a record, token_store.c 304-319. -/
def loadBody (n : Nat) (rest : Bytes) : Record :=
  if n > 2048 ∨ n + OFFSET > 2048 then .invalid
  else if rest.length < n then .invalid
  else
    match deserialize (rest.take n) with
    | .ok t consumed => if consumed ≠ n then .invalid else .record t (rest.drop n)
    | _ => .invalid

/-- One round of the loop of `picoquic_load_tokens`, token_store.c 300-319. -/
def loadRecord : Bytes → Record
  | a :: b :: c :: d :: rest => loadBody (parseLe32 a b c d) rest
  | _ => .eof

/-- The loop of `picoquic_load_tokens`, token_store.c 299-341: the records linked and whether
the function succeeds. `fuel` is larger than the number of rounds. -/
def loadLoop (now : Nat) : Nat → Bytes → List Token × Bool
  | 0, _ => ([], true)
  | fuel + 1, file =>
    match loadRecord file with
    | .eof => ([], true)
    | .invalid => ([], false)
    | .record t rest =>
      if t.expiry < now then loadLoop now fuel rest
      else (t :: (loadLoop now fuel rest).1, (loadLoop now fuel rest).2)

/-- `picoquic_load_tokens`, token_store.c 282-346, at time `now` of a file that exists: the new store,
and whether the function succeeds. The first record loaded takes the place of the whole store. -/
def load (now : Nat) (s : List Token) (file : Bytes) : List Token × Bool :=
  let x := loadLoop now (file.length + 1) file
  (if x.1 = [] then s else x.1, x.2)

end Picoquic.TokenStore
