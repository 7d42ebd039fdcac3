import Verif.Model.IntFormat
/-!
# Connection IDs for load balancers

Model of `picoquic/picoquic_lb.c`. The 20 bytes of a `picoquic_connection_id_t` are a list, and its
`id_len` is a separate number. AES is not modelled: a key gives two functions on blocks of 16 bytes,
`enc` and `dec`.
-/

namespace Picoquic.LoadBalancer

/-- `picoquic_load_balancer_cid_method_enum`, picoquic_lb.h 41-45. -/
inductive Method
  | clear
  | stream
  | block
deriving DecidableEq

/-- `picoquic_load_balancer_config_t`, picoquic_lb.h 47-56. -/
structure Config where
  method : Method
  /-- two bits -/
  rotation : Nat
  firstByteLength : Bool
  /-- `uint8_t`, as the next two -/
  serverIdLength : Nat
  nonceLength : Nat
  cidLength : Nat
  /-- 64 bits -/
  serverId64 : Nat
  key : Bytes
deriving DecidableEq

/-- `picoquic_load_balancer_cid_context_t`, picoquic_lb.h 63-74. `serverId` holds the first
`server_id_length` bytes of the array of 16, the others are never read. The two cipher contexts are
given apart, as `enc` and `dec`. -/
structure Ctx where
  method : Method
  rotation : Nat
  firstByteLength : Bool
  serverId : Bytes
  nonceLength : Nat
  cidLength : Nat
deriving DecidableEq

/-- `memcpy(id + off, src, length of src)`. -/
def copyAt (id : Bytes) (off : Nat) (src : Bytes) : Bytes :=
  id.take off ++ src ++ id.drop (off + src.length)

/-- The bytes `id[off .. off + len)`. -/
def slice (id : Bytes) (off len : Nat) : Bytes := (id.drop off).take len

/-- `picoquic_lb_compat_cid_generate_first_byte`, picoquic_lb.c 42-52. -/
def firstByte (ctx : Ctx) (localLength : Nat) (id : Bytes) : Bytes :=
  if ctx.firstByteLength then
    copyAt id 0 [u8 ((ctx.rotation <<< 6) ||| (localLength - 1))]
  else
    copyAt id 0 [u8 ((id.headD 0 &&& 0x3F).toNat ||| (ctx.rotation <<< 6))]

/-- `picoquic_lb_compat_cid_generate_clear`, picoquic_lb.c 54-59. -/
def generateClear (ctx : Ctx) (localLength : Nat) (id : Bytes) : Bytes :=
  copyAt (firstByte ctx localLength id) 1 ctx.serverId

/-- `picoquic_lb_compat_cid_one_pass_stream`, picoquic_lb.c 61-73: the new value of the target. The mask is the
encryption of the nonce padded with zeroes to 16 bytes. -/
def onePass (enc : Bytes → Bytes) (nonce target : Bytes) : Bytes :=
  target.zipWith (· ^^^ ·) (enc (nonce ++ List.replicate (16 - nonce.length) 0))

/-- The three passes over the connection ID, of which the nonce is at offset 1 and the server ID behind it:
picoquic_lb.c 91-100 and, the same ones, 169-177. -/
def threePasses (enc : Bytes → Bytes) (nonceLength sidLength : Nat) (id : Bytes) : Bytes :=
  let off := 1 + nonceLength
  let id1 := copyAt id off (onePass enc (slice id 1 nonceLength) (slice id off sidLength))
  let id2 := copyAt id1 1 (onePass enc (slice id1 off sidLength) (slice id1 1 nonceLength))
  copyAt id2 off (onePass enc (slice id2 1 nonceLength) (slice id2 off sidLength))

/-- `picoquic_lb_compat_cid_generate_stream_cipher`, picoquic_lb.c 84-101. -/
def generateStream (enc : Bytes → Bytes) (ctx : Ctx) (localLength : Nat) (id : Bytes) : Bytes :=
  threePasses enc ctx.nonceLength ctx.serverId.length
    (copyAt (firstByte ctx localLength id) (1 + ctx.nonceLength) ctx.serverId)

/-- `picoquic_lb_compat_cid_generate_block_cipher`, picoquic_lb.c 113-121. -/
def generateBlock (enc : Bytes → Bytes) (ctx : Ctx) (localLength : Nat) (id : Bytes) : Bytes :=
  let id1 := copyAt (firstByte ctx localLength id) 1 ctx.serverId
  copyAt id1 1 (enc (slice id1 1 16))

/-- `picoquic_lb_compat_cid_generate`, picoquic_lb.c 126-148. `id` is the array of 20 bytes, filled with random bytes
and zeroes by `picoquic_create_random_cnx_id`, quicctx.c 1505-1514. -/
def generate (enc : Bytes → Bytes) (ctx : Ctx) (localLength : Nat) (id : Bytes) : Bytes :=
  match ctx.method with
  | .clear => generateClear ctx localLength id
  | .stream => generateStream enc ctx localLength id
  | .block => generateBlock enc ctx localLength id

/-- `picoquic_create_local_cnx_id` with `picoquic_create_random_cnx_id`, quicctx.c 1505-1524, when the callback is the one
of the load balancer: the connection ID made of `random`, the random bytes, as many as the length of local connection
IDs. The rest of the array is zero. -/
def createLocalCid (enc : Bytes → Bytes) (ctx : Ctx) (random : Bytes) : Bytes :=
  (generate enc ctx random.length (random ++ List.replicate (20 - random.length) 0)).take random.length

/-- The loops `s_id64 <<= 8; s_id64 += …` on 64 bits, picoquic_lb.c 155-158, 180-183, 198-201. -/
def decode64 (v : Nat) : Bytes → Nat
  | [] => v
  | b :: bs => decode64 (u64 (u64 (v <<< 8) + b.toNat)) bs

/-- `picoquic_lb_compat_cid_verify_clear`, `_stream_cipher` and `_block_cipher`, picoquic_lb.c 150-205, and
`picoquic_lb_compat_cid_verify`, 207-234. -/
def verify (enc dec : Bytes → Bytes) (ctx : Ctx) (idLen : Nat) (id : Bytes) : Nat :=
  if idLen ≠ ctx.cidLength then UINT64_MAX
  else
    match ctx.method with
    | .clear => decode64 0 (slice id 1 ctx.serverId.length)
    | .stream =>
      decode64 0 (slice (threePasses enc ctx.nonceLength ctx.serverId.length id) (1 + ctx.nonceLength)
        ctx.serverId.length)
    | .block => decode64 0 ((dec (slice id 1 16)).take ctx.serverId.length)

/-- The loop of picoquic_lb.c 457-461: the bytes of the server ID, from the last one to the first one, and what is left
of the number. -/
def serverIdBytes : Nat → Nat → Bytes → Bytes × Nat
  | 0, s, acc => (acc, s)
  | k + 1, s, acc => serverIdBytes k (s >>> 8) (u8 s :: acc)

/-- Result of `picoquic_lb_compat_cid_config`. -/
inductive Outcome
  /-- return code -1 -/
  | refused
  /-- the array of 16 bytes is written out of bounds -/
  | outOfBounds
  /-- return code 0, with the context of the callback; the local connection IDs have its length from now on -/
  | accepted (ctx : Ctx)
deriving DecidableEq

/-- The checks of the parameters, picoquic_lb.c 404-436. -/
def supported (c : Config) : Bool :=
  if c.cidLength > 20 then false
  else
    match c.method with
    | .clear => !(c.serverIdLength + 1 > c.cidLength)
    | .stream =>
      !(c.nonceLength < 8 || c.nonceLength > 16 || c.nonceLength + c.serverIdLength + 1 > c.cidLength)
    | .block => !(c.cidLength < 17 || c.serverIdLength > 15)

/-- `picoquic_lb_compat_cid_config`, picoquic_lb.c 389-495. `hasConnections` is `cnx_list != NULL`, `localLength` the
present length of the local connection IDs, `configured` says that another callback with a context is present.
Allocations and the creation of the ciphers do not fail. -/
def config (hasConnections : Bool) (localLength : Nat) (configured : Bool) (c : Config) : Outcome :=
  if hasConnections && localLength != c.cidLength then .refused
  else if configured then .refused
  else if !supported c then .refused
  else if c.serverIdLength > 16 then .outOfBounds
  else
    let (bytes, rest) := serverIdBytes c.serverIdLength c.serverId64 []
    if rest ≠ 0 then .refused
    else .accepted
      { method := c.method, rotation := c.rotation, firstByteLength := c.firstByteLength, serverId := bytes,
        nonceLength := c.nonceLength, cidLength := c.cidLength }

/-- The loops that read a decimal number below 256, picoquic_lb.c 271-282 and 298-309: the number and the remaining
text, or `none` for an error. -/
def readNumber (v : Nat) : List Char → Option (Nat × List Char)
  | [] => some (v, [])
  | c :: cs =>
    if '0' ≤ c ∧ c ≤ '9' then
      let v' := v * 10 + (c.toNat - '0'.toNat)
      if v' < 256 then readNumber v' cs else none
    else some (v, c :: cs)

/-- The loops `server_id64 <<= 8; server_id64 |= …`, picoquic_lb.c 344-347, for at most 8 bytes. -/
def join64 (v : Nat) : Bytes → Nat
  | [] => v
  | b :: bs => join64 (u64 (v <<< 8) ||| b.toNat) bs

/-- The separator `-`, picoquic_lb.c 320-326 and 354-360. The character behind the text is read when the text
is at its end; the text is assumed to be followed by a null character, as with `strlen`. -/
def readHyphen : List Char → Option (List Char)
  | '-' :: cs => some cs
  | _ => none

/-- The method, picoquic_lb.c 284-319: the method, the length of the nonce, the remaining text. -/
def readMethod : List Char → Option (Method × Nat × List Char)
  | [] => none
  | c :: cs =>
    if c = 'c' ∨ c = 'C' then some (.clear, 0, cs)
    else if c = 's' ∨ c = 'S' then
      match readNumber 0 cs with
      | none => none
      | some (n, cs) => some (.stream, n, cs)
    else if c = 'b' ∨ c = 'B' then some (.block, 0, cs)
    else none

/-- The key, picoquic_lb.c 351-376. -/
def readKey (m : Method) (cs : List Char) : Option (Bytes × List Char) :=
  match m with
  | .clear => some (List.replicate 16 0, cs)
  | _ =>
    match readHyphen cs with
    | none => none
    | some cs =>
      if cs.length < 32 then none
      else
        let key := parseHexa cs 16
        if key.length ≠ 16 then none else some (key, cs.drop 32)

/-- The check of the length, picoquic_lb.c 379-385. -/
def lengthFits (c : Config) : Bool :=
  if c.cidLength ≠ 0 then
    !(c.cidLength < 1 + c.serverIdLength + c.nonceLength || (c.method = .block && c.cidLength < 17))
  else true

/-- `picoquic_lb_compat_cid_config_parse`, picoquic_lb.c 236-387: the configuration, or `none` for a return code other
than 0. An error is never taken back, so the parsing is stopped at the first one; the content of the configuration
is then not modelled. -/
def parse (txt : List Char) : Option Config :=
  if txt.length < 4 then none
  else
    match txt with
    | r :: y :: cs =>
      if ¬('0' ≤ r ∧ r ≤ '3') then none
      else if ¬(y = 'Y' ∨ y = 'y' ∨ y = 'N' ∨ y = 'n') then none
      else
        match readNumber 0 cs with
        | none => none
        | some (len, cs) =>
          match readMethod cs with
          | none => none
          | some (m, nonce, cs) =>
            match readHyphen cs with
            | none => none
            | some cs =>
              if cs = [] then none
              else
                let hex := cs.takeWhile (· ≠ '-')
                let sid := parseHexa hex 8
                if sid.length = 0 then none
                else
                  match readKey m (cs.drop (2 * sid.length)) with
                  | none => none
                  | some (key, cs) =>
                    if cs ≠ [] then none
                    else
                      let c : Config :=
                        { method := m, rotation := r.toNat - '0'.toNat, firstByteLength := y = 'Y' || y = 'y',
                          serverIdLength := sid.length, nonceLength := nonce, cidLength := len,
                          serverId64 := join64 0 sid, key := key }
                      if lengthFits c then some c else none
    | _ => none

end Picoquic.LoadBalancer
