import Verif.Model.PacketHeader
/-!
# Admission of new connections by a server

Model of the address tokens (`picoquic/tls_api.c`, `picoquic/quicctx.c`), of the screening of first Initial packets, and of
Retry packets at the server and at the client (`picoquic/packet.c`). The AEAD functions are arbitrary.
-/

namespace Picoquic.Admission
open Picoquic.Packet

/-- `aead_encrypt_ticket_ctx` and `aead_decrypt_ticket_ctx`: the arguments are the sequence number, the authenticated data and
the text. -/
structure TokenKeys where
  enc : Nat → Bytes → Bytes → Bytes
  dec : Nat → Bytes → Bytes → Option Bytes

/-- `PICOQUIC_RETRY_TOKEN_PAD_SIZE`, picoquic_internal.h 47. -/
def TOKEN_PAD : Nat := 26

/-- The microseconds that `picoquic_prepare_retry_token` adds for a Retry token, tls_api.c 2805. -/
def TOKEN_EXTRA_SHORT : Nat := 4000000

/-- The microseconds that `picoquic_prepare_retry_token` adds for other tokens, tls_api.c 2802. -/
def TOKEN_EXTRA_LONG : Nat := 86400000000

/-- `PICOQUIC_TOKEN_DELAY_SHORT`, picoquic_internal.h 68. -/
def TOKEN_DELAY_SHORT : Nat := 120000000

/-- `PICOQUIC_TOKEN_DELAY_LONG`, picoquic_internal.h 67. -/
def TOKEN_DELAY_LONG : Nat := 86400000000

/-- `picoquic_server_encrypt_retry_token`, tls_api.c 2715-2749. `ip` are the 4 or 16 bytes of the address, `r0` and `rnd` are the 8
random bytes: `none` if they are not 8. -/
def encryptToken (k : TokenKeys) (ip : Bytes) (isNew : Bool) (r0 : UInt8) (rnd : Bytes) (tokenMax : Nat) (text : Bytes) :
    Option Bytes :=
  if text.length + 1 + 16 > tokenMax then none
  else
    let front := (if isNew then r0 ||| 0x80 else r0 &&& 0x7F) :: rnd
    match framesUint64Decode front with
    | some (sequence, []) => some (front ++ k.enc sequence ip text)
    | _ => none

/-- The text of a token, tls_api.c 2807-2817. -/
def tokenText (time : Nat) (odcid rcid : Cid) (pn : Nat) : Option Bytes :=
  (Enc.seq (framesUint64Encode time) (Enc.seq (framesCidEncode odcid) (Enc.seq (framesCidEncode rcid) (framesVarintEncode pn))) 128).map
    (fun t => t ++ List.replicate (TOKEN_PAD - t.length) 0)

/-- `picoquic_prepare_retry_token`, tls_api.c 2789-2825. The buffer of the callers has 256 bytes. -/
def prepareToken (k : TokenKeys) (ip : Bytes) (now : Nat) (odcid rcid : Cid) (pn : Nat) (r0 : UInt8) (rnd : Bytes) :
    Option Bytes :=
  let time := u64 (now + (if odcid.length = 0 then TOKEN_EXTRA_LONG else TOKEN_EXTRA_SHORT))
  match tokenText time odcid rcid pn with
  | some text => encryptToken k ip (odcid.length == 0) r0 rnd 256 text
  | none => none

/-- The tokens which were used: time and last 8 bytes. The splay tree `token_reuse_tree` is a list here, see C04. -/
abbrev Used := List (Nat × Bytes)

/-- Result of `picoquic_verify_retry_token`: whether it returns 0, `*is_new_token`, `*odcid`, and the new `token_reuse_tree`. -/
structure Verified where
  good : Bool
  isNew : Bool
  odcid : Cid
  used : Used

/-- `picoquic_registered_token_clear`, quicctx.c 589-602. The tree is sorted by the time. -/
def clearUsed (used : Used) (now : Nat) : Used := used.filter (fun u => decide (now ≤ u.1))

/-- The fields of the text of a token, tls_api.c 2856-2859: time, original connection ID, connection ID of the Retry packet, packet number.
The variable `cid` has an undefined content before; it is taken to be the null connection ID. -/
def parseToken (text : Bytes) : Option (Nat × Cid × Cid × Nat) :=
  match framesUint64Decode text with
  | none => none
  | some (time, r) =>
    match framesCidDecode 0 r with
    | .ok odcid r =>
      match framesCidDecode 0 r with
      | .ok cid r =>
        match framesVarintDecode r with
        | some (pn, _) => some (time, odcid, cid, pn)
        | none => none
      | _ => none
    | _ => none

/-- `picoquic_verify_retry_token`, tls_api.c 2827-2891, with `picoquic_server_decrypt_retry_token`, tls_api.c 2751-2787, and
`picoquic_registered_token_check_reuse`, quicctx.c 560-587. Its only caller sets `check_reuse`. When the text has not the
expected format the code returns 0. -/
def verifyToken (k : TokenKeys) (used : Used) (ip : Bytes) (now : Nat) (dcid : Cid) (pn : Nat) (token : Bytes) : Verified :=
  if token.length > 128 then ⟨false, false, [], used⟩
  else
    match framesUint64Decode token with
    | none => ⟨false, false, [], used⟩
    | some (sequence, sealed) =>
      let isNew := token.headD 0 &&& 0x80 != 0
      match k.dec sequence ip sealed with
      | none => ⟨false, isNew, [], used⟩
      | some text =>
        match parseToken text with
        | none => ⟨true, isNew, [], used⟩
        | some (time, odcid, cid, tokenPn) =>
          if time < now then ⟨false, isNew, odcid, used⟩
          else if pn ≠ 4294967295 ∧ odcid.length > 0 ∧ tokenPn ≥ pn then ⟨false, isNew, odcid, used⟩
          else
            let used := clearUsed used now
            let entry := (time, token.drop (token.length - 8))
            if used.contains entry then ⟨false, isNew, odcid, used⟩
            else if odcid.length > 0 ∧ !compareCidEq dcid cid then ⟨false, isNew, odcid, entry :: used⟩
            else ⟨true, isNew, odcid, entry :: used⟩

/-! ### Screening -/

/-- `picoquic_blocked_port_list`, port_blocking.c 109-128. -/
def blockedPorts : List Nat :=
  [27015, 20800, 11211, 5353, 1900, 520, 500, 389, 161, 138, 137, 123, 111, 53, 19, 17, 7, 0]

/-- `picoquic_check_port_blocked`, port_blocking.c 132-144: the loop stops at the first port which is smaller. -/
def portBlocked (port : Nat) : List Nat → Bool
  | [] => false
  | p :: ps => if port ≤ p then (if port = p then true else portBlocked port ps) else false

/-- The parts of `picoquic_quic_t` which are used here. -/
structure Server where
  keys : TokenKeys
  used : Used
  /-- `enforce_client_only` -/
  clientOnly : Bool
  /-- `server_busy` -/
  busy : Bool
  /-- `current_number_connections` -/
  connections : Nat
  /-- `tentative_max_number_connections` -/
  maxConnections : Nat
  /-- `force_check_token` -/
  forceToken : Bool
  /-- `max_half_open_before_retry` -/
  maxHalfOpen : Nat
  /-- `current_number_half_open` -/
  halfOpen : Nat
  /-- `is_port_blocking_disabled` -/
  portsOpen : Bool

/-- An Initial packet which belongs to no connection. -/
structure First where
  /-- length of the datagram -/
  length : Nat
  ip : Bytes
  port : Nat
  dcid : Cid
  token : Bytes
  /-- `has_reserved_bit_set` -/
  reserved : Bool
  /-- the packet could be decrypted with the keys of its version and destination connection ID -/
  authentic : Bool
  /-- packet number, when it could be decrypted -/
  pn : Nat

/-- Outcome of the screening. -/
inductive Screened
  /-- `PICOQUIC_ERROR_INITIAL_TOO_SHORT`, `_INITIAL_CID_TOO_SHORT`, `_PACKET_HEADER_PARSING`, `_AEAD_CHECK`, `_INVALID_TOKEN` -/
  | dropped
  /-- `PICOQUIC_ERROR_SERVER_BUSY` -/
  | busy
  /-- `PICOQUIC_ERROR_RETRY_NEEDED` -/
  | retry
  /-- a connection is created: `initial_validated`, and `original_cnxid` -/
  | created (validated : Bool) (odcid : Cid)
deriving DecidableEq

/-- `picoquic_screen_initial_packet`, packet.c 131-186: what is decided once the token was verified. -/
def admit (s : Server) (p : First) (v : Verified) : Screened × Server :=
  let blocked := !s.portsOpen && portBlocked p.port blockedPorts
  let good := p.token.length > 0 ∧ v.good
  let bad := p.token.length > 0 ∧ !v.good
  if bad ∧ !v.isNew then (.dropped, { s with used := v.used })
  else if ¬good ∧ (s.forceToken ∨ s.maxHalfOpen ≤ s.halfOpen ∨ blocked) then (.retry, { s with used := v.used })
  else if good then (.created true v.odcid, { s with used := v.used })
  else (.created false [], { s with used := v.used })

/-- `picoquic_screen_initial_packet`, packet.c 85-198, when there is memory. -/
def screen (s : Server) (now : Nat) (p : First) : Screened × Server :=
  if p.length < 1200 then (.dropped, s)
  else if p.dcid.length < 8 then (.dropped, s)
  else if p.reserved then (.dropped, s)
  else if s.clientOnly then (.busy, s)
  else if s.busy ∨ s.connections ≥ s.maxConnections then (.busy, s)
  else if !p.authentic then (.dropped, s)
  else if p.token.length > 0 then admit s p (verifyToken s.keys s.used p.ip now p.dcid (u32 p.pn) p.token)
  else admit s p ⟨false, false, [], s.used⟩

/-! ### Retry packets -/

/-- `picoquic_queue_stateless_retry`, packet.c 1105-1171, for the versions which have a key for the integrity tag: `tag` is the
AEAD of the empty text, its argument the authenticated data. -/
def retryPacket (tag : Bytes → Bytes) (vn version : Nat) (odcid clientCid serverCid : Cid) (token : Bytes) : Bytes :=
  let hdr := (createLong
    { ptype := .retry, version := version, vn := vn, dcid := clientCid, scid := serverCid, token := token, number := 0,
      grease := false, flags := 0, pnLength := 4, payload := [] }).1
  let body := if hdr.length + token.length < MAX_PACKET_SIZE then hdr ++ token else hdr
  if body.length + 16 < MAX_PACKET_SIZE ∧ body.length + odcid.length + 1 < MAX_PACKET_SIZE then
    body ++ tag (u8 odcid.length :: odcid ++ body)
  else body

/-- The client, as it waits for the first packets of the server. -/
structure Client where
  /-- `cnx_state` is `client_init_sent` or `client_init_resent` -/
  waiting : Bool
  /-- `original_cnxid` -/
  original : Cid
  /-- `initial_cnxid` -/
  initial : Cid
  version : Nat
  /-- the version number of `version_index` -/
  vn : Nat
  token : Bytes

/-- `picoquic_incoming_retry`, packet.c 1493-1585: `none` when the packet is ignored. `check` is `picoquic_aead_decrypt_generic` of
the tag with the authenticated data. `bs` is the packet. -/
def incomingRetry (check : Bytes → Bytes → Bool) (c : Client) (ph : Ph) (bs : Bytes) : Option Client :=
  if !c.waiting ∨ c.original.length ≠ 0 then none
  else if ph.vn ≠ c.vn ∨ ph.pn64 ≠ 0 then none
  else
    let length := ph.offset + ph.payloadLength
    if ph.offset + 16 < length then
      let length := length - 16
      if length + c.initial.length + 1 < MAX_PACKET_SIZE ∧
          check (u8 c.initial.length :: c.initial ++ bs.take length) ((bs.drop length).take 16) then
        some { c with original := c.initial, initial := ph.scid, token := (bs.take length).drop ph.offset }
      else none
    else none

end Picoquic.Admission
