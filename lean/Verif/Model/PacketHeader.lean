import Verif.Model.PacketNumber
/-!
# Packets: headers, protection and the datagrams they are carried in

Model of the creation of packets by `picoquic/sender.c` and of the loop of `picoquic/packet.c` which splits a datagram in
packets, parses their headers and decrypts them. The ciphers (picotls) are arbitrary functions. What is done with
the content of a packet once it is decrypted is not modelled here: it is the function `act` of a `Machine`.
-/

namespace Picoquic.Packet
open Picoquic.PacketNumber

/-- `picoquic_packet_type_enum`, picoquic_internal.h 265-274. -/
inductive PType
  | error
  | versionNegotiation
  | initial
  | retry
  | handshake
  | zeroRtt
  | oneRtt
deriving DecidableEq, Repr

/-- `PICOQUIC_MAX_PACKET_SIZE`, picoquic.h 143: the size of the buffers `data` of `picoquic_stream_data_node_t` and `bytes`
of `picoquic_packet_t`. -/
def MAX_PACKET_SIZE : Nat := 1536

/-- `PICOQUIC_ENFORCED_INITIAL_MTU`, picoquic_internal.h 42. -/
def INITIAL_MTU : Nat := 1200

/-- `PICOQUIC_RESET_PACKET_MIN_SIZE`, picoquic.h 146-148. -/
def RESET_MIN_SIZE : Nat := 39

/-- The fields `version` and `packet_type_version` of `picoquic_supported_versions`, quicctx.c 121-239. The
second one is either version 1 or version 2; it is `true` for version 2. -/
def versionTable : List (Nat × Bool) :=
  [(0x00000001, false), (0x6b3343cf, true), (0x709a50c4, true), (0xFF000022, false), (0xFF000021, false),
   (0xFF000020, false), (0xFF00001F, false), (0xFF00001D, false), (0xFF00001E, false), (0xFF00001C, false),
   (0xFF00001B, false), (0x50435131, false), (0x50435130, false)]

/-- `picoquic_get_version_index`, quicctx.c 1491-1503: `none` is -1. -/
def versionIndex (vn : Nat) : Option Nat := versionTable.findIdx? (fun e => e.1 == vn)

/-- `picoquic_supported_versions[i].packet_type_version`. -/
def isV2 (i : Nat) : Bool := (versionTable.getD i (0, false)).2

/-- `picoquic_parse_long_packet_type`, packet.c 38-83. -/
def parseLongType (flags : UInt8) (i : Nat) : PType :=
  let t := (flags.toNat >>> 4) &&& 3
  if isV2 i then
    if t = 1 then .initial else if t = 2 then .zeroRtt else if t = 3 then .handshake else .retry
  else
    if t = 0 then .initial else if t = 1 then .zeroRtt else if t = 2 then .handshake else .retry

/-- `picoquic_create_long_packet_type`, sender.c 520-573. -/
def createLongType (t : PType) (i : Nat) : UInt8 :=
  if isV2 i then
    match t with
    | .initial => 0xD3
    | .zeroRtt => 0xE3
    | .handshake => 0xF3
    | .retry => 0xC0
    | _ => 0xFF
  else
    match t with
    | .initial => 0xC3
    | .zeroRtt => 0xD3
    | .handshake => 0xE3
    | .retry => 0xF0
    | _ => 0xFF

/-- The keys of one direction at one encryption level: the AEAD functions take the packet number, the
authenticated data and the text; `mask` takes the bytes from the start of the sample on and gives the mask. With
multipath the nonce has also the path identifier: the keys are then those of one path. -/
structure Keys where
  enc : Nat → Bytes → Bytes → Bytes
  dec : Nat → Bytes → Bytes → Option Bytes
  mask : Bytes → Bytes

/-- The parts of a `picoquic_cnx_t` which are used to receive a packet. -/
structure Cnx where
  /-- `client_mode` -/
  client : Bool
  /-- `version_index` -/
  version : Nat
  /-- `local_parameters.do_grease_quic_bit` -/
  grease : Bool
  /-- `is_loss_bit_enabled_incoming` -/
  lossIn : Bool
  /-- `crypto_context[epoch]`, by packet type -/
  keys : PType → Option Keys
  /-- `key_phase_dec` -/
  keyPhase : Nat
  /-- the keys with which a 1-RTT packet of the other key phase is tried: the old or the new ones, packet.c 669-723 -/
  otherKeys : Option Keys
  /-- `picoquic_sack_list_last`, by packet type -/
  largest : PType → Nat
  /-- `picoquic_is_pn_already_received`, by packet type -/
  received : PType → Nat → Bool
  /-- `path[0]->first_tuple->p_remote_cnxid->reset_secret` -/
  resetSecret : Bytes

/-- What the receiver knows when a packet comes from some address. -/
structure Host where
  /-- `local_cnxid_length`, at most 20 -/
  cidLength : Nat
  /-- `picoquic_cnx_by_id` -/
  byId : Cid → Option Cnx
  /-- `picoquic_cnx_by_net` -/
  byNet : Option Cnx
  /-- `picoquic_cnx_by_icid` -/
  byIcid : Cid → Option Cnx
  /-- `picoquic_screen_initial_packet`, for destination, source and token: the connection it creates, or `none` when
  the packet is refused -/
  screen : Cid → Cid → Bytes → Option Cnx
  /-- `picoquic_cnx_by_secret`: whether there is a connection with this reset secret -/
  bySecret : Bytes → Bool

/-- `picoquic_packet_header`, picoquic_internal.h 281-309: the fields used here. -/
structure Ph where
  ptype : PType
  vn : Nat
  /-- `version_index`, `none` for -1 -/
  version : Option Nat
  dcid : Cid
  scid : Cid
  token : Bytes
  offset : Nat
  payloadLength : Nat
  pnOffset : Nat
  pn64 : Nat
deriving DecidableEq

/-- Result of `picoquic_parse_packet_header`. -/
inductive Parsed
  /-- return code -1 -/
  | malformed
  /-- `PICOQUIC_ERROR_VERSION_NOT_SUPPORTED` -/
  | unsupported
  | header (ph : Ph) (cnx : Option Cnx)

/-- Search of the connection for a long header, packet.c 350-367. -/
def findLong (h : Host) (t : PType) (dcid : Cid) : Option Cnx :=
  if h.cidLength = 0 then h.byNet
  else
    match (if dcid.length = h.cidLength then h.byId dcid else none) with
    | some c => some c
    | none => if t = .initial ∨ t = .zeroRtt then h.byIcid dcid else none

/-- Search of the connection of a packet in error or a version negotiation, packet.c 251-258 and 375-382. -/
def findOther (h : Host) (dcid : Cid) : Option Cnx :=
  if h.cidLength = 0 then h.byNet
  else if dcid.length = h.cidLength then h.byId dcid else none

/-- End of a successful parsing, packet.c 342-371. -/
def longFound (h : Host) (flags : UInt8) (ph : Ph) : Parsed :=
  let c := findLong h ph.ptype ph.dcid
  match c with
  | some x => if flags &&& 0x40 = 0 ∧ !x.grease then .header { ph with ptype := .error } c else .header ph c
  | none => .header ph c

/-- End of the parsing of a malformed packet, packet.c 373-383. -/
def longError (h : Host) (ph : Ph) : Parsed := .header { ph with ptype := .error } (findOther h ph.dcid)

/-- The payload length, packet.c 331-349. `len` is the length of what is left of the datagram, `bs` what is left behind the
connection IDs and the token. -/
def parseLength (h : Host) (len : Nat) (flags : UInt8) (ph : Ph) (bs : Bytes) : Parsed :=
  match framesVarlenDecode bs with
  | none => longError h { ph with payloadLength := u16 (len - ph.offset) }
  | some (pl, bs) =>
    if bs.length < pl then longError h { ph with payloadLength := u16 (len - ph.offset) }
    else longFound h flags { ph with payloadLength := u16 pl, offset := len - bs.length, pnOffset := len - bs.length }

/-- The part of a long header behind the connection IDs, packet.c 261-386, for a supported version. -/
def parseTyped (h : Host) (len : Nat) (flags : UInt8) (ph : Ph) (bs : Bytes) : Parsed :=
  match ph.ptype with
  | .initial =>
    match framesVarlenDecode bs with
    | none => longError h { ph with offset := len }
    | some (tl, bs) =>
      if bs.length < tl then longError h { ph with offset := len }
      else
        parseLength h len flags { ph with token := bs.take tl, offset := len - (bs.length - tl) } (bs.drop tl)
  | .retry =>
    if len > ph.offset then
      longFound h flags { ph with payloadLength := u16 (len - ph.offset), pnOffset := ph.offset }
    else longError h ph
  | _ => parseLength h len flags ph bs

/-- `picoquic_parse_long_packet_header`, packet.c 201-386, when the connection is not known before. -/
def parseLong (h : Host) (bs : Bytes) : Parsed :=
  match framesUint8Decode bs with
  | none => .malformed
  | some (flags, r) =>
    match framesUint32Decode r with
    | none => .malformed
    | some (vn, r) =>
      if vn ≠ 0 ∧ versionIndex vn = none then .unsupported
      else
        match framesCidDecode 0 r with
        | .ok dcid r =>
          match framesCidDecode 0 r with
          | .ok scid r =>
            let offset := bs.length - r.length
            let ph : Ph :=
              { ptype := .versionNegotiation, vn := vn, version := versionIndex vn, dcid := dcid,
                scid := scid, token := [], offset := offset, payloadLength := u16 (bs.length - offset),
                pnOffset := 0, pn64 := 0 }
            if vn = 0 then .header ph (findOther h dcid)
            else
              parseTyped h bs.length flags
                { ph with ptype := parseLongType flags ((versionIndex vn).getD 0), payloadLength := 0 } r
          | _ => .malformed
        | _ => .malformed

/-- `picoquic_parse_short_packet_header`, packet.c 388-466, when the connection is not known before and the packet is a
received one. -/
def parseShort (h : Host) (bs : Bytes) : Parsed :=
  if 1 + h.cidLength ≤ bs.length then
    let dcid := (bs.drop 1).take h.cidLength
    let c := if h.cidLength > 0 then h.byId dcid else h.byNet
    let ph : Ph :=
      { ptype := .oneRtt, vn := 0, version := none, dcid := dcid, scid := [], token := [],
        offset := 1 + h.cidLength, payloadLength := u16 (bs.length - (1 + h.cidLength)), pnOffset := 0, pn64 := 0 }
    match c with
    | some x =>
      if bs.headD 0 &&& 0x40 ≠ 0 ∨ x.grease then
        .header { ph with version := some x.version, pnOffset := 1 + h.cidLength } c
      else .malformed
    | none => .header ph none
  else
    let ph : Ph :=
      { ptype := .oneRtt, vn := 0, version := none, dcid := [], scid := [], token := [], offset := bs.length,
        payloadLength := 0, pnOffset := 0, pn64 := 0 }
    .header ph none

/-- `picoquic_parse_packet_header`, packet.c 468-487. The datagram is not empty. -/
def parseHeader (h : Host) (bs : Bytes) : Parsed :=
  if bs.headD 0 &&& 0x80 = 0x80 then parseLong h bs else parseShort h bs

/-- The return codes of `picoquic_parse_header_and_decrypt`. -/
inductive Ret
  | ok
  | malformed
  | unsupported
  | tooShort
  | refused
  | wrongVersion
  | notReady
  | aeadCheck
  | stateless
  | duplicate
deriving DecidableEq, Repr

/-- Result of `picoquic_parse_header_and_decrypt`: `payload` is the decrypted text, or the whole packet when it is not
encrypted. -/
structure Segment where
  ret : Ret
  consumed : Nat
  ph : Option Ph
  cnx : Option Cnx
  payload : Bytes

/-- The last 16 bytes of a packet. -/
def lastBytes (bs : Bytes) : Bytes := bs.drop (bs.length - 16)

/-- A packet which is not decrypted is a stateless reset or an error, packet.c 806-826. -/
def undecrypted (ret : Ret) (ph : Ph) (c : Cnx) (pkt : Bytes) : Segment :=
  if ph.ptype = .oneRtt ∧ RESET_MIN_SIZE ≤ pkt.length ∧ lastBytes pkt = c.resetSecret then
    ⟨.stateless, pkt.length, some ph, some c, []⟩
  else ⟨ret, pkt.length, some ph, some c, []⟩

/-- Removal of the header protection and decryption for a known connection, packet.c 609-634, 640-741 and 795-833.
`pkt` is the packet, of `ph->offset + ph->payload_length` bytes. -/
def decrypt (ph : Ph) (c : Cnx) (pkt : Bytes) : Segment :=
  match c.keys ph.ptype with
  | none => undecrypted .notReady ph c pkt
  | some k =>
    match removeHeaderProtection k.mask 16 c.lossIn (decide (ph.ptype = .oneRtt)) 0 ph.pnOffset
        (c.largest ph.ptype) pkt with
    | none => undecrypted .aeadCheck ph c pkt
    | some u =>
      let ph' := { ph with pn64 := u.pn64 }
      let key := if ph.ptype = .oneRtt ∧ u.keyPhase ≠ c.keyPhase then c.otherKeys else some k
      match key.bind (fun k => k.dec u.pn64 u.decrypted (pkt.drop u.offset)) with
      | none => undecrypted .aeadCheck ph' c pkt
      | some text =>
        if c.received ph.ptype u.pn64 then ⟨.duplicate, pkt.length, some ph', some c, []⟩
        else ⟨.ok, pkt.length, some ph', some c, text⟩

/-- `picoquic_parse_header_and_decrypt`, packet.c 743-876: `none` when bytes are written behind the end of
`decrypted_data->data`. `total` is the length of the whole datagram. The upgrade of the version of a client connection,
packet.c 783-789, is not modelled: a packet of another version is dropped. -/
def parseAndDecrypt (h : Host) (total : Nat) (bs : Bytes) : Option Segment :=
  match parseHeader h bs with
  | .malformed => some ⟨.malformed, 0, none, none, []⟩
  | .unsupported => some ⟨.unsupported, 0, none, none, []⟩
  | .header ph found =>
    if ph.ptype = .versionNegotiation ∨ ph.ptype = .retry ∨ ph.ptype = .error then
      if bs.length > MAX_PACKET_SIZE then none else some ⟨.ok, bs.length, some ph, found, bs⟩
    else
      let pkt := bs.take (ph.offset + ph.payloadLength)
      if found.any (fun c => !c.client) ∧ ph.ptype = .initial ∧ total < INITIAL_MTU then
        some ⟨.tooShort, pkt.length, some ph, found, []⟩
      else if found.isNone ∧ ph.ptype = .initial ∧ (h.screen ph.dcid ph.scid ph.token).isNone then
        some ⟨.refused, pkt.length, some ph, none, []⟩
      else
        match (if found.isNone ∧ ph.ptype = .initial then h.screen ph.dcid ph.scid ph.token else found) with
        | none =>
          if ph.ptype = .oneRtt ∧ RESET_MIN_SIZE ≤ pkt.length ∧ h.bySecret (lastBytes pkt) then
            some ⟨.stateless, pkt.length, some ph, none, []⟩
          else some ⟨.ok, pkt.length, some ph, none, []⟩
        | some c =>
          if ph.version ≠ some c.version then some ⟨.wrongVersion, pkt.length, some ph, some c, []⟩
          else if (c.keys ph.ptype).isSome ∧ pkt.length > MAX_PACKET_SIZE then none
          else some (decrypt ph c pkt)

/-! ### The datagram -/

/-- A receiver with a state: what it knows in a state, and what it does with a packet, packet.c 2100-2351. The
boolean says, for a packet which was decrypted, that the processing returned 0. -/
structure Machine (σ : Type) where
  host : σ → Host
  act : σ → Segment → σ × Bool

/-- Outcome of `picoquic_incoming_packet_ex`. -/
structure Received (σ : Type) where
  /-- the packets which were decrypted, in order -/
  packets : List (Ph × Bytes)
  state : σ
  /-- bytes were written out of bounds -/
  overflow : Bool

/-- Whether the loop goes on behind a packet: the mapping of the return codes, packet.c 2310-2347, for a packet
which is not `ok`. -/
def goesOn (r : Ret) : Bool :=
  match r with
  | .notReady | .aeadCheck | .wrongVersion | .stateless | .unsupported => true
  | _ => false

/-- `ph.dest_cnx_id`, empty when the header was not parsed. -/
def segDest (seg : Segment) : Cid := match seg.ph with | some ph => ph.dcid | none => []

/-- The loop of `picoquic_incoming_packet_ex`, packet.c 2367-2390, with the check of the destination, packet.c 2080-2105. The
first argument bounds the number of turns; it is at least the length. `prev` is `previous_dest_id`. -/
def receiveLoop (m : Machine σ) (total : Nat) : Nat → σ → Cid → Bytes → Received σ
  | 0, s, _, _ => ⟨[], s, false⟩
  | fuel + 1, s, prev, bs =>
    if bs = [] then ⟨[], s, false⟩
    else
      match parseAndDecrypt (m.host s) total bs with
      | none => ⟨[], s, true⟩
      | some seg =>
        let dcid := segDest seg
        if prev ≠ [] ∧ (seg.ret = .unsupported ∨ seg.ret = .ok ∧ dcid ≠ prev) then ⟨[], (m.act s seg).1, false⟩
        else
          let r := m.act s seg
          let more := if seg.ret = .ok then r.2 else goesOn seg.ret
          let rest := if more ∧ seg.consumed ≠ 0 then
              receiveLoop m total fuel r.1 (if prev = [] then dcid else prev) (bs.drop seg.consumed)
            else ⟨[], r.1, false⟩
          match seg.ret, seg.ph with
          | .ok, some ph => { rest with packets := (ph, seg.payload) :: rest.packets }
          | _, _ => rest

/-- `picoquic_incoming_packet_ex`, packet.c 2356-2396. -/
def receive (m : Machine σ) (s : σ) (datagram : Bytes) : Received σ :=
  receiveLoop m datagram.length datagram.length s [] datagram

/-! ### Sending -/

/-- A packet to be sent. -/
structure Out where
  ptype : PType
  /-- the version number and the index in the table -/
  vn : Nat
  version : Nat
  dcid : Cid
  scid : Cid
  /-- `cnx->do_grease_quic_bit`, for long headers -/
  grease : Bool
  /-- the bits K, C, spin, Q and L, for short headers -/
  flags : UInt8
  token : Bytes
  number : Nat
  /-- the predicted length of the packet number, for short headers -/
  pnLength : Nat
  payload : Bytes
deriving DecidableEq

/-- `picoquic_create_long_header`, sender.c 575-643: the bytes, `pn_offset` and `pn_length`. There is room for the
connection IDs. The token is copied without check of the room. -/
def createLong (o : Out) : Bytes × Nat × Nat :=
  let first := createLongType o.ptype o.version
  let first := if o.grease then first &&& 0xBF else first
  let ids := first :: picoformat32 o.vn ++ (u8 o.dcid.length :: o.dcid) ++ (u8 o.scid.length :: o.scid)
  let front := if o.ptype = .initial then
      ids ++ varintEncode (MAX_PACKET_SIZE - ids.length) o.token.length ++ o.token else ids
  if o.ptype = .retry then (front, 0, 0)
  else (front ++ [0, 0] ++ picoformat32 (u32 o.number), front.length + 2, 4)

/-- `picoquic_create_packet_header`, sender.c 645-725. -/
def createHeader (o : Out) : Bytes × Nat × Nat :=
  if o.ptype = .oneRtt then createShortHeader o.flags o.dcid (1 + o.dcid.length + o.pnLength) o.number
  else createLong o

/-- `picoquic_update_payload_length`, sender.c 511-518. -/
def updateLength (bytes : Bytes) (pnIndex headerLength packetLength : Nat) : Bytes :=
  if bytes.headD 0 &&& 0x80 ≠ 0 ∧ headerLength > 6 ∧ packetLength > headerLength ∧ packetLength < 0x4000 then
    bytes.take (pnIndex - 2) ++ varintEncode16 (packetLength - headerLength) ++ bytes.drop pnIndex
  else bytes

/-- `picoquic_pad_to_target_length`, sender.c 430-438, for the payload behind a header of `headerLength` bytes. -/
def padTo (headerLength target : Nat) (payload : Bytes) : Bytes :=
  payload ++ List.replicate (target - (headerLength + payload.length)) 0

/-- `picoquic_protect_packet`, sender.c 831-928, when the header has the predicted length and fuzzing is not
used. The checksum and the sample have 16 bytes. `lossOut` is `is_loss_bit_enabled_outgoing`; the bits Q and L are in
`flags`. -/
def protect (k : Keys) (lossOut : Bool) (o : Out) : Option Bytes :=
  let (hdr, pnOffset, pnLength) := createHeader o
  let payload := padTo hdr.length (pnOffset + 4 + 16 - 16) o.payload
  let hdr := updateLength hdr pnOffset (hdr.length - pnLength) (hdr.length + payload.length + 16)
  let mask : UInt8 := if o.ptype = .oneRtt then (if lossOut then 0x07 else 0x1F) else 0x0F
  protectPacketHeader k.mask mask pnOffset (hdr ++ k.enc o.number hdr payload)

/-- A datagram: several packets one behind the other, as `picoquic_prepare_packet_ex` does, sender.c 3944-4007. -/
def datagram : List (Keys × Bool × Out) → Option Bytes
  | [] => some []
  | (k, l, o) :: ps =>
    match protect k l o, datagram ps with
    | some a, some b => some (a ++ b)
    | _, _ => none

end Picoquic.Packet
