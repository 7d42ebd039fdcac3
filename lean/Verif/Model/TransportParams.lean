import Verif.Model.IntFormat
/-!
# Transport parameters

Model of `picoquic/transport.c`: the encoding of the local transport parameters
(`picoquic_prepare_transport_extensions`), their decoding by the peer
(`picoquic_receive_transport_extensions`) and the negotiation that follows.

Simplifications. The version index of a connection is represented by the version number (the table
has no repeated number). The effects of a parameter on existing streams and on the limits of streams and data are not
here (`picoquic_update_stream_initial_remote`, `picoquic_add_output_streams`, and the fields
`maxdata_remote`, `max_stream_id_*_remote`: see `StreamLimits`). Logging is not modelled. The computation of the initial
keys after a change of version (`picoquic_setup_initial_traffic_keys`) is assumed to succeed. A
connection error is recorded in the list `errs` (`picoquic_connection_error_ex`, quicctx.c 4695-4728,
always returns a non-zero code). `int` fields used as Booleans are Booleans.
-/

namespace Picoquic.TransportParams
open Picoquic

/-- `PICOQUIC_TRANSPORT_PARAMETER_ERROR`, picoquic.h. -/
def PARAMETER_ERROR : Nat := 0x8
/-- `PICOQUIC_TRANSPORT_PROTOCOL_VIOLATION`, picoquic.h. -/
def PROTOCOL_VIOLATION : Nat := 0xA
/-- `PICOQUIC_TRANSPORT_VERSION_NEGOTIATION_ERROR`, picoquic.h. -/
def VERSION_NEGOTIATION_ERROR : Nat := 0x11

/-- `picoquic_tp_prefered_address_t`, picoquic.h 289-297. The flag `is_defined` is the `Option` of
`Params.preferred`. -/
structure PreferredAddress where
  ipv4 : Bytes
  ipv4Port : Nat
  ipv6 : Bytes
  ipv6Port : Nat
  cid : Cid
  token : Bytes
deriving DecidableEq, Repr

/-- `picoquic_tp_t`, picoquic.h 308-332 (without `version_negotiation`, which is not used). -/
structure Params where
  maxStreamDataBidiLocal : Nat := 0
  maxStreamDataBidiRemote : Nat := 0
  maxStreamDataUni : Nat := 0
  maxData : Nat := 0
  maxStreamsBidi : Nat := 0
  maxStreamsUni : Nat := 0
  idleTimeout : Nat := 0
  maxPacketSize : Nat := 0
  maxAckDelay : Nat := 0
  activeCidLimit : Nat := 0
  ackDelayExponent : Nat := 0
  migrationDisabled : Bool := false
  preferred : Option PreferredAddress := none
  maxDatagram : Nat := 0
  lossBit : Nat := 0
  timeStamp : Nat := 0
  minAckDelay : Nat := 0
  greaseQuicBit : Bool := false
  bdpFrame : Nat := 0
  multipath : Bool := false
  maxPathId : Nat := 0
  addressDiscovery : Nat := 0
deriving DecidableEq, Repr

/-- The fields of `picoquic_cnx_t` and `picoquic_quic_t` that these functions use. -/
structure Conn where
  /-- `client_mode`. The argument `extension_mode` of the two functions is derived from it by the
  callers, tls_api.c 879 and 918. -/
  client : Bool
  /-- `local_parameters`. -/
  loc : Params
  /-- `remote_parameters`. -/
  rem : Params := {}
  /-- `path[0]->first_tuple->p_local_cnxid->cnx_id`. -/
  localCid : Cid := []
  /-- `path[0]->first_tuple->p_remote_cnxid->cnx_id`. -/
  remoteCid : Cid := []
  /-- `initial_cnxid`. -/
  initialCid : Cid := []
  /-- `original_cnxid`: not empty after a Retry. -/
  originalCid : Cid := []
  /-- `picoquic_supported_versions[version_index].version`. -/
  version : Nat := 1
  /-- `desired_version`. -/
  desiredVersion : Nat := 0
  /-- `do_version_negotiation`. -/
  doVersionNegotiation : Bool := false
  /-- `is_hcid_verified`. -/
  hcidVerified : Bool := false
  /-- What `picoquic_create_cnxid_reset_secret` returns for the local connection ID: 16 bytes. -/
  ownResetSecret : Bytes := List.replicate 16 0
  /-- `path[0]->first_tuple->p_remote_cnxid->reset_secret`. -/
  peerResetSecret : Bytes := List.replicate 16 0
  /-- `grease_transport_parameters`. -/
  grease : Bool := false
  /-- `test_large_chello`. -/
  testLargeChello : Bool := false
  /-- `quic->test_large_server_flight`. -/
  testLargeServerFlight : Bool := false
  /-- `quic->one_way_grease_quic_bit`. -/
  oneWayGrease : Bool := false
  /-- `is_ack_frequency_negotiated`. -/
  ackFrequency : Bool := false
  /-- `is_address_discovery_provider`. -/
  addressProvider : Bool := false
  /-- `is_address_discovery_receiver`. -/
  addressReceiver : Bool := false
  /-- `idle_timeout`, in microseconds. -/
  idleTimeout : Nat := 0
  /-- `keep_alive_interval`. -/
  keepAlive : Nat := 0
  /-- `is_multipath_enabled`. -/
  multipath : Bool := false
  /-- `max_path_id_acknowledged`. -/
  maxPathIdAcknowledged : Nat := 0
  /-- `max_path_id_remote`. -/
  maxPathIdRemote : Nat := 0
  /-- `max_path_id_local`. -/
  maxPathIdLocal : Nat := 0
  /-- `is_loss_bit_enabled_outgoing`. -/
  lossBitOut : Bool := false
  /-- `is_loss_bit_enabled_incoming`. -/
  lossBitIn : Bool := false
  /-- `send_receive_bdp_frame`. -/
  bdpFrames : Bool := false
  /-- `is_time_stamp_enabled`: time stamps are expected from the peer. -/
  timeStampEnabled : Bool := false
  /-- `is_time_stamp_sent`. -/
  timeStampSent : Bool := false
  /-- `do_grease_quic_bit`. -/
  doGreaseQuicBit : Bool := false
  /-- Codes given to `picoquic_connection_error`, latest first. -/
  errs : List Nat := []
deriving DecidableEq, Repr

/-! ## Versions -/

/-- `PICOQUIC_V1_VERSION`, picoquic_internal.h 220. -/
def V1 : Nat := 0x00000001
/-- `PICOQUIC_V2_VERSION`, picoquic_internal.h 221. -/
def V2 : Nat := 0x6b3343cf
/-- `PICOQUIC_V2_VERSION_DRAFT`, picoquic_internal.h 222. -/
def V2_DRAFT : Nat := 0x709a50c4
/-- `PICOQUIC_SEVENTEENTH_INTEROP_VERSION` (draft 27), picoquic_internal.h 212. -/
def DRAFT27 : Nat := 0xFF00001B
/-- `PICOQUIC_NINETEENTH_INTEROP_VERSION` (draft 29), picoquic_internal.h 214. -/
def DRAFT29 : Nat := 0xFF00001D

/-- `picoquic_version_upgrade_from_v1`, quicctx.c 115, without its terminating zero. -/
def upgradeFromV1 : List Nat := [V1]

/-- `picoquic_supported_versions`, quicctx.c 121-239: version and list `upgrade_from` (`none` is
`NULL`). -/
def supportedVersions : List (Nat × Option (List Nat)) :=
  [(V1, none), (V2, some upgradeFromV1), (V2_DRAFT, some upgradeFromV1),
   (0xFF000022, none), (0xFF000021, none), (0xFF000020, none), (0xFF00001F, none),
   (DRAFT29, none), (0xFF00001E, none), (0xFF00001C, none), (DRAFT27, none),
   (0x50435131, none), (0x50435130, none)]

/-- `picoquic_get_version_index`, quicctx.c 1491-1503: whether it finds the version. -/
def isSupported (v : Nat) : Bool := supportedVersions.any (fun e => e.1 == v)

/-- Result of `picoquic_process_version_upgrade`: return code 0 with the version installed, return code
-1, or no return at all. -/
inductive Upgrade
  | done
  | refused
  | hang
deriving DecidableEq, Repr

/-- `picoquic_process_version_upgrade`, quicctx.c 5241-5267, called with a connection. The index `i`
of the loop of lines 5251-5264 is never incremented: if the first entry of `upgrade_from` is another
version than the old one, the loop does not end. -/
def processVersionUpgrade (old new : Nat) : Upgrade :=
  if new = old then .done
  else
    match (supportedVersions.find? (fun e => e.1 == new)).bind Prod.snd with
    | none => .refused
    | some [] => .refused
    | some (v :: _) => if v = old then .done else .hang

/-! ## Encoding -/

/-- Nothing is written. -/
def encNothing : Enc := fun _ => some []

/-- `if (c) { bytes = e }`. -/
def encIf (c : Bool) (e : Enc) : Enc := if c then e else encNothing

/-- Copy of a block after a check of the room. -/
def encBlock (b : Bytes) : Enc := fun room => if b.length > room then none else some b

/-- `picoquic_transport_param_varint_encode`, transport.c 43-57. -/
def tpVarintEncode (n : Nat) : Enc := fun room =>
  if 1 > room then none
  else
    match framesVarintEncode n (room - 1) with
    | none => none
    | some b => some (u8 b.length :: b)

/-- `picoquic_transport_param_type_varint_encode`, transport.c 59-66. -/
def tpTypeVarintEncode (type n : Nat) : Enc :=
  Enc.seq (framesVarintEncode type) (tpVarintEncode n)

/-- `picoquic_transport_param_type_flag_encode`, transport.c 68-75. -/
def tpTypeFlagEncode (type : Nat) : Enc :=
  Enc.seq (framesVarintEncode type) (framesVarintEncode 0)

/-- `picoquic_transport_param_cid_encode`, transport.c 77-85. -/
def tpCidEncode (type : Nat) (cid : Cid) : Enc :=
  Enc.seq (framesVarintEncode type) (framesCidEncode cid)

/-- `picoquic_encode_transport_param_prefered_address`, transport.c 98-128. The port of the IPv6
address is written from `ipv4Port` (line 117). The addresses and the token have their fixed lengths. -/
def preferredEncode (a : PreferredAddress) : Enc :=
  Enc.seq (framesVarintEncode 13)
    (Enc.seq (framesVarintEncode (25 + a.cid.length + 16))
      (encBlock (a.ipv4 ++ picoformat16 a.ipv4Port ++ a.ipv6 ++ picoformat16 a.ipv4Port ++
        [u8 a.cid.length] ++ a.cid ++ a.token)))

/-- A sequence of 32-bit integers, transport.c 191-208. -/
def encUint32s : List Nat → Enc
  | [] => encNothing
  | v :: vs => Enc.seq (framesUint32Encode v) (encUint32s vs)

/-- The versions written by `picoquic_encode_transport_param_version_negotiation`, transport.c
188-209: the current one, then, on a client, the desired one if any and the current one, and on a
server all the supported ones. -/
def versionList (c : Conn) : List Nat :=
  c.version ::
    (if c.client then
      (if c.desiredVersion ≠ 0 ∧ c.desiredVersion ≠ c.version then [c.desiredVersion, c.version]
       else [c.version])
     else supportedVersions.map Prod.fst)

/-- `picoquic_encode_transport_param_version_negotiation`, transport.c 180-224. The length is written
as zero first and corrected at the end; here it is written at once. It is at most 14 * 4, so the test
`len > 0x3FFF` is never true. -/
def versionEncode (c : Conn) : Enc :=
  Enc.seq (framesVarintEncode 0x11)
    (Enc.seq (framesUint16Encode (0x4000 + 4 * (versionList c).length))
      (encUint32s (versionList c)))

/-- Stateless reset token, transport.c 382-394. There must be one more byte of room than written. -/
def resetTokenEncode (secret : Bytes) : Enc :=
  Enc.seq (framesVarintEncode 2)
    (Enc.seq (framesVarintEncode 16)
      (fun room => if 16 < room then some secret else none))

/-- The type of the grease parameter, transport.c 406-415. The loop of lines 410-412 runs at most
once, because 3127 + 31 is not 3127. -/
def greaseType (c : Conn) : Nat :=
  let n := 31 * ((c.initialCid.getD 0 0).toNat + c.client.toNat) + 27
  if n = 3127 then n + 31 else n

/-- The value of the grease parameter, transport.c 409-413. -/
def greaseValue (c : Conn) : Nat :=
  (c.initialCid.getD 1 0).toNat * 256 + (c.initialCid.getD 2 0).toNat

/-- The large test parameter, transport.c 417-428. -/
def largeEncode (n : Nat) : Enc :=
  Enc.seq (framesVarintEncode 3127)
    (Enc.seq (framesVarintEncode n) (encBlock (List.replicate n 0x51)))

/-- The last test parameter, transport.c 469-486: it fills the packet. -/
def largeFlightEncode : Enc := fun room =>
  largeEncode (if room > 24 then room - 24 else 1) room

/-- The change of `local_parameters.max_datagram_frame_size`, transport.c 396-399. -/
def prepareLocal (c : Conn) : Conn :=
  if c.client = false ∧ c.loc.maxDatagram = 0 ∧ c.rem.maxDatagram > 0 then
    { c with loc := { c.loc with maxDatagram := 1536 } }
  else c

/-- The successive encodings of `picoquic_prepare_transport_extensions`, transport.c 313-486.
`extension_mode` is 1 on a server. -/
def prepareList (c : Conn) : List Enc :=
  let p := c.loc
  [ tpTypeVarintEncode 5 p.maxStreamDataBidiLocal,
    tpTypeVarintEncode 4 p.maxData,
    encIf (p.maxStreamsBidi > 0) (tpTypeVarintEncode 8 p.maxStreamsBidi),
    encIf (p.idleTimeout > 0) (tpTypeVarintEncode 1 p.idleTimeout),
    tpTypeVarintEncode 3 p.maxPacketSize,
    encIf (p.ackDelayExponent ≠ 3) (tpTypeVarintEncode 10 p.ackDelayExponent),
    encIf (p.maxStreamsUni > 0) (tpTypeVarintEncode 9 p.maxStreamsUni),
    (match p.preferred with
      | none => encNothing
      | some a => preferredEncode a),
    encIf p.migrationDisabled (tpTypeFlagEncode 12),
    encIf (p.maxStreamDataBidiRemote > 0) (tpTypeVarintEncode 6 p.maxStreamDataBidiRemote),
    encIf (p.maxStreamDataUni > 0) (tpTypeVarintEncode 7 p.maxStreamDataUni),
    encIf (p.activeCidLimit > 0) (tpTypeVarintEncode 14 p.activeCidLimit),
    encIf (p.maxAckDelay ≠ 25000) (tpTypeVarintEncode 11 (u32 (p.maxAckDelay + 999) / 1000)),
    tpCidEncode 15 c.localCid,
    encIf (!c.client && decide (c.originalCid.length > 0)) (tpCidEncode 0 c.originalCid),
    encIf (!c.client && decide (c.originalCid.length > 0)) (tpCidEncode 16 c.initialCid),
    encIf (!c.client && decide (¬ c.originalCid.length > 0) && c.hcidVerified)
      (tpCidEncode 0 c.initialCid),
    encIf (!c.client) (resetTokenEncode c.ownResetSecret),
    encIf ((prepareLocal c).loc.maxDatagram > 0)
      (tpTypeVarintEncode 32 (prepareLocal c).loc.maxDatagram),
    encIf c.grease (tpTypeVarintEncode (greaseType c) (greaseValue c)),
    encIf c.testLargeChello (largeEncode 1200),
    encIf (p.lossBit > 0) (tpTypeVarintEncode 0x1057 (if p.lossBit > 1 then 1 else 0)),
    encIf (p.minAckDelay > 0) (tpTypeVarintEncode 0xff04de1b p.minAckDelay),
    encIf (p.timeStamp > 0) (tpTypeVarintEncode 0x7158 p.timeStamp),
    encIf p.greaseQuicBit (tpTypeFlagEncode 0x2ab2),
    encIf c.doVersionNegotiation (versionEncode c),
    encIf (p.bdpFrame > 0) (tpTypeVarintEncode 0xebd9 p.bdpFrame),
    encIf p.multipath (tpTypeVarintEncode 0x0f739bbc1b666d0d p.maxPathId),
    encIf (p.addressDiscovery > 0) (tpTypeVarintEncode 0x9f81a176 (p.addressDiscovery - 1)),
    encIf (!c.client && !c.testLargeChello && c.testLargeServerFlight) largeFlightEncode ]

/-- `picoquic_prepare_transport_extensions`, transport.c 306-497: the extension written in `room`
bytes, or `none` for `PICOQUIC_ERROR_EXTENSION_BUFFER_TOO_SMALL`. The connection changes to
`prepareLocal c`. -/
def prepare (c : Conn) : Enc := (prepareList c).foldr Enc.seq encNothing

/-! ## Decoding -/

/-- State of the loop of `picoquic_receive_transport_extensions`, transport.c 531-536: the connection,
whether `ret` is not zero, the set `present_flag` and the three connection IDs. -/
structure RState where
  c : Conn
  ret : Bool := false
  present : List Nat := []
  ocid : Cid := []
  rcid : Cid := []
  hcid : Cid := []
deriving DecidableEq, Repr

/-- `ret = picoquic_connection_error(cnx, code, 0)`. -/
def RState.fail (s : RState) (code : Nat) : RState :=
  { s with ret := true, c := { s.c with errs := code :: s.c.errs } }

/-- Change of the remote parameters. -/
def RState.setRem (s : RState) (p : Params) : RState := { s with c := { s.c with rem := p } }

/-- `picoquic_transport_param_varint_decode`, transport.c 31-42: the value, and the error if the
integer does not fill the extension. -/
def tpVarintDecode (s : RState) (v : Bytes) : Nat × RState :=
  let d := varintDecode v
  (d.2, if d.1 = 0 ∨ d.1 ≠ v.length then s.fail PARAMETER_ERROR else s)

/-- `picoquic_transport_param_cid_decode`, transport.c 87-96: the connection ID read and whether it
has the length of the extension (otherwise an error is raised). The length passed to
`picoquic_parse_connection_id` is truncated to 8 bits; that function reads at most 20 bytes, and no
more than the extension has. -/
def tpCidDecode (v : Bytes) : Cid × Bool :=
  let len := v.length % 256
  let cid := if len ≤ CONNECTION_ID_MAX_SIZE then v.take len else []
  (cid, cid.length = v.length)

/-- Result of reading a connection ID: `ret` is overwritten, even if it was set. -/
def RState.cidResult (s : RState) (ok : Bool) : RState :=
  if ok then { s with ret := false } else s.fail PARAMETER_ERROR

/-- `picoquic_decode_transport_param_prefered_address`, transport.c 130-160: the address, if it is
complete, and the length consumed (0 if it is not). Parts of an incomplete address are stored
too, with `is_defined` left at zero: not modelled, an error is raised in that case. -/
def preferredDecode (v : Bytes) : Option PreferredAddress × Nat :=
  if v.length ≥ 41 then
    let l := (v.getD 24 0).toNat
    if l > 0 ∧ l ≤ CONNECTION_ID_MAX_SIZE ∧ 25 + l + 16 ≤ v.length then
      (some
        { ipv4 := v.take 4
          ipv4Port := parse16 (v.getD 4 0) (v.getD 5 0)
          ipv6 := (v.drop 6).take 16
          ipv6Port := parse16 (v.getD 22 0) (v.getD 23 0)
          cid := (v.drop 25).take l
          token := (v.drop (25 + l)).take 16 }, 25 + l + 16)
    else (none, 0)
  else (none, 0)

/-- Result of `picoquic_process_tp_version_negotiation`: `NULL` with an error code, or the negotiated
version (0 if there is none). -/
inductive VnResult
  | fail (code : Nat)
  | ok (version : Nat)
deriving DecidableEq, Repr

/-- The loop over the versions proposed by a client, transport.c 243-264. -/
def vnClientLoop : Bytes → VnResult
  | [] => .ok 0
  | b0 :: b1 :: b2 :: b3 :: rest =>
    if isSupported (parse32 b0 b1 b2 b3) then .ok (parse32 b0 b1 b2 b3) else vnClientLoop rest
  | _ => .fail PARAMETER_ERROR

/-- The loop over the versions of a server, transport.c 265-277. -/
def vnServerLoop : Bytes → VnResult
  | [] => .ok 0
  | _ :: _ :: _ :: _ :: rest => vnServerLoop rest
  | _ => .fail PARAMETER_ERROR

/-- `picoquic_process_tp_version_negotiation`, transport.c 226-281. `fromServer` is
`extension_mode == 1`. -/
def processVersionNegotiation (fromServer : Bool) (envelope : Nat) (v : Bytes) : VnResult :=
  match framesUint32Decode v with
  | none => .fail PARAMETER_ERROR
  | some (current, rest) =>
    if current ≠ envelope then .fail VERSION_NEGOTIATION_ERROR
    else if fromServer then vnServerLoop rest
    else vnClientLoop rest

/-- Record the type as present, or raise the error for a repeated one; transport.c 567-575. -/
def notePresent (s : RState) (type : Nat) : RState :=
  if type < 64 then
    if type ∈ s.present then s.fail PARAMETER_ERROR else { s with present := type :: s.present }
  else s

/-- The `switch` of `picoquic_receive_transport_extensions`, transport.c 577-833, for one parameter of
type `type` and value `v`. `none` if the function never returns. -/
def applyParam (s : RState) (type : Nat) (v : Bytes) : Option RState :=
  let p := s.c.rem
  if type = 5 then
    let (n, s) := tpVarintDecode s v
    some (s.setRem { p with maxStreamDataBidiLocal := n })
  else if type = 6 then
    let (n, s) := tpVarintDecode s v
    some (s.setRem { p with maxStreamDataBidiRemote := n })
  else if type = 7 then
    let (n, s) := tpVarintDecode s v
    some (s.setRem { p with maxStreamDataUni := n })
  else if type = 4 then
    let (n, s) := tpVarintDecode s v
    some (s.setRem { p with maxData := n })
  else if type = 8 then
    let (n, s) := tpVarintDecode s v
    some (s.setRem { p with maxStreamsBidi := n })
  else if type = 1 then
    let (n, s) := tpVarintDecode s v
    some (s.setRem { p with idleTimeout := n })
  else if type = 3 then
    let (n, s) := tpVarintDecode s v
    if s.ret then some s
    else if n < 1200 ∨ n > 65527 then some (s.fail PARAMETER_ERROR)
    else some (s.setRem { p with maxPacketSize := n })
  else if type = 2 then
    if !s.c.client then some (s.fail PARAMETER_ERROR)
    else if v.length ≠ 16 then some (s.fail PARAMETER_ERROR)
    else some { s with c := { s.c with peerResetSecret := v } }
  else if type = 10 then
    let (n, s) := tpVarintDecode s v
    some (s.setRem { p with ackDelayExponent := n % 256 })
  else if type = 9 then
    let (n, s) := tpVarintDecode s v
    some (s.setRem { p with maxStreamsUni := n })
  else if type = 13 then
    let d := preferredDecode v
    let s := match d.1 with
      | none => s
      | some a => s.setRem { p with preferred := some a }
    if d.2 ≠ v.length then some (s.fail PARAMETER_ERROR) else some s
  else if type = 12 then
    if v.length ≠ 0 then some (s.fail PARAMETER_ERROR)
    else some (s.setRem { p with migrationDisabled := true })
  else if type = 11 then
    let (n, s) := tpVarintDecode s v
    let s := s.setRem { p with maxAckDelay := u32 (u32 n * 1000) }
    if u32 (u32 n * 1000) > 0x4000 * 1000 then some (s.fail PARAMETER_ERROR) else some s
  else if type = 0 then
    let d := tpCidDecode v
    some ({ s with ocid := d.1 }.cidResult d.2)
  else if type = 16 then
    let d := tpCidDecode v
    some ({ s with rcid := d.1 }.cidResult d.2)
  else if type = 15 then
    let d := tpCidDecode v
    let s := { s with hcid := d.1 }.cidResult d.2
    if s.ret then some s
    else if !compareCidEq s.c.remoteCid s.hcid then some (s.fail PARAMETER_ERROR)
    else some { s with c := { s.c with hcidVerified := true } }
  else if type = 14 then
    let (n, s) := tpVarintDecode s v
    some (s.setRem { p with activeCidLimit := u32 n })
  else if type = 32 then
    let (n, s) := tpVarintDecode s v
    some (s.setRem { p with maxDatagram := u32 n })
  else if type = 0x1057 then
    let (n, s) := tpVarintDecode s v
    if s.ret then some s
    else if n = 0 then some (s.setRem { p with lossBit := 1 })
    else if n = 1 then some (s.setRem { p with lossBit := 2 })
    else some (s.fail PARAMETER_ERROR)
  else if type = 0xff04de1b then
    let (n, s) := tpVarintDecode s v
    let s := s.setRem { p with minAckDelay := n }
    if s.ret = false ∧ (n = 0 ∨ n > 0xFFFFFF) then some (s.fail PROTOCOL_VIOLATION)
    else if s.c.loc.minAckDelay > 0 then some { s with c := { s.c with ackFrequency := true } }
    else some s
  else if type = 0x7158 then
    let (n, s) := tpVarintDecode s v
    if s.ret then some s
    else if n < 1 ∨ n > 3 then some (s.fail PARAMETER_ERROR)
    else some (s.setRem { p with timeStamp := n })
  else if type = 0x2ab2 then
    if v.length ≠ 0 then some (s.fail PARAMETER_ERROR)
    else some (s.setRem { p with greaseQuicBit := true })
  else if type = 0x0f739bbc1b666d0d then
    let (n, s) := tpVarintDecode s v
    some (s.setRem { p with multipath := true, maxPathId := n })
  else if type = 0x11 then
    match processVersionNegotiation s.c.client s.c.version v with
    | .fail code => some (s.fail code)
    | .ok vn =>
      let s := { s with c := { s.c with doVersionNegotiation := true } }
      if vn ≠ 0 ∧ s.c.version ≠ vn then
        match processVersionUpgrade s.c.version vn with
        | .done => some { s with ret := false, c := { s.c with version := vn } }
        | .refused => some { s with ret := true }
        | .hang => none
      else some s
  else if type = 0xebd9 then
    let (n, s) := tpVarintDecode s v
    if s.ret then some s
    else if n > 1 then some (s.fail PARAMETER_ERROR)
    else some (s.setRem { p with bdpFrame := n })
  else if type = 0x9f81a176 then
    let (n, s) := tpVarintDecode s v
    if s.ret then some s
    else if n > 2 then some (s.fail PARAMETER_ERROR)
    else
      let s := s.setRem { p with addressDiscovery := n + 1 }
      some { s with c := { s.c with
        addressProvider := decide ((n + 1) &&& 2 ≠ 0) && decide (s.c.loc.addressDiscovery &&& 1 ≠ 0)
        addressReceiver := decide ((n + 1) &&& 1 ≠ 0) && decide (s.c.loc.addressDiscovery &&& 2 ≠ 0) } }
  else some s

/-- Read the type, the length and the value of the next parameter, transport.c 549-565: `none` if
fewer than two bytes are left, an integer is truncated or the value would run past the end. -/
def nextParam (bs : Bytes) : Option (Nat × Bytes × Bytes) :=
  if 2 > bs.length then none
  else
    let t := varintDecode bs
    let l := varintDecode (bs.drop t.1)
    let rest := (bs.drop t.1).drop l.1
    if t.1 = 0 ∨ l.1 = 0 ∨ l.2 > rest.length then none
    else some (t.2, rest.take l.2, rest.drop l.2)

/-- The loop of `picoquic_receive_transport_extensions`, transport.c 548-840. `none` if it does not
end; it is given a number of rounds, and also returns `none` when they are spent. -/
def receiveLoop : Nat → RState → Bytes → Option RState
  | 0, _, _ => none
  | fuel + 1, s, bs =>
    if s.ret ∨ bs = [] then some s
    else
      match nextParam bs with
      | none => receiveLoop fuel (s.fail PARAMETER_ERROR) bs
      | some (type, v, rest) =>
        match applyParam (notePresent s type) type v with
        | none => none
        | some s' => receiveLoop fuel s' (if s'.ret then bs else rest)

/-- The negotiated idle timeout and the keep alive interval, transport.c 842-860. -/
def negotiateIdle (c : Conn) : Conn :=
  let t := u64 (c.loc.idleTimeout * 1000)
  let t := if c.loc.idleTimeout = 0 ∨
      (c.rem.idleTimeout > 0 ∧ c.rem.idleTimeout < c.loc.idleTimeout) then
    u64 (c.rem.idleTimeout * 1000) else t
  if t = 0 then { c with idleTimeout := UINT64_MAX }
  else if c.keepAlive ≠ 0 ∧ c.keepAlive > t / 2 then
    { c with idleTimeout := t, keepAlive := t / 2 }
  else { c with idleTimeout := t }

/-- Default values of absent parameters, transport.c 862-873. -/
def defaults (s : RState) : RState :=
  let s := if s.ret = false ∧ 11 ∉ s.present then
    s.setRem { s.c.rem with maxAckDelay := 25000 } else s
  if s.ret = false ∧ 14 ∉ s.present then
    s.setRem { s.c.rem with activeCidLimit := if s.c.localCid.length = 0 then 0 else 2 } else s

/-- The checks on the parameters received as a whole, transport.c 875-932. -/
def finalChecks (s : RState) : RState :=
  let s := if s.ret = false ∧ s.c.client = false ∧
      (2 ∈ s.present ∨ 13 ∈ s.present ∨ 0 ∈ s.present ∨ 16 ∈ s.present) then
    s.fail PARAMETER_ERROR else s
  let s := if s.ret = false ∧ s.c.version ≠ DRAFT27 ∧ 15 ∉ s.present then
    s.fail PARAMETER_ERROR else s
  if s.ret = false ∧ s.c.client then
    if 15 ∈ s.present then
      if s.c.originalCid.length ≠ 0 then
        if 16 ∉ s.present ∨ 0 ∉ s.present ∨ !compareCidEq s.c.originalCid s.ocid ∨
            !compareCidEq s.c.initialCid s.rcid then s.fail PARAMETER_ERROR else s
      else
        if 16 ∈ s.present ∨ 0 ∉ s.present ∨ !compareCidEq s.c.initialCid s.ocid then
          s.fail PARAMETER_ERROR else s
    else if s.c.version = DRAFT27 then
      if s.c.originalCid.length ≠ 0 ∧ (0 ∉ s.present ∨ !compareCidEq s.c.originalCid s.ocid) then
        s.fail PARAMETER_ERROR else s
    else s
  else s

/-- `picoquic_negotiate_multipath_option`, transport.c 283-304. -/
def negotiateMultipath (c : Conn) : Conn :=
  if c.rem.multipath ∧ c.loc.multipath then
    { c with
      multipath := true
      maxPathIdAcknowledged := c.loc.maxPathId
      maxPathIdRemote := c.rem.maxPathId
      maxPathIdLocal := c.loc.maxPathId }
  else if c.client = false then
    { c with multipath := false, loc := { c.loc with multipath := false } }
  else { c with multipath := false }

/-- Negotiation of the other options, transport.c 939-979. -/
def negotiateOptions (c : Conn) : Conn :=
  let c := { c with
    lossBitOut := decide (c.loc.lossBit > 1) && decide (c.rem.lossBit > 0)
    lossBitIn := decide (c.loc.lossBit > 0) && decide (c.rem.lossBit > 1)
    bdpFrames := decide (c.loc.bdpFrame > 0) && decide (c.rem.bdpFrame > 0) }
  let c :=
    if c.client then
      { c with
        timeStampEnabled := decide (c.loc.timeStamp &&& 1 ≠ 0) && decide (c.rem.timeStamp &&& 2 ≠ 0)
        timeStampSent := decide (c.loc.timeStamp &&& 2 ≠ 0) && decide (c.rem.timeStamp &&& 1 ≠ 0)
        doGreaseQuicBit := c.loc.greaseQuicBit && c.rem.greaseQuicBit }
    else
      let c := if c.rem.timeStamp ≠ 0 then
          { c with
            timeStampSent := if c.rem.timeStamp &&& 1 ≠ 0 then true else c.timeStampSent
            timeStampEnabled := if c.rem.timeStamp &&& 2 ≠ 0 then true else c.timeStampEnabled
            loc := { c.loc with timeStamp := (if c.rem.timeStamp &&& 1 ≠ 0 then 2 else 0) +
              (if c.rem.timeStamp &&& 2 ≠ 0 then 1 else 0) } }
        else c
      { c with
        loc := { c.loc with greaseQuicBit := c.rem.greaseQuicBit && !c.oneWayGrease }
        doGreaseQuicBit := c.rem.greaseQuicBit }
  if c.client = false ∧ c.ackFrequency = false then
    { c with loc := { c.loc with minAckDelay := 0 } }
  else c

/-- What follows the loop of `picoquic_receive_transport_extensions`, transport.c 841-984. -/
def finish (s : RState) : RState :=
  let s := { s with c := negotiateIdle s.c }
  let s := finalChecks (defaults s)
  let s := if s.ret = false then { s with c := negotiateMultipath s.c } else s
  { s with c := negotiateOptions s.c }

/-- The state before the first parameter, transport.c 538-546: the remote parameters are cleared. -/
def receiveInit (c : Conn) : RState := { c := { c with rem := { ackDelayExponent := 3 } } }

/-- `picoquic_receive_transport_extensions`, transport.c 528-984: the connection afterwards and
whether the return code is not zero. `none` if the function never returns. The caller ignores the return
code (tls_api.c 918-921): a parameter is rejected by a connection error. -/
def receive (c : Conn) (bs : Bytes) : Option (Conn × Bool) :=
  (receiveLoop (bs.length + 2) (receiveInit c) bs).map
    (fun s => ((finish s).c, (finish s).ret))

end Picoquic.TransportParams
