import Verif.Model.PacketHeader
/-!
# Answers to packets that belong to no connection

Model of the version negotiation and of the stateless reset of `picoquic/packet.c`: the packets which a host makes in answer to a
datagram that belongs to none of its connections, and what a client does with a version negotiation packet.
-/

namespace Picoquic.Stateless
open Picoquic.Packet

/-- `rand_vn`, packet.c 1022, for a random number. -/
def greaseVn (r : Nat) : Nat := (u32 r &&& 0xF0F0F0F0) ||| 0x0A0A0A0A

/-- The search of a connection in `picoquic_prepare_version_negotiation`, packet.c 971-985. -/
def vnFound (h : Host) (dcid : Cid) : Option Cnx :=
  if dcid.length ≤ 20 then
    match (if dcid.length = h.cidLength then (if h.cidLength = 0 then h.byNet else h.byId dcid) else none) with
    | some c => some c
    | none => h.byIcid dcid
  else none

/-- Outcome of `picoquic_prepare_version_negotiation`. -/
inductive VnAnswer
  /-- bytes behind the end of the datagram are read -/
  | overread
  /-- no packet is sent -/
  | silent
  | packet (bytes : Bytes)
deriving DecidableEq

/-- The packet, packet.c 988-1028. `first` is a random byte, `r` the random number on which the loop ends. -/
def vnPacket (first : UInt8) (r : Nat) (dcid scid : Cid) : Bytes :=
  (first ||| 0x80) :: (picoformat32 0 ++ (u8 scid.length :: scid) ++ (u8 dcid.length :: dcid) ++
    (versionTable.map (fun e => picoformat32 e.1)).flatten ++ picoformat32 (greaseVn r))

/-- `picoquic_prepare_version_negotiation`, packet.c 955-1047. `bs` is what is left of the datagram from the start of the packet on. The
allocation of memory does not fail. -/
def vnAnswer (h : Host) (first : UInt8) (r : Nat) (bs : Bytes) : VnAnswer :=
  match bs[5]? with
  | none => .overread
  | some dl =>
    match bs[6 + dl.toNat]? with
    | none => .overread
    | some sl =>
      let dcid := (bs.drop 6).take dl.toNat
      let scid := (bs.drop (7 + dl.toNat)).take sl.toNat
      match vnFound h dcid with
      | some _ => .silent
      | none => if scid.length < sl.toNat then .overread else .packet (vnPacket first r dcid scid)

/-- The condition on which a version negotiation, a Retry packet or a refusal is sent, packet.c 2148-2175. `blocked` is
`picoquic_check_addr_blocked`. -/
def mayAnswer (blockingDisabled blocked : Bool) (total : Nat) : Bool :=
  decide (INITIAL_MTU ≤ total) && (blockingDisabled || !blocked)

/-- The version negotiation in `picoquic_incoming_segment`, packet.c 2148-2156. `total` is the length of the datagram. -/
def vnDispatch (h : Host) (blockingDisabled blocked : Bool) (total : Nat) (first : UInt8) (r : Nat) (bs : Bytes) : VnAnswer :=
  if mayAnswer blockingDisabled blocked total then vnAnswer h first r bs else .silent

/-! ### The client -/

/-- The loop over the version numbers, packet.c 926-942: `none` when the packet is ignored, otherwise `nb_vn`. The first
argument bounds the number of turns. -/
def vnScan (proposed : Nat) : Nat → Bytes → Option Nat
  | 0, _ => some 0
  | fuel + 1, bs =>
    if bs = [] then some 0
    else
      match framesUint32Decode bs with
      | none => none
      | some (vn, r) =>
        if vn = proposed ∨ vn = 0 then none
        else
          match vnScan proposed fuel r with
          | none => none
          | some n => some (if (versionIndex vn).isSome then n + 1 else n)

/-- What a client does with a version negotiation packet. -/
inductive VnAction
  /-- dropped, return code 0 -/
  | unexpected
  /-- ignored, `PICOQUIC_ERROR_DETECTED` -/
  | ignored
  /-- the application is told the list of versions, and the connection ends with `PICOQUIC_ERROR_VERSION_NEGOTIATION` -/
  | disconnect (versions : Bytes)
deriving DecidableEq

/-- `picoquic_incoming_version_negotiation`, packet.c 889-960. `initSent`: the state is `client_init_sent`. -/
def incomingVn (initSent : Bool) (localCid initialCid : Cid) (proposed : Nat) (ph : Ph) (bs : Bytes) : VnAction :=
  if !initSent then .unexpected
  else if ph.dcid ≠ localCid ∨ ph.vn ≠ 0 then .ignored
  else if ph.scid ≠ initialCid ∨ ph.vn ≠ 0 then .ignored
  else
    match vnScan proposed bs.length (bs.drop ph.offset) with
    | none => .ignored
    | some n => if n = 0 then .ignored else .disconnect (bs.drop ph.offset)

/-! ### The stateless reset -/

/-- The fields `stateless_reset_next_time` and `stateless_reset_min_interval` of `picoquic_quic_t`. -/
structure ResetCtx where
  nextTime : Nat
  interval : Nat

/-- What is random in a stateless reset: the bits of the first byte, the number subtracted from the length, and the bytes. -/
structure ResetRandom where
  bits : UInt8
  /-- `picoquic_public_uniform_random` of a bound -/
  uniform : Nat → Nat
  /-- `picoquic_public_random` for a number of bytes -/
  bytes : Nat → Bytes

/-- `pad_size`, packet.c 1079-1085. -/
def padSize (rnd : ResetRandom) (length : Nat) : Nat :=
  let p := length - 16 - 2
  if p > RESET_MIN_SIZE - 16 - 1 then p - rnd.uniform (p - (RESET_MIN_SIZE - 16 - 1)) else p

/-- The packet, packet.c 1087-1096. -/
def resetPacket (rnd : ResetRandom) (length : Nat) (secret : Bytes) : Bytes :=
  (0x40 ||| (rnd.bits &&& 0x3F)) :: (rnd.bytes (padSize rnd length) ++ secret)

/-- `picoquic_process_unexpected_cnxid`, packet.c 1066-1111: the context, and the packet sent. `secret` is
`picoquic_create_cnxid_reset_secret` of the destination. -/
def unexpectedCnxid (c : ResetCtx) (now length : Nat) (t : PType) (rnd : ResetRandom) (secret : Bytes) : ResetCtx × Option Bytes :=
  if length > RESET_MIN_SIZE ∧ t = .oneRtt ∧ c.nextTime ≤ now then
    ({ c with nextTime := u64 (now + c.interval) }, some (resetPacket rnd length secret))
  else (c, none)

/-- The call in `picoquic_incoming_segment`, packet.c 2176-2184, for a packet that was parsed and belongs to no connection. `secretOf` is
`picoquic_create_cnxid_reset_secret`. -/
def unknownPacket (c : ResetCtx) (blockingDisabled blocked : Bool) (now length : Nat) (ph : Ph) (rnd : ResetRandom)
    (secretOf : Cid → Bytes) : ResetCtx × Option Bytes :=
  if ph.dcid ≠ [] ∧ (blockingDisabled ∨ !blocked) then unexpectedCnxid c now length ph.ptype rnd (secretOf ph.dcid)
  else (c, none)

end Picoquic.Stateless
