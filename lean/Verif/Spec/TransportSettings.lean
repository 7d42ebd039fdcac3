import Verif.Model.TransportParams
import Verif.Spec.TransportParams
/-!
# Settings of a connection, and what the peer should learn of them

The vocabulary of the statements about the exchange of transport parameters between two connections.
-/

namespace Picoquic.Spec
open Picoquic Picoquic.TransportParams

/-- Legal local settings: the integers can be encoded and are legal (RFC 9000 section 18.2), the
maximum ACK delay is at most 16383 ms, the fixed length fields have their lengths, connection IDs have
at most 20 bytes, and only a server has a preferred address, whose connection ID is not empty. -/
structure LegalSettings (a : Conn) : Prop where
  data : a.loc.maxData < 2 ^ 62
  bidiLocal : a.loc.maxStreamDataBidiLocal < 2 ^ 62
  bidiRemote : a.loc.maxStreamDataBidiRemote < 2 ^ 62
  uni : a.loc.maxStreamDataUni < 2 ^ 62
  streamsBidi : a.loc.maxStreamsBidi ≤ 2 ^ 60
  streamsUni : a.loc.maxStreamsUni ≤ 2 ^ 60
  idle : a.loc.idleTimeout < 2 ^ 62
  packet : 1200 ≤ a.loc.maxPacketSize ∧ a.loc.maxPacketSize ≤ 65527
  ackDelay : a.loc.maxAckDelay ≤ 16383000
  cidLimit : a.loc.activeCidLimit < 2 ^ 32
  exponent : a.loc.ackDelayExponent ≤ 20
  datagram : a.loc.maxDatagram < 2 ^ 32
  timeStamp : a.loc.timeStamp ≤ 3
  minAckDelay : a.loc.minAckDelay < 2 ^ 24
  bdp : a.loc.bdpFrame ≤ 1
  pathId : a.loc.maxPathId < 2 ^ 62
  discovery : a.loc.addressDiscovery ≤ 3
  preferred : ∀ p, a.loc.preferred = some p → a.client = false ∧ p.ipv4.length = 4 ∧
    p.ipv6.length = 16 ∧ p.ipv4Port < 2 ^ 16 ∧ p.ipv6Port < 2 ^ 16 ∧ 1 ≤ p.cid.length ∧
    p.cid.length ≤ 20 ∧ p.token.length = 16
  cids : a.localCid.length ≤ 20 ∧ a.initialCid.length ≤ 20 ∧ a.originalCid.length ≤ 20
  secret : a.ownResetSecret.length = 16
  version : a.version < 2 ^ 32 ∧ a.desiredVersion < 2 ^ 32

/-- `b` is the peer of `a`: it has the other role, the same version, and knows the connection IDs of the
handshake. A server has seen the connection ID of the client confirmed. The version a client desires,
if any, is version 2 or its draft while it uses version 1, or one that `b` does not support. -/
structure Peers (a b : Conn) : Prop where
  roles : b.client = !a.client
  version : b.version = a.version
  source : b.remoteCid = a.localCid
  initial : b.initialCid = a.initialCid
  original : b.originalCid = a.originalCid
  confirmed : a.client = false → a.hcidVerified = true
  desired : a.client = true → a.desiredVersion = 0 ∨ a.desiredVersion = a.version ∨
    isSupported a.desiredVersion = false ∨
    (a.version = 1 ∧ (a.desiredVersion = 0x6b3343cf ∨ a.desiredVersion = 0x709a50c4))

/-- The maximum datagram size that is advertised: a server without a setting advertises 1536 when the
client has sent one. -/
def advertisedDatagram (a : Conn) : Nat :=
  if a.client = false ∧ a.loc.maxDatagram = 0 ∧ a.rem.maxDatagram > 0 then 1536 else a.loc.maxDatagram

/-- What `b` should read of the settings of `a`: the settings themselves, with the maximum ACK delay rounded up
to a multiple of 1000 microseconds, the loss bit setting reduced to one of its three meanings, the
default limit of connection IDs (2, or none if `b` has an empty connection ID) if there is no setting, and the
largest path ID only with multipath. -/
def learned (a b : Conn) : Params :=
  { a.loc with
    maxAckDelay := (a.loc.maxAckDelay + 999) / 1000 * 1000
    lossBit := min a.loc.lossBit 2
    activeCidLimit := if a.loc.activeCidLimit > 0 then a.loc.activeCidLimit
      else if b.localCid = [] then 0 else 2
    maxDatagram := advertisedDatagram a
    maxPathId := if a.loc.multipath then a.loc.maxPathId else 0 }

/-- The version information that a connection takes: it names the version in use, and a
server finds no other version than those it does not support, or version 2 (or its draft) when in
version 1. -/
def VersionsAgree (c : Conn) (v : Bytes) : Prop :=
  ∃ others, versionWords v = c.version :: others ∧ v.length % 4 = 0 ∧
    (c.client = false → ∀ w ∈ others, w = c.version ∨ isSupported w = false ∨
      (c.version = 1 ∧ (w = 0x6b3343cf ∨ w = 0x709a50c4)))

/-- No option has been negotiated yet. -/
structure Fresh (c : Conn) : Prop where
  ackFrequency : c.ackFrequency = false
  provider : c.addressProvider = false
  receiver : c.addressReceiver = false
  stampsEnabled : c.timeStampEnabled = false
  stampsSent : c.timeStampSent = false

/-- The idle timeout that two advertised values, in milliseconds, should result in (RFC 9000 section
10.1), in microseconds: the smaller of those that are not zero; none, represented by 2^64 - 1, if both are
zero. -/
def negotiatedIdle (x y : Nat) : Nat :=
  if x = 0 ∧ y = 0 then 2 ^ 64 - 1
  else if x = 0 then y * 1000
  else if y = 0 then x * 1000
  else min x y * 1000

/-- The two ends of a connection agree on the options in use: the same idle timeout, multipath with the
same limits, ACK frequency and BDP frames used by both or none; what one sends (loss bits, time stamps,
observed addresses) is what the other expects; and one clears the QUIC bit only if the other has
advertised that it accepts that. -/
structure OptionsAgree (a b : Conn) : Prop where
  idle : a.idleTimeout = b.idleTimeout
  multipath : a.multipath = b.multipath
  pathIds : a.multipath = true → a.maxPathIdRemote = b.maxPathIdLocal ∧ b.maxPathIdRemote = a.maxPathIdLocal
  ackFrequency : a.ackFrequency = b.ackFrequency
  bdp : a.bdpFrames = b.bdpFrames
  lossBits : a.lossBitOut = b.lossBitIn ∧ b.lossBitOut = a.lossBitIn
  stamps : a.timeStampSent = b.timeStampEnabled ∧ b.timeStampSent = a.timeStampEnabled
  addresses : a.addressProvider = b.addressReceiver ∧ b.addressProvider = a.addressReceiver
  quicBit : (a.doGreaseQuicBit = true → b.loc.greaseQuicBit = true) ∧
    (b.doGreaseQuicBit = true → a.loc.greaseQuicBit = true)

end Picoquic.Spec
