import Verif.Model.PacketHeader
/-!
# Specification of sending packets in datagrams

What a receiver is expected to see of a packet, and when it can read it.
-/

namespace Picoquic.Spec
open Picoquic.Packet

/-- A cipher: decryption inverts encryption, the text grows by 16 bytes, there are at least 5 mask bytes. -/
structure Cipher (k : Keys) : Prop where
  dec : ∀ n aad text, k.dec n aad (k.enc n aad text) = some text
  length : ∀ n aad text, (k.enc n aad text).length = text.length + 16
  mask : ∀ sample, 5 ≤ (k.mask sample).length

/-- What is seen of a packet: type, destination, source, token, number, content. -/
structure PacketSeen where
  ptype : PType
  dcid : Cid
  scid : Cid
  token : Bytes
  number : Nat
  payload : Bytes
deriving DecidableEq

/-- What the sender put in a packet. Short headers have no source, only Initial packets have a token, and a very short
packet is extended with zeroes, which are PADDING frames, to the 4 bytes behind which the sample begins. -/
def packetSent (o : Out) : PacketSeen :=
  if o.ptype = .oneRtt then
    ⟨o.ptype, o.dcid, [], [], o.number, o.payload ++ List.replicate (4 - (o.pnLength + o.payload.length)) 0⟩
  else ⟨o.ptype, o.dcid, o.scid, if o.ptype = .initial then o.token else [], o.number, o.payload⟩

/-- What the receiver found in a packet. -/
def packetSeen (p : Ph × Bytes) : PacketSeen := ⟨p.1.ptype, p.1.dcid, p.1.scid, p.1.token, p.1.pn64, p.2⟩

/-- The two type bits of a long header, RFC 9000 section 17.2, and RFC 9369 section 3.2 for version 2 and its draft version. -/
def wireTypeBits (vn : Nat) (t : PType) : Nat :=
  if vn = 0x6b3343cf ∨ vn = 0x709a50c4 then
    match t with
    | .initial => 1
    | .zeroRtt => 2
    | .handshake => 3
    | _ => 0
  else
    match t with
    | .initial => 0
    | .zeroRtt => 1
    | .handshake => 2
    | _ => 3

/-- A packet which a connection may send: of an encrypted type, of a supported version, with connection IDs of at
most 20 bytes. The flags of a short header do not touch the header form and the length of the packet number. -/
structure SendablePacket (o : Out) : Prop where
  ptype : o.ptype = .initial ∨ o.ptype = .handshake ∨ o.ptype = .zeroRtt ∨ o.ptype = .oneRtt
  dcid : o.dcid.length ≤ 20
  scid : o.scid.length ≤ 20
  vn : o.vn < 2 ^ 32
  version : o.ptype ≠ .oneRtt → o.vn ≠ 0 ∧ versionIndex o.vn = some o.version
  pnLength : 1 ≤ o.pnLength ∧ o.pnLength ≤ 4
  flags : o.flags &&& 0x83 = 0

/-- The number of bytes which carry the packet number. -/
def numberBytes (o : Out) : Nat := if o.ptype = .oneRtt then o.pnLength else 4

/-- The bit which is 1 in every packet, except when it is greased. -/
def quicBitClear (o : Out) : Prop := if o.ptype = .oneRtt then o.flags &&& 0x40 = 0 else o.grease = true

/-- The receiver `h` finds the connection `c` for a packet in a datagram of `total` bytes: by its connection IDs or
address, or because the packet is an Initial one which is admitted as the first of a new connection. Initial packets to
a known server connection must be in a datagram of 1200 bytes. A cleared fixed bit must have been allowed. -/
def Finds (h : Host) (total : Nat) (o : Out) (c : Cnx) : Prop :=
  if o.ptype = .oneRtt then
    o.dcid.length = h.cidLength ∧ (if h.cidLength > 0 then h.byId o.dcid else h.byNet) = some c ∧
      (quicBitClear o → c.grease = true)
  else
    (findLong h o.ptype o.dcid = some c ∧ (quicBitClear o → c.grease = true) ∧
      (o.ptype = .initial → c.client = false → 1200 ≤ total)) ∨
    (findLong h o.ptype o.dcid = none ∧ o.ptype = .initial ∧ h.screen o.dcid o.scid o.token = some c)

/-- The packet number is within half a window of the next expected one. -/
def Recoverable (largest : Nat) (o : Out) : Prop :=
  largest < 2 ^ 62 ∧ largest + 1 ≤ o.number + 256 ^ numberBytes o / 2 ∧
    o.number < largest + 1 + 256 ^ numberBytes o / 2

/-- The connection `c` can read the packet, which was made with the keys `k` and the loss bits used or not: it has
these keys, the version, the key phase and the use of the loss bits agree, and the packet is a new one. -/
structure Reads (c : Cnx) (k : Keys) (lossOut : Bool) (o : Out) : Prop where
  keys : c.keys o.ptype = some k
  version : o.ptype ≠ .oneRtt → c.version = o.version
  loss : o.ptype = .oneRtt → c.lossIn = lossOut
  phase : o.ptype = .oneRtt → ((o.flags >>> 2) &&& 1).toNat = c.keyPhase
  recoverable : Recoverable (c.largest o.ptype) o
  new : c.received o.ptype o.number = false

/-- Which packets of a datagram are read by a receiver in state `s`, while it processes them one by one: those which it
can read when their turn comes. A packet may be in advance of its keys; it is skipped. -/
inductive Takes (m : Machine σ) (total : Nat) : σ → List (Keys × Bool × Out) → List Out → Prop
  | nil (s : σ) : Takes m total s [] []
  | taken {s : σ} {k : Keys} {l : Bool} {o : Out} {c : Cnx} {ps : List (Keys × Bool × Out)} {os : List Out}
      (find : Finds (m.host s) total o c) (read : Reads c k l o)
      (good : ∀ seg ph, seg.ret = .ok → seg.ph = some ph → packetSeen (ph, seg.payload) = packetSent o → (m.act s seg).2 = true)
      (next : ∀ seg ph, seg.ret = .ok → seg.ph = some ph → packetSeen (ph, seg.payload) = packetSent o →
        Takes m total (m.act s seg).1 ps os) :
      Takes m total s ((k, l, o) :: ps) (o :: os)
  | locked {s : σ} {k : Keys} {l : Bool} {o : Out} {c : Cnx} {ps : List (Keys × Bool × Out)} {os : List Out}
      (find : Finds (m.host s) total o c) (keys : c.keys o.ptype = none)
      (version : o.ptype ≠ .oneRtt → c.version = o.version)
      (next : ∀ seg, seg.ret = .notReady ∨ seg.ret = .stateless → Takes m total (m.act s seg).1 ps os) :
      Takes m total s ((k, l, o) :: ps) os

/-- Packets in the order of a datagram: a packet with a short header has no length, it is the last one. -/
def ShortLast : List (Keys × Bool × Out) → Prop
  | [] => True
  | (_, _, o) :: ps => (o.ptype = .oneRtt → ps = []) ∧ ShortLast ps

/-- A connection which the receiver knows, or which it creates for an Initial packet. -/
def KnownCnx (h : Host) (c : Cnx) : Prop :=
  (∃ id, h.byId id = some c) ∨ h.byNet = some c ∨ (∃ id, h.byIcid id = some c) ∨ ∃ d s t, h.screen d s t = some c

/-- The text was obtained by decryption of the packet with keys of the connection for this type of packet, and under this
packet number: what precedes the encrypted bytes is authenticated. The packet number was not seen before. -/
def AuthenticPacket (c : Cnx) (pkt : Bytes) (ph : Ph) (text : Bytes) : Prop :=
  (∃ k aad, (c.keys ph.ptype = some k ∨ (ph.ptype = .oneRtt ∧ c.otherKeys = some k)) ∧ aad.length ≤ pkt.length ∧
    k.dec ph.pn64 aad (pkt.drop aad.length) = some text) ∧ c.received ph.ptype ph.pn64 = false

/-- The types of the packets which are encrypted. -/
def EncryptedType (t : PType) : Prop := t = .initial ∨ t = .handshake ∨ t = .zeroRtt ∨ t = .oneRtt

end Picoquic.Spec
