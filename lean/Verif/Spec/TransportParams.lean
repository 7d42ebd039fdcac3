import Verif.Spec.StreamFrame
/-!
# Specification of transport parameters (RFC 9000, sections 7.4 and 18)

Independent of the code of picoquic: the syntax of the extension and the legal values.
-/

namespace Picoquic.Spec
open Picoquic

/-- RFC 9000 section 18: the extension is a sequence of parameters, each made of a type, a length and
a value; the type and the length are variable length integers. -/
inductive Extension : Bytes → List (Nat × Bytes) → Prop
  | nil : Extension [] []
  | cons {t l v rest : Bytes} {type : Nat} {ps : List (Nat × Bytes)} :
      Varint t type → Varint l v.length → Extension rest ps →
      Extension (t ++ (l ++ (v ++ rest))) ((type, v) :: ps)

/-- The parameters whose value is a variable length integer. -/
def IntegerType (t : Nat) : Prop :=
  t ∈ [1, 3, 4, 5, 6, 7, 8, 9, 10, 11, 14, 32, 0x1057, 0xff04de1b, 0x7158, 0xebd9,
    0x0f739bbc1b666d0d, 0x9f81a176]

instance (t : Nat) : Decidable (IntegerType t) := by unfold IntegerType; infer_instance

/-- The legal values of integer parameters. RFC 9000 section 18.2: max_udp_payload_size (3) is at least
1200, counts of streams (8 and 9) are at most 2^60, ack_delay_exponent (10) is at most 20,
max_ack_delay (11) is below 2^14. The extensions: loss bits (0x1057) are 0 or 1, min_ack_delay
is from 1 to 2^24 - 1, time stamps (0x7158) are from 1 to 3, BDP frames (0xebd9) are 0 or 1, address
discovery (0x9f81a176) is at most 2. -/
def LegalInteger (t n : Nat) : Prop :=
  (t = 3 → 1200 ≤ n) ∧ (t = 8 ∨ t = 9 → n ≤ 2 ^ 60) ∧ (t = 10 → n ≤ 20) ∧ (t = 11 → n < 2 ^ 14) ∧
  (t = 0x1057 → n ≤ 1) ∧ (t = 0xff04de1b → 1 ≤ n ∧ n < 2 ^ 24) ∧ (t = 0x7158 → 1 ≤ n ∧ n ≤ 3) ∧
  (t = 0xebd9 → n ≤ 1) ∧ (t = 0x9f81a176 → n ≤ 2)

/-- The legal values of the parameters that are not integers: flags (12 and 0x2ab2) are empty,
connection IDs (0, 15 and 16) have at most 20 bytes, a stateless reset token (2) has 16, a
preferred address (13) is made of an IPv4 address and port, an IPv6 address and port, a connection ID
of 1 to 20 bytes with its length, and a token. -/
def LegalBlock (t : Nat) (v : Bytes) : Prop :=
  (t = 12 ∨ t = 0x2ab2 → v = []) ∧ (t = 0 ∨ t = 15 ∨ t = 16 → v.length ≤ 20) ∧
  (t = 2 → v.length = 16) ∧
  (t = 13 → ∃ a p a' p' l cid token : Bytes, v = a ++ p ++ a' ++ p' ++ l ++ cid ++ token ∧
    a.length = 4 ∧ p.length = 2 ∧ a'.length = 16 ∧ p'.length = 2 ∧ l.length = 1 ∧
    bigEndian l = cid.length ∧ 1 ≤ cid.length ∧ cid.length ≤ 20 ∧ token.length = 16)

/-- What RFC 9000 sections 7.4 and 18.2 ask of an extension: no parameter is repeated, the
values are legal, and a client does not send those that are reserved to servers. -/
structure Legal (fromServer : Bool) (ps : List (Nat × Bytes)) : Prop where
  once : (ps.map Prod.fst).Nodup
  integers : ∀ t v, (t, v) ∈ ps → IntegerType t → ∃ n, Varint v n ∧ LegalInteger t n
  blocks : ∀ t v, (t, v) ∈ ps → LegalBlock t v
  roles : fromServer = false → ∀ t v, (t, v) ∈ ps → t ≠ 0 ∧ t ≠ 2 ∧ t ≠ 13 ∧ t ≠ 16

/-- RFC 9000 section 7.3, as seen by the receiver of the extension: the peer repeats the source
connection ID of its Initial packets (15); a server repeats the destination of the first Initial packet of
the client (0), and the source of its Retry packet (16) if there was one. -/
structure CidsMatch (fromServer : Bool) (peerCid initialCid originalCid : Bytes)
    (ps : List (Nat × Bytes)) : Prop where
  source : (15, peerCid) ∈ ps
  original : fromServer = true → originalCid = [] → (0, initialCid) ∈ ps ∧ ∀ v, (16, v) ∉ ps
  retry : fromServer = true → originalCid ≠ [] → (0, originalCid) ∈ ps ∧ (16, initialCid) ∈ ps

/-- The versions in a version information parameter (RFC 9368): 32-bit integers, the chosen version
first. -/
def versionWords : Bytes → List Nat
  | a :: b :: c :: d :: rest => bigEndian [a, b, c, d] :: versionWords rest
  | _ => []

/-- The version information of a client that asks for a change from another version than version 1 to
version 2, or to its draft. -/
def FromOtherToV2 (v : Bytes) : Prop :=
  ∃ chosen others, versionWords v = chosen :: others ∧ chosen ≠ 1 ∧
    (0x6b3343cf ∈ others ∨ 0x709a50c4 ∈ others)

/-- The version information of a client that lists another version than the one chosen, which is not
version 2 nor its draft. -/
def ToOtherThanV2 (v : Bytes) : Prop :=
  ∃ chosen others w, versionWords v = chosen :: others ∧ w ∈ others ∧ w ≠ chosen ∧
    w ≠ 0x6b3343cf ∧ w ≠ 0x709a50c4

/-- The codes of the errors: TRANSPORT_PARAMETER_ERROR, PROTOCOL_VIOLATION (RFC 9000 section 20.1) and
VERSION_NEGOTIATION_ERROR (RFC 9368 section 10.2). -/
def TransportParameterError (e : Nat) : Prop := e = 0x8 ∨ e = 0xA ∨ e = 0x11

end Picoquic.Spec
