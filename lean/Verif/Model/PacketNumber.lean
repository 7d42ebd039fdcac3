import Verif.Model.IntFormat
/-!
# Packet numbers and header protection

Model of `picoquic_get_packet_number64` and header protection removal (`picoquic/packet.c`), and of
the packet number encoding and header protection of the sender (`picoquic/sender.c`). The header
protection cipher (picotls) is an arbitrary function from the sample to the 5 mask bytes.
-/

namespace Picoquic.PacketNumber
open Picoquic

/-- `picoquic_get_packet_number64`, packet.c 491-514, with the 64 bit wrap-around of C. -/
def getPacketNumber64 (highest mask pn : Nat) : Nat :=
  let expected := u64 (highest + 1)
  let notMaskPlusOne := u64 ((UINT64_MAX - mask) + 1)
  let pn64 := (expected &&& mask) ||| pn
  if pn64 < expected then
    let delta1 := expected - pn64
    let delta2 := u64 (notMaskPlusOne + 18446744073709551616 - delta1)
    if delta2 < delta1 then u64 (pn64 + notMaskPlusOne) else pn64
  else
    let delta1 := pn64 - expected
    let delta2 := u64 (notMaskPlusOne + 18446744073709551616 - delta1)
    if delta2 ≤ delta1 ∧ pn64 &&& mask > 0 then
      u64 (pn64 + 18446744073709551616 - notMaskPlusOne)
    else pn64

/-- The mask after `k` shifts, packet.c 561-570. -/
def pnMask : Nat → Nat
  | 0 => UINT64_MAX
  | k + 1 => u64 (pnMask k <<< 8)

/-- The encoding of the packet number on `pnL` bytes, sender.c 682-696. -/
def formatPn (pnL n : Nat) : Bytes :=
  if pnL = 1 then [u8 n]
  else if pnL = 2 then picoformat16 (u16 n)
  else if pnL = 3 then picoformat24 (u32 n)
  else picoformat32 (u32 n)

/-- Choice of the length of the packet number in `picoquic_predict_packet_header_length`,
sender.c 746-760. `pendingFirst` is the number of the oldest packet not yet acknowledged or
abandoned. The difference is computed in `int64_t`. -/
def predictPnLength (sendSequence : Nat) (pendingFirst : Option Nat) : Nat :=
  let delta : Int := match pendingFirst with
    | none => sendSequence
    | some p => (sendSequence : Int) - p
  if delta < 262144 then
    if sendSequence < 1024 then
      if sendSequence < 16 then 1 else 2
    else 3
  else 4

/-- The short header written by `picoquic_create_packet_header`, sender.c 664-697. `flags` is
`K | C | spin` (bits 2, 5 and 6); `cid` the destination connection ID; `headerLength` the predicted
length of the header. Returns the bytes, `pn_offset` and `pn_length`. -/
def createShortHeader (flags : UInt8) (cid : Bytes) (headerLength n : Nat) : Bytes × Nat × Nat :=
  let length := 1 + cid.length
  let pnL := if headerLength > length ∧ headerLength < length + 4 then headerLength - length else 4
  ((flags ||| u8 (pnL - 1)) :: cid ++ formatPn pnL n, length, pnL)

/-- XOR of a number of bytes with the mask bytes. -/
def xorMask : Bytes → Bytes → Bytes
  | b :: bs, m :: ms => (b ^^^ m) :: xorMask bs ms
  | bs, _ => bs

/-- `picoquic_protect_packet_header`, sender.c 806-831. `pnEnc` gives the 5 mask bytes for the bytes
starting at the sample (as in C, the size of the sample is the business of the cipher); the buffer
`buf` is the whole packet. Writing past the buffer is `none`. -/
def protectPacketHeader (pnEnc : Bytes → Bytes) (firstMask : UInt8) (pnOffset : Nat) (buf : Bytes) :
    Option Bytes :=
  match buf with
  | [] => none
  | b0 :: rest =>
    let mask := pnEnc (buf.drop (pnOffset + 4))
    let pnL := (b0 &&& 3).toNat + 1
    if pnOffset = 0 ∨ buf.length < pnOffset + pnL ∨ mask.length < 5 then none
    else
      some ((b0 ^^^ (mask.headD 0 &&& firstMask)) ::
        rest.take (pnOffset - 1) ++
        xorMask ((rest.drop (pnOffset - 1)).take pnL) (mask.tail) ++
        rest.drop (pnOffset - 1 + pnL))

/-- What `picoquic_remove_header_protection_inner` leaves in the packet header structure, and the
bytes written in `decrypted_bytes`. -/
structure Unprotected where
  decrypted : Bytes
  offset : Nat
  pn : Nat
  pnmask : Nat
  pn64 : Nat
  payloadLength : Nat
  keyPhase : Nat
  reserved : Bool
deriving DecidableEq, Repr

/-- `picoquic_remove_header_protection_inner`, packet.c 519-605, when the key is available and the
sample lies in the packet; `none` when it does not (`ph->pn64` is then left unset and the packet
fails authentication). `length` is `ph->offset + ph->payload_length`, `ivSize` the sample size,
`is1rtt` whether the packet type is 1-RTT, `keyPhase0` the value of `ph->key_phase` on entry. -/
def removeHeaderProtection (pnEnc : Bytes → Bytes) (ivSize : Nat) (lossBit is1rtt : Bool)
    (keyPhase0 pnOffset sackLast : Nat) (bytes : Bytes) : Option Unprotected :=
  match bytes with
  | [] => none
  | b0 :: rest =>
    if pnOffset + 4 + ivSize > bytes.length then none
    else
      let mask := pnEnc (bytes.drop (pnOffset + 4))
      let firstMask : UInt8 := if b0 &&& 0x80 = 0x80 then 0x0F else if lossBit then 0x07 else 0x1F
      let first := b0 ^^^ (mask.headD 0 &&& firstMask)
      let pnL := (first &&& 3).toNat + 1
      let pnBytes := xorMask ((bytes.drop pnOffset).take pnL) mask.tail
      let pn := accumulate 0 pnBytes
      some {
        decrypted := first :: rest.take (pnOffset - 1) ++ pnBytes
        offset := pnOffset + pnL
        pn := pn
        pnmask := pnMask pnL
        pn64 := getPacketNumber64 sackLast (pnMask pnL) pn
        payloadLength := bytes.length - pnOffset - pnL
        keyPhase := if is1rtt then ((first >>> 2) &&& 1).toNat else keyPhase0
        reserved := if first &&& 0x80 = 0 then !lossBit && decide (first &&& 0x18 ≠ 0)
          else decide (first &&& 0x0c ≠ 0) }

end Picoquic.PacketNumber
