import Verif.Proof.Fixed
/-!
# Properties C01, C02, C03, C41: integer, connection ID and text codecs
-/

namespace Picoquic.Props
open Picoquic Picoquic.Spec

/-- **C01.** For every integer below 2^62 there is one shortest RFC 9000 encoding; both encoders
write exactly it when (and only when) there is room, and nothing otherwise; both decoders and both
skip functions, whatever follows, return the same integer and stop right after it. -/
theorem C01_varint_roundtrip (n : Nat) (hn : n < 2 ^ 62) :
    ∃ k bs, IsVarint k bs n ∧ IsShortest k n ∧
      encodeVarintLength n = 2 ^ k ∧
      (∀ room, framesVarintEncode n room = if 2 ^ k ≤ room then some bs else none) ∧
      (∀ room, varintEncode room n = if 2 ^ k ≤ room then bs else []) ∧
      ∀ rest,
        framesVarintDecode (bs ++ rest) = some (n, rest) ∧
        varintDecode (bs ++ rest) = (2 ^ k, n) ∧
        framesVarintSkip (bs ++ rest) = some rest ∧
        varintSkip (bs ++ rest) = some (2 ^ k) := by
  obtain ⟨k, hv, hs, hl⟩ := varintBytes_isVarint n hn
  refine ⟨k, varintBytes n, hv, hs, hl, ?_, ?_, ?_⟩
  · intro room; rw [framesVarintEncode_eq, hl]
  · intro room; rw [varintEncode_eq, hl]
  · intro rest
    have hd := framesVarintDecode_of_isVarint hv rest
    refine ⟨hd, ?_, ?_, ?_⟩
    · rw [varintDecode_eq, hd]
      simp [hv.2.1]
    · rw [framesVarintSkip_eq, hd]; rfl
    · obtain ⟨b, p', he, _, hb, _⟩ := isVarint_cases hv
      rw [he, List.cons_append, varintSkip, decodeVarintLength_eq, hb]

/-- Non-vacuity of C01: 15293 is encoded on two bytes `7b bd` (the RFC 9000 example). -/
example : (15293 : Nat) < 2 ^ 62 ∧ framesVarintEncode 15293 2 = some [0x7b, 0xbd] ∧
    framesVarintEncode 15293 1 = none ∧
    framesVarintDecode [0x7b, 0xbd, 9] = some (15293, [9]) := by decide

/-- **C41 (violated).** Integers of 2^62 and more are not refused: every such 64-bit integer is
written by both encoders as the 8-byte encoding of a *different* integer, `n mod 2^62`. -/
theorem C41_varint_too_large_violated (n : Nat) (h : 2 ^ 62 ≤ n) (h' : n < 2 ^ 64) (rest : Bytes) :
    ∃ bs m, m ≠ n ∧ framesVarintEncode n 8 = some bs ∧ varintEncode 8 n = bs ∧
      framesVarintDecode (bs ++ rest) = some (m, rest) := by
  have hl : encodeVarintLength n ≤ 8 := encodeVarintLength_le n
  refine ⟨varintBytes n, n % 2 ^ 62, by omega, ?_, ?_, ?_⟩
  · rw [framesVarintEncode_eq, if_pos hl]
  · rw [varintEncode_eq, if_pos hl]
  · exact framesVarintDecode_varintBytes_big n h h' rest

/-- Non-vacuity of C41: the value 2^62 is sent as 0. -/
example : framesVarintEncode (2 ^ 62) 8 = some [0xC0, 0, 0, 0, 0, 0, 0, 0] ∧
    framesVarintDecode [0xC0, 0, 0, 0, 0, 0, 0, 0] = some (0, []) := by decide

/-- **C02, varint.** The varint decoder succeeds exactly on buffers that start with an RFC 9000
encoding lying wholly inside the buffer, and then returns its value and what follows it. The skip
function stops at the same place, and the second decoder agrees with the first. -/
theorem C02_varint_decoders (bs : Bytes) :
    (∀ n rest, framesVarintDecode bs = some (n, rest) ↔ ∃ k p, IsVarint k p n ∧ bs = p ++ rest) ∧
    framesVarintSkip bs = (framesVarintDecode bs).map Prod.snd ∧
    (∀ n rest, framesVarintDecode bs = some (n, rest) →
      varintDecode bs = (bs.length - rest.length, n) ∧ rest.length < bs.length) ∧
    (framesVarintDecode bs = none → varintDecode bs = (0, 0)) := by
  refine ⟨?_, framesVarintSkip_eq bs, ?_, ?_⟩
  · intro n rest
    rw [framesVarintDecode_iff]
    constructor <;> (rintro ⟨k, p, h1, h2⟩; exact ⟨k, p, h2, h1⟩)
  · intro n rest h
    refine ⟨by rw [varintDecode_eq, h], framesVarintDecode_length h⟩
  · intro h; rw [varintDecode_eq, h]

/-- Non-vacuity of C02: a truncated two-byte varint is refused, a complete one is not. -/
example : framesVarintDecode [0x40] = none ∧ framesVarintDecode [0x40, 0x19, 7] = some (25, [7]) ∧
    varintDecode [0x40, 0x19, 7] = (2, 25) := by decide

/-- **C02, other decoders.** Each of the other basic decoders succeeds exactly when the buffer
starts with a complete item, and stops right after it. -/
theorem C02_fixed_decoders (bs : Bytes) :
    (∀ size rest, framesFixedSkip size bs = some rest ↔ ∃ p, p.length = size ∧ bs = p ++ rest) ∧
    (∀ n rest, framesUint8Decode bs = some (n, rest) ↔ bs = n :: rest) ∧
    (∀ n rest, framesUint16Decode bs = some (n, rest) ↔
      ∃ p, p.length = 2 ∧ bs = p ++ rest ∧ bigEndian p = n) ∧
    (∀ n rest, framesUint32Decode bs = some (n, rest) ↔
      ∃ p, p.length = 4 ∧ bs = p ++ rest ∧ bigEndian p = n) ∧
    (∀ n rest, framesUint64Decode bs = some (n, rest) ↔
      ∃ p, p.length = 8 ∧ bs = p ++ rest ∧ bigEndian p = n) ∧
    (∀ rest, framesLengthDataSkip bs = some rest ↔
      ∃ k h d, IsVarint k h d.length ∧ bs = h ++ (d ++ rest)) ∧
    (∀ cid rest, framesCidDecode 0 bs = .ok cid rest ↔
      cid.length ≤ 20 ∧ bs = UInt8.ofNat cid.length :: (cid ++ rest)) ∧
    framesCidDecode 0 bs ≠ .ub := by
  refine ⟨fun size rest => framesFixedSkip_iff size bs rest, ?_,
    fun n rest => framesUint16Decode_iff bs n rest,
    fun n rest => framesUint32Decode_iff bs n rest,
    fun n rest => framesUint64Decode_iff bs n rest,
    fun rest => framesLengthDataSkip_iff bs rest,
    fun cid rest => framesCidDecode_ok_iff 0 bs cid rest, ?_⟩
  · intro n rest
    cases bs <;> simp [framesUint8Decode]
  · unfold framesCidDecode
    split
    · simp [CONNECTION_ID_MAX_SIZE]
    · split <;> simp

/-- Non-vacuity of C02 (fixed-size and length-prefixed items). -/
example : framesUint16Decode [1, 2, 3] = some (258, [3]) ∧ framesUint16Decode [1] = none ∧
    framesLengthDataSkip [2, 7, 7, 9] = some [9] ∧ framesLengthDataSkip [3, 7, 7] = none ∧
    framesCidDecode 0 [2, 5, 6, 7] = .ok [5, 6] [7] ∧ framesCidDecode 0 [2, 5] = .fail := by decide

/-- **C02, the limit of the CID decoder.** The connection ID decoder is only safe when the
destination was cleared: on an empty buffer, with a previous length between 1 and 20, the C code
copies from `NULL`. Recorded so that the precondition `oldLen = 0` above is not mistaken for a
triviality. -/
theorem C02_cid_decode_needs_cleared_destination :
    ∀ oldLen, 0 < oldLen → oldLen ≤ 20 → framesCidDecode oldLen [] = .ub := by
  intro l h1 h2
  unfold framesCidDecode CONNECTION_ID_MAX_SIZE
  simp only
  rw [if_neg (by omega), if_neg (by omega)]

/-- **C03, integers.** Fixed-size integers are written in network byte order, exactly when there is
room, and read back unchanged whatever follows. -/
theorem C03_fixed_roundtrip (n : Nat) (rest : Bytes) :
    (n < 2 ^ 16 → ∃ bs, bs.length = 2 ∧ bigEndian bs = n ∧ picoformat16 n = bs ∧
      (∀ room, framesUint16Encode n room = if room < 2 then none else some bs) ∧
      framesUint16Decode (bs ++ rest) = some (n, rest)) ∧
    (n < 2 ^ 32 → ∃ bs, bs.length = 4 ∧ bigEndian bs = n ∧ picoformat32 n = bs ∧
      (∀ room, framesUint32Encode n room = if room < 4 then none else some bs) ∧
      framesUint32Decode (bs ++ rest) = some (n, rest)) ∧
    (n < 2 ^ 64 → ∃ bs, bs.length = 8 ∧ bigEndian bs = n ∧ picoformat64 n = bs ∧
      (∀ room, framesUint64Encode n room = if room < 8 then none else some bs) ∧
      framesUint64Decode (bs ++ rest) = some (n, rest)) ∧
    (n < 2 ^ 24 → ∃ bs, bs.length = 3 ∧ bigEndian bs = n ∧ picoformat24 n = bs ∧
      (∀ room, framesUint24Encode n room = if room < 3 then none else some bs)) := by
  refine ⟨fun h => ?_, fun h => ?_, fun h => ?_, fun h => ?_⟩
  · exact ⟨picoformat16 n, rfl, bigEndian_format16 h, rfl, fun room => rfl,
      (framesUint16Decode_iff _ _ _).2 ⟨_, rfl, rfl, bigEndian_format16 h⟩⟩
  · exact ⟨picoformat32 n, rfl, bigEndian_format32 h, rfl, fun room => rfl,
      (framesUint32Decode_iff _ _ _).2 ⟨_, rfl, rfl, bigEndian_format32 h⟩⟩
  · exact ⟨picoformat64 n, rfl, bigEndian_format64 h, rfl, fun room => rfl,
      (framesUint64Decode_iff _ _ _).2 ⟨_, rfl, rfl, bigEndian_format64 h⟩⟩
  · exact ⟨picoformat24 n, rfl, bigEndian_format24 h, rfl, fun room => rfl⟩

/-- Non-vacuity of C03 (integers). -/
example : framesUint32Encode 0x01020304 4 = some [1, 2, 3, 4] ∧
    framesUint32Decode [1, 2, 3, 4, 5] = some (0x01020304, [5]) := by decide

/-- **C03, connection IDs and length-prefixed data.** A connection ID of 0 to 20 bytes is written
in `1 + length` bytes exactly when they fit, and is read back unchanged. Length-prefixed data is
skipped exactly. -/
theorem C03_cid_roundtrip (cid : Cid) (h : cid.length ≤ 20) (room : Nat) (rest : Bytes) :
    (room < cid.length + 1 → framesCidEncode cid room = none) ∧
    (cid.length + 1 ≤ room → ∃ bs, framesCidEncode cid room = some bs ∧
      bs.length = cid.length + 1 ∧
      framesCidDecode 0 (bs ++ rest) = .ok cid rest ∧
      framesLengthDataSkip (bs ++ rest) = some rest) := by
  have hl : encodeVarintLength cid.length = 1 := by
    unfold encodeVarintLength; rw [if_pos (by omega), if_pos (by omega)]
  have hb : varintBytes cid.length = [UInt8.ofNat cid.length] := by
    unfold varintBytes; rw [if_pos (by omega), if_pos (by omega)]; rfl
  unfold framesCidEncode
  rw [framesLengthDataEncode_eq, hl]
  refine ⟨fun hr => by rw [if_neg (by omega)], fun hr => ?_⟩
  rw [if_pos (by omega)]
  refine ⟨_, rfl, by simp [hb], ?_, ?_⟩
  · rw [framesCidDecode_ok_iff]
    exact ⟨h, by simp [hb]⟩
  · rw [framesLengthDataSkip_iff]
    obtain ⟨k, hv, _, _⟩ := varintBytes_isVarint cid.length (by omega)
    exact ⟨k, _, cid, hv, by simp⟩

/-- Non-vacuity of C03 (connection IDs). -/
example : framesCidEncode [1, 2, 3] 4 = some [3, 1, 2, 3] ∧ framesCidEncode [1, 2, 3] 3 = none := by
  decide

/-- **C03, hexadecimal.** A connection ID of 1 to 18 bytes printed in hexadecimal (the buffer being
large enough for the text and its terminator) parses back to the same connection ID. -/
theorem C03_hexa_roundtrip (cid : Cid) (h1 : 0 < cid.length) (h18 : cid.length ≤ 18)
    (bufLen : Nat) (hb : 2 * cid.length + 1 ≤ bufLen) :
    ∃ text, printCidHexa bufLen cid = some text ∧ text.length = 2 * cid.length ∧
      parseCidHexa text = cid := by
  refine ⟨_, ?_, printCidHexa_length cid, ?_⟩
  · unfold printCidHexa; rw [if_neg (by omega)]
  · unfold parseCidHexa parseHexa
    rw [printCidHexa_length, if_pos, parseHexaLoop_print]
    · rfl
    · refine ⟨by omega, ?_, by omega⟩
      rw [Nat.and_one_is_mod]; omega

/-- **C03, malformed hexadecimal.** Text of odd length, with a character that is not a hexadecimal
digit, or too long, is rejected; and accepted text always has two characters per byte. -/
theorem C03_hexa_rejects (text : List Char) :
    (text.length % 2 = 1 ∨ text.length > 36 ∨ (∃ c ∈ text, parseHexaDigit c = none) →
      parseCidHexa text = []) ∧
    (parseCidHexa text ≠ [] → text.length = 2 * (parseCidHexa text).length) := by
  constructor
  · intro h
    unfold parseCidHexa parseHexa
    split
    · rename_i hc
      rw [Nat.and_one_is_mod] at hc
      rcases h with h | h | ⟨c, hc1, hc2⟩
      · omega
      · omega
      · cases hp : parseHexaLoop text with
        | none => rfl
        | some out => exact absurd hc2 (parseHexaLoop_digits hp c hc1)
    · rfl
  · unfold parseCidHexa parseHexa
    split
    · cases hp : parseHexaLoop text with
      | none => simp
      | some out => intro _; simpa using parseHexaLoop_length hp
    · simp

/-- Hexadecimal digits are the usual ones. -/
theorem C03_hexa_digits (c : Char) (v : Nat) :
    parseHexaDigit c = some v ↔
      (48 ≤ c.toNat ∧ c.toNat ≤ 57 ∧ v = c.toNat - 48) ∨
      (65 ≤ c.toNat ∧ c.toNat ≤ 70 ∧ v = c.toNat - 55) ∨
      (97 ≤ c.toNat ∧ c.toNat ≤ 102 ∧ v = c.toNat - 87) := by
  have key : ∀ (x y : Char), x ≤ y ↔ x.toNat ≤ y.toNat := fun x y => Iff.rfl
  unfold parseHexaDigit
  simp only [key]
  have h0 : '0'.toNat = 48 := rfl
  have h9 : '9'.toNat = 57 := rfl
  have hA : 'A'.toNat = 65 := rfl
  have hF : 'F'.toNat = 70 := rfl
  have ha : 'a'.toNat = 97 := rfl
  have hf : 'f'.toNat = 102 := rfl
  rw [h0, h9, hA, hF, ha, hf]
  split
  · simp; omega
  · split
    · simp; omega
    · split
      · simp; omega
      · simp; omega

/-- Non-vacuity of C03 (hexadecimal). -/
example : printCidHexa 5 [0xAB, 0x01] = some ['a', 'b', '0', '1'] ∧
    parseCidHexa ['A', 'b', '0', '1'] = [0xAB, 0x01] ∧ parseCidHexa ['a', 'b', '0'] = [] ∧
    parseCidHexa ['a', 'g'] = [] := by decide

/-- **C42.** The constant-time comparison used for stateless reset secrets answers "equal" exactly
when the strings are equal, for every length that cannot overflow the 64-bit accumulator. -/
theorem C42_constant_time_memcmp (x y : Bytes) (hl : x.length = y.length)
    (hb : x.length < 2 ^ 56) : constantTimeMemcmpEq x y = true ↔ x = y := by
  unfold constantTimeMemcmpEq ctAccum
  rw [ctAccum_aux _ _ (by simp [List.length_zip, ← hl]; omega)]
  simp only [Nat.zero_add, beq_iff_eq]
  exact zip_xor_sum_zero x y hl

/-- Non-vacuity of C42. -/
example : constantTimeMemcmpEq [1, 2, 3] [1, 2, 3] = true ∧
    constantTimeMemcmpEq [1, 2, 3] [1, 2, 4] = false := by decide

end Picoquic.Props
