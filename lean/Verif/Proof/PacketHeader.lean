import Verif.Model.PacketHeader
import Verif.Spec.PacketHeader
import Verif.Proof.IntFormat
import Verif.Proof.Fixed
import Verif.Props.PacketNumber
/-!
# Proofs: a packet is parsed and decrypted as it was made
-/

namespace Picoquic.Packet
open Picoquic.PacketNumber Picoquic.Spec Picoquic.Props

/-! ### Long headers -/

/-- The two bytes of the length are read back. -/
theorem varlen16 (n : Nat) (h : n < 16384) (r : Bytes) :
    framesVarlenDecode (varintEncode16 n ++ r) = some (n, r) := by
  unfold framesVarlenDecode
  rw [framesVarintDecode_iff]
  refine ⟨1, varintEncode16 n, rfl, ?_⟩
  have e : ∀ x : Fin 64, (u8 ((x.val ||| 0x40) &&& 0x7F)).toNat = 64 + x.val := by decide
  have e' := e ⟨n >>> 8, by rw [Nat.shiftRight_eq_div_pow]; omega⟩
  simp only at e'
  refine ⟨by omega, rfl, ?_, ?_⟩
  · omega
  · show bigEndian [_, _] = _
    simp only [Spec.bigEndian, e', u8_toNat]
    rw [Nat.shiftRight_eq_div_pow]
    simp
    omega

/-- The part of a long header before the length. -/
def frontOf (b : UInt8) (o : Out) : Bytes :=
  b :: (picoformat32 o.vn ++ ((u8 o.dcid.length :: o.dcid) ++ ((u8 o.scid.length :: o.scid) ++
    (if o.ptype = .initial then varintBytes o.token.length ++ o.token else []))))

/-- The first byte of a long header. -/
def firstOf (o : Out) : UInt8 :=
  if o.grease then createLongType o.ptype o.version &&& 0xBF else createLongType o.ptype o.version

theorem createLong_eq {o : Out} (h : SendablePacket o) :
    createLong o = (frontOf (firstOf o) o ++ ([0, 0] ++ picoformat32 (u32 o.number)), (frontOf (firstOf o) o).length + 2, 4) := by
  have hd := h.dcid
  have hs := h.scid
  have hr : o.ptype ≠ .retry := by
    rcases h.ptype with h | h | h | h <;> rw [h] <;> decide
  have hv : encodeVarintLength o.token.length ≤ 8 := by
    unfold encodeVarintLength
    repeat' split
    all_goals omega
  have hl : ∀ b : UInt8, (b :: picoformat32 o.vn ++ (u8 o.dcid.length :: o.dcid) ++ (u8 o.scid.length :: o.scid)).length =
      7 + o.dcid.length + o.scid.length := by
    intro b
    simp [picoformat32]; omega
  have hve : varintEncode (MAX_PACKET_SIZE - (7 + o.dcid.length + o.scid.length)) o.token.length =
      varintBytes o.token.length := by
    rw [varintEncode_eq, if_pos (by unfold MAX_PACKET_SIZE; omega)]
  unfold createLong
  dsimp only
  rw [if_neg hr, hl, hve]
  unfold frontOf firstOf
  by_cases hi : o.ptype = .initial
  · simp [hi]
  · simp [hi]

theorem frontOf_length (b : UInt8) (o : Out) : 7 ≤ (frontOf b o).length := by
  unfold frontOf
  simp [picoformat32]
  omega

theorem frontOf_length_eq (b c : UInt8) (o : Out) : (frontOf b o).length = (frontOf c o).length := by
  unfold frontOf; simp

theorem updateLength_long (b : UInt8) (o : Out) (pn : Bytes) (n : Nat) (hb : b &&& 0x80 ≠ 0) (h0 : 0 < n)
    (h1 : (frontOf b o).length + 2 + n < 0x4000) :
    updateLength (frontOf b o ++ ([0, 0] ++ pn)) ((frontOf b o).length + 2) ((frontOf b o).length + 2)
      ((frontOf b o).length + 2 + n) = frontOf b o ++ (varintEncode16 n ++ pn) := by
  have h7 := frontOf_length b o
  have hh : (frontOf b o ++ ([0, 0] ++ pn)).headD 0 = b := rfl
  unfold updateLength
  rw [hh, if_pos ⟨hb, by omega, by omega, h1⟩, Nat.add_sub_cancel, List.take_left,
    Nat.add_sub_cancel_left, List.append_assoc]
  congr 2
  rw [List.drop_append, List.drop_eq_nil_of_le (by omega), List.nil_append, Nat.add_sub_cancel_left]
  rfl

/-- The first byte under a mask of its four low bits. -/
theorem firstByte_long (b m : UInt8) :
    (b ^^^ (m &&& 0x0F)).toNat >>> 4 = b.toNat >>> 4 := by
  have hm : (m &&& 0x0F).toNat < 16 := by
    rw [UInt8.toNat_and]
    exact Nat.lt_of_le_of_lt Nat.and_le_right (by decide)
  rw [UInt8.toNat_xor]
  have key : ∀ x : Fin 256, ∀ y : Fin 16, (x.val ^^^ y.val) >>> 4 = x.val >>> 4 := by decide +kernel
  exact key ⟨b.toNat, b.toNat_lt⟩ ⟨_, hm⟩

theorem parseLongType_mask (b m : UInt8) (i : Nat) : parseLongType (b ^^^ (m &&& 0x0F)) i = parseLongType b i := by
  unfold parseLongType
  rw [firstByte_long]

theorem and80_of_shift {a b : UInt8} (h : a.toNat >>> 4 = b.toNat >>> 4) : a &&& 0x80 = b &&& 0x80 ∧ a &&& 0x40 = b &&& 0x40 := by
  have key : ∀ x : Fin 256, (x.val &&& 128 = if 8 ≤ x.val >>> 4 then 128 else 0) ∧
      (x.val &&& 64 = if 4 ≤ (x.val >>> 4) % 8 then 64 else 0) := by decide +kernel
  have ka := key ⟨a.toNat, a.toNat_lt⟩
  have kb := key ⟨b.toNat, b.toNat_lt⟩
  simp only at ka kb
  constructor
  · apply UInt8.toNat_inj.1
    rw [UInt8.toNat_and, UInt8.toNat_and]
    show a.toNat &&& 128 = b.toNat &&& 128
    rw [ka.1, kb.1, h]
  · apply UInt8.toNat_inj.1
    rw [UInt8.toNat_and, UInt8.toNat_and]
    show a.toNat &&& 64 = b.toNat &&& 64
    rw [ka.2, kb.2, h]

/-- The first byte of a long header has the header form bit, the type, 4 bytes of packet number, and the fixed bit unless it
is greased. -/
theorem firstOf_bits {o : Out} (h : SendablePacket o) (hp : o.ptype ≠ .oneRtt) :
    firstOf o &&& 0x80 = 0x80 ∧ parseLongType (firstOf o) o.version = o.ptype ∧ (firstOf o &&& 3).toNat + 1 = 4 ∧
      (firstOf o &&& 0x40 = 0 ↔ o.grease = true) := by
  unfold firstOf createLongType parseLongType
  rcases h.ptype with h | h | h | h <;> rw [h] <;> (try exact absurd h hp) <;>
    cases isV2 o.version <;> cases o.grease <;> decide

/-- The header that is found in a packet with a long header. -/
def phLong (o : Out) (pnOffset n : Nat) : Ph :=
  { ptype := o.ptype, vn := o.vn, version := some o.version, dcid := o.dcid, scid := o.scid,
    token := if o.ptype = .initial then o.token else [], offset := pnOffset, payloadLength := n, pnOffset := pnOffset,
    pn64 := 0 }

theorem u8_ofNat (n : Nat) : u8 n = UInt8.ofNat n := rfl

theorem parseLong_front {o : Out} (h : SendablePacket o) (hp : o.ptype ≠ .oneRtt)
    (ht : o.ptype = .initial → o.token.length < 2 ^ 62) (host : Host)
    (b : UInt8) (hb : parseLongType b o.version = o.ptype) (n : Nat) (x : Bytes) (hn : n < 16384) (hx : n ≤ x.length) :
    parseLong host (frontOf b o ++ (varintEncode16 n ++ x)) =
      longFound host b (phLong o ((frontOf b o).length + 2) n) := by
  obtain ⟨hv0, hvi⟩ := h.version hp
  have hlen : (frontOf b o ++ (varintEncode16 n ++ x)).length = (frontOf b o).length + 2 + x.length := by
    simp [varintEncode16]; omega
  have hu : u16 n = n := by unfold u16; omega
  have h32 : framesUint32Decode (picoformat32 o.vn ++ ((u8 o.dcid.length :: o.dcid) ++ ((u8 o.scid.length :: o.scid) ++
      ((if o.ptype = .initial then varintBytes o.token.length ++ o.token else []) ++ (varintEncode16 n ++ x))))) =
      some (o.vn, (u8 o.dcid.length :: o.dcid) ++ ((u8 o.scid.length :: o.scid) ++
      ((if o.ptype = .initial then varintBytes o.token.length ++ o.token else []) ++ (varintEncode16 n ++ x)))) := by
    rw [framesUint32Decode_iff]
    exact ⟨picoformat32 o.vn, rfl, rfl, bigEndian_format32 h.vn⟩
  have hc1 : ∀ r, framesCidDecode 0 ((u8 o.dcid.length :: o.dcid) ++ r) = .ok o.dcid r := by
    intro r; rw [framesCidDecode_ok_iff]; exact ⟨h.dcid, rfl⟩
  have hc2 : ∀ r, framesCidDecode 0 ((u8 o.scid.length :: o.scid) ++ r) = .ok o.scid r := by
    intro r; rw [framesCidDecode_ok_iff]; exact ⟨h.scid, rfl⟩
  have hfl : framesUint8Decode (frontOf b o ++ (varintEncode16 n ++ x)) = some (b, picoformat32 o.vn ++
      ((u8 o.dcid.length :: o.dcid) ++ ((u8 o.scid.length :: o.scid) ++
      ((if o.ptype = .initial then varintBytes o.token.length ++ o.token else []) ++ (varintEncode16 n ++ x))))) := by
    unfold frontOf framesUint8Decode
    simp
  unfold parseLong
  rw [hfl]
  dsimp only
  rw [h32]
  dsimp only
  rw [if_neg (by rw [hvi]; simp), hc1]
  dsimp only
  rw [hc2]
  dsimp only
  rw [if_neg hv0, hvi, Option.getD_some, hb, hlen]
  have hlp : ∀ (ph : Ph), ph.offset + 2 ≤ (frontOf b o).length + 2 + x.length →
      parseLength host ((frontOf b o).length + 2 + x.length) b ph (varintEncode16 n ++ x) =
        longFound host b { ph with payloadLength := n, offset := (frontOf b o).length + 2, pnOffset := (frontOf b o).length + 2 } := by
    intro ph _
    unfold parseLength
    rw [varlen16 n hn]
    dsimp only
    rw [if_neg (by omega), Nat.add_sub_cancel, hu]
  have hfront : (frontOf b o).length = 7 + o.dcid.length + o.scid.length +
      (if o.ptype = .initial then varintBytes o.token.length ++ o.token else []).length := by
    unfold frontOf
    simp [picoformat32]; omega
  unfold parseTyped
  rcases h.ptype with e | e | e | e
  · rw [e]
    dsimp only
    rw [e, if_pos rfl] at hfront
    rw [List.length_append] at hfront
    rw [if_pos rfl, List.append_assoc, framesVarlenDecode, framesVarintDecode_varintBytes _ (ht e)]
    dsimp only
    rw [if_neg (by simp), List.take_left, List.drop_left, hlp _ (by simp [varintEncode16]; omega)]
    unfold phLong
    rw [e, if_pos rfl]
  · rw [e]
    dsimp only
    rw [e] at hfront
    rw [if_neg (by decide)] at hfront ⊢
    rw [List.nil_append, hlp _ (by simp [varintEncode16]; omega)]
    unfold phLong
    rw [e, if_neg (by decide)]
  · rw [e]
    dsimp only
    rw [e] at hfront
    rw [if_neg (by decide)] at hfront ⊢
    rw [List.nil_append, hlp _ (by simp [varintEncode16]; omega)]
    unfold phLong
    rw [e, if_neg (by decide)]
  · exact absurd e hp

/-! ### Protection -/

/-- Header protection changes masked bits of the first byte and what is behind the packet number offset. -/
theorem protect_shape {enc : Bytes → Bytes} {fm b : UInt8} {j : Nat} {rest wire : Bytes}
    (h : protectPacketHeader enc fm (j + 1) (b :: rest) = some wire) :
    ∃ m t, wire = (b ^^^ (m &&& fm)) :: (rest.take j ++ t) := by
  unfold protectPacketHeader at h
  dsimp only at h
  by_cases hc : j + 1 = 0 ∨ (b :: rest).length < j + 1 + ((b &&& 3).toNat + 1) ∨
      (enc ((b :: rest).drop (j + 1 + 4))).length < 5
  · rw [if_pos hc] at h; cases h
  · rw [if_neg hc] at h
    simp only [Option.some.injEq, Nat.add_sub_cancel] at h
    rw [← h]
    exact ⟨(enc ((b :: rest).drop (j + 1 + 4))).headD 0,
      xorMask ((rest.drop j).take ((b &&& 3).toNat + 1)) (enc ((b :: rest).drop (j + 1 + 4))).tail ++
        rest.drop (j + ((b &&& 3).toNat + 1)), by simp⟩

/-- The packets with a long header, as they are on the wire: the front, the length, and what is encrypted. -/
theorem protect_long {k : Keys} (hk : Cipher k) {l : Bool} {o : Out} (ho : SendablePacket o) (hp : o.ptype ≠ .oneRtt)
    {wire : Bytes} (h : protect k l o = some wire)
    (hsize : (frontOf (firstOf o) o).length + o.payload.length + 22 < 0x4000) :
    ∃ b x, wire = frontOf b o ++ (varintEncode16 (o.payload.length + 20) ++ x) ∧ x.length = o.payload.length + 20 ∧
      b.toNat >>> 4 = (firstOf o).toNat >>> 4 ∧
      ∀ (c : Bool) (largest : Nat), Recoverable largest o → ∃ u,
        removeHeaderProtection k.mask 16 c false 0 ((frontOf b o).length + 2) largest wire = some u ∧ u.pn64 = o.number ∧
        k.dec u.pn64 u.decrypted (wire.drop u.offset) = some o.payload := by
  obtain ⟨hb80, _, hb3, _⟩ := firstOf_bits ho hp
  unfold protect createHeader at h
  rw [if_neg hp, createLong_eq ho] at h
  dsimp only at h
  rw [if_neg hp] at h
  generalize hF : (frontOf (firstOf o) o).length = f at *
  have hpn : (picoformat32 (u32 o.number)).length = 4 := rfl
  have hlen : (frontOf (firstOf o) o ++ ([0, 0] ++ picoformat32 (u32 o.number))).length = f + 6 := by
    simp [hF, hpn]
  have hpad : padTo (f + 6) (f + 2 + 4 + 16 - 16) o.payload = o.payload := by
    unfold padTo
    rw [show f + 2 + 4 + 16 - 16 - (f + 6 + o.payload.length) = 0 by omega]
    simp
  rw [hlen, hpad, show f + 6 - 4 = f + 2 by omega, show f + 6 + o.payload.length + 16 = f + 2 + (o.payload.length + 20) by omega] at h
  have hup := updateLength_long (firstOf o) o (picoformat32 (u32 o.number)) (o.payload.length + 20)
    (by rw [hb80]; decide) (by omega) (by rw [hF]; omega)
  rw [hF] at hup
  rw [hup] at h
  obtain ⟨ft, hft⟩ : ∃ ft, ∀ b, frontOf b o = b :: ft := ⟨_, fun b => rfl⟩
  have hftl : ft.length + 1 = f := by rw [← hF, hft]; rfl
  generalize hV : varintEncode16 (o.payload.length + 20) = v at *
  have hvl : v.length = 2 := by rw [← hV]; rfl
  generalize hct : k.enc o.number (frontOf (firstOf o) o ++ (v ++ picoformat32 (u32 o.number))) o.payload = ct at *
  have hctl : ct.length = o.payload.length + 16 := by rw [← hct, hk.length]
  have hbuf : (frontOf (firstOf o) o ++ (v ++ picoformat32 (u32 o.number)) ++ ct) =
      firstOf o :: ((ft ++ v) ++ (picoformat32 (u32 o.number) ++ ct)) := by
    rw [hft]; simp
  rw [hbuf, show f + 2 = (f + 1) + 1 by omega] at h
  obtain ⟨m, t, hwire⟩ := protect_shape h
  have htake : ((ft ++ v) ++ (picoformat32 (u32 o.number) ++ ct)).take (f + 1) = ft ++ v := by
    rw [List.take_append_of_le_length (by simp; omega), List.take_of_length_le (by simp; omega)]
  rw [htake] at hwire
  have hblen : (firstOf o :: ((ft ++ v) ++ (picoformat32 (u32 o.number) ++ ct))).length = f + 6 + o.payload.length + 16 := by
    simp [hctl, hpn, hvl]; omega
  have hfm : ∀ c, firstMaskOf (firstOf o) c = 0x0F := by
    intro c; unfold firstMaskOf; rw [if_pos hb80]
  have hpn4 : ((firstOf o :: ((ft ++ v) ++ (picoformat32 (u32 o.number) ++ ct))).drop (f + 1 + 1)).take 4 =
      formatPn 4 o.number := by
    rw [List.drop_succ_cons, List.drop_append, List.drop_eq_nil_of_le (by simp; omega), List.nil_append,
      show f + 1 - (ft ++ v).length = 0 by simp; omega, List.drop_zero, List.take_append_of_le_length (by rw [hpn]; omega),
      List.take_of_length_le (by rw [hpn]; omega)]
    rfl
  have hall : ∀ (c : Bool) (largest : Nat), ∃ u,
        removeHeaderProtection k.mask 16 c false 0 (f + 1 + 1) largest wire = some u ∧ wire.length = f + 6 + o.payload.length + 16 ∧
        u.pn64 = getPacketNumber64 largest (pnMask 4) (accumulate 0 (formatPn 4 o.number)) ∧
        u.decrypted = frontOf (firstOf o) o ++ (v ++ picoformat32 (u32 o.number)) ∧ wire.drop u.offset = ct := by
    intro c largest
    obtain ⟨w, u, h1, h2, h3, h4, h5, h6, h7, h8, -, -⟩ := C44_header_protection_roundtrip k.mask hk.mask 16 c false 0 (f + 1 + 1)
      largest (firstOf o) ((ft ++ v) ++ (picoformat32 (u32 o.number) ++ ct)) (by omega) (by rw [hblen]; omega)
    rw [hfm, h] at h1
    cases h1
    rw [hb3] at h3 h5 h6 h7 h8
    refine ⟨u, h4, by rw [h2, hblen], by rw [h8, h7, hpn4], ?_, ?_⟩
    · rw [h5, hft, show f + 1 + 1 + 4 = (f + 5) + 1 by omega, List.take_succ_cons, List.cons_append, ← List.append_assoc,
        ← List.append_assoc, List.take_left' (by simp [hpn, hvl]; omega)]
    · rw [h6, h3, show f + 1 + 1 + 4 = (f + 5) + 1 by omega, List.drop_succ_cons, ← List.append_assoc,
        List.drop_left' (by simp [hpn, hvl]; omega)]
  have hwl : wire.length = f + 6 + o.payload.length + 16 := by
    obtain ⟨_, _, h, _⟩ := hall false 0
    exact h
  refine ⟨firstOf o ^^^ (m &&& 0x0F), t, ?_, ?_, firstByte_long _ _, ?_⟩
  · rw [hwire, hft]; simp
  · have := congrArg List.length hwire
    rw [hwl] at this
    simp [hvl] at this
    omega
  · intro c largest hr
    obtain ⟨u, h1, _, h3, h4, h5⟩ := hall c largest
    obtain ⟨r1, r2, r3⟩ := hr
    have hnb : numberBytes o = 4 := by unfold numberBytes; rw [if_neg hp]
    rw [hnb] at r2 r3
    have hn : u.pn64 = o.number := by
      rw [h3, accumulate_formatPn 4 _ (by omega), show 2 ^ (8 * 4) = 256 ^ 4 by decide]
      exact C18_packet_number_recovered 4 largest o.number (by omega) r1 r2 r3
    refine ⟨u, ?_, hn, ?_⟩
    · rw [frontOf_length_eq _ (firstOf o), hF]
      exact h1
    · rw [hn, h4, h5, ← hct, hk.dec]

theorem protectPacketHeader_length {enc : Bytes → Bytes} {fm : UInt8} {j : Nat} {buf wire : Bytes}
    (h : protectPacketHeader enc fm j buf = some wire) : wire.length = buf.length := by
  unfold protectPacketHeader at h
  cases buf with
  | nil => cases h
  | cons b rest =>
    dsimp only at h
    by_cases hc : j = 0 ∨ (b :: rest).length < j + ((b &&& 3).toNat + 1) ∨
        (enc ((b :: rest).drop (j + 4))).length < 5
    · rw [if_pos hc] at h; cases h
    · rw [if_neg hc] at h
      simp only [Option.some.injEq] at h
      rw [← h]
      simp only [List.length_append, List.length_cons, xorMask_length, List.length_take, List.length_drop] at hc ⊢
      omega

theorem updateLength_length (bytes : Bytes) (i a b : Nat) (h : 2 ≤ i) (h' : i ≤ bytes.length) :
    (updateLength bytes i a b).length = bytes.length := by
  unfold updateLength
  split
  · simp only [List.length_append, List.length_take, List.length_drop, varintEncode16, List.length_cons, List.length_nil]
    omega
  · rfl

/-- A packet is at least as long as its token and its text. -/
theorem protect_length {k : Keys} (hk : Cipher k) {l : Bool} {o : Out} (ho : SendablePacket o) (hp : o.ptype ≠ .oneRtt)
    {wire : Bytes} (h : protect k l o = some wire) : (createLong o).1.length + o.payload.length + 16 ≤ wire.length := by
  have hr : o.ptype ≠ .retry := by
    rcases ho.ptype with h | h | h | h <;> rw [h] <;> decide
  unfold protect createHeader at h
  rw [if_neg hp] at h
  dsimp only at h
  rw [protectPacketHeader_length h, List.length_append, hk.length, updateLength_length]
  · unfold padTo
    simp only [List.length_append]
    omega
  · unfold createLong
    dsimp only
    rw [if_neg hr]
    dsimp only
    omega
  · unfold createLong
    dsimp only
    rw [if_neg hr]
    dsimp only
    simp only [List.length_append, List.length_cons, List.length_nil]
    omega

theorem createLong_token {o : Out} (hi : o.ptype = .initial) : o.token.length ≤ (createLong o).1.length := by
  unfold createLong
  dsimp only
  rw [if_neg (by rw [hi]; decide), if_pos hi]
  simp only [List.length_append]
  omega

/-- The first byte of a short header. -/
theorem short_bits {o : Out} (h : SendablePacket o) :
    (o.flags ||| u8 (o.pnLength - 1)) &&& 0x80 = 0 ∧ ((o.flags ||| u8 (o.pnLength - 1)) &&& 3).toNat + 1 = o.pnLength ∧
      (o.flags ||| u8 (o.pnLength - 1)) &&& 0x40 = o.flags &&& 0x40 ∧
      ((o.flags ||| u8 (o.pnLength - 1)) >>> (2 : UInt8)) &&& (1 : UInt8) = (o.flags >>> (2 : UInt8)) &&& (1 : UInt8) := by
  have key : ∀ x : Fin 256, ∀ y : Fin 4, x.val &&& 0x83 = 0 →
      (x.val ||| y.val) &&& 0x80 = 0 ∧ (x.val ||| y.val) &&& 3 = y.val ∧ (x.val ||| y.val) &&& 0x40 = x.val &&& 0x40 ∧
      ((x.val ||| y.val) >>> 2) &&& 1 = (x.val >>> 2) &&& 1 := by decide +kernel
  obtain ⟨p1, p2⟩ := h.pnLength
  have hu : (u8 (o.pnLength - 1)).toNat = o.pnLength - 1 := by rw [u8_toNat]; omega
  have hf := congrArg UInt8.toNat h.flags
  rw [UInt8.toNat_and] at hf
  have k := key ⟨o.flags.toNat, o.flags.toNat_lt⟩ ⟨o.pnLength - 1, by omega⟩ hf
  dsimp only at k
  obtain ⟨k1, k2, k3, k4⟩ := k
  refine ⟨?_, ?_, ?_, ?_⟩
  · apply UInt8.toNat_inj.1
    rw [UInt8.toNat_and, UInt8.toNat_or, hu]; exact k1
  · rw [UInt8.toNat_and, UInt8.toNat_or, hu]
    have : (o.flags.toNat ||| (o.pnLength - 1)) &&& UInt8.toNat 3 = o.pnLength - 1 := k2
    omega
  · apply UInt8.toNat_inj.1
    rw [UInt8.toNat_and, UInt8.toNat_or, hu, UInt8.toNat_and]; exact k3
  · apply UInt8.toNat_inj.1
    rw [UInt8.toNat_and, UInt8.toNat_shiftRight, UInt8.toNat_or, hu, UInt8.toNat_and, UInt8.toNat_shiftRight]; exact k4

theorem short_mask (b m : UInt8) (l : Bool) :
    (b ^^^ (m &&& (if l then (0x07 : UInt8) else 0x1F))) &&& 0x80 = b &&& 0x80 ∧
    (b ^^^ (m &&& (if l then (0x07 : UInt8) else 0x1F))) &&& 0x40 = b &&& 0x40 := by
  have hm : (m &&& (if l then (0x07 : UInt8) else 0x1F)).toNat < 32 := by
    rw [UInt8.toNat_and]
    refine Nat.lt_of_le_of_lt Nat.and_le_right ?_
    cases l <;> decide
  have key : ∀ x : Fin 256, ∀ y : Fin 32, (x.val ^^^ y.val) &&& 0x80 = x.val &&& 0x80 ∧ (x.val ^^^ y.val) &&& 0x40 = x.val &&& 0x40 := by
    decide +kernel
  have k := key ⟨b.toNat, b.toNat_lt⟩ ⟨_, hm⟩
  dsimp only at k
  constructor
  · apply UInt8.toNat_inj.1
    rw [UInt8.toNat_and, UInt8.toNat_xor, UInt8.toNat_and]; exact k.1
  · apply UInt8.toNat_inj.1
    rw [UInt8.toNat_and, UInt8.toNat_xor, UInt8.toNat_and]; exact k.2

/-- The packets with a short header, as they are on the wire. -/
theorem protect_short {k : Keys} (hk : Cipher k) {l : Bool} {o : Out} (ho : SendablePacket o) (hp : o.ptype = .oneRtt)
    {wire : Bytes} (h : protect k l o = some wire) :
    ∃ b x, wire = b :: (o.dcid ++ x) ∧ b &&& 0x80 = 0 ∧ b &&& 0x40 = o.flags &&& 0x40 ∧
      ∀ (largest : Nat), Recoverable largest o → ∃ u,
        removeHeaderProtection k.mask 16 l true 0 (1 + o.dcid.length) largest wire = some u ∧ u.pn64 = o.number ∧
        u.keyPhase = ((o.flags >>> 2) &&& 1).toNat ∧
        k.dec u.pn64 u.decrypted (wire.drop u.offset) =
          some (o.payload ++ List.replicate (4 - (o.pnLength + o.payload.length)) 0) := by
  obtain ⟨hb80, hb3, hb40, hbk⟩ := short_bits ho
  obtain ⟨p1, p2⟩ := ho.pnLength
  have hfl := formatPn_length o.pnLength o.number ⟨p1, p2⟩
  have hhdr : createShortHeader o.flags o.dcid (1 + o.dcid.length + o.pnLength) o.number =
      ((o.flags ||| u8 (o.pnLength - 1)) :: o.dcid ++ formatPn o.pnLength o.number, 1 + o.dcid.length, o.pnLength) := by
    unfold createShortHeader
    dsimp only
    have hpnl : (if 1 + o.dcid.length + o.pnLength > 1 + o.dcid.length ∧ 1 + o.dcid.length + o.pnLength < 1 + o.dcid.length + 4
        then 1 + o.dcid.length + o.pnLength - (1 + o.dcid.length) else 4) = o.pnLength := by split <;> omega
    rw [hpnl]
  unfold protect createHeader at h
  rw [if_pos hp, hhdr] at h
  dsimp only at h
  rw [if_pos hp] at h
  generalize o.flags ||| u8 (o.pnLength - 1) = b at *
  have hlen : (b :: o.dcid ++ formatPn o.pnLength o.number).length = 1 + o.dcid.length + o.pnLength := by
    simp [hfl]; omega
  have hpad : padTo (1 + o.dcid.length + o.pnLength) (1 + o.dcid.length + 4 + 16 - 16) o.payload =
      o.payload ++ List.replicate (4 - (o.pnLength + o.payload.length)) 0 := by
    unfold padTo
    rw [show 1 + o.dcid.length + 4 + 16 - 16 - (1 + o.dcid.length + o.pnLength + o.payload.length) =
      4 - (o.pnLength + o.payload.length) by omega]
  have hup : ∀ i x y, updateLength (b :: o.dcid ++ formatPn o.pnLength o.number) i x y =
      b :: o.dcid ++ formatPn o.pnLength o.number := by
    intro i x y
    unfold updateLength
    rw [if_neg]
    rintro ⟨hc, _⟩
    exact hc hb80
  rw [hlen, hpad, hup] at h
  generalize htxt : o.payload ++ List.replicate (4 - (o.pnLength + o.payload.length)) 0 = text at *
  have htl : 4 ≤ o.pnLength + text.length := by rw [← htxt]; simp; omega
  generalize hct : k.enc o.number (b :: o.dcid ++ formatPn o.pnLength o.number) text = ct at *
  have hctl : ct.length = text.length + 16 := by rw [← hct, hk.length]
  have hbuf : (b :: o.dcid ++ formatPn o.pnLength o.number) ++ ct = b :: (o.dcid ++ (formatPn o.pnLength o.number ++ ct)) := by simp
  have hfm : firstMaskOf b l = if l then 0x07 else 0x1F := by
    unfold firstMaskOf; rw [hb80, if_neg (by decide)]
  rw [hbuf] at h
  have h' := h
  rw [show 1 + o.dcid.length = o.dcid.length + 1 by omega] at h'
  obtain ⟨m, t, hwire⟩ := protect_shape h'
  rw [List.take_left' rfl] at hwire
  refine ⟨_, t, hwire, ?_, ?_, ?_⟩
  · rw [(short_mask _ _ _).1, hb80]
  · rw [(short_mask _ _ _).2, hb40]
  · intro largest hr
    obtain ⟨w, u, h1, h2, h3, h4, h5, h6, h7, h8, -, h10⟩ := C44_header_protection_roundtrip k.mask hk.mask 16 l true 0 (1 + o.dcid.length)
      largest b (o.dcid ++ (formatPn o.pnLength o.number ++ ct)) (by omega) (by simp [hfl, hctl]; omega)
    rw [hfm, h] at h1
    cases h1
    rw [hb3] at h3 h5 h6 h7 h8
    obtain ⟨r1, r2, r3⟩ := hr
    have hnb : numberBytes o = o.pnLength := by unfold numberBytes; rw [if_pos hp]
    rw [hnb] at r2 r3
    have hpn : ((b :: (o.dcid ++ (formatPn o.pnLength o.number ++ ct))).drop (1 + o.dcid.length)).take o.pnLength =
        formatPn o.pnLength o.number := by
      rw [show 1 + o.dcid.length = o.dcid.length + 1 by omega, List.drop_succ_cons, List.drop_left]
      exact List.take_left' hfl
    have hn : u.pn64 = o.number := by
      rw [h8, h7, hpn, accumulate_formatPn o.pnLength _ ⟨p1, p2⟩, Nat.pow_mul, show 2 ^ 8 = 256 by decide]
      exact C18_packet_number_recovered o.pnLength largest o.number ⟨p1, p2⟩ r1 r2 r3
    refine ⟨u, h4, hn, ?_, ?_⟩
    · rw [h10, if_pos rfl, hbk]
    · rw [hn, h5, h6, h3, ← hbuf, ← hlen, List.take_left, List.drop_left, ← hct, hk.dec]

/-! ### Receiving one packet -/

/-- What is found in the header of a packet. -/
structure Header (o : Out) (c : Cnx) (ph : Ph) : Prop where
  ptype : ph.ptype = o.ptype
  dcid : ph.dcid = o.dcid
  scid : ph.scid = (packetSent o).scid
  token : ph.token = (packetSent o).token

theorem sent_long {o : Out} (hp : o.ptype ≠ .oneRtt) :
    packetSent o = ⟨o.ptype, o.dcid, o.scid, if o.ptype = .initial then o.token else [], o.number, o.payload⟩ := by
  unfold packetSent; rw [if_neg hp]

theorem sent_short {o : Out} (hp : o.ptype = .oneRtt) :
    packetSent o = ⟨o.ptype, o.dcid, [], [], o.number, o.payload ++ List.replicate (4 - (o.pnLength + o.payload.length)) 0⟩ := by
  unfold packetSent; rw [if_pos hp]

theorem encrypted_type {o : Out} (ho : SendablePacket o) :
    ¬(o.ptype = .versionNegotiation ∨ o.ptype = .retry ∨ o.ptype = .error) := by
  rcases ho.ptype with h | h | h | h <;> rw [h] <;> decide

/-- The packet is found at the start of the rest of a datagram, and it goes to the expected connection. -/
theorem found_long {k : Keys} (hk : Cipher k) {l : Bool} {o : Out} (ho : SendablePacket o) (hp : o.ptype ≠ .oneRtt)
    {wire : Bytes} (h : protect k l o = some wire) (hw : wire.length ≤ 1536) {host : Host} {total : Nat} {c : Cnx}
    (hf : Finds host total o c) (hv : c.version = o.version) (r : Bytes) :
    ∃ ph, Header o c ph ∧ parseAndDecrypt host total (wire ++ r) = some (decrypt ph c wire) ∧
      ∀ (lb : Bool) (largest : Nat), Recoverable largest o → ∃ u,
        removeHeaderProtection k.mask 16 lb false 0 ph.pnOffset largest wire = some u ∧ u.pn64 = o.number ∧
        k.dec u.pn64 u.decrypted (wire.drop u.offset) = some o.payload := by
  have hpl := protect_length hk ho hp h
  have ht : o.ptype = .initial → o.token.length < 2 ^ 62 := by
    intro hi
    have := createLong_token hi
    omega
  have hpl' := hpl
  rw [createLong_eq ho] at hpl'
  simp only [List.length_append, picoformat32, List.length_cons, List.length_nil] at hpl'
  have hsize : (frontOf (firstOf o) o).length + o.payload.length + 22 < 0x4000 := by omega
  obtain ⟨b, x, hwire, hx, hb, hrem⟩ := protect_long hk ho hp h hsize
  obtain ⟨f80, fty, -, f40⟩ := firstOf_bits ho hp
  have hfe := frontOf_length_eq b (firstOf o) o
  obtain ⟨b80, b40⟩ := and80_of_shift hb
  have hbt : parseLongType b o.version = o.ptype := by
    rw [← fty]; unfold parseLongType; rw [hb]
  have hpl2 := parseLong_front ho hp ht host b hbt (o.payload.length + 20) (x ++ r) (by omega) (by simp; omega)
  have hcat : wire ++ r = frontOf b o ++ (varintEncode16 (o.payload.length + 20) ++ (x ++ r)) := by
    rw [hwire]; simp
  have hhead : (wire ++ r).headD 0 = b := by rw [hcat]; rfl
  have hparse : parseHeader host (wire ++ r) =
      longFound host b (phLong o ((frontOf b o).length + 2) (o.payload.length + 20)) := by
    unfold parseHeader
    rw [hhead, b80, f80, if_pos rfl, hcat]
    exact hpl2
  have hwl : wire.length = (frontOf b o).length + 2 + (o.payload.length + 20) := by
    rw [hwire]; simp [varintEncode16, hx]; omega
  generalize hph : phLong o ((frontOf b o).length + 2) (o.payload.length + 20) = ph at *
  have e1 : ph.ptype = o.ptype := by rw [← hph]; rfl
  have e2 : ph.dcid = o.dcid := by rw [← hph]; rfl
  have e3 : ph.scid = o.scid := by rw [← hph]; rfl
  have e4 : ph.token = if o.ptype = .initial then o.token else [] := by rw [← hph]; rfl
  have e5 : ph.offset + ph.payloadLength = wire.length := by rw [← hph, hwl]; rfl
  have e6 : ph.pnOffset = (frontOf b o).length + 2 := by rw [← hph]; rfl
  have e7 : ph.version = some o.version := by rw [← hph]; rfl
  refine ⟨ph, ⟨e1, e2, by rw [sent_long hp, e3], by rw [sent_long hp, e4]⟩, ?_, by rw [e6]; exact hrem⟩
  have hmax : ¬((c.keys ph.ptype).isSome = true ∧ wire.length > MAX_PACKET_SIZE) := by
    unfold MAX_PACKET_SIZE; omega
  have htake : (wire ++ r).take (ph.offset + ph.payloadLength) = wire := by rw [e5, List.take_left]
  unfold Finds at hf
  rw [if_neg hp] at hf
  unfold parseAndDecrypt
  rw [hparse]
  unfold longFound
  dsimp only
  rw [e1, e2]
  rcases hf with ⟨f1, f2, f3⟩ | ⟨f1, f2, f3⟩
  · rw [f1]
    dsimp only
    have hq : ¬(b &&& 0x40 = 0 ∧ (!c.grease) = true) := by
      rintro ⟨q1, q2⟩
      rw [b40] at q1
      have := f2 (by unfold quicBitClear; rw [if_neg hp]; exact f40.1 q1)
      rw [this] at q2; cases q2
    rw [if_neg hq]
    dsimp only
    rw [e1, if_neg (encrypted_type ho), htake]
    have hts : ¬((some c).any (fun c => !c.client) = true ∧ o.ptype = .initial ∧ total < INITIAL_MTU) := by
      rintro ⟨q1, q2, q3⟩
      have := f3 q2 (by simpa using q1)
      unfold INITIAL_MTU at q3; omega
    rw [if_neg hts, if_neg (by simp), if_neg (by simp)]
    dsimp only
    rw [if_neg (by rw [e7, hv]; simp), ← e1, if_neg hmax]
  · rw [f1]
    dsimp only
    rw [e1, e2, e3, e4, if_pos f2, if_neg (encrypted_type ho), htake, if_neg (by simp), if_neg (by rw [f3]; simp), if_pos ⟨by simp, f2⟩, f3]
    dsimp only
    rw [if_neg (by rw [e7, hv]; simp), ← e1, if_neg hmax]

/-- Likewise for a packet with a short header, which is the last one. -/
theorem found_short {k : Keys} (hk : Cipher k) {l : Bool} {o : Out} (ho : SendablePacket o) (hp : o.ptype = .oneRtt)
    {wire : Bytes} (h : protect k l o = some wire) (hw : wire.length ≤ 1536) {host : Host} {total : Nat} {c : Cnx}
    (hf : Finds host total o c) :
    ∃ ph, Header o c ph ∧ parseAndDecrypt host total wire = some (decrypt ph c wire) ∧
      ∀ (largest : Nat), Recoverable largest o → ∃ u,
        removeHeaderProtection k.mask 16 l true 0 ph.pnOffset largest wire = some u ∧ u.pn64 = o.number ∧
        u.keyPhase = ((o.flags >>> 2) &&& 1).toNat ∧
        k.dec u.pn64 u.decrypted (wire.drop u.offset) =
          some (o.payload ++ List.replicate (4 - (o.pnLength + o.payload.length)) 0) := by
  obtain ⟨b, x, hwire, hb80, hb40, hrem⟩ := protect_short hk ho hp h
  unfold Finds at hf
  rw [if_pos hp] at hf
  obtain ⟨f1, f2, f3⟩ := hf
  have hwl : wire.length = 1 + o.dcid.length + x.length := by rw [hwire]; simp; omega
  have hdc : (wire.drop 1).take o.dcid.length = o.dcid := by
    rw [hwire, List.drop_succ_cons, List.drop_zero, List.take_left]
  have hhead : wire.headD 0 = b := by rw [hwire]; rfl
  have hq : b &&& 0x40 ≠ 0 ∨ c.grease = true := by
    by_cases q : b &&& 0x40 = 0
    · right
      apply f3
      unfold quicBitClear
      rw [if_pos hp, ← hb40]
      exact q
    · exact .inl q
  let ph : Ph :=
    { ptype := .oneRtt, vn := 0, version := some c.version, dcid := o.dcid, scid := [], token := [],
      offset := 1 + o.dcid.length, payloadLength := u16 (wire.length - (1 + o.dcid.length)), pnOffset := 1 + o.dcid.length, pn64 := 0 }
  have hparse : parseHeader host wire = .header ph (some c) := by
    unfold parseHeader parseShort
    rw [hhead, hb80, if_neg (by decide), ← f1, if_pos (by omega)]
    dsimp only
    rw [hdc]
    rw [← f1] at f2
    rw [f2]
    dsimp only
    rw [if_pos hq]
  have e5 : wire.take (ph.offset + ph.payloadLength) = wire := by
    apply List.take_of_length_le
    show _ ≤ 1 + o.dcid.length + u16 (wire.length - (1 + o.dcid.length))
    unfold u16
    omega
  refine ⟨ph, ⟨hp.symm, rfl, by rw [sent_short hp], by rw [sent_short hp]⟩, ?_, hrem⟩
  unfold parseAndDecrypt
  rw [hparse]
  dsimp only
  rw [e5, if_neg (by rintro (q | q | q) <;> cases q), if_neg, if_neg (by simp), if_neg (by simp)]
  · dsimp only
    rw [if_neg (by show ¬(some c.version ≠ some c.version); simp), if_neg (by unfold MAX_PACKET_SIZE; omega)]
  · rintro ⟨_, q, _⟩
    exact absurd (show PType.oneRtt = .initial from q) (by decide)

/-- A packet at the start of the rest of a datagram is read. -/
theorem packet_read {k : Keys} (hk : Cipher k) {l : Bool} {o : Out} (ho : SendablePacket o)
    {wire : Bytes} (h : protect k l o = some wire) (hw : wire.length ≤ 1536) {host : Host} {total : Nat} {c : Cnx}
    (hf : Finds host total o c) (hr : Reads c k l o) (r : Bytes) (hlast : o.ptype = .oneRtt → r = []) :
    ∃ seg ph, parseAndDecrypt host total (wire ++ r) = some seg ∧ seg.ret = .ok ∧ seg.consumed = wire.length ∧
      seg.ph = some ph ∧ packetSeen (ph, seg.payload) = packetSent o := by
  by_cases hp : o.ptype = .oneRtt
  · obtain ⟨ph, hh, h1, h2⟩ := found_short hk ho hp h hw hf
    obtain ⟨u, u1, u2, u3, u4⟩ := h2 (c.largest o.ptype) hr.recoverable
    refine ⟨_, { ph with pn64 := u.pn64 }, by rw [hlast hp, List.append_nil]; exact h1, ?_⟩
    have hd : decrypt ph c wire = ⟨.ok, wire.length, some { ph with pn64 := u.pn64 }, some c,
        o.payload ++ List.replicate (4 - (o.pnLength + o.payload.length)) 0⟩ := by
      unfold decrypt
      rw [hh.ptype, hr.keys]
      dsimp only
      rw [hr.loss hp, decide_eq_true hp, u1]
      dsimp only
      rw [if_neg (by rw [u3, hr.phase hp]; simp), Option.bind_some, u4]
      dsimp only
      rw [u2, hr.new, if_neg (by decide)]
    rw [hd]
    refine ⟨rfl, rfl, rfl, ?_⟩
    unfold packetSeen
    rw [sent_short hp]
    have a := hh.scid
    have b := hh.token
    rw [sent_short hp] at a b
    dsimp only at a b ⊢
    rw [hh.ptype, hh.dcid, a, b, u2]
  · obtain ⟨ph, hh, h1, h2⟩ := found_long hk ho hp h hw hf (hr.version hp) r
    obtain ⟨u, u1, u2, u3⟩ := h2 c.lossIn (c.largest o.ptype) hr.recoverable
    refine ⟨_, { ph with pn64 := u.pn64 }, h1, ?_⟩
    have hd : decrypt ph c wire = ⟨.ok, wire.length, some { ph with pn64 := u.pn64 }, some c, o.payload⟩ := by
      unfold decrypt
      rw [hh.ptype, hr.keys]
      dsimp only
      rw [decide_eq_false hp, u1]
      dsimp only
      rw [if_neg (fun q => hp q.1), Option.bind_some, u3]
      dsimp only
      rw [u2, hr.new, if_neg (by decide)]
    rw [hd]
    refine ⟨rfl, rfl, rfl, ?_⟩
    unfold packetSeen
    have a := hh.scid
    have b := hh.token
    rw [sent_long hp] at a b ⊢
    dsimp only at a b ⊢
    rw [hh.ptype, hh.dcid, a, b, u2]

/-- A packet for which there are no keys is skipped. -/
theorem packet_locked {k : Keys} (hk : Cipher k) {l : Bool} {o : Out} (ho : SendablePacket o)
    {wire : Bytes} (h : protect k l o = some wire) (hw : wire.length ≤ 1536) {host : Host} {total : Nat} {c : Cnx}
    (hf : Finds host total o c) (hkeys : c.keys o.ptype = none) (hv : o.ptype ≠ .oneRtt → c.version = o.version)
    (r : Bytes) (hlast : o.ptype = .oneRtt → r = []) :
    ∃ seg ph, parseAndDecrypt host total (wire ++ r) = some seg ∧ (seg.ret = .notReady ∨ seg.ret = .stateless) ∧
      seg.consumed = wire.length ∧ seg.ph = some ph ∧ ph.dcid = o.dcid := by
  have key : ∀ ph, Header o c ph → ((decrypt ph c wire).ret = .notReady ∨ (decrypt ph c wire).ret = .stateless) ∧
      (decrypt ph c wire).consumed = wire.length ∧ (decrypt ph c wire).ph = some ph ∧ ph.dcid = o.dcid := by
    intro ph hh
    unfold decrypt undecrypted
    rw [hh.ptype, hkeys]
    dsimp only
    split
    · exact ⟨.inr rfl, rfl, rfl, hh.dcid⟩
    · exact ⟨.inl rfl, rfl, rfl, hh.dcid⟩
  by_cases hp : o.ptype = .oneRtt
  · obtain ⟨ph, hh, h1, -⟩ := found_short hk ho hp h hw hf
    exact ⟨_, ph, by rw [hlast hp, List.append_nil]; exact h1, key ph hh⟩
  · obtain ⟨ph, hh, h1, -⟩ := found_long hk ho hp h hw hf (hv hp) r
    exact ⟨_, ph, h1, key ph hh⟩

theorem protect_pos {k : Keys} {l : Bool} {o : Out} {wire : Bytes} (hk : Cipher k) (h : protect k l o = some wire) :
    0 < wire.length := by
  unfold protect at h
  dsimp only at h
  rw [protectPacketHeader_length h, List.length_append, hk.length]
  omega

/-! ### The loop -/

theorem loop_reads (m : Machine σ) (total : Nat) (dest : Cid) (ps : List (Keys × Bool × Out))
    (hk : ∀ p ∈ ps, Cipher p.1) (ho : ∀ p ∈ ps, SendablePacket p.2.2) (hd : ∀ p ∈ ps, p.2.2.dcid = dest) (hl : ShortLast ps)
    (d : Bytes) (h : datagram ps = some d) (hlen : d.length ≤ 1536) :
    ∀ (fuel : Nat) (s : σ) (prev : Cid) (os : List Out), Takes m total s ps os → d.length ≤ fuel → prev = [] ∨ prev = dest →
      (receiveLoop m total fuel s prev d).packets.map packetSeen = os.map packetSent ∧ (receiveLoop m total fuel s prev d).overflow = false := by
  induction ps generalizing d with
  | nil =>
    intro fuel s prev os ht hfuel _
    cases h
    cases ht
    cases fuel <;> simp [receiveLoop]
  | cons p ps ih =>
    intro fuel s prev os ht hfuel hprev
    obtain ⟨k, l, o⟩ := p
    have hk1 : Cipher k := hk (k, l, o) (by simp)
    have ho1 : SendablePacket o := ho (k, l, o) (by simp)
    have hd1 : o.dcid = dest := hd (k, l, o) (by simp)
    unfold datagram at h
    cases hw : protect k l o with
    | none => rw [hw] at h; cases h
    | some w =>
      cases hr : datagram ps with
      | none => rw [hw, hr] at h; cases h
      | some r =>
        rw [hw, hr] at h
        cases h
        have hwp := protect_pos hk1 hw
        simp only [List.length_append] at hlen hfuel
        obtain ⟨fuel, rfl⟩ : ∃ f, fuel = f + 1 := ⟨fuel - 1, by omega⟩
        have hlast : o.ptype = .oneRtt → r = [] := by
          intro q
          have := hl.1 q
          rw [this] at hr
          cases hr; rfl
        have hne : w ++ r ≠ [] := by
          intro q
          have := congrArg List.length q
          simp at this
          rw [this.1] at hwp
          exact absurd hwp (by simp)
        have hnext : ∀ (s : σ) (prev : Cid) (os : List Out), Takes m total s ps os → prev = [] ∨ prev = dest →
            (receiveLoop m total fuel s prev r).packets.map packetSeen = os.map packetSent ∧ (receiveLoop m total fuel s prev r).overflow = false := by
          intro s prev os ht hp
          exact ih (fun p hp => hk p (List.mem_cons_of_mem _ hp)) (fun p hp => ho p (List.mem_cons_of_mem _ hp))
            (fun p hp => hd p (List.mem_cons_of_mem _ hp)) hl.2 r hr (by omega) fuel s prev os ht (by omega) hp
        have hprev' : ∀ x : Cid, x = dest → (if prev = [] then x else prev) = [] ∨ (if prev = [] then x else prev) = dest := by
          intro x hx
          by_cases q : prev = []
          · rw [if_pos q]; exact .inr hx
          · rw [if_neg q]; exact hprev
        unfold receiveLoop
        rw [if_neg hne]
        cases ht with
        | taken find read good next =>
          obtain ⟨seg, ph, p1, p2, p3, p4, p5⟩ := packet_read hk1 ho1 hw (by omega) find read r hlast
          have hdc : ph.dcid = dest := by
            have := congrArg PacketSeen.dcid p5
            unfold packetSent at this
            rw [← hd1]
            split at this <;> exact this
          have hsd : segDest seg = ph.dcid := by unfold segDest; rw [p4]
          rw [p1]
          dsimp only
          rw [hsd, p4]
          rw [if_neg, p2]
          · dsimp only
            rw [if_pos rfl, good seg ph p2 p4 p5, if_pos ⟨rfl, by omega⟩, p3, List.drop_left]
            have := hnext _ _ _ (next seg ph p2 p4 p5) (hprev' ph.dcid hdc)
            exact ⟨by rw [List.map_cons, List.map_cons, this.1, p5], this.2⟩
          · rintro ⟨q1, q2⟩
            rcases q2 with q2 | ⟨_, q2⟩
            · rw [p2] at q2; cases q2
            · rcases hprev with q | q
              · exact q1 q
              · exact q2 (by rw [hdc, q])
        | locked find keys version next =>
          obtain ⟨seg, ph, p1, p2, p3, p4, p5⟩ := packet_locked hk1 ho1 hw (by omega) find keys version r hlast
          have hok : seg.ret ≠ .ok := by rcases p2 with e | e <;> rw [e] <;> decide
          have hun : seg.ret ≠ .unsupported := by rcases p2 with e | e <;> rw [e] <;> decide
          have hgo : goesOn seg.ret = true := by rcases p2 with e | e <;> rw [e] <;> rfl
          have hsd : segDest seg = ph.dcid := by unfold segDest; rw [p4]
          rw [p1]
          dsimp only
          rw [hsd, p4]
          rw [if_neg, if_neg hok, hgo, if_pos ⟨rfl, by omega⟩, p3, List.drop_left]
          · have := hnext _ _ _ (next seg p2) (hprev' ph.dcid (by rw [p5, hd1]))
            rcases p2 with e | e <;> rw [e] <;> exact this
          · rintro ⟨_, q | q⟩
            · exact hun q
            · exact hok q.1

end Picoquic.Packet
