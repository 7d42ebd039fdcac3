import Verif.Proof.IntFormat
/-! Helper lemmas about fixed-size formats, CIDs, hexadecimal text. -/

namespace Picoquic

theorem parse16_eq (a b : UInt8) : parse16 a b = a.toNat * 256 + b.toNat := by
  have hb := toNat_lt256 b
  rw [parse16, ← Nat.shiftLeft_add_eq_or_of_lt (by omega), Nat.shiftLeft_eq]

theorem parse16_lt (a b : UInt8) : parse16 a b < 65536 := by
  have ha := toNat_lt256 a; have hb := toNat_lt256 b
  rw [parse16_eq]; omega

theorem parse24_eq (a b c : UInt8) :
    parse24 a b c = a.toNat * 65536 + b.toNat * 256 + c.toNat := by
  have hc := toNat_lt256 c
  rw [parse24, ← Nat.shiftLeft_add_eq_or_of_lt (by omega), Nat.shiftLeft_eq, parse16_eq]
  omega

theorem parse32_eq (a b c d : UInt8) :
    parse32 a b c d = a.toNat * 16777216 + b.toNat * 65536 + c.toNat * 256 + d.toNat := by
  have h := parse16_lt c d
  rw [parse32, ← Nat.shiftLeft_add_eq_or_of_lt (by omega), Nat.shiftLeft_eq, parse16_eq, parse16_eq]
  omega

theorem parse32_lt (a b c d : UInt8) : parse32 a b c d < 4294967296 := by
  have ha := toNat_lt256 a; have hb := toNat_lt256 b
  have hc := toNat_lt256 c; have hd := toNat_lt256 d
  rw [parse32_eq]; omega

theorem parse64_eq (a b c d e f g h : UInt8) :
    parse64 a b c d e f g h = parse32 a b c d * 4294967296 + parse32 e f g h := by
  have hh := parse32_lt e f g h
  rw [parse64, ← Nat.shiftLeft_add_eq_or_of_lt (by omega), Nat.shiftLeft_eq]

theorem framesFixedSkip_iff (size : Nat) (bs rest : Bytes) :
    framesFixedSkip size bs = some rest ↔ ∃ p, p.length = size ∧ bs = p ++ rest := by
  unfold framesFixedSkip
  split
  · rename_i h
    constructor
    · intro h'
      simp at h'
      exact ⟨bs.take size, by simp; omega, by rw [← h']; simp⟩
    · rintro ⟨p, hp, rfl⟩
      simp [← hp]
  · rename_i h
    constructor
    · simp
    · rintro ⟨p, hp, rfl⟩
      simp at h; omega

theorem framesUint16Decode_iff (bs : Bytes) (n : Nat) (rest : Bytes) :
    framesUint16Decode bs = some (n, rest) ↔
      ∃ p, p.length = 2 ∧ bs = p ++ rest ∧ Spec.bigEndian p = n := by
  constructor
  · intro h
    match bs with
    | [] => simp [framesUint16Decode] at h
    | [_] => simp [framesUint16Decode] at h
    | a :: b :: r =>
      simp [framesUint16Decode, parse16_eq] at h
      exact ⟨[a, b], rfl, by simp [h.2], by
        simp only [Spec.bigEndian, List.length_cons, List.length_nil, Nat.reduceAdd, Nat.reducePow]
        omega⟩
  · rintro ⟨p, hp, rfl, he⟩
    match p, hp with
    | [a, b], _ =>
      simp only [Spec.bigEndian, List.length_cons, List.length_nil, Nat.reduceAdd, Nat.reducePow] at he
      simp only [framesUint16Decode, List.cons_append, List.nil_append, Option.some.injEq,
        Prod.mk.injEq, and_true, parse16_eq]
      omega

theorem framesUint32Decode_iff (bs : Bytes) (n : Nat) (rest : Bytes) :
    framesUint32Decode bs = some (n, rest) ↔
      ∃ p, p.length = 4 ∧ bs = p ++ rest ∧ Spec.bigEndian p = n := by
  constructor
  · intro h
    match bs with
    | [] => simp [framesUint32Decode] at h
    | [_] => simp [framesUint32Decode] at h
    | [_, _] => simp [framesUint32Decode] at h
    | [_, _, _] => simp [framesUint32Decode] at h
    | a :: b :: c :: d :: r =>
      simp [framesUint32Decode, parse32_eq] at h
      exact ⟨[a, b, c, d], rfl, by simp [h.2], by
        simp only [Spec.bigEndian, List.length_cons, List.length_nil, Nat.reduceAdd, Nat.reducePow]
        omega⟩
  · rintro ⟨p, hp, rfl, he⟩
    match p, hp with
    | [a, b, c, d], hq =>
      clear hq
      simp only [Spec.bigEndian, List.length_cons, List.length_nil, Nat.reduceAdd, Nat.reducePow] at he
      simp only [framesUint32Decode, List.cons_append, List.nil_append, Option.some.injEq,
        Prod.mk.injEq, and_true, parse32_eq]
      rw [← he]; clear he; omega

theorem framesUint64Decode_iff (bs : Bytes) (n : Nat) (rest : Bytes) :
    framesUint64Decode bs = some (n, rest) ↔
      ∃ p, p.length = 8 ∧ bs = p ++ rest ∧ Spec.bigEndian p = n := by
  constructor
  · intro h
    unfold framesUint64Decode at h
    split at h
    · rename_i a b c d e f g i r
      simp [parse64_eq, parse32_eq] at h
      exact ⟨[a, b, c, d, e, f, g, i], rfl, by simp [h.2], by
        simp only [Spec.bigEndian, List.length_cons, List.length_nil, Nat.reduceAdd, Nat.reducePow]
        omega⟩
    · simp at h
  · rintro ⟨p, hp, rfl, he⟩
    match p, hp with
    | [a, b, c, d, e, f, g, i], hq =>
      clear hq
      simp only [Spec.bigEndian, List.length_cons, List.length_nil, Nat.reduceAdd, Nat.reducePow] at he
      simp only [framesUint64Decode, List.cons_append, List.nil_append, Option.some.injEq,
        Prod.mk.injEq, and_true, parse64_eq, parse32_eq]
      rw [← he]; clear he; omega

theorem framesLengthDataSkip_iff (bs rest : Bytes) :
    framesLengthDataSkip bs = some rest ↔
      ∃ k h d, Spec.IsVarint k h d.length ∧ bs = h ++ (d ++ rest) := by
  unfold framesLengthDataSkip
  constructor
  · intro h
    split at h
    · simp at h
    · rename_i l r hd
      obtain ⟨k, p, rfl, hp⟩ := isVarint_of_decode hd
      obtain ⟨d, hl, rfl⟩ := (framesFixedSkip_iff _ _ _).1 h
      exact ⟨k, p, d, hl ▸ hp, rfl⟩
  · rintro ⟨k, h, d, hv, rfl⟩
    rw [framesVarintDecode_of_isVarint hv]
    exact (framesFixedSkip_iff _ _ _).2 ⟨d, rfl, rfl⟩

theorem framesCidDecode_ok_iff (oldLen : Nat) (bs cid rest : Bytes) :
    framesCidDecode oldLen bs = .ok cid rest ↔
      cid.length ≤ 20 ∧ bs = UInt8.ofNat cid.length :: (cid ++ rest) := by
  match bs with
  | [] =>
    simp [framesCidDecode]
    split
    · simp
    · split <;> simp
  | l :: r =>
    have hl := toNat_lt256 l
    unfold framesCidDecode CONNECTION_ID_MAX_SIZE
    constructor
    · intro h
      simp only at h
      split at h
      · simp at h
      · rename_i hc
        simp only [CidDecode.ok.injEq] at h
        obtain ⟨rfl, rfl⟩ := h
        have : (r.take l.toNat).length = l.toNat := by simp; omega
        refine ⟨by omega, ?_⟩
        rw [this]
        simp
    · rintro ⟨h1, h2⟩
      simp only [List.cons.injEq] at h2
      obtain ⟨rfl, rfl⟩ := h2
      have : (UInt8.ofNat cid.length).toNat = cid.length := by simp; omega
      simp only [this]
      rw [if_neg (by simp; omega)]
      simp

/-! ### Fixed-size round trips -/

theorem bigEndian_format16 {n : Nat} (h : n < 2 ^ 16) : Spec.bigEndian (picoformat16 n) = n := by
  simp [picoformat16, Spec.bigEndian, u8_toNat, Nat.shiftRight_eq_div_pow]; omega

theorem bigEndian_format24 {n : Nat} (h : n < 2 ^ 24) : Spec.bigEndian (picoformat24 n) = n := by
  simp [picoformat24, Spec.bigEndian, u8_toNat, Nat.shiftRight_eq_div_pow]; omega

theorem bigEndian_format32 {n : Nat} (h : n < 2 ^ 32) : Spec.bigEndian (picoformat32 n) = n := by
  simp [picoformat32, Spec.bigEndian, u8_toNat, Nat.shiftRight_eq_div_pow]; omega

theorem bigEndian_format64 {n : Nat} (h : n < 2 ^ 64) : Spec.bigEndian (picoformat64 n) = n := by
  simp [picoformat64, Spec.bigEndian, u8_toNat, Nat.shiftRight_eq_div_pow]; omega

theorem framesLengthDataEncode_eq (v : Bytes) (room : Nat) :
    framesLengthDataEncode v room =
      if encodeVarintLength v.length + v.length ≤ room
      then some (varintBytes v.length ++ v) else none := by
  unfold framesLengthDataEncode
  rw [framesVarintEncode_eq]
  by_cases h : encodeVarintLength v.length ≤ room
  · rw [if_pos h]
    simp only [varintBytes_length]
    by_cases h2 : v.length ≤ room - encodeVarintLength v.length
    · rw [if_pos h2, if_pos (by omega)]
    · rw [if_neg h2, if_neg (by omega)]
  · rw [if_neg h, if_neg (by omega)]

/-! ### Hexadecimal -/

theorem hex_roundtrip_digits (b : UInt8) :
    ∃ x y, parseHexaDigit (hexToChar (b.toNat >>> 4)) = some x ∧
      parseHexaDigit (hexToChar (b.toNat &&& 0x0f)) = some y ∧ u8 ((x <<< 4) ||| y) = b := by
  have key : ∀ b : UInt8,
      parseHexaDigit (hexToChar (b.toNat >>> 4)) = some (b.toNat >>> 4) ∧
      parseHexaDigit (hexToChar (b.toNat &&& 0x0f)) = some (b.toNat &&& 0x0f) ∧
      u8 (((b.toNat >>> 4) <<< 4) ||| (b.toNat &&& 0x0f)) = b := by
    apply UInt8.forall_of_nat
    decide +kernel
  exact ⟨_, _, key b⟩

theorem parseHexaLoop_print (cid : Cid) :
    parseHexaLoop (cid.flatMap fun b =>
      [hexToChar (b.toNat >>> 4), hexToChar (b.toNat &&& 0x0f)]) = some cid := by
  induction cid with
  | nil => rfl
  | cons b bs ih =>
    obtain ⟨x, y, hx, hy, hb⟩ := hex_roundtrip_digits b
    simp only [List.flatMap_cons, List.cons_append, List.nil_append, parseHexaLoop, hx, hy, ih, hb]

theorem printCidHexa_length (cid : Cid) :
    (cid.flatMap fun b =>
      [hexToChar (b.toNat >>> 4), hexToChar (b.toNat &&& 0x0f)]).length = 2 * cid.length := by
  induction cid with
  | nil => rfl
  | cons b bs ih => simp [List.flatMap_cons, ih]; omega

theorem parseHexaLoop_length {input : List Char} {out : Bytes}
    (h : parseHexaLoop input = some out) : input.length = 2 * out.length := by
  fun_induction parseHexaLoop input generalizing out <;> simp_all
  subst h; simp; omega

theorem parseHexaLoop_digits {input : List Char} {out : Bytes}
    (h : parseHexaLoop input = some out) : ∀ c ∈ input, parseHexaDigit c ≠ none := by
  fun_induction parseHexaLoop input generalizing out <;> simp_all

/-! ### Constant-time comparison -/

theorem ctAccum_aux (l : List (UInt8 × UInt8)) (acc : Nat)
    (h : acc + 255 * l.length < 2 ^ 64) :
    l.foldl (fun ret p => u64 (ret + (p.1 ^^^ p.2).toNat)) acc =
      acc + (l.map fun p => (p.1 ^^^ p.2).toNat).sum := by
  induction l generalizing acc with
  | nil => simp
  | cons p l ih =>
    simp only [List.foldl_cons, List.map_cons, List.sum_cons, List.length_cons] at *
    have hp := toNat_lt256 (p.1 ^^^ p.2)
    have : u64 (acc + (p.1 ^^^ p.2).toNat) = acc + (p.1 ^^^ p.2).toNat := by
      unfold u64; omega
    rw [this, ih _ (by omega)]
    omega

theorem xor_toNat_zero (a b : UInt8) : (a ^^^ b).toNat = 0 ↔ a = b := by
  constructor
  · intro h
    have : a ^^^ b = 0 := UInt8.toNat_inj.1 (by simpa using h)
    exact UInt8.xor_eq_zero_iff.1 this
  · rintro rfl; simp

theorem zip_xor_sum_zero (x y : Bytes) (hl : x.length = y.length) :
    ((x.zip y).map fun p => (p.1 ^^^ p.2).toNat).sum = 0 ↔ x = y := by
  induction x generalizing y with
  | nil => cases y <;> simp_all
  | cons a x ih =>
    cases y with
    | nil => simp at hl
    | cons b y =>
      simp only [List.zip_cons_cons, List.map_cons, List.sum_cons, List.cons.injEq]
      have := ih y (by simpa using hl)
      have := xor_toNat_zero a b
      constructor
      · intro h; exact ⟨this.1 (by omega), (ih y (by simpa using hl)).1 (by omega)⟩
      · rintro ⟨rfl, rfl⟩; simp_all

end Picoquic
