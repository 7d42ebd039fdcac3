import Verif.Model.Qpack
import Verif.Spec.Qpack
import Verif.Proof.Huffman
/-!
# Proofs about header frames
-/

namespace Picoquic.Qpack
open Picoquic.Huffman Picoquic.Spec

/-! ### Numbers -/

theorem tail_byte : ∀ x : Fin 128, (UInt8.ofNat (128 + x.val)).toNat &&& 0x7F = x.val ∧ (UInt8.ofNat (128 + x.val)).toNat &&& 0x80 ≠ 0 ∧
    0x80 ||| x.val = 128 + x.val ∧ (UInt8.ofNat x.val).toNat &&& 0x7F = x.val ∧ (UInt8.ofNat x.val).toNat &&& 0x80 = 0 := by decide +kernel

theorem or_shift {v s : Nat} (y : Nat) (h : v < 2 ^ s) : v ||| (y <<< s) = v + y * 2 ^ s := by
  rw [Nat.or_comm, ← Nat.shiftLeft_add_eq_or_of_lt h, Nat.shiftLeft_eq, Nat.add_comm]

theorem decTail_qpTail (rest : List UInt8) : ∀ (k : Nat) (x v : Nat), v < 2 ^ (7 * k) → x * 2 ^ (7 * k) < 2 ^ 63 → 7 * k < 62 →
    decTail (7 * k) v (qpTail x ++ rest) = some (v + x * 2 ^ (7 * k), rest) := by
  intro k x
  induction x using Nat.strongRecOn generalizing k with
  | _ x ih =>
    intro v hv hx hk
    unfold qpTail
    by_cases c : x < 128
    · obtain ⟨-, -, -, h1, h2⟩ := tail_byte ⟨x, c⟩
      dsimp only at h1 h2
      rw [if_pos c, List.singleton_append]
      unfold decTail
      rw [if_pos hk]
      dsimp only
      rw [if_pos h2, h1, or_shift x hv]
    · obtain ⟨h1, h2, -, -, -⟩ := tail_byte ⟨x % 128, Nat.mod_lt _ (by decide)⟩
      dsimp only at h1 h2
      rw [if_neg c, List.cons_append]
      unfold decTail
      rw [if_pos hk]
      dsimp only
      rw [if_neg h2, h1, or_shift _ hv]
      have e7 : 2 ^ (7 * (k + 1)) = 2 ^ (7 * k) * 128 := by rw [show 7 * (k + 1) = 7 * k + 7 from by omega, Nat.pow_add]
      have hpos : 0 < 2 ^ (7 * k) := Nat.two_pow_pos _
      have hdm := Nat.div_add_mod x 128
      have hk2 : 7 * (k + 1) < 62 := by
        have h1 : 2 ^ (7 * (k + 1)) ≤ x * 2 ^ (7 * k) := by
          rw [e7, Nat.mul_comm]
          exact Nat.mul_le_mul_right _ (by omega)
        have h2 : 2 ^ (7 * (k + 1)) < 2 ^ 63 := Nat.lt_of_le_of_lt h1 hx
        have h3 := (Nat.pow_lt_pow_iff_right (by decide : 1 < 2)).1 h2
        omega
      have hmul : x * 2 ^ (7 * k) = x / 128 * (2 ^ (7 * k) * 128) + x % 128 * 2 ^ (7 * k) := by
        rw [Nat.mul_comm (2 ^ (7 * k)) 128, ← Nat.mul_assoc, ← Nat.add_mul]
        congr 1; omega
      have hlow : x % 128 * 2 ^ (7 * k) ≤ 127 * 2 ^ (7 * k) := Nat.mul_le_mul_right _ (by omega)
      rw [show 7 * k + 7 = 7 * (k + 1) from by omega]
      rw [ih (x / 128) (by omega) (k + 1) (v + x % 128 * 2 ^ (7 * k)) (by rw [e7]; omega) (by rw [e7]; omega) hk2]
      rw [e7, hmul]
      congr 2
      omega

theorem encTail_spec : ∀ (room v : Nat) (l : List UInt8), encTail room v = some l → l = qpTail v ∧ l.length ≤ room := by
  intro room
  induction room with
  | zero => intro v l h; cases h
  | succ room ih =>
    intro v l h
    unfold encTail at h
    unfold qpTail
    by_cases c : v ≥ 0x80
    · rw [if_pos c] at h
      rw [if_neg (by omega)]
      split at h
      · rename_i l' h'
        cases h
        have e : v &&& 0x7F = v % 128 := Nat.and_two_pow_sub_one_eq_mod v 7
        obtain ⟨-, -, h3, -, -⟩ := tail_byte ⟨v % 128, Nat.mod_lt _ (by decide)⟩
        dsimp only at h3
        have := ih _ _ h'
        rw [e, h3, this.1, Nat.shiftRight_eq_div_pow]
        refine ⟨rfl, ?_⟩
        have h4 := this.2
        rw [this.1, Nat.shiftRight_eq_div_pow] at h4
        rw [List.length_cons]; omega
      · cases h
    · rw [if_neg c] at h
      rw [if_pos (by omega)]
      cases h
      exact ⟨rfl, by simp⟩

theorem encInt_spec {room pre n v : Nat} {l : List UInt8} (hor : ∀ x, x < 2 ^ n → pre ||| x = pre + x) (h : encInt room pre (2 ^ n - 1) v = some l) :
    l = qpInt pre n v ∧ l.length ≤ room := by
  have hpos : 0 < 2 ^ n := Nat.two_pow_pos _
  unfold encInt at h
  unfold qpInt
  split at h
  · cases h
  · by_cases c : v < 2 ^ n - 1
    · rw [if_pos c] at h ⊢
      cases h
      rw [hor v (by omega)]
      exact ⟨rfl, by simp⟩
    · rw [if_neg c] at h ⊢
      split at h
      · rename_i l' h'
        cases h
        have := encTail_spec _ _ _ h'
        rw [hor _ (by omega), this.1]
        refine ⟨rfl, ?_⟩
        have h4 := this.2
        rw [this.1] at h4
        rw [List.length_cons]; omega
      · cases h

theorem decInt_qpInt {high n v : Nat} (rest : List UInt8) (hn : 2 ^ n ∣ high) (hh : high + 2 ^ n ≤ 256) (hv : v < 2 ^ 63) :
    decInt (2 ^ n - 1) (qpInt high n v ++ rest) = some (v, rest) := by
  have hpos : 0 < 2 ^ n := Nat.two_pow_pos _
  have hand : ∀ x, x < 2 ^ n → (UInt8.ofNat (high + x)).toNat &&& (2 ^ n - 1) = x := by
    intro x hx
    rw [Nat.and_two_pow_sub_one_eq_mod, UInt8.toNat_ofNat', Nat.mod_eq_of_lt (by omega : high + x < 2 ^ 8)]
    obtain ⟨q, rfl⟩ := hn
    rw [Nat.mul_add_mod, Nat.mod_eq_of_lt hx]
  unfold qpInt
  by_cases c : v < 2 ^ n - 1
  · rw [if_pos c, List.singleton_append]
    unfold decInt
    dsimp only
    rw [hand v (by omega), if_neg (by omega)]
  · rw [if_neg c, List.cons_append]
    unfold decInt
    dsimp only
    rw [hand (2 ^ n - 1) (by omega), if_pos rfl]
    have := decTail_qpTail rest 0 (v - (2 ^ n - 1)) 0 (by decide) (by simp; omega) (by decide)
    simp only [Nat.mul_zero, Nat.pow_zero, Nat.mul_one, Nat.zero_add] at this
    rw [this]
    dsimp only
    congr 2
    omega

/-- The first byte of a number. -/
theorem qpInt_head (high n v : Nat) : ∃ x t, x < 2 ^ n ∧ qpInt high n v = UInt8.ofNat (high + x) :: t := by
  have hpos : 0 < 2 ^ n := Nat.two_pow_pos _
  unfold qpInt
  by_cases c : v < 2 ^ n - 1
  · rw [if_pos c]; exact ⟨v, [], by omega, rfl⟩
  · rw [if_neg c]; exact ⟨2 ^ n - 1, _, by omega, rfl⟩

theorem decTail_sound : ∀ (bs : List UInt8) (shift v : Nat) (x : Nat) (r : List UInt8), decTail shift v bs = some (x, r) → ∃ p, bs = p ++ r ∧ 0 < p.length := by
  intro bs
  induction bs with
  | nil => intro shift v x r h; cases h
  | cons b bs ih =>
    intro shift v x r h
    unfold decTail at h
    split at h
    · dsimp only at h
      split at h
      · cases h; exact ⟨[b], rfl, by simp⟩
      · obtain ⟨p, p1, -⟩ := ih _ _ _ _ h
        exact ⟨b :: p, by rw [p1]; rfl, by simp⟩
    · cases h

theorem decInt_sound {mask : Nat} {bs : List UInt8} {x : Nat} {r : List UInt8} (h : decInt mask bs = some (x, r)) : ∃ p, bs = p ++ r ∧ 0 < p.length := by
  unfold decInt at h
  split at h
  · cases h
  · rename_i b bs
    split at h
    · split at h
      · rename_i v r' h'
        cases h
        obtain ⟨p, p1, -⟩ := decTail_sound _ _ _ _ _ h'
        exact ⟨b :: p, by rw [p1]; rfl, by simp⟩
      · cases h
    · cases h
      exact ⟨[b], rfl, by simp⟩

/-! ### Strings -/

theorem code_length (c : UInt8) : (hfCode c).length ≤ 30 := by
  have := (show ∀ c : Fin 256, (hfCode (UInt8.ofNat c.val)).length ≤ 30 from by decide +kernel) ⟨c.toNat, c.toNat_lt⟩
  rwa [show UInt8.ofNat c.toNat = c from UInt8.ofNat_toNat] at this

theorem hfBits_length (w : List UInt8) : (hfBits w).length ≤ 30 * w.length := by
  induction w with
  | nil => exact Nat.le_refl _
  | cons c w ih =>
    show (hfCode c ++ hfBits w).length ≤ _
    have := code_length c
    rw [List.length_append, List.length_cons]; omega

theorem hfEncode_length (w : List UInt8) : (hfEncode w).length ≤ 4 * w.length + 1 := by
  obtain ⟨k, k1, k2⟩ := hfEncode_bits w
  have h := congrArg List.length k2
  rw [hfByteBits_length, List.length_append, List.length_replicate] at h
  have := hfBits_length w
  omega

theorem shift7 : ∀ x : Fin 128, (UInt8.ofNat (0 + x.val)).toNat >>> 7 &&& 1 = 0 ∧ (UInt8.ofNat (0 + 2 ^ 7 + x.val)).toNat >>> 7 &&& 1 = 1 := by decide +kernel

/-- What is read for a string: the string, or what the decoder gives of it. -/
theorem readString_gen (huffman : Bool) (s : List UInt8) (rest : List UInt8) (hl : s.length < 2 ^ 58) (v : List UInt8)
    (hd : if huffman then decode 256 (hfEncode s) = some (true, v) else v = s) : readString (qpStr 0 7 huffman s ++ rest) = some (v, rest) := by
  unfold qpStr
  cases huffman
  · rw [if_neg (by decide)] at hd ⊢
    subst hd
    rw [List.append_assoc]
    obtain ⟨x, t, x1, x2⟩ := qpInt_head 0 7 v.length
    have hdec := decInt_qpInt (high := 0) (n := 7) (v := v.length) (v ++ rest) (Nat.dvd_zero _) (by decide) (by omega)
    rw [x2, List.cons_append] at hdec ⊢
    unfold readString
    dsimp only
    rw [show (0x7F : Nat) = 2 ^ 7 - 1 from rfl, hdec]
    dsimp only
    rw [if_neg (by rw [List.length_append]; omega), (shift7 ⟨x, x1⟩).1, if_neg (by decide), List.take_left, List.drop_left]
  · rw [if_pos rfl] at hd ⊢
    have hlen := hfEncode_length s
    rw [List.append_assoc]
    obtain ⟨x, t, x1, x2⟩ := qpInt_head (0 + 2 ^ 7) 7 (hfEncode s).length
    have hdec := decInt_qpInt (high := 0 + 2 ^ 7) (n := 7) (v := (hfEncode s).length) (hfEncode s ++ rest) ⟨1, rfl⟩ (by decide) (by omega)
    rw [x2, List.cons_append] at hdec ⊢
    unfold readString
    dsimp only
    rw [show (0x7F : Nat) = 2 ^ 7 - 1 from rfl, hdec]
    dsimp only
    rw [if_neg (by rw [List.length_append]; omega), (shift7 ⟨x, x1⟩).2, if_pos rfl, List.take_left, List.drop_left, hd]

/-! ### Lines -/

/-- The kind of a name. -/
def kind (name : List UInt8) : Hdr := headerType name false

theorem static_length : qpackStatic.length = 99 ∧ qpStatic.length = 99 := by decide +kernel

/-- What is checked of an entry of the static table. -/
def statOk (i : Nat) : Bool :=
  match qpackStatic[i]?, qpStatic[i]? with
  | some e, some f =>
    e.1 == kind f.1 &&
    (match e.1 with
     | .method => e.2.2 == methodByName f.2
     | .contentType => e.2.2 == contentTypeByName f.2
     | .status => parseStatus 0 f.2 == some (e.2.2 : Int)
     | .path => e.2.1 == f.2
     | .range => i == 55
     | .protocol => false
     | .other => true)
  | _, _ => false

theorem stat_ok : ∀ i : Fin 99, statOk i.val = true := by decide +kernel

theorem stat_get {i : Nat} (hi : i < 99) : ∃ e f, qpackStatic[i]? = some e ∧ qpStatic[i]? = some f ∧ e.1 = kind f.1 ∧
    (i ≠ 55 → ∀ p, setStatic e p = setValue (kind f.1) p f.2) := by
  have h := stat_ok ⟨i, hi⟩
  unfold statOk at h
  dsimp only at h
  split at h
  · rename_i e f h1 h2
    rw [Bool.and_eq_true] at h
    obtain ⟨h3, h4⟩ := h
    have h3 := eq_of_beq h3
    refine ⟨e, f, h1, h2, h3, ?_⟩
    intro hne p
    rw [← h3]
    unfold setStatic setValue
    cases hk : e.1 <;> rw [hk] at h4 <;> dsimp only at h4 ⊢
    · rw [eq_of_beq h4]
    · rw [eq_of_beq h4]
    · rw [eq_of_beq h4]
    · rw [eq_of_beq h4]
    · exact absurd (eq_of_beq h4) hne
    · cases h4
  · cases h

theorem c0_byte : ∀ x : Fin 64, (UInt8.ofNat (0xC0 + x.val)).toNat &&& 0xC0 = 0xC0 := by decide +kernel

theorem x50_byte : ∀ (b : Bool) (x : Fin 16), (UInt8.ofNat (0x50 + 0x20 * b.toNat + x.val)).toNat &&& 0xC0 ≠ 0xC0 ∧
    (UInt8.ofNat (0x50 + 0x20 * b.toNat + x.val)).toNat &&& 0xD0 = 0x50 := by decide +kernel

theorem x20_byte : ∀ (b h : Bool) (x : Fin 8), (UInt8.ofNat (0x20 + 0x10 * b.toNat + 8 * h.toNat + x.val)).toNat &&& 0xC0 ≠ 0xC0 ∧
    (UInt8.ofNat (0x20 + 0x10 * b.toNat + 8 * h.toNat + x.val)).toNat &&& 0xD0 ≠ 0x50 ∧
    (UInt8.ofNat (0x20 + 0x10 * b.toNat + 8 * h.toNat + x.val)).toNat &&& 0xE0 = 0x20 ∧
    decide ((UInt8.ofNat (0x20 + 0x10 * b.toNat + 8 * h.toNat + x.val)).toNat >>> 3 &&& 1 = 1) = h := by decide +kernel

/-- A result with the bytes that follow. -/
def withRest (rest : List UInt8) : Res Parts → Res (List UInt8 × Parts)
  | .ok p => .ok (rest, p)
  | .err => .err
  | .ub => .ub

theorem parseValue_str (huffman : Bool) (s rest : List UInt8) (h : Hdr) (p : Parts) (hl : s.length < 2 ^ 58) (hh : huffman = true → s.length ≤ 256)
    (hrt : ∀ w : List UInt8, w.length ≤ 256 → decode 256 (hfEncode w) = some (true, w)) :
    parseValue (qpStr 0 7 huffman s ++ rest) h p = withRest rest (setValue h p s) := by
  unfold parseValue
  rw [readString_gen huffman s rest hl s (by cases huffman
                                             · rw [if_neg (by decide)]
                                             · rw [if_pos rfl]; exact hrt s (hh rfl))]
  dsimp only
  unfold withRest
  split <;> rename_i e <;> rw [e]

theorem parseLine_line (hrt : ∀ w : List UInt8, w.length ≤ 256 → decode 256 (hfEncode w) = some (true, w)) {l : QpLine} (hl : QpLineOk l) (rest : List UInt8) (p : Parts) :
    ∃ f, qpField l = some f ∧ parseLine (qpLineBytes l ++ rest) p = withRest rest (setValue (kind f.1) p f.2) := by
  cases l with
  | indexed i =>
    obtain ⟨h1, h2⟩ := hl
    obtain ⟨e, f, e1, e2, -, e4⟩ := stat_get h1
    refine ⟨f, e2, ?_⟩
    obtain ⟨x, t, x1, x2⟩ := qpInt_head 0xC0 6 i
    have hdec := decInt_qpInt (high := 0xC0) (n := 6) (v := i) rest ⟨3, rfl⟩ (by decide) (by omega)
    unfold qpLineBytes
    dsimp only
    rw [x2, List.cons_append] at hdec ⊢
    unfold parseLine
    dsimp only
    rw [if_pos (c0_byte ⟨x, x1⟩), show (0x3F : Nat) = 2 ^ 6 - 1 from rfl, hdec]
    dsimp only
    rw [if_neg (by rw [static_length.1]; omega), e1]
    dsimp only
    rw [e4 h2 p]
    unfold withRest
    split <;> rename_i e <;> rw [e]
  | nameRef never i huffman value =>
    obtain ⟨h1, h2, h3⟩ := hl
    obtain ⟨e, f, e1, e2, e3, -⟩ := stat_get h1
    refine ⟨(f.1, value), by unfold qpField; dsimp only; rw [e2]; rfl, ?_⟩
    obtain ⟨x, t, x1, x2⟩ := qpInt_head (0x50 + 0x20 * never.toNat) 4 i
    have hdec := decInt_qpInt (high := 0x50 + 0x20 * never.toNat) (n := 4) (v := i) (qpStr 0 7 huffman value ++ rest)
      (by cases never <;> decide) (by cases never <;> decide) (by omega)
    unfold qpLineBytes
    dsimp only
    rw [List.append_assoc]
    rw [x2, List.cons_append] at hdec ⊢
    obtain ⟨b1, b2⟩ := x50_byte never ⟨x, x1⟩
    unfold parseLine
    dsimp only
    rw [if_neg b1, if_pos b2, show (0x0F : Nat) = 2 ^ 4 - 1 from rfl, hdec]
    dsimp only
    rw [if_neg (by rw [static_length.1]; omega), e1]
    dsimp only
    rw [parseValue_str huffman value rest e.1 p h2 h3 hrt, e3]
  | literal never huffName name huffman value =>
    obtain ⟨h1, h2, h3, h4⟩ := hl
    refine ⟨(name, value), rfl, ?_⟩
    unfold qpLineBytes
    dsimp only
    rw [List.append_assoc]
    cases huffName
    · unfold qpStr
      rw [if_neg (show ¬ false = true by decide), List.append_assoc]
      obtain ⟨x, t, x1, x2⟩ := qpInt_head (0x20 + 0x10 * never.toNat) 3 name.length
      have hdec := decInt_qpInt (high := 0x20 + 0x10 * never.toNat) (n := 3) (v := name.length) (name ++ (qpStr 0 7 huffman value ++ rest))
        (by cases never <;> decide) (by cases never <;> decide) (by omega)
      have hb := x20_byte never false ⟨x, x1⟩
      rw [show 0x20 + 0x10 * never.toNat + 8 * false.toNat + x = 0x20 + 0x10 * never.toNat + x from rfl] at hb
      obtain ⟨b1, b2, b3, b4⟩ := hb
      show parseLine (qpInt (0x20 + 0x10 * never.toNat) 3 name.length ++ (name ++ (qpStr 0 7 huffman value ++ rest))) p = _
      rw [x2, List.cons_append] at hdec ⊢
      unfold parseLine
      dsimp only
      rw [if_neg b1, if_neg b2, if_pos b3, show (0x07 : Nat) = 2 ^ 3 - 1 from rfl, hdec]
      dsimp only
      rw [if_neg (by rw [List.length_append]; omega), List.take_left, List.drop_left, b4]
      exact parseValue_str huffman value rest _ p h2 h4 hrt
    · have hlen := hfEncode_length name
      have hrt' := hrt name (h3 rfl)
      unfold qpStr
      rw [if_pos (show true = true from rfl), List.append_assoc]
      obtain ⟨x, t, x1, x2⟩ := qpInt_head (0x20 + 0x10 * never.toNat + 2 ^ 3) 3 (hfEncode name).length
      have hdec := decInt_qpInt (high := 0x20 + 0x10 * never.toNat + 2 ^ 3) (n := 3) (v := (hfEncode name).length) (hfEncode name ++ (qpStr 0 7 huffman value ++ rest))
        (by cases never <;> decide) (by cases never <;> decide) (by omega)
      have hb := x20_byte never true ⟨x, x1⟩
      rw [show 0x20 + 0x10 * never.toNat + 8 * true.toNat + x = 0x20 + 0x10 * never.toNat + 2 ^ 3 + x from rfl] at hb
      obtain ⟨b1, b2, b3, b4⟩ := hb
      show parseLine (qpInt (0x20 + 0x10 * never.toNat + 2 ^ 3) 3 (hfEncode name).length ++ (hfEncode name ++ (qpStr 0 7 huffman value ++ rest))) p = _
      rw [x2, List.cons_append] at hdec ⊢
      unfold parseLine
      dsimp only
      rw [if_neg b1, if_neg b2, if_pos b3, show (0x07 : Nat) = 2 ^ 3 - 1 from rfl, hdec]
      dsimp only
      rw [if_neg (by rw [List.length_append]; omega), List.take_left, List.drop_left, b4]
      have hk : headerType (hfEncode name) true = kind name := by
        unfold kind headerType
        rw [hrt']
        rfl
      rw [hk]
      exact parseValue_str huffman value rest _ p h2 h4 hrt

/-! ### Frames -/

/-- The fields one after the other. -/
def foldSet : List (List UInt8 × List UInt8) → Parts → Res Parts
  | [], p => .ok p
  | f :: fs, p =>
    match setValue (kind f.1) p f.2 with
    | .ok p => foldSet fs p
    | .err => .err
    | .ub => .ub

theorem qpLineBytes_pos (l : QpLine) : 0 < (qpLineBytes l).length := by
  have h : ∀ high n v, 0 < (qpInt high n v).length := by
    intro high n v
    obtain ⟨x, t, -, e⟩ := qpInt_head high n v
    rw [e]; exact Nat.succ_pos _
  cases l with
  | indexed i => exact h ..
  | nameRef never i huffman value =>
    show 0 < (qpInt _ _ _ ++ _).length
    have := h (0x50 + 0x20 * never.toNat) 4 i
    rw [List.length_append]; omega
  | literal never huffName name huffman value =>
    show 0 < (qpStr _ _ _ _ ++ _).length
    unfold qpStr
    cases huffName
    · have := h (0x20 + 0x10 * never.toNat) 3 name.length
      rw [if_neg (by decide), List.length_append, List.length_append]; omega
    · have := h (0x20 + 0x10 * never.toNat + 2 ^ 3) 3 (hfEncode name).length
      rw [if_pos rfl, List.length_append, List.length_append]; omega

theorem parseLines_lines (hrt : ∀ w : List UInt8, w.length ≤ 256 → decode 256 (hfEncode w) = some (true, w)) : ∀ (ls : List QpLine) (n : Nat) (p : Parts), (∀ l ∈ ls, QpLineOk l) → ls.length < n →
    ∃ fs, ls.map qpField = fs.map some ∧ parseLines n (ls.flatMap qpLineBytes) p = foldSet fs p := by
  intro ls
  induction ls with
  | nil =>
    intro n p _ hn
    refine ⟨[], rfl, ?_⟩
    cases n with
    | zero => cases hn
    | succ n => rfl
  | cons l ls ih =>
    intro n p hl hn
    rw [List.length_cons] at hn
    cases n with
    | zero => cases hn
    | succ n =>
      obtain ⟨f, f1, f2⟩ := parseLine_line hrt (hl l (List.mem_cons_self ..)) (ls.flatMap qpLineBytes) p
      obtain ⟨fs0, g1, -⟩ := ih n p (fun l' h' => hl l' (List.mem_cons_of_mem _ h')) (by omega)
      refine ⟨f :: fs0, by rw [List.map_cons, List.map_cons, f1, g1], ?_⟩
      rw [List.flatMap_cons]
      have hne : ∃ b t, qpLineBytes l ++ ls.flatMap qpLineBytes = b :: t := by
        have := qpLineBytes_pos l
        cases hq : qpLineBytes l with
        | nil => rw [hq] at this; cases this
        | cons b t => exact ⟨b, _, rfl⟩
      obtain ⟨b, t, e⟩ := hne
      rw [e] at f2 ⊢
      unfold parseLines
      dsimp only
      rw [f2]
      unfold foldSet
      cases hs : setValue (kind f.1) p f.2 with
      | ok p' =>
        dsimp only [withRest]
        obtain ⟨fs, g2, g3⟩ := ih n p' (fun l' h' => hl l' (List.mem_cons_of_mem _ h')) (by omega)
        have : fs = fs0 := by
          rw [g1] at g2
          exact (List.map_inj_right (fun _ _ h => Option.some.inj h)).1 g2.symm
        rw [g3, this]
      | err => rfl
      | ub => rfl

theorem lines_length (ls : List QpLine) : ls.length ≤ (ls.flatMap qpLineBytes).length := by
  induction ls with
  | nil => exact Nat.le_refl _
  | cons l ls ih =>
    have := qpLineBytes_pos l
    rw [List.flatMap_cons, List.length_append, List.length_cons]; omega

theorem parseFrame_lines (hrt : ∀ w : List UInt8, w.length ≤ 256 → decode 256 (hfEncode w) = some (true, w)) {ls : List QpLine} (hl : ∀ l ∈ ls, QpLineOk l) :
    ∃ fs, ls.map qpField = fs.map some ∧ parseFrame (qpFrame ls) = foldSet fs {} := by
  have := lines_length ls
  obtain ⟨fs, h1, h2⟩ := parseLines_lines hrt ls ((ls.flatMap qpLineBytes).length + 1) {} hl (by omega)
  refine ⟨fs, h1, ?_⟩
  unfold qpFrame parseFrame
  dsimp only
  rw [if_neg (by decide), ← h2]
  rfl

/-! ### What the fields give -/

/-- The values of the fields of a kind. -/
def valsK (k : Hdr) (fs : List (List UInt8 × List UInt8)) : List (List UInt8) := (fs.filter (fun f => kind f.1 == k)).map (·.2)

theorem valsK_cons_eq {k : Hdr} {f : List UInt8 × List UInt8} (fs) (h : kind f.1 = k) : valsK k (f :: fs) = f.2 :: valsK k fs := by
  unfold valsK
  rw [List.filter_cons, if_pos (by rw [h]; simp)]
  rfl

theorem valsK_cons_ne {k : Hdr} {f : List UInt8 × List UInt8} (fs) (h : kind f.1 ≠ k) : valsK k (f :: fs) = valsK k fs := by
  unfold valsK
  rw [List.filter_cons, if_neg (by simpa using h)]

/-- Whether a part was set. -/
def isSet (k : Hdr) (p : Parts) : Bool :=
  match k with
  | .method => p.method != 0
  | .path => p.path.isSome
  | .status => p.status != 0
  | .contentType => p.contentType != 0
  | .range => p.range.isSome
  | .protocol => p.protocol.isSome
  | .other => false

theorem setValue_isSet {h : Hdr} {p p' : Parts} {v : List UInt8} (hs : setValue h p v = .ok p') (k : Hdr) (hk : k ≠ h) : isSet k p' = isSet k p := by
  unfold setValue at hs
  cases h <;> dsimp only at hs <;> (try split at hs) <;> (try split at hs) <;> cases hs <;> cases k <;> first | rfl | exact absurd rfl hk

theorem setValue_err {h : Hdr} {p : Parts} {v : List UInt8} (hs : setValue h p v = .err) : isSet h p = true := by
  unfold setValue at hs
  cases h <;> dsimp only at hs <;> (try split at hs) <;> (try split at hs) <;> first | cases hs | skip
  all_goals (rename_i c; first | exact c | simpa [isSet] using c)

theorem foldSet_noerr : ∀ (fs : List (List UInt8 × List UInt8)) (p : Parts), (∀ k, k ≠ .other → (valsK k fs).length ≤ 1 ∧ (isSet k p = true → valsK k fs = [])) →
    foldSet fs p ≠ .err := by
  intro fs
  induction fs with
  | nil => intro p _ h; cases h
  | cons f fs ih =>
    intro p hf h
    unfold foldSet at h
    split at h
    · rename_i p' hp'
      refine ih p' ?_ h
      intro k hk
      obtain ⟨h1, h2⟩ := hf k hk
      by_cases c : kind f.1 = k
      · rw [valsK_cons_eq fs c, List.length_cons] at h1
        have : valsK k fs = [] := List.eq_nil_of_length_eq_zero (by omega)
        exact ⟨by rw [this]; exact Nat.zero_le _, fun _ => this⟩
      · rw [valsK_cons_ne fs c] at h1 h2
        exact ⟨h1, fun h3 => h2 (by rw [← setValue_isSet hp' k (fun e => c e.symm)]; exact h3)⟩
    · rename_i he
      have hset := setValue_err he
      have hk : kind f.1 ≠ .other := by intro e; rw [e] at hset; cases hset
      have := (hf _ hk).2 hset
      rw [valsK_cons_eq fs rfl] at this
      cases this
    · cases h

/-- Values of status that are short are numbers that fit. -/
theorem parseStatus_short : ∀ (v : List UInt8) (n : Nat), n * 10 ^ v.length + 10 ^ v.length ≤ 2 ^ 31 → parseStatus n v ≠ none := by
  intro v
  induction v with
  | nil => intro n _ h; cases h
  | cons b v ih =>
    intro n hn h
    unfold parseStatus at h
    have e : 10 ^ (b :: v).length = 10 * 10 ^ v.length := by rw [List.length_cons, Nat.pow_succ, Nat.mul_comm]
    rw [e] at hn
    have hpos : 0 < 10 ^ v.length := Nat.pow_pos (by decide)
    split at h
    · rename_i c
      have hle : (n * 10 + (b.toNat - 48) + 1) * 10 ^ v.length ≤ 2 ^ 31 := by
        refine Nat.le_trans (Nat.mul_le_mul_right _ (by omega : n * 10 + (b.toNat - 48) + 1 ≤ n * 10 + 10)) ?_
        rw [Nat.add_mul, Nat.mul_assoc]; exact hn
      have hlt : n * 10 + (b.toNat - 48) < 2 ^ 31 := by
        have : n * 10 + (b.toNat - 48) + 1 ≤ (n * 10 + (b.toNat - 48) + 1) * 10 ^ v.length := Nat.le_mul_of_pos_right _ hpos
        omega
      rw [if_pos hlt] at h
      refine ih _ ?_ h
      rw [Nat.add_mul _ 1, Nat.one_mul] at hle
      exact hle
    · cases h

theorem setValue_noub {h : Hdr} {p : Parts} {v : List UInt8} (hv : h = .status → v.length ≤ 9) : setValue h p v ≠ .ub := by
  intro hs
  unfold setValue at hs
  cases h <;> dsimp only at hs <;> (try split at hs) <;> (try split at hs) <;> first | cases hs | skip
  rename_i h0
  refine parseStatus_short v 0 ?_ h0
  have : 10 ^ v.length ≤ 10 ^ 9 := Nat.pow_le_pow_right (by decide) (hv rfl)
  omega

theorem foldSet_noub : ∀ (fs : List (List UInt8 × List UInt8)) (p : Parts), (∀ v ∈ valsK .status fs, v.length ≤ 9) → foldSet fs p ≠ .ub := by
  intro fs
  induction fs with
  | nil => intro p _ h; cases h
  | cons f fs ih =>
    intro p hf h
    have hf' : ∀ v ∈ valsK .status fs, v.length ≤ 9 := by
      intro v hv
      refine hf v ?_
      by_cases c : kind f.1 = .status
      · rw [valsK_cons_eq fs c]; exact List.mem_cons_of_mem _ hv
      · rw [valsK_cons_ne fs c]; exact hv
    unfold foldSet at h
    split at h
    · exact ih _ hf' h
    · cases h
    · rename_i he
      refine setValue_noub (fun e => ?_) he
      refine hf f.2 ?_
      rw [valsK_cons_eq fs e]; exact List.mem_cons_self ..

/-- A part takes the last value of its kind. -/
theorem foldSet_last {α : Type} (k : Hdr) (get : Parts → α) (g : List UInt8 → α)
    (law : ∀ h p v p', setValue h p v = .ok p' → (h = k → get p' = g v) ∧ (h ≠ k → get p' = get p)) :
    ∀ (fs : List (List UInt8 × List UInt8)) (p p' : Parts), foldSet fs p = .ok p' → get p' = match (valsK k fs).getLast? with
      | some v => g v
      | none => get p := by
  intro fs
  induction fs with
  | nil => intro p p' h; cases h; rfl
  | cons f fs ih =>
    intro p p' h
    unfold foldSet at h
    split at h
    · rename_i p1 h1
      have e := ih p1 p' h
      obtain ⟨l1, l2⟩ := law _ _ _ _ h1
      by_cases c : kind f.1 = k
      · rw [valsK_cons_eq fs c, List.getLast?_cons, e, l1 c]
        cases (valsK k fs).getLast? <;> rfl
      · rw [valsK_cons_ne fs c, e, l2 c]
    · cases h
    · cases h

/-- A part that is set is not set again. -/
theorem foldSet_once (k : Hdr) (hk : k ≠ .other) (hne : ∀ p v p', setValue k p v = .ok p' → isSet k p' = true) :
    ∀ (fs : List (List UInt8 × List UInt8)) (p p' : Parts), foldSet fs p = .ok p' → (isSet k p = true → valsK k fs = []) ∧ (valsK k fs).length ≤ 1 := by
  intro fs
  induction fs with
  | nil => intro p p' _; exact ⟨fun _ => rfl, Nat.zero_le _⟩
  | cons f fs ih =>
    intro p p' h
    unfold foldSet at h
    split at h
    · rename_i p1 h1
      obtain ⟨i1, i2⟩ := ih p1 p' h
      by_cases c : kind f.1 = k
      · rw [valsK_cons_eq fs c]
        rw [c] at h1
        have hz := i1 (hne _ _ _ h1)
        refine ⟨fun hs => ?_, by rw [hz]; exact Nat.le_refl _⟩
        exfalso
        unfold setValue at h1
        unfold isSet at hs
        cases k <;> dsimp only at h1 hs <;> simp_all
      · rw [valsK_cons_ne fs c]
        exact ⟨fun hs => i1 (by rw [setValue_isSet h1 k (fun e => c e.symm)]; exact hs), i2⟩
    · cases h
    · cases h

end Picoquic.Qpack
