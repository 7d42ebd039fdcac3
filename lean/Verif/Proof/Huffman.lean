import Verif.Proof.HuffmanTables
/-!
# Proofs about the decoding of Huffman codes
-/

namespace Picoquic.Huffman
open Picoquic.Spec

/-! ### Codes -/

theorem first_append {p l : List Bool} {c : UInt8} : ∀ {i : Nat}, first p i = some (c, []) → first (p ++ l) i = some (c, l) := by
  induction p with
  | nil =>
    intro i h
    unfold first at h
    split at h
    · rename_i x h1 h2
      cases h
      cases l with
      | nil => simp only [List.append_nil]; unfold first; rw [h1, h2]
      | cons b l => simp only [List.nil_append]; unfold first; rw [h1, h2]
    · cases h
  | cons b p ih =>
    intro i h
    unfold first at h
    rw [List.cons_append]
    unfold first
    split at h
    · cases h
    · rename_i h1 h2
      exact ih h
    · cases h

theorem first_code (c : UInt8) (l : List Bool) : first (hfCode c ++ l) 0 = some (c, l) := by
  have h := codes_ok ⟨c.toNat, c.toNat_lt⟩
  rw [show UInt8.ofNat c.toNat = c from UInt8.ofNat_toNat] at h
  exact first_append h

/-- What is known of a location of an index. -/
theorem loc_index {i : Nat} (hi : i < 512) (h : isIndex i = some true) : ∃ d, huffVal[i]? = some d ∧ i + 1 < 512 ∧ path (i + 1) = path i ++ [false] ∧
    (path i).length < 30 ∧ ((i + d < 512 ∧ path (i + d) = path i ++ [true]) ∨ (512 ≤ i + d ∧ path i ++ [true] = hfEos)) := by
  have hl := locs_ok ⟨i, hi⟩
  unfold locOk at hl
  dsimp only at hl
  rw [h] at hl
  split at hl
  · rename_i d _ hd
    simp only [Bool.and_eq_true, decide_eq_true_eq] at hl
    obtain ⟨⟨⟨⟨-, h1⟩, h2⟩, h3⟩, h4⟩ := hl
    refine ⟨d, hd, h1, h2, h3, ?_⟩
    by_cases c : i + d < 512
    · rw [if_pos c] at h4
      exact .inl ⟨c, of_decide_eq_true h4⟩
    · rw [if_neg c] at h4
      exact .inr ⟨by omega, of_decide_eq_true h4⟩
  · rename_i h0 _; cases h0
  · cases hl

theorem loc_leaf {i : Nat} (hi : i < 512) (h : isIndex i = some false) : ∃ c, huffVal[i]? = some c ∧ path i = hfCode (UInt8.ofNat c) := by
  have hl := locs_ok ⟨i, hi⟩
  unfold locOk at hl
  dsimp only at hl
  rw [h] at hl
  split at hl
  · rename_i h0 _; cases h0
  · rename_i c _ hc
    simp only [Bool.and_eq_true, decide_eq_true_eq] at hl
    exact ⟨c, hc, hl.2⟩
  · cases hl

theorem loc_some {i : Nat} (hi : i < 512) : isIndex i = some true ∨ isIndex i = some false := by
  have hl := locs_ok ⟨i, hi⟩
  unfold locOk at hl
  dsimp only at hl
  split at hl
  · rename_i h _; exact .inl h
  · rename_i h _; exact .inr h
  · cases hl

/-! ### The registry -/

/-- The bits in the registry. -/
def regBits (v n : Nat) : List Bool := (List.range n).map (fun i => v.testBit (63 - i))

/-- The registry has no bits set behind those in use. -/
structure Reg (v n : Nat) : Prop where
  le : n ≤ 64
  lt : v < 2 ^ 64
  low : ∀ i, i < 64 - n → v.testBit i = false

theorem hfNatBits_eq (b : UInt8) : hfNatBits b.toNat 8 = (List.range 8).map (fun i => b.toNat.testBit (7 - i)) := rfl

theorem refill_spec : ∀ (bs : List UInt8) (v n : Nat), Reg v n → Reg (refill v n bs).1 (refill v n bs).2.1 ∧
    regBits (refill v n bs).1 (refill v n bs).2.1 ++ hfByteBits (refill v n bs).2.2 = regBits v n ++ hfByteBits bs ∧
    ((refill v n bs).2.1 = 0 → (refill v n bs).2.2 = []) := by
  intro bs
  induction bs with
  | nil => intro v n h; exact ⟨h, rfl, fun _ => rfl⟩
  | cons b bs ih =>
    intro v n h
    unfold refill
    by_cases c : n < 57
    · rw [if_pos c]
      have hb : b.toNat < 2 ^ 8 := b.toNat_lt
      have ht : ∀ j, ((b.toNat <<< (64 - n - 8)) % 2 ^ 64).testBit j = (decide (j < 64) && (decide (64 - n - 8 ≤ j) && b.toNat.testBit (j - (64 - n - 8)))) := by
        intro j
        rw [Nat.testBit_mod_two_pow, Nat.testBit_shiftLeft]
      have hreg : Reg (v ||| ((b.toNat <<< (64 - n - 8)) % 2 ^ 64)) (n + 8) := by
        refine ⟨by omega, Nat.or_lt_two_pow h.lt (Nat.mod_lt _ (by decide)), ?_⟩
        intro i hi
        rw [Nat.testBit_or, ht, h.low i (by omega), show decide (64 - n - 8 ≤ i) = false from by simp; omega]
        simp
      obtain ⟨i1, i2, i3⟩ := ih _ _ hreg
      refine ⟨i1, i2.trans ?_, i3⟩
      have e : regBits (v ||| ((b.toNat <<< (64 - n - 8)) % 2 ^ 64)) (n + 8) = regBits v n ++ hfNatBits b.toNat 8 := by
        unfold regBits
        rw [List.range_add, List.map_append, hfNatBits_eq, List.map_map]
        congr 1
        · apply List.map_congr_left
          intro i hi
          have hi := List.mem_range.1 hi
          rw [Nat.testBit_or, ht]
          have : b.toNat.testBit (63 - i - (64 - n - 8)) = false := by
            apply Nat.testBit_lt_two_pow
            exact Nat.lt_of_lt_of_le hb (Nat.pow_le_pow_right (by decide) (by omega))
          rw [this]; simp
        · apply List.map_congr_left
          intro i hi
          have hi := List.mem_range.1 hi
          show (v ||| ((b.toNat <<< (64 - n - 8)) % 2 ^ 64)).testBit (63 - (n + i)) = _
          rw [Nat.testBit_or, ht, h.low _ (by omega)]
          rw [show decide (63 - (n + i) < 64) = true from by simp; omega, show decide (64 - n - 8 ≤ 63 - (n + i)) = true from by simp; omega]
          rw [show 63 - (n + i) - (64 - n - 8) = 7 - i from by omega]
          simp
      rw [e, List.append_assoc]
      rfl
    · rw [if_neg c]
      exact ⟨h, rfl, fun h0 => absurd h0 (by show n ≠ 0; omega)⟩

theorem reg_shift {v n : Nat} (h : Reg v n) (hn : 0 < n) : Reg ((v <<< 1) % 2 ^ 64) (n - 1) ∧
    regBits v n = decide ((v >>> 63) &&& 1 = 1) :: regBits ((v <<< 1) % 2 ^ 64) (n - 1) := by
  have ht : ∀ j, ((v <<< 1) % 2 ^ 64).testBit j = (decide (j < 64) && (decide (1 ≤ j) && v.testBit (j - 1))) := by
    intro j
    rw [Nat.testBit_mod_two_pow, Nat.testBit_shiftLeft]
  have hle := h.le
  refine ⟨⟨by omega, Nat.mod_lt _ (by decide), ?_⟩, ?_⟩
  · intro i hi
    rw [ht]
    by_cases c : 1 ≤ i
    · rw [h.low (i - 1) (by omega)]; simp
    · rw [show decide (1 ≤ i) = false from by simpa using c]; simp
  · have hn' : n = n - 1 + 1 := by omega
    unfold regBits
    rw [hn', List.range_succ_eq_map, List.map_cons, List.map_map]
    congr 1
    · rw [Nat.testBit_eq_decide_div_mod_eq, Nat.and_one_is_mod, Nat.shiftRight_eq_div_pow]
    · rw [Nat.add_sub_cancel]
      apply List.map_congr_left
      intro i hi
      have hi := List.mem_range.1 hi
      show v.testBit (63 - (i + 1)) = _
      rw [ht, show decide (63 - i < 64) = true from by simp; omega, show decide (1 ≤ 63 - i) = true from by simp; omega]
      rw [show 63 - i - 1 = 63 - (i + 1) from by omega]
      simp

/-! ### The loop -/

/-- The bits that were not read. -/
def left (s : HS) : List Bool := regBits s.valIn s.bitsIn ++ hfByteBits s.inp

structure Inv (max : Nat) (all : List Bool) (s : HS) : Prop where
  reg : Reg s.valIn s.bitsIn
  lt : s.index < 512
  ones : s.ones = (path s.index).all id
  room : s.out.length ≤ max
  bits : all = hfBits s.out ++ (path s.index ++ left s)

def meas (s : HS) : Nat := 2 * (left s).length + (if isIndex s.index = some false then 1 else 0)

/-- How the loop ends: at the end of the bits; with the code for the end; or because there is no room. -/
def Done (max : Nat) (all : List Bool) (s : HS) : Prop :=
  (∃ i, i < 512 ∧ isIndex i = some true ∧ all = hfBits s.out ++ path i ∧ s.ones = (path i).all id ∧ s.out.length ≤ max) ∨
  (∃ r, all = hfBits s.out ++ (hfEos ++ r) ∧ s.ones = true ∧ s.out.length ≤ max) ∨
  (∃ c r, all = hfBits s.out ++ (hfCode c ++ r) ∧ s.ones = true ∧ s.out.length = max)

theorem path_zero : path 0 = [] := rfl

theorem index_zero : isIndex 0 = some true := by decide

theorem step_spec {max : Nat} {all : List Bool} {s : HS} (h : Inv max all s) :
    (∃ s', step max s = .next s' ∧ Inv max all s' ∧ meas s' < meas s) ∨ (∃ s', step max s = .stop s' ∧ Done max all s') := by
  obtain ⟨r1, r2, r3⟩ := refill_spec s.inp s.valIn s.bitsIn h.reg
  have hbits := h.bits
  have hones := h.ones
  have hroom := h.room
  unfold step
  dsimp only
  generalize hr : refill s.valIn s.bitsIn s.inp = r at r1 r2 r3
  obtain ⟨v, n, inp⟩ := r
  dsimp only at r1 r2 r3 ⊢
  have hleft : left s = regBits v n ++ hfByteBits inp := r2.symm
  rcases loc_some h.lt with hi | hi
  · obtain ⟨d, hd, h1, h2, h3, h4⟩ := loc_index h.lt hi
    rw [hi]
    dsimp only
    by_cases c : n ≤ 0
    · rw [if_pos c]
      have hn : n = 0 := by omega
      have hnil : left s = [] := by rw [hleft, r3 hn, hn]; rfl
      rw [hnil, List.append_nil] at hbits
      exact .inr ⟨_, rfl, .inl ⟨s.index, h.lt, hi, hbits, hones, hroom⟩⟩
    · rw [if_neg c, hd]
      dsimp only
      obtain ⟨g1, g2⟩ := reg_shift r1 (by omega)
      rw [hleft, g2, List.cons_append] at hbits
      have hm : meas s = 2 * (regBits ((v <<< 1) % 2 ^ 64) (n - 1) ++ hfByteBits inp).length + 2 := by
        unfold meas
        rw [hleft, g2, hi, if_neg (by decide), List.cons_append, List.length_cons]; omega
      by_cases cb : v >>> 63 &&& 1 = 1
      · rw [if_pos cb]
        dsimp only
        rw [decide_eq_true cb] at hbits
        rcases h4 with ⟨h4, h5⟩ | ⟨h4, h5⟩
        · rw [if_neg (by omega)]
          refine .inl ⟨_, rfl, ⟨g1, h4, ?_, hroom, ?_⟩, ?_⟩
          · show s.ones = (path (s.index + d)).all id
            rw [h5, hones]; simp
          · show all = hfBits s.out ++ (path (s.index + d) ++ _)
            rw [h5, List.append_assoc]
            exact hbits
          · rw [hm]
            unfold meas left
            dsimp only
            split <;> omega
        · rw [if_pos (by omega)]
          refine .inr ⟨_, rfl, .inr (.inl ⟨regBits ((v <<< 1) % 2 ^ 64) (n - 1) ++ hfByteBits inp, ?_, ?_, hroom⟩)⟩
          · rw [← h5, List.append_assoc]
            exact hbits
          · show s.ones = true
            rw [hones]
            have e : (path s.index ++ [true]).all id = true := by rw [h5]; decide
            simpa using e
      · rw [if_neg cb]
        dsimp only
        rw [decide_eq_false cb] at hbits
        rw [if_neg (by omega)]
        refine .inl ⟨_, rfl, ⟨g1, h1, ?_, hroom, ?_⟩, ?_⟩
        · show false = (path (s.index + 1)).all id
          rw [h2]; simp
        · show all = hfBits s.out ++ (path (s.index + 1) ++ _)
          rw [h2, List.append_assoc]
          exact hbits
        · rw [hm]
          unfold meas left
          dsimp only
          split <;> omega
  · obtain ⟨c, hc, hp⟩ := loc_leaf h.lt hi
    rw [hi]
    dsimp only
    by_cases c2 : s.out.length < max
    · rw [if_pos c2, hc]
      dsimp only
      refine .inl ⟨_, rfl, ⟨r1, by show (0:Nat) < 512; decide, rfl, ?_, ?_⟩, ?_⟩
      · show (s.out ++ [UInt8.ofNat c]).length ≤ max
        rw [List.length_append]; exact c2
      · show all = hfBits (s.out ++ [UInt8.ofNat c]) ++ (path 0 ++ (regBits v n ++ hfByteBits inp))
        rw [path_zero, List.nil_append, ← hleft, hbits, hp]
        unfold hfBits
        rw [List.flatMap_append]
        simp
      · unfold meas
        rw [hi, if_pos rfl]
        show 2 * (regBits v n ++ hfByteBits inp).length + (if isIndex 0 = some false then 1 else 0) < _
        rw [← hleft, index_zero, if_neg (by decide)]; omega
    · rw [if_neg c2]
      refine .inr ⟨_, rfl, .inr (.inr ⟨UInt8.ofNat c, left s, ?_, rfl, by show s.out.length = max; omega⟩)⟩
      rw [← hp]
      exact hbits

theorem loop_spec {max : Nat} {all : List Bool} : ∀ (n : Nat) (s : HS), Inv max all s → meas s < n → ∃ s', loop max n s = some s' ∧ Done max all s' := by
  intro n
  induction n with
  | zero => intro s _ h; omega
  | succ n ih =>
    intro s h hm
    unfold loop
    rcases step_spec h with ⟨s', h1, h2, h3⟩ | ⟨s', h1, h2⟩
    · rw [h1]
      exact ih s' h2 (by omega)
    · rw [h1]
      exact ⟨s', rfl, h2⟩

theorem hfByteBits_length (bs : List UInt8) : (hfByteBits bs).length = 8 * bs.length := by
  induction bs with
  | nil => rfl
  | cons b bs ih =>
    have : hfByteBits (b :: bs) = hfNatBits b.toNat 8 ++ hfByteBits bs := rfl
    rw [this, List.length_append, ih, List.length_cons, hfNatBits_eq, List.length_map, List.length_range]; omega

theorem decode_spec (max : Nat) (bs : List UInt8) : ∃ s, decode max bs = some (s.ones, s.out) ∧ Done max (hfByteBits bs) s := by
  have h0 : Inv max (hfByteBits bs) ⟨0, 0, bs, 0, true, []⟩ :=
    ⟨⟨Nat.zero_le _, by show (0 : Nat) < 2 ^ 64; decide, fun i _ => Nat.zero_testBit i⟩, by show (0 : Nat) < 512; decide, rfl, Nat.zero_le _, rfl⟩
  have hm : meas ⟨0, 0, bs, 0, true, []⟩ < 16 * bs.length + 2 := by
    unfold meas
    rw [show left ⟨0, 0, bs, 0, true, []⟩ = hfByteBits bs from rfl, hfByteBits_length, index_zero, if_neg (by decide)]; omega
  obtain ⟨s, h1, h2⟩ := loop_spec _ _ h0 hm
  refine ⟨s, ?_, h2⟩
  unfold decode
  rw [h1]

/-! ### Unique decoding -/

/-- Bits that lead to the location of an index have no code. -/
theorem first_path {j : Nat} (hj : j < 512) (hi : isIndex j = some true) : first (path j) 0 = none := by
  have h := paths_ok ⟨j, hj⟩
  dsimp only at h
  rw [hi] at h
  cases hf : first (path j) 0 with
  | none => rfl
  | some x => rw [hf] at h; cases h

theorem first_eos (l : List Bool) : first (hfEos ++ l) 0 = none := by
  have key : ∀ (p : List Bool) (i : Nat), first p i = none → (isIndex (p.foldl (fun i b => match huffVal[i]? with
      | some d => if b then i + d else i + 1
      | none => i) i) = none) → first (p ++ l) i = none := by
    intro p
    induction p with
    | nil =>
      intro i _ h2
      rw [List.nil_append]
      rw [List.foldl_nil] at h2
      cases l with
      | nil => unfold first; rw [h2]
      | cons b l => unfold first; rw [h2]
    | cons b p ih =>
      intro i h1 h2
      rw [List.cons_append]
      unfold first at h1 ⊢
      rw [List.foldl_cons] at h2
      split at h1
      · cases h1
      · rename_i d e1 e2
        rw [e2] at h2
        exact ih _ h1 h2
      · rfl
  exact key hfEos 0 (ones_ok ⟨30, by decide⟩) (by decide +kernel)

/-- Bits have one decomposition in codes, if what follows the codes has none. -/
theorem hfBits_inj {r r' : List Bool} (h' : first r' 0 = none) : ∀ (w w' : List UInt8), hfBits w ++ r = hfBits w' ++ r' → ∃ w'', w' = w ++ w'' ∧ r = hfBits w'' ++ r' := by
  intro w
  induction w with
  | nil => intro w' h; exact ⟨w', rfl, h⟩
  | cons c w ih =>
    intro w' h
    have e : hfBits (c :: w) ++ r = hfCode c ++ (hfBits w ++ r) := by
      show (hfCode c ++ hfBits w) ++ r = _
      rw [List.append_assoc]
    have f1 : first (hfBits (c :: w) ++ r) 0 = some (c, hfBits w ++ r) := by rw [e]; exact first_code ..
    cases w' with
    | nil =>
      rw [h] at f1
      rw [show hfBits [] ++ r' = r' from rfl, h'] at f1
      cases f1
    | cons d w' =>
      have f2 : first (hfBits (d :: w') ++ r') 0 = some (d, hfBits w' ++ r') := by
        rw [show hfBits (d :: w') ++ r' = hfCode d ++ (hfBits w' ++ r') from by
          show (hfCode d ++ hfBits w') ++ r' = _
          rw [List.append_assoc]]
        exact first_code ..
      rw [← h, f1] at f2
      have := Option.some.inj f2
      have e1 : c = d := congrArg Prod.fst this
      have e2 : hfBits w ++ r = hfBits w' ++ r' := congrArg Prod.snd this
      obtain ⟨w'', g1, g2⟩ := ih w' e2
      exact ⟨w'', by rw [g1, e1]; rfl, g2⟩

/-! ### Bytes -/

theorem hfByte_bits : ∀ a b c d e f g h : Bool, hfNatBits (hfByte a b c d e f g h).toNat 8 = [a, b, c, d, e, f, g, h] := by decide +kernel

theorem hfPack_bits : ∀ (n : Nat) (l : List Bool), l.length = 8 * n → hfByteBits (hfPack l) = l := by
  intro n
  induction n with
  | zero =>
    intro l h
    rw [List.eq_nil_of_length_eq_zero (by omega : l.length = 0)]; rfl
  | succ n ih =>
    intro l hl
    match l, hl with
    | a :: b :: c :: d :: e :: f :: g :: h :: r, hl =>
      simp only [List.length_cons] at hl
      rw [show hfPack (a :: b :: c :: d :: e :: f :: g :: h :: r) = hfByte a b c d e f g h :: hfPack r from by rw [hfPack]]
      rw [show hfByteBits (hfByte a b c d e f g h :: hfPack r) = hfNatBits (hfByte a b c d e f g h).toNat 8 ++ hfByteBits (hfPack r) from rfl, ih r (by omega), hfByte_bits]
      rfl
    | [], hl | [_], hl | [_, _], hl | [_, _, _], hl | [_, _, _, _], hl | [_, _, _, _, _], hl | [_, _, _, _, _, _], hl | [_, _, _, _, _, _, _], hl =>
      simp only [List.length_cons, List.length_nil] at hl; omega

theorem hfEncode_bits (w : List UInt8) : ∃ k, k < 8 ∧ hfByteBits (hfEncode w) = hfBits w ++ List.replicate k true := by
  refine ⟨(8 - (hfBits w).length % 8) % 8, Nat.mod_lt _ (by decide), ?_⟩
  refine hfPack_bits (((hfBits w).length + (8 - (hfBits w).length % 8) % 8) / 8) _ ?_
  rw [List.length_append, List.length_replicate]
  omega

end Picoquic.Huffman
