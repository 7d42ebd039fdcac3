import Verif.Spec.LoadBalancer
import Verif.Proof.Fixed
import Verif.Proof.LoadBalancer
/-! The text of a configuration for load balancers. -/

namespace Picoquic.LoadBalancer

open Spec

theorem hexDigit_iff (x : Char) (h : Nat) : (x, h) ∈ hexDigits ↔ parseHexaDigit x = some h := by
  constructor
  · intro hm
    simp only [hexDigits, List.mem_cons, Prod.mk.injEq, List.not_mem_nil, or_false] at hm
    rcases hm with h | h | h | h | h | h | h | h | h | h | h | h | h | h | h | h | h | h | h | h | h | h <;>
      (obtain ⟨rfl, rfl⟩ := h; decide)
  · intro hp
    unfold parseHexaDigit at hp
    have hx : ∀ n, x.toNat = n → x = Char.ofNat n := fun n hn => by rw [← hn, Char.ofNat_toNat]
    have le : ∀ a b : Char, a ≤ b ↔ a.toNat ≤ b.toNat := fun a b => Iff.rfl
    simp only [le] at hp
    by_cases h1 : '0'.toNat ≤ x.toNat ∧ x.toNat ≤ '9'.toNat
    · rw [if_pos h1] at hp
      cases hp
      obtain ⟨a, b⟩ := h1
      simp only [Char.reduceToNat] at a b ⊢
      have : x.toNat = 48 ∨ x.toNat = 49 ∨ x.toNat = 50 ∨ x.toNat = 51 ∨ x.toNat = 52 ∨ x.toNat = 53 ∨ x.toNat = 54 ∨
        x.toNat = 55 ∨ x.toNat = 56 ∨ x.toNat = 57 := by omega
      rcases this with h | h | h | h | h | h | h | h | h | h <;> (rw [hx _ h]; decide)
    rw [if_neg h1] at hp
    by_cases h2 : 'A'.toNat ≤ x.toNat ∧ x.toNat ≤ 'F'.toNat
    · rw [if_pos h2] at hp
      cases hp
      obtain ⟨a, b⟩ := h2
      simp only [Char.reduceToNat] at a b ⊢
      have : x.toNat = 65 ∨ x.toNat = 66 ∨ x.toNat = 67 ∨ x.toNat = 68 ∨ x.toNat = 69 ∨ x.toNat = 70 := by omega
      rcases this with h | h | h | h | h | h <;> (rw [hx _ h]; decide)
    rw [if_neg h2] at hp
    by_cases h3 : 'a'.toNat ≤ x.toNat ∧ x.toNat ≤ 'f'.toNat
    · rw [if_pos h3] at hp
      cases hp
      obtain ⟨a, b⟩ := h3
      simp only [Char.reduceToNat] at a b ⊢
      have : x.toNat = 97 ∨ x.toNat = 98 ∨ x.toNat = 99 ∨ x.toNat = 100 ∨ x.toNat = 101 ∨ x.toNat = 102 := by omega
      rcases this with h | h | h | h | h | h <;> (rw [hx _ h]; decide)
    rw [if_neg h3] at hp; cases hp

theorem digit_lt {x : Char} {h : Nat} (hm : (x, h) ∈ hexDigits) : h < 16 := by
  simp only [hexDigits, List.mem_cons, Prod.mk.injEq, List.not_mem_nil, or_false] at hm
  omega

theorem joinDigits {h l : Nat} (hh : h < 16) (hl : l < 16) : (u8 ((h <<< 4) ||| l)).toNat = 16 * h + l := by
  have : (h <<< 4) ||| l = 16 * h + l := by
    rw [Nat.shiftLeft_eq, Nat.mul_comm]
    exact (Nat.two_pow_add_eq_or_of_lt (i := 4) hl h).symm
  rw [this]
  simp [u8]; omega

theorem parseHexaLoop_iff : ∀ (cs : List Char) (bs : Bytes), parseHexaLoop cs = some bs ↔ IsHex cs bs
  | [], bs => by simp [parseHexaLoop, IsHex, eq_comm]
  | [_], bs => by simp [parseHexaLoop, IsHex]
  | x :: y :: cs, bs => by
    have ih := parseHexaLoop_iff cs
    simp only [parseHexaLoop, IsHex]
    constructor
    · intro h
      cases hx : parseHexaDigit x with
      | none => rw [hx] at h; cases h
      | some a =>
        cases hy : parseHexaDigit y with
        | none => rw [hx, hy] at h; cases h
        | some b =>
          cases hr : parseHexaLoop cs with
          | none => rw [hx, hy, hr] at h; cases h
          | some out =>
            rw [hx, hy, hr] at h
            cases h
            have ha := (hexDigit_iff x a).2 hx
            have hb := (hexDigit_iff y b).2 hy
            exact ⟨a, b, _, out, rfl, ha, hb, joinDigits (digit_lt ha) (digit_lt hb), (ih out).1 hr⟩
    · rintro ⟨a, b, v, bs', rfl, ha, hb, hv, hr⟩
      rw [(hexDigit_iff x a).1 ha, (hexDigit_iff y b).1 hb, (ih bs').2 hr]
      have : u8 ((a <<< 4) ||| b) = v := by
        apply UInt8.toNat_inj.1
        rw [joinDigits (digit_lt ha) (digit_lt hb), hv]
      dsimp only
      rw [this]

theorem parseHexa_iff (cs : List Char) (m : Nat) (bs : Bytes) (hne : bs ≠ []) :
    parseHexa cs m = bs ↔ IsHex cs bs ∧ bs.length ≤ m := by
  have hand : ∀ n : Nat, n &&& 1 = n % 2 := fun n => Nat.and_one_is_mod n
  unfold parseHexa
  constructor
  · intro h
    by_cases hc : cs.length > 0 ∧ cs.length &&& 1 = 0 ∧ 2 * m ≥ cs.length
    · rw [if_pos hc] at h
      cases hp : parseHexaLoop cs with
      | none => rw [hp] at h; exact absurd h.symm hne
      | some out =>
        rw [hp] at h
        have h : out = bs := h
        subst h
        have := parseHexaLoop_length hp
        exact ⟨(parseHexaLoop_iff _ _).1 hp, by omega⟩
    · rw [if_neg hc] at h; exact absurd h.symm hne
  · rintro ⟨h, hl⟩
    have hp := (parseHexaLoop_iff _ _).2 h
    have := parseHexaLoop_length hp
    have hpos : 0 < bs.length := List.length_pos_iff.2 hne
    rw [if_pos ⟨by omega, by rw [hand]; omega, by omega⟩, hp]
    rfl

theorem isHex_no_hyphen : ∀ (cs : List Char) (bs : Bytes), IsHex cs bs → ∀ c ∈ cs, (c ≠ '-') := by
  intro cs bs h c hc heq
  subst heq
  exact parseHexaLoop_digits ((parseHexaLoop_iff cs bs).2 h) '-' hc (by decide)

theorem isHex_length {cs : List Char} {bs : Bytes} (h : IsHex cs bs) : cs.length = 2 * bs.length :=
  parseHexaLoop_length ((parseHexaLoop_iff cs bs).2 h)

/-- The value of digits after a number. -/
def valueFrom (v : Nat) (cs : List Char) : Nat := cs.foldl (fun v c => v * 10 + (c.toNat - '0'.toNat)) v

theorem valueFrom_ge (v : Nat) (cs : List Char) : v ≤ valueFrom v cs := by
  induction cs generalizing v with
  | nil => exact Nat.le_refl _
  | cons c cs ih =>
    have := ih (v * 10 + (c.toNat - '0'.toNat))
    have e : valueFrom v (c :: cs) = valueFrom (v * 10 + (c.toNat - '0'.toNat)) cs := rfl
    rw [e]; omega

/-- The text does not start with a digit. -/
def NoDigit : List Char → Prop
  | [] => True
  | c :: _ => ¬('0' ≤ c ∧ c ≤ '9')

theorem readNumber_iff (v : Nat) (hv : v < 256) (cs rest : List Char) (n : Nat) :
    readNumber v cs = some (n, rest) ↔
      ∃ ds, cs = ds ++ rest ∧ AllDigits ds ∧ valueFrom v ds = n ∧ n < 256 ∧ NoDigit rest := by
  induction cs generalizing v with
  | nil =>
    simp only [readNumber]
    constructor
    · intro h
      cases h
      exact ⟨[], rfl, fun c hc => by simp at hc, rfl, hv, trivial⟩
    · rintro ⟨ds, h, _, hval, _, _⟩
      obtain ⟨h1, h2⟩ := List.append_eq_nil_iff.1 h.symm
      subst h1; subst h2
      rw [← hval]; rfl
  | cons c cs ih =>
    simp only [readNumber]
    by_cases hd : '0' ≤ c ∧ c ≤ '9'
    · rw [if_pos hd]
      by_cases hlt : v * 10 + (c.toNat - '0'.toNat) < 256
      · rw [if_pos hlt, ih _ hlt]
        constructor
        · rintro ⟨ds, rfl, h1, h2, h3, h4⟩
          refine ⟨c :: ds, rfl, ?_, h2, h3, h4⟩
          intro x hx
          rcases List.mem_cons.1 hx with rfl | hx
          · exact hd
          · exact h1 x hx
        · rintro ⟨ds, h, h1, h2, h3, h4⟩
          cases ds with
          | nil =>
            rw [List.nil_append] at h
            subst h
            exact absurd hd h4
          | cons d ds =>
            simp only [List.cons_append, List.cons.injEq] at h
            obtain ⟨rfl, rfl⟩ := h
            exact ⟨ds, rfl, fun x hx => h1 x (List.mem_cons_of_mem _ hx), h2, h3, h4⟩
      · rw [if_neg hlt]
        constructor
        · intro h; cases h
        · rintro ⟨ds, h, h1, h2, h3, h4⟩
          cases ds with
          | nil =>
            rw [List.nil_append] at h
            subst h
            exact absurd hd h4
          | cons d ds =>
            simp only [List.cons_append, List.cons.injEq] at h
            obtain ⟨rfl, rfl⟩ := h
            have := valueFrom_ge (v * 10 + (c.toNat - '0'.toNat)) ds
            have e : valueFrom v (c :: ds) = valueFrom (v * 10 + (c.toNat - '0'.toNat)) ds := rfl
            omega
    · rw [if_neg hd]
      constructor
      · intro h
        cases h
        exact ⟨[], rfl, fun c hc => by simp at hc, rfl, hv, hd⟩
      · rintro ⟨ds, h, h1, h2, h3, h4⟩
        cases ds with
        | nil =>
          rw [List.nil_append] at h
          subst h
          rw [← h2]; rfl
        | cons d ds =>
          simp only [List.cons_append, List.cons.injEq] at h
          obtain ⟨rfl, rfl⟩ := h
          exact absurd (h1 c (by simp)) hd

theorem readNumber_zero_iff (cs rest : List Char) (n : Nat) :
    readNumber 0 cs = some (n, rest) ↔ ∃ ds, cs = ds ++ rest ∧ IsNumber ds n ∧ NoDigit rest := by
  rw [readNumber_iff 0 (by decide)]
  constructor
  · rintro ⟨ds, h1, h2, h3, h4, h5⟩
    exact ⟨ds, h1, ⟨h2, h3, h4⟩, h5⟩
  · rintro ⟨ds, h1, ⟨h2, h3, h4⟩, h5⟩
    exact ⟨ds, h1, h2, h3, h4, h5⟩

theorem readHyphen_iff (cs rest : List Char) : readHyphen cs = some rest ↔ cs = '-' :: rest := by
  constructor
  · intro h
    unfold readHyphen at h
    split at h
    · cases h; rfl
    · cases h
  · rintro rfl; rfl

/-- The method is read, up to what follows. -/
theorem readMethod_iff (cs rest : List Char) (m : Method) (nonce : Nat) (hrest : NoDigit rest) :
    readMethod cs = some (m, nonce, rest) ↔ ∃ x, cs = x ++ rest ∧ IsMethod x m nonce := by
  unfold readMethod
  constructor
  · intro h
    cases cs with
    | nil => cases h
    | cons c cs =>
      dsimp only at h
      by_cases h1 : c = 'c' ∨ c = 'C'
      · rw [if_pos h1] at h
        cases h
        refine ⟨[c], rfl, ?_⟩
        rcases h1 with rfl | rfl <;> simp [IsMethod]
      rw [if_neg h1] at h
      by_cases h2 : c = 's' ∨ c = 'S'
      · rw [if_pos h2] at h
        cases hr : readNumber 0 cs with
        | none => rw [hr] at h; cases h
        | some p =>
          obtain ⟨n, cs'⟩ := p
          rw [hr] at h
          cases h
          obtain ⟨ds, rfl, hn, _⟩ := (readNumber_zero_iff _ _ _).1 hr
          exact ⟨c :: ds, rfl, c, ds, h2, rfl, hn⟩
      rw [if_neg h2] at h
      by_cases h3 : c = 'b' ∨ c = 'B'
      · rw [if_pos h3] at h
        cases h
        refine ⟨[c], rfl, ?_⟩
        rcases h3 with rfl | rfl <;> simp [IsMethod]
      rw [if_neg h3] at h; cases h
  · rintro ⟨x, rfl, hx⟩
    cases m with
    | clear =>
      obtain ⟨hx, rfl⟩ := hx
      rcases hx with rfl | rfl <;> simp
    | block =>
      obtain ⟨hx, rfl⟩ := hx
      rcases hx with rfl | rfl <;> simp
    | stream =>
      obtain ⟨c, ds, hc, rfl, hn⟩ := hx
      have hr := (readNumber_zero_iff (ds ++ rest) rest nonce).2 ⟨ds, rfl, hn, hrest⟩
      simp only [List.cons_append]
      rw [if_neg (by rcases hc with rfl | rfl <;> decide), if_pos hc, hr]

theorem isMethod_head {x : List Char} {m : Method} {nonce : Nat} (h : IsMethod x m nonce) (rest : List Char) :
    NoDigit (x ++ rest) := by
  cases m with
  | clear => obtain ⟨h | h, _⟩ := h <;> (subst h; simp only [List.cons_append, NoDigit]; decide)
  | block => obtain ⟨h | h, _⟩ := h <;> (subst h; simp only [List.cons_append, NoDigit]; decide)
  | stream =>
    obtain ⟨c, ds, hc, rfl, _⟩ := h
    rcases hc with rfl | rfl <;> (simp only [List.cons_append, NoDigit]; decide)

theorem readKey_iff (m : Method) (cs rest : List Char) (key : Bytes) (hr : rest = []) :
    readKey m cs = some (key, rest) ↔ IsKey cs m key := by
  subst hr
  have hkey : ∀ cs : List Char, (match readHyphen cs with
      | none => none
      | some cs =>
        if cs.length < 32 then none
        else
          let key := parseHexa cs 16
          if key.length ≠ 16 then none else some (key, cs.drop 32)) = some (key, []) ↔
      ∃ ds, cs = '-' :: ds ∧ IsHex ds key ∧ key.length = 16 := by
    intro cs
    constructor
    · intro h
      cases hh : readHyphen cs with
      | none => rw [hh] at h; cases h
      | some ds =>
        rw [hh] at h
        dsimp only at h
        by_cases h1 : ds.length < 32
        · rw [if_pos h1] at h; cases h
        rw [if_neg h1] at h
        by_cases h2 : (parseHexa ds 16).length ≠ 16
        · rw [if_pos h2] at h; cases h
        rw [if_neg h2] at h
        simp only [Option.some.injEq, Prod.mk.injEq] at h
        obtain ⟨h3, h4⟩ := h
        have h2 : (parseHexa ds 16).length = 16 := by omega
        rw [h3] at h2
        have hne : key ≠ [] := by intro h; rw [h] at h2; simp at h2
        exact ⟨ds, (readHyphen_iff _ _).1 hh, ((parseHexa_iff ds 16 key hne).1 h3).1, h2⟩
    · rintro ⟨ds, rfl, h1, h2⟩
      have hl := isHex_length h1
      have hne : key ≠ [] := by intro h; rw [h] at h2; simp at h2
      have hp := (parseHexa_iff ds 16 key hne).2 ⟨h1, by omega⟩
      rw [(readHyphen_iff ('-' :: ds) ds).2 rfl]
      dsimp only
      rw [if_neg (by omega), hp, if_neg (by omega), List.drop_eq_nil_of_le (by omega)]
  cases m with
  | clear =>
    simp only [readKey, IsKey, Option.some.injEq, Prod.mk.injEq]
    constructor
    · rintro ⟨h1, h2⟩; exact ⟨h2, h1.symm⟩
    · rintro ⟨h1, h2⟩; exact ⟨h2.symm, h1⟩
  | stream => exact hkey cs
  | block => exact hkey cs

theorem join64_eq (bs : Bytes) (v : Nat) (k : Nat) (hv : v < 256 ^ k) (hk : k + bs.length ≤ 8) :
    join64 v bs = v * 256 ^ bs.length + bigEndian bs := by
  induction bs generalizing v k with
  | nil => simp [join64, bigEndian]
  | cons b bs ih =>
    simp only [List.length_cons] at hk
    have hb := b.toNat_lt
    have h8 : 256 ^ k * 256 ≤ 2 ^ 64 := by
      have : 256 ^ k * 256 = 256 ^ (k + 1) := (Nat.pow_succ ..).symm
      rw [this]
      exact Nat.le_trans (Nat.pow_le_pow_right (by decide) (show k + 1 ≤ 8 by omega)) (by decide)
    have e : u64 (v <<< 8) ||| b.toNat = v * 256 + b.toNat := by
      have h1 : u64 (v <<< 8) = v <<< 8 := by
        unfold u64
        rw [Nat.shiftLeft_eq]
        apply Nat.mod_eq_of_lt
        omega
      rw [h1, Nat.shiftLeft_eq, Nat.mul_comm v]
      have := (Nat.two_pow_add_eq_or_of_lt (i := 8) (b := b.toNat) hb v).symm
      rw [this]
    rw [join64, e, ih (v * 256 + b.toNat) (k + 1) (by rw [Nat.pow_succ]; omega) (by omega)]
    simp only [List.length_cons, bigEndian]
    rw [Nat.pow_succ, Nat.add_mul, Nat.mul_comm (256 ^ bs.length) 256, ← Nat.mul_assoc]
    omega

theorem takeWhile_hex {sid key : List Char} {bs : Bytes} (h : IsHex sid bs) (hk : key = [] ∨ ∃ ds, key = '-' :: ds) :
    (sid ++ key).takeWhile (fun c => decide (c ≠ '-')) = sid := by
  have hn := isHex_no_hyphen sid bs h
  rw [List.takeWhile_append_of_pos (by intro c hc; exact decide_eq_true (hn c hc))]
  rcases hk with rfl | ⟨ds, rfl⟩
  · simp
  · simp

theorem isKey_form {m : Method} {cs : List Char} {key : Bytes} (h : IsKey cs m key) :
    cs = [] ∨ ∃ ds, cs = '-' :: ds := by
  cases m with
  | clear => exact .inl h.1
  | stream => obtain ⟨ds, h, _⟩ := h; exact .inr ⟨ds, h⟩
  | block => obtain ⟨ds, h, _⟩ := h; exact .inr ⟨ds, h⟩

theorem lengthFits_iff (c : Config) : lengthFits c = true ↔
    (c.cidLength ≠ 0 → 1 + c.serverIdLength + c.nonceLength ≤ c.cidLength ∧ (c.method = .block → 17 ≤ c.cidLength)) := by
  unfold lengthFits
  by_cases h : c.cidLength ≠ 0
  · rw [if_pos h]
    simp only [Bool.not_eq_true', Bool.or_eq_false_iff, Bool.and_eq_false_iff, decide_eq_false_iff_not]
    constructor
    · rintro ⟨h1, h2⟩ _
      exact ⟨by omega, fun hm => by rcases h2 with h2 | h2; exact absurd hm h2; omega⟩
    · intro h1
      obtain ⟨h1, h2⟩ := h1 h
      refine ⟨by omega, ?_⟩
      by_cases hm : c.method = .block
      · right; have := h2 hm; omega
      · left; exact hm
  · rw [if_neg h]
    simp [show c.cidLength = 0 by omega]

theorem rotation_iff (r : Char) (k : Nat) : (r, k) ∈ [('0', 0), ('1', 1), ('2', 2), ('3', 3)] ↔
    ('0' ≤ r ∧ r ≤ '3') ∧ r.toNat - '0'.toNat = k := by
  constructor
  · intro hm
    simp only [List.mem_cons, Prod.mk.injEq, List.not_mem_nil, or_false] at hm
    rcases hm with h | h | h | h <;> (obtain ⟨rfl, rfl⟩ := h; decide)
  · rintro ⟨⟨a, b⟩, rfl⟩
    have hx : ∀ n, r.toNat = n → r = Char.ofNat n := fun n hn => by rw [← hn, Char.ofNat_toNat]
    have a : '0'.toNat ≤ r.toNat := a
    have b : r.toNat ≤ '3'.toNat := b
    simp only [Char.reduceToNat] at a b ⊢
    have : r.toNat = 48 ∨ r.toNat = 49 ∨ r.toNat = 50 ∨ r.toNat = 51 := by omega
    rcases this with h | h | h | h <;> (rw [hx _ h]; decide)

theorem yes_iff (y : Char) (k : Bool) : (y, k) ∈ [('Y', true), ('y', true), ('N', false), ('n', false)] ↔
    (y = 'Y' ∨ y = 'y' ∨ y = 'N' ∨ y = 'n') ∧ (decide (y = 'Y') || decide (y = 'y')) = k := by
  constructor
  · intro hm
    simp only [List.mem_cons, Prod.mk.injEq, List.not_mem_nil, or_false] at hm
    rcases hm with h | h | h | h <;> (obtain ⟨rfl, rfl⟩ := h; decide)
  · rintro ⟨h, rfl⟩
    rcases h with rfl | rfl | rfl | rfl <;> decide

theorem parse_iff (txt : List Char) (c : Config) : parse txt = some c ↔ IsText txt c := by
  unfold parse
  constructor
  · intro h
    by_cases hl : txt.length < 4
    · rw [if_pos hl] at h; cases h
    rw [if_neg hl] at h
    match txt, h with
    | [], h => cases h
    | [_], h => cases h
    | r :: y :: cs, h =>
      dsimp only at h
      by_cases h1 : ¬('0' ≤ r ∧ r ≤ '3')
      · rw [if_pos h1] at h; cases h
      rw [if_neg h1] at h
      by_cases h2 : ¬(y = 'Y' ∨ y = 'y' ∨ y = 'N' ∨ y = 'n')
      · rw [if_pos h2] at h; cases h
      rw [if_neg h2] at h
      cases h3 : readNumber 0 cs with
      | none => rw [h3] at h; cases h
      | some p =>
      obtain ⟨len, cs1⟩ := p
      rw [h3] at h
      dsimp only at h
      cases h4 : readMethod cs1 with
      | none => rw [h4] at h; cases h
      | some p =>
      obtain ⟨m, nonce, cs2⟩ := p
      rw [h4] at h
      dsimp only at h
      cases h5 : readHyphen cs2 with
      | none => rw [h5] at h; cases h
      | some cs3 =>
      rw [h5] at h
      dsimp only at h
      by_cases h6 : cs3 = []
      · rw [if_pos h6] at h; cases h
      rw [if_neg h6] at h
      by_cases h7 : (parseHexa (cs3.takeWhile (fun c => decide (c ≠ '-'))) 8).length = 0
      · rw [if_pos h7] at h; cases h
      rw [if_neg h7] at h
      generalize hsid : parseHexa (cs3.takeWhile (fun c => decide (c ≠ '-'))) 8 = bytes at h h7
      have hne : bytes ≠ [] := fun h => h7 (by rw [h]; rfl)
      obtain ⟨hhex, hle⟩ := (parseHexa_iff _ 8 bytes hne).1 hsid
      cases h8 : readKey m (cs3.drop (2 * bytes.length)) with
      | none => rw [h8] at h; cases h
      | some p =>
      obtain ⟨key, cs4⟩ := p
      rw [h8] at h
      dsimp only at h
      by_cases h9 : cs4 ≠ []
      · rw [if_pos h9] at h; cases h
      rw [if_neg h9] at h
      have h9 : cs4 = [] := Classical.byContradiction h9
      by_cases h10 : lengthFits ⟨m, r.toNat - '0'.toNat, decide (y = 'Y') || decide (y = 'y'), bytes.length, nonce, len,
          join64 0 bytes, key⟩ = true
      · rw [if_pos h10] at h
        simp only [Option.some.injEq] at h
        subst h
        have e5 := (readHyphen_iff _ _).1 h5
        subst e5
        obtain ⟨mt, rfl, hm⟩ := (readMethod_iff cs1 ('-' :: cs3) m nonce (show ¬('0' ≤ '-' ∧ '-' ≤ '9') by decide)).1 h4
        obtain ⟨ds, rfl, hnum, _⟩ := (readNumber_zero_iff _ _ _).1 h3
        have hkey := (readKey_iff m _ cs4 key h9).1 h8
        have hdrop : cs3.takeWhile (fun c => decide (c ≠ '-')) ++ cs3.drop (2 * bytes.length) = cs3 := by
          rw [← isHex_length hhex]
          conv => rhs; rw [← List.takeWhile_append_dropWhile (p := fun c => decide (c ≠ '-')) (l := cs3)]
          congr 1
          conv => lhs; arg 2; rw [← List.takeWhile_append_dropWhile (p := fun c => decide (c ≠ '-')) (l := cs3)]
          rw [List.drop_left]
        refine ⟨r, y, ds, mt, cs3.takeWhile (fun c => decide (c ≠ '-')), cs3.drop (2 * bytes.length), bytes, ?_,
          (rotation_iff _ _).2 ⟨Classical.byContradiction h1, rfl⟩, (yes_iff _ _).2 ⟨Classical.byContradiction h2, rfl⟩,
          hnum, hm, hhex, by omega, hle, rfl, ?_, hkey, (lengthFits_iff _).1 h10⟩
        · rw [hdrop]
        · dsimp only
          rw [join64_eq bytes 0 0 (by decide) (by omega), Nat.zero_mul, Nat.zero_add]
      · rw [if_neg h10] at h; cases h
  · rintro ⟨r, y, len, m, sid, key, bytes, rfl, hr, hy, hnum, hm, hhex, h1, h8, hsl, hs, hkey, hfit⟩
    have hsl2 := isHex_length hhex
    rw [if_neg (by simp only [List.length_cons, List.length_append]; omega)]
    dsimp only
    obtain ⟨hr1, hr2⟩ := (rotation_iff _ _).1 hr
    obtain ⟨hy1, hy2⟩ := (yes_iff _ _).1 hy
    have hne : bytes ≠ [] := by intro h; rw [h] at h1; simp at h1
    have e1 := (readNumber_zero_iff (len ++ (m ++ '-' :: (sid ++ key))) (m ++ '-' :: (sid ++ key)) c.cidLength).2
      ⟨len, rfl, hnum, isMethod_head hm _⟩
    have e2 := (readMethod_iff (m ++ '-' :: (sid ++ key)) ('-' :: (sid ++ key)) c.method c.nonceLength
      (show ¬('0' ≤ '-' ∧ '-' ≤ '9') by decide)).2 ⟨m, rfl, hm⟩
    have e3 := (readHyphen_iff ('-' :: (sid ++ key)) (sid ++ key)).2 rfl
    have e4 := takeWhile_hex hhex (isKey_form hkey)
    have e5 := (parseHexa_iff sid 8 bytes hne).2 ⟨hhex, h8⟩
    have e6 := (readKey_iff c.method key [] c.key rfl).2 hkey
    have hnil : sid ++ key ≠ [] := by
      intro h
      have := (List.append_eq_nil_iff.1 h).1
      rw [this] at hsl2; simp at hsl2; omega
    rw [if_neg (fun h => h hr1), if_neg (fun h => h hy1), e1]
    dsimp only
    rw [e2]
    dsimp only
    rw [e3]
    dsimp only
    rw [if_neg hnil, e4, e5, if_neg (by omega), ← hsl2, List.drop_left, e6]
    dsimp only
    rw [if_neg (fun h => h rfl), hr2, hy2, join64_eq bytes 0 0 (by decide) (by omega), Nat.zero_mul, Nat.zero_add,
      ← hsl, ← hs]
    exact if_pos ((lengthFits_iff _).2 hfit)

end Picoquic.LoadBalancer
