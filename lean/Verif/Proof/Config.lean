import Verif.Spec.Config

namespace Picoquic.Config

open Picoquic.Spec

theorem isDigit_iff (c : Char) : c.isDigit = true ↔ 48 ≤ c.toNat ∧ c.toNat ≤ 57 := by
  simp only [Char.isDigit, Bool.and_eq_true, decide_eq_true_eq, ge_iff_le, UInt32.le_iff_toNat_le, Char.toNat]
  exact Iff.rfl

theorem le_value (t : List Char) : ∀ v : Nat, v ≤ Nat.ofDigitChars 10 t v := by
  induction t with
  | nil => intro v; simp
  | cons c t ih =>
    intro v
    rw [Nat.ofDigitChars_cons]
    have := ih (10 * v + (c.toNat - '0'.toNat))
    omega

theorem atoiFrom_value (t : List Char) : ∀ v : Nat, Digits t → Nat.ofDigitChars 10 t v ≤ INT_MAX →
    atoiFrom v t = some (((Nat.ofDigitChars 10 t v : Nat) : Int), true) := by
  induction t with
  | nil => intro v _ _; simp [atoiFrom]
  | cons c t ih =>
    intro v hd hv
    have hc := (isDigit_iff c).mp (hd c (by simp))
    rw [Nat.ofDigitChars_cons] at hv ⊢
    have h0 : '0'.toNat = 48 := by decide
    rw [h0] at hv ⊢
    have hl := le_value t (10 * v + (c.toNat - 48))
    have e : (v : Int) * 10 + ((c.toNat : Int) - 48) = ((10 * v + (c.toNat - 48) : Nat) : Int) := by omega
    unfold atoiFrom
    simp only
    rw [if_neg (by omega), if_neg (by rw [e]; omega), e]
    exact ih _ (fun x hx => hd x (by simp [hx])) hv

theorem atoiFrom_over (t : List Char) : ∀ v : Nat, Digits t → v ≤ INT_MAX → INT_MAX < Nat.ofDigitChars 10 t v →
    atoiFrom v t = none := by
  induction t with
  | nil => intro v _ h1 h2; simp at h2; omega
  | cons c t ih =>
    intro v hd h1 hv
    have hc := (isDigit_iff c).mp (hd c (by simp))
    rw [Nat.ofDigitChars_cons] at hv
    have h0 : '0'.toNat = 48 := by decide
    rw [h0] at hv
    have e : (v : Int) * 10 + ((c.toNat : Int) - 48) = ((10 * v + (c.toNat - 48) : Nat) : Int) := by omega
    unfold atoiFrom
    simp only
    rw [if_neg (by omega)]
    split
    · rfl
    · rename_i h
      rw [e] at h ⊢
      exact ih _ (fun x hx => hd x (by simp [hx])) (by omega) hv

theorem atoiFrom_bad (t : List Char) (x : Char) (u : List Char) (hx : x.isDigit = false) : ∀ v : Nat, Digits t →
    Nat.ofDigitChars 10 t v ≤ INT_MAX → atoiFrom v (t ++ x :: u) = some (-1, false) := by
  induction t with
  | nil =>
    intro v _ _
    have hc := isDigit_iff x
    rw [hx] at hc
    simp only [List.nil_append, atoiFrom]
    rw [if_pos (by simp at hc; omega)]
  | cons c t ih =>
    intro v hd hv
    have hc := (isDigit_iff c).mp (hd c (by simp))
    rw [Nat.ofDigitChars_cons] at hv
    have h0 : '0'.toNat = 48 := by decide
    rw [h0] at hv
    have hl := le_value t (10 * v + (c.toNat - 48))
    have e : (v : Int) * 10 + ((c.toNat : Int) - 48) = ((10 * v + (c.toNat - 48) : Nat) : Int) := by omega
    rw [List.cons_append]
    unfold atoiFrom
    simp only
    rw [if_neg (by omega), if_neg (by rw [e]; omega), e]
    exact ih _ (fun x hx => hd x (by simp [hx])) hv

/-- A number is a number of the option, or its value is refused. -/
theorem setOption_number {c : Conf} {o : Opt} {lo hi : Nat} (hk : kindOf o = .number lo hi) (ho : o ≠ .serverPort)
    {p : Option (List Char)} {n : Nat} (h : atoi p = some ((n : Int), true)) (hn : n ≤ INT_MAX) :
    ∃ c' ok, setOption c o p = some (c', ok) ∧ (ok = true ↔ lo ≤ n ∧ n ≤ hi) ∧
    (ok = true → c'.num o = storedAs o n) ∧ SameBut o c c' := by
  unfold INT_MAX at hn
  cases o <;> simp only [kindOf, OptionKind.number.injEq, reduceCtorEq] at hk <;>
    first
    | exact absurd rfl ho
    | (obtain ⟨rfl, rfl⟩ := hk
       simp only [setOption, storeNum, checkNum, h]
       try split
       all_goals
         refine ⟨_, _, rfl, ?_, ?_, ?_⟩
         · simp [INT_MAX] at *; try omega
         · simp [Conf.setNum, storedAs] at *
           try (split <;> omega)
         · simp +contextual [SameBut, Conf.setNum])

theorem atoi_some (t : List Char) : atoi (some t) = atoiFrom 0 t := rfl

theorem setOption_over {c : Conf} {o : Opt} {lo hi : Nat} (hk : kindOf o = .number lo hi)
    {p : Option (List Char)} (h : atoi p = none) : setOption c o p = none := by
  cases o <;> simp only [kindOf, reduceCtorEq] at hk <;> simp [setOption, storeNum, checkNum, h]

theorem setOption_bad {c : Conf} {o : Opt} {lo hi : Nat} (hk : kindOf o = .number lo hi)
    {p : Option (List Char)} {v : Int} (h : atoi p = some (v, false)) :
    ∃ c', setOption c o p = some (c', false) ∧ SameBut o c c' := by
  cases o <;> simp only [kindOf, reduceCtorEq] at hk <;>
    simp [setOption, storeNum, checkNum, h, SameBut, Conf.setNum] <;> try simp +contextual

theorem toNat_le_of_le {x y : Char} : x ≤ y ↔ x.toNat ≤ y.toNat := by
  rw [Char.le_def, UInt32.le_iff_toNat_le]; rfl

theorem parseHexaDigit_some {x : Char} (h : HexLetter x) : ∃ d, parseHexaDigit x = some d := by
  unfold parseHexaDigit
  simp only [toNat_le_of_le]
  unfold HexLetter at h
  have h0 : '0'.toNat = 48 := by decide
  have h1 : '9'.toNat = 57 := by decide
  have h2 : 'A'.toNat = 65 := by decide
  have h3 : 'F'.toNat = 70 := by decide
  have h4 : 'a'.toNat = 97 := by decide
  have h5 : 'f'.toNat = 102 := by decide
  rw [h0, h1, h2, h3, h4, h5]
  split
  · exact ⟨_, rfl⟩
  · split
    · exact ⟨_, rfl⟩
    · split
      · exact ⟨_, rfl⟩
      · omega

theorem parseHexaDigit_none {x : Char} (h : ¬ HexLetter x) : parseHexaDigit x = none := by
  unfold parseHexaDigit
  simp only [toNat_le_of_le]
  unfold HexLetter at h
  have h0 : '0'.toNat = 48 := by decide
  have h1 : '9'.toNat = 57 := by decide
  have h2 : 'A'.toNat = 65 := by decide
  have h3 : 'F'.toNat = 70 := by decide
  have h4 : 'a'.toNat = 97 := by decide
  have h5 : 'f'.toNat = 102 := by decide
  rw [h0, h1, h2, h3, h4, h5]
  rw [if_neg (by omega), if_neg (by omega), if_neg (by omega)]

theorem parseHexaDigit_digitChar {d : Nat} (h : d < 16) : parseHexaDigit (Nat.digitChar d) = some d := by
  have : ∀ i : Fin 16, parseHexaDigit (Nat.digitChar i.val) = some i.val := by decide
  exact this ⟨d, h⟩

/-- The digits are read one after the other. -/
theorem versionFrom_append (t u : List Char) : ∀ v : Nat, (∀ x ∈ t, ∃ d, parseHexaDigit x = some d) →
    versionFrom v (t ++ u) = versionFrom (versionFrom v t) u := by
  induction t with
  | nil => intro v _; simp [versionFrom]
  | cons x t ih =>
    intro v h
    obtain ⟨d, hd⟩ := h x (by simp)
    simp only [List.cons_append, versionFrom, hd]
    exact ih _ (fun y hy => h y (by simp [hy]))

theorem toDigits_hex (n : Nat) : ∀ x ∈ Nat.toDigits 16 n, ∃ d, parseHexaDigit x = some d := by
  induction n using Nat.strongRecOn with
  | ind n ih =>
    intro x hx
    rw [Nat.toDigits_eq_if (by omega)] at hx
    split at hx
    · rename_i hn
      simp at hx
      exact ⟨n, by rw [hx]; exact parseHexaDigit_digitChar hn⟩
    · simp at hx
      rcases hx with hx | hx
      · exact ih (n / 16) (by omega) x hx
      · exact ⟨n % 16, by rw [hx]; exact parseHexaDigit_digitChar (by omega)⟩

theorem parseVersion_toDigits (n : Nat) : parseVersion (Nat.toDigits 16 n) = n % 2 ^ 32 := by
  unfold parseVersion
  induction n using Nat.strongRecOn with
  | ind n ih =>
    rw [Nat.toDigits_eq_if (by omega)]
    split
    · rename_i hn
      simp only [versionFrom, parseHexaDigit_digitChar hn]
      omega
    · rename_i hn
      rw [versionFrom_append _ _ _ (toDigits_hex _), ih (n / 16) (by omega)]
      simp only [versionFrom, parseHexaDigit_digitChar (show n % 16 < 16 by omega)]
      omega

theorem versionFrom_bad (t : List Char) (x : Char) (hx : ¬ HexLetter x) (hm : x ∈ t) : ∀ v : Nat,
    versionFrom v t = 0 := by
  induction t with
  | nil => simp at hm
  | cons y t ih =>
    intro v
    unfold versionFrom
    split
    · rename_i d hd
      rcases List.mem_cons.mp hm with rfl | hm
      · rw [parseHexaDigit_none hx] at hd; simp at hd
      · exact ih hm _
    · rfl

theorem hexaLoop_text (b : Bytes) : parseHexaLoop (hexText b) = some b := by
  induction b with
  | nil => rfl
  | cons x b ih =>
    have hx : x.toNat < 256 := x.toNat_lt
    simp only [hexText, List.flatMap_cons, List.cons_append, List.nil_append, parseHexaLoop,
      parseHexaDigit_digitChar (show x.toNat / 16 < 16 by omega),
      parseHexaDigit_digitChar (show x.toNat % 16 < 16 by omega)]
    unfold hexText at ih
    rw [ih]
    simp only [Option.some.injEq, List.cons.injEq, and_true]
    have : ((x.toNat / 16) <<< 4) ||| (x.toNat % 16) = x.toNat := by
      rw [← Nat.shiftLeft_add_eq_or_of_lt (by omega : x.toNat % 16 < 2 ^ 4)]
      rw [Nat.shiftLeft_eq]
      omega
    rw [this]
    simp [u8]

theorem hexaWritten_text (b : Bytes) : hexaWritten (hexText b) = b := by
  induction b with
  | nil => rfl
  | cons x b ih =>
    have hx : x.toNat < 256 := x.toNat_lt
    simp only [hexText, List.flatMap_cons, List.cons_append, List.nil_append, hexaWritten,
      parseHexaDigit_digitChar (show x.toNat / 16 < 16 by omega),
      parseHexaDigit_digitChar (show x.toNat % 16 < 16 by omega)]
    unfold hexText at ih
    rw [ih]
    have : x.toNat / 16 * 16 + x.toNat % 16 = x.toNat := by omega
    rw [this]
    simp

theorem hexText_length (b : Bytes) : (hexText b).length = 2 * b.length := by
  induction b with
  | nil => rfl
  | cons x b ih => simp only [hexText, List.flatMap_cons, List.length_append, List.length_cons, List.length_nil] at *; omega

theorem hexaLoop_length {n : Nat} : ∀ {t : List Char}, t.length ≤ n → ∀ {b : Bytes}, parseHexaLoop t = some b →
    t.length = 2 * b.length ∧ ∀ x ∈ t, HexLetter x := by
  induction n with
  | zero =>
    intro t ht b h
    have : t = [] := List.length_eq_zero_iff.mp (by omega)
    subst this
    simp [parseHexaLoop] at h
    subst h
    simp
  | succ n ih =>
    intro t ht b h
    match t, ht, h with
    | [], _, h => simp [parseHexaLoop] at h; subst h; simp
    | [_], _, h => simp [parseHexaLoop] at h
    | x :: y :: rest, ht, h =>
      simp only [parseHexaLoop] at h
      split at h
      · rename_i a b' hx hy
        split at h
        · rename_i out ho
          simp only [Option.some.injEq] at h
          subst h
          have := ih (by simp at ht; omega) ho
          refine ⟨by simp; omega, ?_⟩
          intro z hz
          rcases List.mem_cons.mp hz with rfl | hz
          · exact Classical.byContradiction fun hn => by
              have : ¬ HexLetter z := hn
              rw [parseHexaDigit_none this] at hx; simp at hx
          · rcases List.mem_cons.mp hz with rfl | hz
            · exact Classical.byContradiction fun hn => by
                have : ¬ HexLetter z := hn
                rw [parseHexaDigit_none this] at hy; simp at hy
            · exact this.2 z hz
        · simp at h
      · simp at h

/-- An option changes only what is its own. -/
theorem setOption_same {c c' : Conf} {o : Opt} {p : Option (List Char)} {ok : Bool}
    (h : setOption c o p = some (c', ok)) : SameBut o c c' := by
  cases o <;> simp only [setOption, storeNum, checkNum, setVersion, setSeed] at h <;>
    (try unfold setString at h) <;> (try split at h) <;> (try split at h) <;>
    simp at h <;> (try (obtain ⟨rfl, _⟩ := h)) <;>
    simp +contextual [SameBut, Conf.setNum, Conf.setText, Conf.setFlag]

end Picoquic.Config
