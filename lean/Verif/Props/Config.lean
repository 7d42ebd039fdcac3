import Verif.Spec.Config
import Verif.Spec.TransportParams
import Verif.Proof.Config

/-!
# Property C98: the options are read as they were written

`setOption c o p` gives the value `p` to the option `o` in the configuration `c`: the new configuration, and whether it
was accepted; `none` is undefined behaviour. See `Verif/Spec/Config.lean` for what the options are.
-/

namespace Picoquic.Props

open Picoquic.Config Picoquic.Spec

/-- Every number that an `int` holds, written in digits, is accepted if and only if it is in the range of the option,
and then it is what is stored; nothing else changes. For every configuration and every option that takes a number,
except the port. -/
theorem C98_number (c : Conf) (o : Opt) (lo hi : Nat) (hk : kindOf o = .number lo hi) (ho : o ≠ .serverPort)
    (t : List Char) (ht : Digits t) (hn : Nat.ofDigitChars 10 t 0 ≤ 2 ^ 31 - 1) :
    ∃ c' ok, setOption c o (some t) = some (c', ok) ∧
      (ok = true ↔ lo ≤ Nat.ofDigitChars 10 t 0 ∧ Nat.ofDigitChars 10 t 0 ≤ hi) ∧
      (ok = true → c'.num o = storedAs o (Nat.ofDigitChars 10 t 0)) ∧ SameBut o c c' :=
  setOption_number hk ho (atoiFrom_value t 0 ht hn) hn

theorem toDigits_digits (n : Nat) : Digits (Nat.toDigits 10 n) := by
  induction n using Nat.strongRecOn with
  | ind n ih =>
    intro x hx
    rw [Nat.toDigits_eq_if (by omega)] at hx
    have key : ∀ i : Fin 10, (Nat.digitChar i.val).isDigit = true := by decide
    split at hx
    · rename_i hn
      simp at hx
      rw [hx]
      exact key ⟨n, hn⟩
    · simp at hx
      rcases hx with hx | hx
      · exact ih (n / 10) (by omega) x hx
      · rw [hx]
        exact key ⟨n % 10, by omega⟩

/-- In particular the number `n` in its usual form is read as `n`. -/
theorem C98_number_round_trip (c : Conf) (o : Opt) (lo hi n : Nat) (hk : kindOf o = .number lo hi)
    (ho : o ≠ .serverPort) (h1 : lo ≤ n) (h2 : n ≤ hi) (h3 : n ≤ 2 ^ 31 - 1) :
    ∃ c', setOption c o (some (Nat.toDigits 10 n)) = some (c', true) ∧ c'.num o = storedAs o n ∧ SameBut o c c' := by
  obtain ⟨c', ok, e, ha, hb, hs⟩ := C98_number c o lo hi hk ho (Nat.toDigits 10 n) (toDigits_digits n)
    (by rw [Nat.ofDigitChars_ten_toDigits]; exact h3)
  rw [Nat.ofDigitChars_ten_toDigits] at ha hb
  have := ha.mpr ⟨h1, h2⟩
  subst this
  exact ⟨c', e, hb rfl, hs⟩

example : (setOption init .idleTimeout (some ['4', '0', '0', '0'])).map (fun r => (r.1.num .idleTimeout, r.2)) =
    some (4000, true) := by decide
example : (setOption init .cwinMax (some ['0'])).map (fun r => (r.1.num .cwinMax, r.2)) = some (2 ^ 64 - 1, true) := by
  decide
example : (setOption init .addressDiscovery (some ['2'])).map (fun r => (r.1.num .addressDiscovery, r.2)) =
    some (3, true) := by decide
example : (setOption init .spinbit (some ['4'])).map (fun r => (r.1.num .spinbit, r.2)) = some (0, false) := by decide

/-- A text that is no number is refused: digits of which an `int` holds the value, then something else. -/
theorem C98_not_number (c : Conf) (o : Opt) (lo hi : Nat) (hk : kindOf o = .number lo hi)
    (t : List Char) (x : Char) (u : List Char) (ht : Digits t) (hn : Nat.ofDigitChars 10 t 0 ≤ 2 ^ 31 - 1)
    (hx : x.isDigit = false) : ∃ c', setOption c o (some (t ++ x :: u)) = some (c', false) ∧ SameBut o c c' :=
  setOption_bad hk (atoiFrom_bad t x u hx 0 ht hn)

example : (setOption init .idleTimeout (some ['4', 's'])).map (·.2) = some false := by decide

/-- For every option that takes a number, a number that an `int` does not hold is undefined behaviour instead of an
error. -/
theorem C98_overflow_violated (c : Conf) (o : Opt) (lo hi : Nat) (hk : kindOf o = .number lo hi) (t : List Char)
    (ht : Digits t) (hn : 2 ^ 31 ≤ Nat.ofDigitChars 10 t 0) : setOption c o (some t) = none :=
  setOption_over hk (atoiFrom_over t 0 ht (by decide) (by unfold INT_MAX; omega))

example : (setOption init .cwinMax (some (Nat.toDigits 10 4294967296))).isNone = true := by decide

/-- No number at all, the empty text, is read as 0 where 0 is allowed. -/
theorem C98_empty_number_violated (c : Conf) (o : Opt) (hi : Nat) (hk : kindOf o = .number 0 hi) :
    ∃ c', setOption c o (some []) = some (c', true) := by
  cases o <;> simp only [kindOf, OptionKind.number.injEq, reduceCtorEq] at hk <;>
    (first | exact absurd hk.1 (by decide) | exact hk.1.elim | simp [setOption, storeNum, checkNum, atoi, atoiFrom, INT_MAX])

example : (setOption init .cnxidLength (some [])).map (fun r => (r.1.num .cnxidLength, r.2)) = some (0, true) := by decide

/-- A port is stored as written, and every number that an `int` holds is accepted, also if no port has that number. -/
theorem C98_port_violated (c : Conf) (t : List Char) (ht : Digits t) (hn : Nat.ofDigitChars 10 t 0 ≤ 2 ^ 31 - 1) :
    ∃ c', setOption c .serverPort (some t) = some (c', true) ∧ c'.num .serverPort = Nat.ofDigitChars 10 t 0 ∧
      SameBut .serverPort c c' := by
  have h := atoiFrom_value t 0 ht hn
  simp only [setOption, storeNum, atoi_some]
  simp only [Int.natCast_zero] at h
  rw [h]
  refine ⟨c.setNum .serverPort (Nat.ofDigitChars 10 t 0), ?_, ?_, ?_⟩
  · simp only [Option.some.injEq, Prod.mk.injEq, true_and, Bool.true_and, decide_eq_true_eq]
    unfold INT_MAX
    omega
  · simp [Conf.setNum]
  · simp +contextual [SameBut, Conf.setNum]

example : (setOption init .serverPort (some (Nat.toDigits 10 70000))).map (fun r => (r.1.num .serverPort, r.2)) =
    some (70000, true) := by decide

/-- A limit of the packet size below 1200 is accepted, though it is then announced, and no peer allows it. -/
theorem C98_mtu_violated (c : Conf) (n : Nat) (h1 : 1 ≤ n) (h2 : n < 1200) :
    ∃ c', setOption c .mtuMax (some (Nat.toDigits 10 n)) = some (c', true) ∧ announcedMtu c' = n ∧
      ¬ LegalInteger 3 (announcedMtu c') := by
  obtain ⟨c', e, hn, _⟩ := C98_number_round_trip c .mtuMax 1 1536 n rfl (by decide) h1 (by omega) (by omega)
  have ha : announcedMtu c' = n := by
    unfold announcedMtu
    rw [hn]
    simp [storedAs]
    omega
  refine ⟨c', e, ha, ?_⟩
  rw [ha]
  intro hl
  have := hl.1 rfl
  omega

/-- The size announced is the one given, if one was given. -/
theorem C98_mtu_partial (c : Conf) (n : Nat) (h1 : 1200 ≤ n) (h2 : n ≤ 1536) :
    ∃ c', setOption c .mtuMax (some (Nat.toDigits 10 n)) = some (c', true) ∧ announcedMtu c' = n ∧
      LegalInteger 3 (announcedMtu c') := by
  obtain ⟨c', e, hn, _⟩ := C98_number_round_trip c .mtuMax 1 1536 n rfl (by decide) (by omega) (by omega) (by omega)
  have ha : announcedMtu c' = n := by
    unfold announcedMtu
    rw [hn]
    simp [storedAs]
    omega
  refine ⟨c', e, ha, ?_⟩
  rw [ha]
  simp [LegalInteger, h1]

/-- A text that is not empty is stored as it is, and the empty text is refused. -/
theorem C98_text (c : Conf) (o : Opt) (hk : kindOf o = .text) (t : List Char) :
    ∃ c' ok, setOption c o (some t) = some (c', ok) ∧ (ok = true ↔ t ≠ []) ∧ (ok = true → c'.text o = some t) ∧
      SameBut o c c' := by
  cases o <;> simp only [kindOf, reduceCtorEq] at hk <;> simp only [setOption] <;> cases t <;>
    simp only [setString, List.length_nil, List.length_cons, Nat.lt_irrefl, Nat.zero_lt_succ, gt_iff_lt, if_true,
      if_false] <;>
    refine ⟨_, _, rfl, ?_, ?_, ?_⟩ <;> simp +contextual [SameBut, Conf.setText]

/-- A flag is set. -/
theorem C98_flag (c : Conf) (o : Opt) (hk : kindOf o = .flag) (p : Option (List Char)) :
    ∃ c', setOption c o p = some (c', true) ∧ c'.flag o = true ∧ SameBut o c c' := by
  cases o <;> simp only [kindOf, reduceCtorEq] at hk <;>
    simp +contextual [setOption, SameBut, Conf.setFlag]

example : kindOf .doRetry = .flag ∧ kindOf .alpn = .text := ⟨rfl, rfl⟩

/-- A version of 1 to 32 bits is read as it was written in hexadecimal. -/
theorem C98_version_partial (c : Conf) (o : Opt) (hk : kindOf o = .version) (n : Nat) (h1 : 0 < n) (h2 : n < 2 ^ 32) :
    ∃ c', setOption c o (some (Nat.toDigits 16 n)) = some (c', true) ∧ c'.num o = n ∧ SameBut o c c' := by
  have hl : (Nat.toDigits 16 n).length ≤ 8 := (Nat.length_toDigits_le_iff (by omega) (by omega)).mpr (by omega)
  have hv : parseVersion (optval (some (Nat.toDigits 16 n))) = n := by
    simp only [optval]
    rw [List.take_of_length_le (by omega), parseVersion_toDigits]
    omega
  cases o <;> simp only [kindOf, reduceCtorEq] at hk <;> simp only [setOption, setVersion, hv] <;>
    exact ⟨_, by rw [decide_eq_true h1], by simp [Conf.setNum], by simp +contextual [SameBut, Conf.setNum]⟩

example : (setOption init .proposedVersion (some ['f', 'f', '0', '0', '0', '0', '1', '2'])).map
    (fun r => (r.1.num .proposedVersion, r.2)) = some (0xff000012, true) := by decide

/-- A number of more than 32 bits is no version, but is taken as one: only its last 32 bits count. -/
theorem C98_version_violated (c : Conf) (o : Opt) (hk : kindOf o = .version) (n : Nat) (h1 : 2 ^ 32 ≤ n)
    (h2 : n < 16 ^ 255) (h3 : n % 2 ^ 32 ≠ 0) :
    ∃ c', setOption c o (some (Nat.toDigits 16 n)) = some (c', true) ∧ c'.num o = (n % 2 ^ 32 : Nat) := by
  have _ := h1
  have hl : (Nat.toDigits 16 n).length ≤ 255 := (Nat.length_toDigits_le_iff (by omega) (by omega)).mpr h2
  have hv : parseVersion (optval (some (Nat.toDigits 16 n))) = n % 2 ^ 32 := by
    simp only [optval]
    rw [List.take_of_length_le hl, parseVersion_toDigits]
  cases o <;> simp only [kindOf, reduceCtorEq] at hk <;> simp only [setOption, setVersion, hv] <;>
    exact ⟨_, by rw [decide_eq_true (Nat.pos_of_ne_zero h3)], by simp [Conf.setNum]⟩

example : (setOption init .versionUpgrade (some ['1', '6', 'b', '3', '3', '4', '3', 'c', 'f'])).map
    (fun r => (r.1.num .versionUpgrade, r.2)) = some (0x6b3343cf, true) := by decide

/-- What is not hexadecimal is no version, and 0 is none. -/
theorem C98_not_version (c : Conf) (o : Opt) (hk : kindOf o = .version) (t : List Char)
    (h : t = [] ∨ ∃ x ∈ t.take 255, ¬ HexLetter x) : ∃ c', setOption c o (some t) = some (c', false) := by
  have hv : parseVersion (optval (some t)) = 0 := by
    rcases h with rfl | ⟨x, hx, hn⟩
    · rfl
    · exact versionFrom_bad _ x hn hx 0
  cases o <;> simp only [kindOf, reduceCtorEq] at hk <;> simp [setOption, setVersion, hv]

/-- The reset seed is read as it was written: 16 bytes in hexadecimal. -/
theorem C98_seed (c : Conf) (b : Bytes) (hb : b.length = 16) (hc : c.seed.length = 16) :
    ∃ c', setOption c .resetSeed (some (hexText b)) = some (c', true) ∧ c'.hasSeed = true ∧ c'.seed = b ∧
      SameBut .resetSeed c c' := by
  have hl := hexText_length b
  have hp : (parseHexa (hexText b) 16).length = 16 := by
    unfold parseHexa
    rw [if_pos (by rw [hl, hb]; decide), hexaLoop_text]
    exact hb
  simp only [setOption, setSeed]
  refine ⟨{ c with hasSeed := true, seed := b }, ?_, ?_, ?_, ?_⟩
  · rw [hp, if_pos (by rw [hl, hb]; decide), hexaWritten_text, hb, ← hc, List.drop_length]
    simp
  · rfl
  · rfl
  · simp [SameBut]

example : hexText [0xde, 0xad] = ['d', 'e', 'a', 'd'] := by decide

/-- Every other text is refused as a reset seed: it must have 32 characters, all hexadecimal digits. -/
theorem C98_not_seed (c c' : Conf) (t : List Char) (h : setOption c .resetSeed (some t) = some (c', true)) :
    t.length = 32 ∧ ∀ x ∈ t, HexLetter x := by
  simp only [setOption, setSeed, Option.some.injEq, Prod.mk.injEq, decide_eq_true_eq] at h
  have h2 := h.2
  unfold parseHexa at h2
  split at h2
  · cases ho : parseHexaLoop t with
    | none => rw [ho] at h2; simp at h2
    | some out =>
      rw [ho] at h2
      have := hexaLoop_length (Nat.le_refl _) ho
      simp at h2
      exact ⟨by omega, this.2⟩
  · simp at h2

/-- An option that takes a value is refused without one, and the other options stay as they were. The reset seed is
excepted, see below. -/
theorem C98_missing (c : Conf) (o : Opt) (h1 : kindOf o ≠ .flag) (h2 : kindOf o ≠ .seed) :
    ∃ c', setOption c o none = some (c', false) ∧ SameBut o c c' := by
  cases o <;> simp only [kindOf, ne_eq, not_true_eq_false] at h1 h2 <;>
    simp +contextual [setOption, setString, storeNum, checkNum, setVersion, atoi, parseVersion, optval, versionFrom,
      SameBut, Conf.setNum, Conf.setText]

/-- `picoquic_config_set_option` with the reset seed and no value is undefined behaviour. -/
theorem C98_missing_seed_violated (c : Conf) : apiSetOption c .resetSeed none = none := by
  unfold apiSetOption
  rw [if_pos (by decide)]
  rfl

/-- A value that is refused changes nothing, for the options of which the value is checked before it is stored. -/
theorem C98_refused_unchanged_partial (c c' : Conf) (o : Opt) (p : Option (List Char))
    (ho : o ∈ [Opt.maxConnections, .initialRandom, .spinbit, .lossbit, .bdpFrame, .cwinMax, .addressDiscovery, .help])
    (h : setOption c o p = some (c', false)) : c' = c := by
  simp only [List.mem_cons, List.not_mem_nil, or_false] at ho
  rcases ho with rfl | rfl | rfl | rfl | rfl | rfl | rfl | rfl <;> simp only [setOption, checkNum] at h <;>
    (try split at h) <;> (try split at h) <;> simp at h <;> simp [h]

example : (setOption init .lossbit (some ['3'])).map (·.2) = some false := by decide

/-- The other options are changed by a value that is refused: a number that is none becomes -1, a text is lost, and a
seed is said to be there. -/
theorem C98_refused_changes_violated (c : Conf) :
    (∀ o ∈ [Opt.serverPort, .destIf, .cipherSuite, .mtuMax, .cnxidLength, .idleTimeout, .socketBufferSize],
      ∃ c', setOption c o (some ['x']) = some (c', false) ∧ c'.num o = -1) ∧
    (∀ o, kindOf o = .text → ∃ c', setOption c o (some []) = some (c', false) ∧ c'.text o = none) ∧
    (∃ c', setOption c .resetSeed (some []) = some (c', false) ∧ c'.hasSeed = true) := by
  have hx : atoi (some ['x']) = some (-1, false) := by decide
  refine ⟨?_, ?_, ?_⟩
  · intro o ho
    simp only [List.mem_cons, List.not_mem_nil, or_false] at ho
    rcases ho with rfl | rfl | rfl | rfl | rfl | rfl | rfl <;> simp [setOption, storeNum, hx, Conf.setNum]
  · intro o ho
    cases o <;> simp only [kindOf, reduceCtorEq] at ho <;> simp [setOption, setString, Conf.setText]
  · simp [setOption, setSeed, parseHexa]

/-- The options are independent, and the last value of an option counts: if all values of a sequence are accepted, an
option that the rest of the sequence does not contain is as its last value left it. -/
theorem C98_last_wins (l : List (Opt × Option (List Char))) (o : Opt) (hl : ∀ q ∈ l, q.1 ≠ o) :
    ∀ c c' : Conf, setAll c l = some c' → SameAt o c c' := by
  induction l with
  | nil => intro c c' h; simp [setAll] at h; subst h; simp [SameAt]
  | cons q l ih =>
    intro c c' h
    obtain ⟨o', p⟩ := q
    simp only [setAll] at h
    split at h
    · rename_i c1 e
      have h1 := setOption_same e
      have h2 := ih (fun q hq => hl q (by simp [hq])) c1 c' h
      have hne : o' ≠ o := hl (o', p) (by simp)
      have h3 := h1.1 o (fun x => hne x.symm)
      refine ⟨by rw [h2.1, h3.1], by rw [h2.2.1, h3.2.1], by rw [h2.2.2.1, h3.2.2], fun ho => ?_⟩
      have h4 := h2.2.2.2 ho
      have h5 := h1.2 (fun x => hne (x.trans ho.symm))
      exact ⟨by rw [h4.1, h5.1], by rw [h4.2, h5.2]⟩
    · simp at h

example : (setAll init [(.alpn, some ['h', '3']), (.doRetry, none), (.alpn, some ['h', 'q']), (.spinbit, some ['2'])]).map
    (fun c => (c.text .alpn, c.flag .doRetry, c.num .spinbit)) = some (some ['h', 'q'], true, 2) := by decide

/-- Each option is found by its letter and by its name, and by nothing else that is a letter or a whole name: the table
has no letter and no option twice. -/
theorem C98_found : ∀ i : Nat, ∀ l : Line, table[i]? = some l → letterIndex l.letter = some i ∧
    nameIndex l.name = some i ∧ argIndex ['-', l.letter] = some i ∧ argIndex ('-' :: '-' :: l.name) = some i ∧
    l.params = (if kindOf l.opt = .flag ∨ kindOf l.opt = .help then 0 else 1) := by
  have key : ∀ i : Fin table.length, letterIndex (table[i.val]'i.isLt).letter = some i.val ∧
      nameIndex (table[i.val]'i.isLt).name = some i.val ∧ argIndex ['-', (table[i.val]'i.isLt).letter] = some i.val ∧
      argIndex ('-' :: '-' :: (table[i.val]'i.isLt).name) = some i.val ∧
      (table[i.val]'i.isLt).params =
        (if kindOf (table[i.val]'i.isLt).opt = .flag ∨ kindOf (table[i.val]'i.isLt).opt = .help then 0 else 1) := by
    decide +kernel
  intro i l h
  obtain ⟨hi, e⟩ := List.getElem?_eq_some_iff.mp h
  rw [← e]
  exact key ⟨i, hi⟩

/-- On the command line an option is given by its letter or its name; it gets the argument that follows if it takes a
value, and is refused if there is none. -/
theorem C98_command_line (c : Conf) (i : Nat) (l : Line) (h : table[i]? = some l) (t : List Char) :
    ∃ p, p = (if kindOf l.opt = .flag ∨ kindOf l.opt = .help then none else some t) ∧
      commandLine c l.letter (some t) = setOption c l.opt p ∧
      commandLineEx c ['-', l.letter] (some t) = setOption c l.opt p ∧
      commandLineEx c ('-' :: '-' :: l.name) (some t) = setOption c l.opt p ∧
      (p ≠ none → commandLine c l.letter none = some (c, false)) := by
  obtain ⟨h1, h2, h3, h4, h5⟩ := C98_found i l h
  refine ⟨_, rfl, ?_⟩
  simp only [commandLine, commandLineEx, h1, h3, h4, lineValue, h]
  split at h5
  · rename_i hk
    rw [h5, if_pos hk]
    simp
  · rename_i hk
    rw [h5, if_neg hk]
    simp

example : (commandLine init 'd' (some ['9', '0'])).map (fun r => (r.1.num .idleTimeout, r.2)) = some (90, true) := by
  decide

/-- Every option is in the table, once. -/
theorem C98_table (o : Opt) : (table.filter (fun l => l.opt == o)).length = 1 := by
  cases o <;> decide +kernel

/-- What is found for a text is the first option of which the name begins with the text. -/
theorem C98_abbreviation (s : List Char) (i : Nat) (h : nameIndex s = some i) :
    (∃ l, table[i]? = some l ∧ s <+: l.name) ∧ ∀ j < i, ∀ l, table[j]? = some l → ¬ s <+: l.name := by
  unfold nameIndex at h
  rw [List.findIdx?_eq_some_iff_getElem] at h
  obtain ⟨hi, h1, h2⟩ := h
  refine ⟨⟨_, List.getElem?_eq_getElem hi, ?_⟩, ?_⟩
  · rw [List.prefix_iff_eq_take]
    simpa using h1
  · intro j hj l hl hp
    obtain ⟨hj', e⟩ := List.getElem?_eq_some_iff.mp hl
    have := h2 j hj
    rw [e] at this
    rw [List.prefix_iff_eq_take] at hp
    simp at this
    exact this hp

example : nameIndex ['c', 'c'] = nameIndex ['c', 'c', '_', 'a', 'l', 'g', 'o'] := by decide

/-- A letter of no option is refused. -/
theorem C98_unknown_letter (c : Conf) (x : Char) (arg : Option (List Char)) (h : ∀ l ∈ table, l.letter ≠ x) :
    commandLine c x arg = some (c, false) := by
  have : letterIndex x = none := by
    unfold letterIndex
    rw [List.findIdx?_eq_none_iff]
    intro l hl
    simpa using h l hl
  simp [commandLine, this]

example : ∀ l ∈ table, l.letter ≠ 'y' := by decide

/-- A misspelt name is accepted: no error is returned, and nothing is set. -/
theorem C98_unknown_name_violated (c : Conf) (s : List Char) (arg : Option (List Char)) (h : ∀ l ∈ table, ¬ s <+: l.name)
    (hs : s ≠ []) : commandLineEx c ('-' :: '-' :: s) arg = some (c, true) := by
  have hn : nameIndex s = none := by
    unfold nameIndex
    rw [List.findIdx?_eq_none_iff]
    intro l hl
    have := h l hl
    rw [List.prefix_iff_eq_take] at this
    simpa using this
  have ha : argIndex ('-' :: '-' :: s) = none := by
    cases s with
    | nil => exact absurd rfl hs
    | cons x s => exact hn
  simp [commandLineEx, ha]

example : ∀ l ∈ table, ¬ ['d', 'o', '-', 'r', 'e', 't', 'r', 'y'] <+: l.name := by decide

/-- The letters for `getopt`: each option that takes a value is followed by a colon. -/
def getoptText (ls : List Line) : List Char := ls.flatMap (fun l => if l.params > 0 then [l.letter, ':'] else [l.letter])

theorem letters_all (max : Nat) (ls : List Line) : ∀ out : List Char, out.length + (getoptText ls).length < max →
    lettersLoop max ls out = (out.reverse ++ getoptText ls, true) := by
  induction ls with
  | nil => intro out _; simp [lettersLoop, getoptText]
  | cons l ls ih =>
    intro out h
    unfold lettersLoop
    simp only [getoptText, List.flatMap_cons, List.length_append] at h
    split at h
    · rename_i hp
      simp only [List.length_cons, List.length_nil] at h
      rw [if_pos (by omega), if_pos hp, if_pos (by omega), ih _ (by simp only [List.length_cons, getoptText]; omega)]
      simp [getoptText, hp]
    · rename_i hp
      simp only [List.length_cons, List.length_nil] at h
      rw [if_pos (by omega), if_neg hp, ih _ (by simp only [List.length_cons, getoptText]; omega)]
      simp [getoptText, hp]

/-- With enough room the letters of all options are written. -/
theorem C98_letters_partial (max : Nat) (h : (getoptText table).length < max) :
    optionLetters max = (getoptText table, true) := by
  have := letters_all max table [] (by simpa using h)
  simpa [optionLetters] using this

example : (getoptText table).length = 79 := by decide

/-- With less room letters are missing, so that these options are unknown, yet no error is returned. -/
theorem C98_letters_violated : optionLetters 79 = ((getoptText table).take 78, true) ∧
    optionLetters 1 = ([], true) := by decide

/-- A cipher suite is used if the library has it. -/
theorem C98_cipher_partial (suites : List Nat) (n : Nat) (hn : n ≠ 0) (h1 : n ≠ 20) (h2 : n ≠ 128) (h3 : n ≠ 256)
    (h : n ∈ suites) : ∃ l, cipherSuites suites n = l ∧ l ≠ [] ∧ ∀ s ∈ l, s = n := by
  refine ⟨_, rfl, ?_, ?_⟩
  · intro he
    unfold cipherSuites at he
    rw [if_neg (by omega)] at he
    simp only at he
    rw [if_neg (by omega), if_neg (by omega), if_neg (by omega)] at he
    have := List.filter_eq_nil_iff.mp he n h
    simp at this
  · intro s hs
    unfold cipherSuites at hs
    rw [if_neg (by omega)] at hs
    simp only at hs
    rw [if_neg (by omega), if_neg (by omega), if_neg (by omega)] at hs
    have := (List.mem_filter.mp hs).2
    simp at this
    omega

/-- The short numbers of the three suites of TLS 1.3. -/
theorem C98_cipher_names : cipherSuites [0x1301, 0x1302, 0x1303] 20 = [0x1303] ∧
    cipherSuites [0x1301, 0x1302, 0x1303] 128 = [0x1301] ∧ cipherSuites [0x1301, 0x1302, 0x1303] 256 = [0x1302] := by
  decide

/-- With a number that is no cipher suite the context is made all the same, with no cipher suite at all. -/
theorem C98_cipher_violated (suites : List Nat) (n : Nat) (hn : n ≠ 0) (h1 : n ≠ 20) (h2 : n ≠ 128) (h3 : n ≠ 256)
    (h : n ∉ suites) : cipherSuites suites n = [] := by
  unfold cipherSuites
  rw [if_neg (by omega)]
  simp only
  rw [if_neg (by omega), if_neg (by omega), if_neg (by omega)]
  rw [List.filter_eq_nil_iff]
  intro s hs
  simp only [decide_eq_true_eq, Int.natCast_inj]
  intro e
  exact h (e ▸ hs)

example : (127 : Nat) ∉ [0x1301, 0x1302, 0x1303] := by decide

/-- A congestion control algorithm is found by its name, if it is registered; `reno` is also `newreno`. -/
theorem C98_algorithm (names : List (List Char)) (s : List Char) (i : Nat) (h : findAlgorithm names s = some i) :
    names[i]? = some s ∨ (s = ['r', 'e', 'n', 'o'] ∧ names[i]? = some ['n', 'e', 'w', 'r', 'e', 'n', 'o']) := by
  unfold findAlgorithm at h
  split at h
  · rename_i j hj
    simp only [Option.some.injEq] at h
    subst h
    rw [List.findIdx?_eq_some_iff_getElem] at hj
    obtain ⟨hi, h1, _⟩ := hj
    left
    rw [List.getElem?_eq_getElem hi]
    simp at h1
    rw [← h1]
  · split at h
    · rename_i hs
      rw [List.findIdx?_eq_some_iff_getElem] at h
      obtain ⟨hi, h1, _⟩ := h
      right
      refine ⟨hs, ?_⟩
      rw [List.getElem?_eq_getElem hi]
      simp at h1
      rw [← h1]
    · simp at h

/-- A name that is registered is found. -/
theorem C98_algorithm_found (names : List (List Char)) (s : List Char) (h : s ∈ names) :
    ∃ i, findAlgorithm names s = some i := by
  unfold findAlgorithm
  split
  · exact ⟨_, rfl⟩
  · rename_i hn
    rw [List.findIdx?_eq_none_iff] at hn
    have := hn s h
    simp at this

/-- An option that is not given, whichever others are, has its default: its number, no text, not set. -/
theorem C98_default (l : List (Opt × Option (List Char))) (o : Opt) (hl : ∀ q ∈ l, q.1 ≠ o) (c : Conf)
    (h : setAll init l = some c) :
    c.num o = defaultNumber o ∧ c.text o = none ∧ c.flag o = false ∧ (o = .resetSeed → c.hasSeed = false) := by
  have hs := C98_last_wins l o hl init c h
  unfold SameAt at hs
  have : init.num o = defaultNumber o := by cases o <;> rfl
  refine ⟨by rw [← this]; grind, by grind [init], by grind [init], fun e => by grind [init]⟩

example : (setAll init [(.spinbit, some ['2']), (.sni, some ['a'])]).map (fun c => (c.num .cnxidLength, c.num .spinbit)) =
    some (-1, 2) := by decide

end Picoquic.Props
