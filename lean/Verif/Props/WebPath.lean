import Verif.Proof.Uri
/-!
# C84: requests reach the files of the web folder, and no others
-/

namespace Picoquic.Props
open Picoquic Picoquic.Uri Picoquic.Spec

/-- What a file is: the path was accepted, and there is one. -/
theorem parsePath_file (files : Bytes → Option Nat) (folder : Option Bytes) (path n : Bytes) (s : Nat) (h : parsePath files folder path = .file n s) :
    ∃ f p, folder = some f ∧ p = (if path = [47] then indexHtml else path) ∧ p.head? = some 47 ∧ sane p = true ∧ n = folderPrefix f ++ p.drop 1 ∧ files n = some s ∧ 0 < s := by
  unfold parsePath at h
  generalize hp : (if path = [47] then indexHtml else path) = p at h
  unfold served at h
  by_cases h47 : p.head? ≠ some 47
  · rw [if_pos h47] at h; cases h
  · rw [if_neg h47] at h
    have h47 : p.head? = some 47 := by simpa using h47
    have hne : p ≠ [] := by rintro rfl; simp at h47
    cases folder with
    | none =>
      simp only [Option.bind_none] at h
      by_cases hx : p.length > 1 ∧ p ≠ indexHtml
      · rw [if_pos hx] at h; cases hy : echoFrom 0 (p.drop 1) <;> rw [hy] at h <;> cases h
      · rw [if_neg hx] at h; cases h
    | some f =>
      simp only [Option.bind_some] at h
      unfold tryFile at h
      rw [fileName_eq f p hne] at h
      have hend : ∀ t, (if p.length > 1 ∧ p ≠ indexHtml then match echoFrom 0 (p.drop 1) with | some n => Target.bytes n | none => .notFound else .bytes 0) = t → t ≠ .file n s := by
        rintro t rfl e
        by_cases hx : p.length > 1 ∧ p ≠ indexHtml
        · rw [if_pos hx] at e; cases hy : echoFrom 0 (p.drop 1) <;> rw [hy] at e <;> cases e
        · rw [if_neg hx] at e; cases e
      cases hs : sane p
      · rw [hs] at h; simp only [Bool.false_eq_true, if_false] at h
        exact absurd h (hend _ rfl)
      · rw [hs] at h; simp only [if_true] at h
        cases hf : files (folderPrefix f ++ p.drop 1) with
        | none => rw [hf] at h; exact absurd h (hend _ rfl)
        | some z =>
          rw [hf] at h
          by_cases hz : z > 0
          · simp only [if_pos hz] at h
            cases h
            exact ⟨f, p, rfl, rfl, h47, hs, rfl, hf, hz⟩
          · simp only [if_neg hz] at h
            exact absurd h (hend _ rfl)

/-- **C84.** The file that a request reads is below the web folder: its name is that of the folder, and a path that never leaves it, has no `..` in it, and is made of letters, digits, hyphens, underlines, dots
and slashes only. -/
theorem C84_inside (files : Bytes → Option Nat) (folder : Option Bytes) (path n : Bytes) (s : Nat) (h : parsePath files folder path = .file n s) :
    ∃ f rest, folder = some f ∧ n = folderPrefix f ++ rest ∧ staysInside 0 (splitBy 47 rest) = true ∧ [46, 46] ∉ splitBy 47 rest ∧
      (∀ c ∈ rest, nameByte c = true ∨ c = 46 ∨ c = 47) ∧ files n = some s := by
  obtain ⟨f, p, hf, _, h47, hs, hn, hx, _⟩ := parsePath_file files folder path n s h
  cases p with
  | nil => simp at h47
  | cons c r =>
    have hi := sane_inside c r hs
    refine ⟨f, r, hf, hn, inside_of 0 _ hi, hi, ?_, hx⟩
    rw [sane] at hs
    split at hs
    · exact (sane_dots _ _ _ hs).2.2.1
    · cases hs

/-- `/../a` is not found, whatever files there are. -/
example : parsePath (fun _ => some 10) (some [119]) [47, 46, 46, 47, 97] = .notFound := by decide +kernel

/-- **C84.** Nothing is read if there is no web folder. -/
theorem C84_no_folder (files : Bytes → Option Nat) (path n : Bytes) (s : Nat) : parsePath files none path ≠ .file n s := by
  intro h
  obtain ⟨f, _, hf, _⟩ := parsePath_file files none path n s h
  cases hf

/-- **C84.** The buffer for the name is long enough. -/
theorem C84_no_overflow (files : Bytes → Option Nat) (folder : Option Bytes) (path : Bytes) : parsePath files folder path ≠ .overflow := by
  intro h
  unfold parsePath at h
  generalize (if path = [47] then indexHtml else path) = p at h
  unfold served at h
  have hend : (if p.length > 1 ∧ p ≠ indexHtml then match echoFrom 0 (p.drop 1) with | some n => Target.bytes n | none => .notFound else .bytes 0) ≠ .overflow := by
    intro e
    by_cases hx : p.length > 1 ∧ p ≠ indexHtml
    · rw [if_pos hx] at e; cases hy : echoFrom 0 (p.drop 1) <;> rw [hy] at e <;> cases e
    · rw [if_neg hx] at e; cases e
  by_cases h47 : p.head? ≠ some 47
  · rw [if_pos h47] at h; cases h
  · rw [if_neg h47] at h
    have hne : p ≠ [] := by rintro rfl; simp at h47
    cases folder with
    | none => exact hend h
    | some f =>
      simp only [Option.bind_some, tryFile, fileName_eq f p hne] at h
      cases hs : sane p <;> rw [hs] at h
      · exact hend h
      · simp only [if_true] at h
        cases hf : files (folderPrefix f ++ p.drop 1) with
        | none => rw [hf] at h; exact hend h
        | some z =>
          rw [hf] at h
          by_cases hz : z > 0
          · simp only [if_pos hz] at h; cases h
          · simp only [if_neg hz] at h; exact hend h

/-- **C84.** The files with plain names are there: words of letters, digits, hyphens and underlines, separated by single dots or slashes. `/` stands for `/index.html`. -/
theorem C84_found (files : Bytes → Option Nat) (folder rest : Bytes) (s : Nat) (hr : PlainPath rest) (hf : files (folderPrefix folder ++ rest) = some s) (hs : 0 < s) :
    parsePath files (some folder) (47 :: rest) = .file (folderPrefix folder ++ rest) s := by
  have hne := plain_ne rest hr
  rw [parsePath, if_neg (by simpa using hne)]
  unfold served
  simp only [List.head?_cons, ne_eq, not_true, if_false, Option.bind_some, tryFile, fileName_eq folder (47 :: rest) (by simp), sane, if_true, sane_plain false 0 rest hr, List.drop_one, List.tail_cons, hf, hs, gt_iff_lt]

/-- `/a/b.c` in the folder `w`. -/
example : parsePath (fun n => if n = [119, 47, 97, 47, 98, 46, 99] then some 5 else none) (some [119]) [47, 97, 47, 98, 46, 99] = .file [119, 47, 97, 47, 98, 46, 99] 5 := by decide +kernel

/-- **C84.** `/` stands for `/index.html`. -/
theorem C84_index (files : Bytes → Option Nat) (folder : Option Bytes) : parsePath files folder [47] = parsePath files folder indexHtml := by
  unfold parsePath; simp [indexHtml]

/-- **C84 (partial).** A path that is a number, when there is no file of that name, gives that many bytes if the number is less than 2⁶², and is not found otherwise. Missing: numbers that do not fit in 64 bits,
see `C84_number_violated`. -/
theorem C84_number_partial (files : Bytes → Option Nat) (folder : Option Bytes) (s : Bytes) (hs : s ≠ []) (hd : isDecimal s = true) (hl : decimalNumber s < 2 ^ 64) (hf : ∀ n, files n = none) :
    parsePath files folder (47 :: s) = if decimalNumber s < 2 ^ 62 then .bytes (decimalNumber s) else .notFound := by
  have hi : 47 :: s ≠ indexHtml := by
    intro e
    have : s = indexHtml.drop 1 := by rw [← e]; rfl
    rw [this] at hd; exact absurd hd (by decide)
  have ht : folder.bind (fun f => tryFile files f (47 :: s)) = none := by
    cases folder with
    | none => rfl
    | some f =>
      simp only [Option.bind_some, tryFile, fileName_eq f (47 :: s) (by simp), hf]
      split <;> rfl
  have he := echo_spec 0 s hd (by decide) hl
  rw [parsePath, if_neg (by simpa using hs)]
  unfold served
  simp only [List.head?_cons, ne_eq, not_true, if_false]
  rw [ht]
  simp only
  rw [if_pos ⟨by have := List.length_pos_iff.2 hs; simp only [List.length_cons]; omega, hi⟩]
  simp only [List.drop_one, List.tail_cons, he]
  by_cases h : decimalNumber s < 2 ^ 62
  · rw [if_pos h]; unfold decimalNumber at h ⊢; rw [if_pos h]
  · rw [if_neg h]; unfold decimalNumber at h; rw [if_neg h]

/-- **C84.** The number 18446744073709551620, which is 4 more than 2⁶⁴, gives 4 bytes. -/
theorem C84_number_violated : ∃ s : Bytes, isDecimal s = true ∧ decimalNumber s = 2 ^ 64 + 4 ∧ parsePath (fun _ => none) none (47 :: s) = .bytes 4 :=
  ⟨[49, 56, 52, 52, 54, 55, 52, 52, 48, 55, 51, 55, 48, 57, 53, 53, 49, 54, 50, 48], by decide +kernel⟩

/-- **C84.** Bytes are only given for numbers, and nothing for the index. -/
theorem C84_bytes (files : Bytes → Option Nat) (folder : Option Bytes) (path : Bytes) (n : Nat) (h : parsePath files folder path = .bytes n) :
    (n = 0 ∧ (path = [47] ∨ path = indexHtml)) ∨ ∃ s, path = 47 :: s ∧ s ≠ [] ∧ isDecimal s = true := by
  unfold parsePath at h
  have hp : (if path = [47] then indexHtml else path) = indexHtml → path = [47] ∨ path = indexHtml := by
    intro e; by_cases h : path = [47]
    · exact Or.inl h
    · rw [if_neg h] at e; exact Or.inr e
  have hl : 1 < (if path = [47] then indexHtml else path).length ∨ (if path = [47] then indexHtml else path).head? ≠ some 47 := by
    by_cases h : path = [47]
    · rw [if_pos h]; exact Or.inl (by decide)
    · rw [if_neg h]
      cases path with
      | nil => right; simp
      | cons c r => cases r with
        | nil => right; simpa using h
        | cons d r => left; simp
  have hq : (if path = [47] then indexHtml else path) ≠ indexHtml → (if path = [47] then indexHtml else path) = path := by
    intro e; by_cases h : path = [47]
    · rw [if_pos h] at e; exact absurd rfl e
    · rw [if_neg h]
  generalize (if path = [47] then indexHtml else path) = p at *
  unfold served at h
  by_cases h47 : p.head? ≠ some 47
  · rw [if_pos h47] at h; cases h
  · rw [if_neg h47] at h
    have hl : 1 < p.length := by rcases hl with x | x
                                 · exact x
                                 · exact absurd x h47
    have h47 : p.head? = some 47 := by simpa using h47
    have key : (if p.length > 1 ∧ p ≠ indexHtml then match echoFrom 0 (p.drop 1) with | some n => Target.bytes n | none => .notFound else .bytes 0) = .bytes n →
        (n = 0 ∧ (path = [47] ∨ path = indexHtml)) ∨ ∃ s, path = 47 :: s ∧ s ≠ [] ∧ isDecimal s = true := by
      intro e
      by_cases hx : p.length > 1 ∧ p ≠ indexHtml
      · rw [if_pos hx] at e
        right
        cases hy : echoFrom 0 (p.drop 1) with
        | none => rw [hy] at e; cases e
        | some m =>
          rw [← hq hx.2]
          cases p with
          | nil => cases h47
          | cons c r =>
            simp at h47; subst h47
            exact ⟨r, rfl, by rintro rfl; simp at hl, echo_digits 0 m r hy⟩
      · rw [if_neg hx] at e; cases e
        exact Or.inl ⟨rfl, hp (Classical.byContradiction fun x => hx ⟨hl, x⟩)⟩
    cases hb : folder.bind (fun f => tryFile files f p) with
    | none => rw [hb] at h; exact key h
    | some t =>
      rw [hb] at h
      simp only at h
      subst h
      cases folder with
      | none => cases hb
      | some f =>
        simp only [Option.bind_some, tryFile] at hb
        cases hs : sane p <;> rw [hs] at hb
        · cases hb
        · simp only [if_true] at hb
          cases hf : fileName f p with
          | none => rw [hf] at hb; cases hb
          | some m =>
            rw [hf] at hb
            simp only at hb
            cases hz : files m with
            | none => rw [hz] at hb; cases hb
            | some z => rw [hz] at hb; simp only at hb; split at hb <;> cases hb

end Picoquic.Props
