import Verif.Proof.TransportRun
/-!
# Transport parameters: the checks made at the end, and termination
-/

namespace Picoquic.TransportParams
open Picoquic Picoquic.Spec

/-- What the final checks ensure. -/
structure Final (s : RState) : Prop where
  roles : s.c.client = false → 2 ∉ s.present ∧ 13 ∉ s.present ∧ 0 ∉ s.present ∧ 16 ∉ s.present
  source : s.c.version ≠ DRAFT27 → 15 ∈ s.present
  original : s.c.client = true → 15 ∈ s.present → s.c.originalCid = [] →
    16 ∉ s.present ∧ 0 ∈ s.present ∧ s.ocid = s.c.initialCid
  retry : s.c.client = true → 15 ∈ s.present → s.c.originalCid ≠ [] →
    16 ∈ s.present ∧ 0 ∈ s.present ∧ s.ocid = s.c.originalCid ∧ s.rcid = s.c.initialCid

theorem negotiateIdle_same (c : Conn) :
    SameSetup c (negotiateIdle c) ∧ (negotiateIdle c).errs = c.errs ∧
    (negotiateIdle c).version = c.version := by
  unfold negotiateIdle SameSetup
  dsimp only
  repeat' split
  all_goals exact ⟨⟨rfl, rfl, rfl, rfl, rfl⟩, rfl, rfl⟩

theorem defaults_same (s : RState) :
    SameSetup s.c (defaults s).c ∧ (defaults s).c.errs = s.c.errs ∧
    (defaults s).c.version = s.c.version ∧ (defaults s).ret = s.ret ∧
    (defaults s).present = s.present ∧ (defaults s).ocid = s.ocid ∧ (defaults s).rcid = s.rcid := by
  unfold defaults SameSetup RState.setRem
  dsimp only
  repeat' split
  all_goals exact ⟨⟨rfl, rfl, rfl, rfl, rfl⟩, rfl, rfl, rfl, rfl, rfl, rfl⟩

theorem negotiateMultipath_errs (c : Conn) : (negotiateMultipath c).errs = c.errs := by
  unfold negotiateMultipath
  repeat' split
  all_goals rfl

theorem negotiateOptions_errs (c : Conn) : (negotiateOptions c).errs = c.errs := by
  unfold negotiateOptions
  dsimp only
  repeat' split
  all_goals rfl

theorem compareCidEq_eq {a b : Cid} (h : ¬ (!compareCidEq a b) = true) : a = b := by
  unfold compareCidEq at h
  have h' : List.length a = List.length b ∧ a = b := by simpa using h
  exact h'.2

theorem finalChecks_ret {s : RState} (h : s.ret = true) : finalChecks s = s := by
  unfold finalChecks
  simp [h]

theorem finalChecks_ok {s : RState} (h : s.ret = false) :
    (finalChecks s = s.fail PARAMETER_ERROR) ∨ (finalChecks s = s ∧ Final s) := by
  unfold finalChecks
  dsimp only
  by_cases h1 : s.ret = false ∧ s.c.client = false ∧
      (2 ∈ s.present ∨ 13 ∈ s.present ∨ 0 ∈ s.present ∨ 16 ∈ s.present)
  · left
    rw [if_pos h1]
    simp [RState.fail]
  rw [if_neg h1]
  by_cases h2 : s.ret = false ∧ s.c.version ≠ DRAFT27 ∧ 15 ∉ s.present
  · left
    rw [if_pos h2]
    simp [RState.fail]
  rw [if_neg h2]
  have hroles : s.c.client = false →
      2 ∉ s.present ∧ 13 ∉ s.present ∧ 0 ∉ s.present ∧ 16 ∉ s.present := by
    intro hc
    refine ⟨?_, ?_, ?_, ?_⟩ <;> intro hm <;> exact h1 ⟨h, hc, by simp [hm]⟩
  have hsource : s.c.version ≠ DRAFT27 → 15 ∈ s.present := by
    intro hv
    by_cases hm : 15 ∈ s.present
    · exact hm
    · exact absurd ⟨h, hv, hm⟩ h2
  by_cases hc : s.c.client = true
  · rw [if_pos ⟨h, hc⟩]
    by_cases h15 : 15 ∈ s.present
    · rw [if_pos h15]
      by_cases ho : s.c.originalCid.length ≠ 0
      · rw [if_pos ho]
        split
        · exact .inl rfl
        · rename_i hn
          simp only [not_or, Decidable.not_not] at hn
          refine .inr ⟨rfl, ⟨hroles, hsource, fun _ _ e => absurd (by rw [e]; rfl) ho, fun _ _ _ =>
            ⟨hn.1, hn.2.1, (compareCidEq_eq hn.2.2.1).symm, (compareCidEq_eq hn.2.2.2).symm⟩⟩⟩
      · rw [if_neg ho]
        have ho' : s.c.originalCid = [] := List.length_eq_zero_iff.mp (Decidable.not_not.mp ho)
        split
        · exact .inl rfl
        · rename_i hn
          simp only [not_or, Decidable.not_not] at hn
          exact .inr ⟨rfl, ⟨hroles, hsource, fun _ _ _ =>
            ⟨hn.1, hn.2.1, (compareCidEq_eq hn.2.2).symm⟩, fun _ _ e => absurd ho' e⟩⟩
    · rw [if_neg h15]
      have hF : Final s := ⟨hroles, hsource, fun _ e => absurd e h15, fun _ e => absurd e h15⟩
      split
      · split
        · exact .inl rfl
        · exact .inr ⟨rfl, hF⟩
      · exact .inr ⟨rfl, hF⟩
  · rw [if_neg (fun e => hc e.2)]
    exact .inr ⟨rfl, ⟨hroles, hsource, fun e => absurd e hc, fun e => absurd e hc⟩⟩

/-- The end of the function, by itself. -/
theorem finish_cases (s : RState) :
    (s.ret = true ∧ (finish s).ret = true ∧ (finish s).c.errs = s.c.errs) ∨
    (s.ret = false ∧ (finish s).ret = true ∧ (finish s).c.errs = PARAMETER_ERROR :: s.c.errs) ∨
    (s.ret = false ∧ (finish s).ret = false ∧ (finish s).c.errs = s.c.errs ∧ Final s) := by
  have hd := defaults_same { s with c := negotiateIdle s.c }
  obtain ⟨i1, i2, i3⟩ := negotiateIdle_same s.c
  obtain ⟨d1, d2, d3, d4, d5, d6, d7⟩ := hd
  dsimp only at d1 d2 d3 d4 d5 d6 d7
  unfold finish
  dsimp only
  generalize defaults { s with c := negotiateIdle s.c } = e at d1 d2 d3 d4 d5 d6 d7 ⊢
  rw [i2] at d2
  rw [i3] at d3
  have hs := i1.trans d1
  cases hr : s.ret with
  | true =>
    left
    rw [hr] at d4
    rw [finalChecks_ret d4, if_neg (by simp [d4])]
    exact ⟨rfl, d4, by rw [negotiateOptions_errs, d2]⟩
  | false =>
    right
    rw [hr] at d4
    rcases finalChecks_ok d4 with h | ⟨h, F⟩
    · left
      rw [h, if_neg (by simp [RState.fail])]
      refine ⟨rfl, rfl, ?_⟩
      rw [negotiateOptions_errs]
      show PARAMETER_ERROR :: e.c.errs = _
      rw [d2]
    · right
      rw [h, if_pos d4]
      refine ⟨rfl, d4, ?_, ?_⟩
      · rw [negotiateOptions_errs, negotiateMultipath_errs, d2]
      · obtain ⟨f1, f2, f3, f4⟩ := F
        rw [hs.1, d5] at f1 f3 f4
        rw [hs.2.2.2.2, hs.2.2.2.1, d6] at f3 f4
        rw [d3, d5] at f2
        rw [d7] at f4
        exact ⟨f1, f2, f3, f4⟩

/-! ## Termination -/

theorem vnServerLoop_zero (v : Bytes) {vn : Nat} (h : vnServerLoop v = .ok vn) : vn = 0 := by
  induction v using vnServerLoop.induct with
  | case1 => rw [vnServerLoop] at h; cases h; rfl
  | case2 a b c d rest ih => rw [vnServerLoop] at h; exact ih h
  | case3 v h1 h2 =>
    rw [vnServerLoop] at h
    · cases h
    · exact h1
    · exact h2

theorem parse32_bigEndian (a b c d : UInt8) : parse32 a b c d = bigEndian [a, b, c, d] := by
  rw [parse32_eq]
  simp only [bigEndian, List.length_cons, List.length_nil, Nat.zero_add, Nat.pow_zero, Nat.reduceAdd,
    Nat.reducePow]
  omega

theorem vnClientLoop_mem (v : Bytes) {vn : Nat} (h : vnClientLoop v = .ok vn) (h0 : vn ≠ 0) :
    vn ∈ versionWords v ∧ isSupported vn = true := by
  induction v using vnClientLoop.induct with
  | case1 => rw [vnClientLoop] at h; cases h; exact absurd rfl h0
  | case2 a b c d rest hs =>
    rw [vnClientLoop, if_pos hs] at h
    cases h
    exact ⟨by rw [versionWords, parse32_bigEndian]; simp, hs⟩
  | case3 a b c d rest hs ih =>
    rw [vnClientLoop, if_neg hs] at h
    rw [versionWords]
    exact ⟨by simp [(ih h).1], (ih h).2⟩
  | case4 v h1 h2 =>
    rw [vnClientLoop] at h
    · cases h
    · exact h1
    · exact h2

theorem processVersionUpgrade_hang {old new : Nat} (h : processVersionUpgrade old new = .hang) :
    (new = V2 ∨ new = V2_DRAFT) ∧ old ≠ V1 ∧ old ≠ new := by
  unfold processVersionUpgrade at h
  by_cases he : new = old
  · rw [if_pos he] at h; cases h
  rw [if_neg he] at h
  by_cases h2 : new = V2
  · subst h2
    refine ⟨.inl rfl, ?_, fun e => he e.symm⟩
    intro e
    subst e
    revert h; decide
  by_cases h3 : new = V2_DRAFT
  · subst h3
    refine ⟨.inr rfl, ?_, fun e => he e.symm⟩
    intro e
    subst e
    revert h; decide
  exfalso
  have hf : (supportedVersions.find? (fun e => e.1 == new)).bind Prod.snd = none := by
    cases hd : supportedVersions.find? (fun e => e.1 == new) with
    | none => rfl
    | some e =>
      have hm := List.mem_of_find?_eq_some hd
      have hp := List.find?_some hd
      simp only [beq_iff_eq] at hp
      simp only [supportedVersions, List.mem_cons, List.not_mem_nil, or_false] at hm
      rcases hm with rfl | rfl | rfl | rfl | rfl | rfl | rfl | rfl | rfl | rfl | rfl | rfl | rfl
      all_goals first
        | rfl
        | (exfalso; exact h2 hp.symm)
        | (exfalso; exact h3 hp.symm)
  rw [hf] at h
  cases h

theorem processVersionNegotiation_hang {c : Bool} {old vn : Nat} {v : Bytes}
    (h : processVersionNegotiation c old v = .ok vn) (h0 : vn ≠ 0)
    (hh : processVersionUpgrade old vn = .hang) : c = false ∧ FromOtherToV2 v := by
  obtain ⟨h1, h2, h3⟩ := processVersionUpgrade_hang hh
  unfold processVersionNegotiation at h
  cases hd : framesUint32Decode v with
  | none => rw [hd] at h; cases h
  | some x =>
    obtain ⟨cur, rest⟩ := x
    rw [hd] at h
    dsimp only at h
    by_cases he : cur ≠ old
    · rw [if_pos he] at h; cases h
    rw [if_neg he] at h
    have he' : cur = old := Decidable.not_not.mp he
    subst he'
    cases c with
    | true =>
      rw [if_pos rfl] at h
      exact absurd (vnServerLoop_zero rest h) h0
    | false =>
      rw [if_neg (by decide)] at h
      obtain ⟨hm, _⟩ := vnClientLoop_mem rest h h0
      refine ⟨rfl, cur, versionWords rest, ?_, h2, ?_⟩
      · unfold framesUint32Decode at hd
        match v, hd with
        | a :: b :: c :: d :: tl, hd =>
          simp only [Option.some.injEq, Prod.mk.injEq] at hd
          obtain ⟨e1, e2⟩ := hd
          subst e2
          rw [versionWords, ← e1, parse32_bigEndian]
      · rcases h1 with rfl | rfl
        · exact .inl hm
        · exact .inr hm

theorem processVersionUpgrade_refused {old new : Nat} (h : processVersionUpgrade old new = .refused) :
    new ≠ old ∧ new ≠ V2 ∧ new ≠ V2_DRAFT := by
  unfold processVersionUpgrade at h
  by_cases he : new = old
  · rw [if_pos he] at h; cases h
  rw [if_neg he] at h
  refine ⟨he, ?_, ?_⟩
  · rintro rfl
    have hx : (supportedVersions.find? (fun e => e.1 == V2)).bind Prod.snd = some [V1] := by decide
    rw [hx] at h
    dsimp only at h
    split at h <;> cases h
  · rintro rfl
    have hx : (supportedVersions.find? (fun e => e.1 == V2_DRAFT)).bind Prod.snd = some [V1] := by decide
    rw [hx] at h
    dsimp only at h
    split at h <;> cases h

theorem refused_versions {c : Conn} {t : Nat} {v : Bytes} (h : Refused c t v) :
    t = 0x11 ∧ c.client = false ∧ ToOtherThanV2 v := by
  obtain ⟨h1, h2, vn, h3, h0, h4⟩ := h
  refine ⟨h1, h2, ?_⟩
  obtain ⟨u1, u2, u3⟩ := processVersionUpgrade_refused h4
  unfold processVersionNegotiation at h3
  cases hd : framesUint32Decode v with
  | none => rw [hd] at h3; cases h3
  | some x =>
    obtain ⟨cur, rest⟩ := x
    rw [hd] at h3
    dsimp only at h3
    by_cases he : cur ≠ c.version
    · rw [if_pos he] at h3; cases h3
    rw [if_neg he, if_neg (by decide)] at h3
    obtain ⟨hm, _⟩ := vnClientLoop_mem rest h3 h0
    refine ⟨cur, versionWords rest, vn, ?_, hm, ?_, u2, u3⟩
    · unfold framesUint32Decode at hd
      match v, hd with
      | a :: b :: c :: d :: tl, hd =>
        simp only [Option.some.injEq, Prod.mk.injEq] at hd
        obtain ⟨e1, e2⟩ := hd
        subst e2
        rw [versionWords, ← e1, parse32_bigEndian]
    · rw [Decidable.not_not.mp he]; exact u1

theorem runParams_none (s : RState) (ps : List (Nat × Bytes)) (h : runParams s ps = none) :
    s.c.client = false ∧ ∃ v, (0x11, v) ∈ ps ∧ FromOtherToV2 v := by
  induction ps generalizing s with
  | nil => cases h
  | cons p ps ih =>
    obtain ⟨t, v⟩ := p
    rw [runParams] at h
    cases hr : s.ret with
    | true => rw [if_pos hr] at h; cases h
    | false =>
      rw [if_neg (by simp [hr])] at h
      have hcl : (notePresent s t).c.client = s.c.client := by
        rcases notePresent_cases s t with ⟨_, _, e⟩ | ⟨_, _, e⟩ | ⟨_, e⟩ <;> rw [e] <;> rfl
      cases ha : applyParam (notePresent s t) t v with
      | none =>
        obtain ⟨rfl, vn, h1, h2, h3⟩ := applyParam_none ha
        obtain ⟨g1, g2⟩ := processVersionNegotiation_hang h1 h2 h3
        rw [hcl] at g1
        exact ⟨g1, v, by simp, g2⟩
      | some s1 =>
        rw [ha, Option.bind_some] at h
        obtain ⟨g1, w, g2, g3⟩ := ih s1 h
        obtain ⟨new, A⟩ := applyParam_applied ha
        refine ⟨?_, w, by simp [g2], g3⟩
        rw [← hcl, ← A.same.1]
        exact g1

end Picoquic.TransportParams
