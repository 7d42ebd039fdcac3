import Verif.Proof.TransportParams
/-!
# Transport parameters: the checks made on each parameter
-/

namespace Picoquic.TransportParams
open Picoquic Picoquic.Spec

/-- The checks made on integer parameters. -/
def CheckedInteger (t n : Nat) : Prop :=
  (t = 3 → 1200 ≤ n ∧ n ≤ 65527) ∧ (t = 11 → n ≤ 2 ^ 14 ∨ 2 ^ 32 ≤ n * 1000) ∧
  (t = 0x1057 → n ≤ 1) ∧ (t = 0xff04de1b → 1 ≤ n ∧ n < 2 ^ 24) ∧ (t = 0x7158 → 1 ≤ n ∧ n ≤ 3) ∧
  (t = 0xebd9 → n ≤ 1) ∧ (t = 0x9f81a176 → n ≤ 2)

/-- The checks made on one parameter. -/
structure CheckedParam (c : Conn) (t : Nat) (v : Bytes) : Prop where
  integer : IntegerType t → ∃ n, Varint v n ∧ CheckedInteger t n
  block : LegalBlock t v ∨ (t = 13 ∧ v = [])
  source : t = 15 → v = c.remoteCid
  token : t = 2 → c.client = true

/-- A server refuses the change of version asked by the client. -/
def Refused (c : Conn) (t : Nat) (v : Bytes) : Prop :=
  t = 0x11 ∧ c.client = false ∧
    ∃ vn, processVersionNegotiation false c.version v = .ok vn ∧ vn ≠ 0 ∧
      processVersionUpgrade c.version vn = .refused

/-- What no parameter changes. -/
def SameSetup (c c' : Conn) : Prop :=
  c'.client = c.client ∧ c'.remoteCid = c.remoteCid ∧ c'.localCid = c.localCid ∧
  c'.initialCid = c.initialCid ∧ c'.originalCid = c.originalCid

theorem SameSetup.refl (c : Conn) : SameSetup c c := ⟨rfl, rfl, rfl, rfl, rfl⟩

theorem SameSetup.trans {a b c : Conn} (h : SameSetup a b) (h' : SameSetup b c) : SameSetup a c := by
  obtain ⟨h1, h2, h3, h4, h5⟩ := h
  obtain ⟨g1, g2, g3, g4, g5⟩ := h'
  exact ⟨g1.trans h1, g2.trans h2, g3.trans h3, g4.trans h4, g5.trans h5⟩

/-- The effect of one parameter, after the check for repetition. -/
structure Applied (s : RState) (t : Nat) (v : Bytes) (new : List Nat) (s' : RState) : Prop where
  errs : s'.c.errs = new ++ s.c.errs
  codes : ∀ e ∈ new, TransportParameterError e
  present : s'.present = s.present
  same : SameSetup s.c s'.c
  version : s'.c.version = s.c.version ∨
    (t = 0x11 ∧ s.c.client = false ∧ s'.c.version ≠ DRAFT27)
  checked : s.ret = false → new = [] → CheckedParam s.c t v
  failed : s.ret = false → s'.ret = true → new ≠ [] ∨ Refused s.c t v
  ocid : s'.ocid = if t = 0 ∧ (tpCidDecode v).2 = true then v else if t = 0 then (tpCidDecode v).1 else s.ocid
  rcid : s'.rcid = if t = 16 ∧ (tpCidDecode v).2 = true then v else if t = 16 then (tpCidDecode v).1 else s.rcid

theorem tpVarintDecode_cases (s : RState) (v : Bytes) :
    (∃ n, Varint v n ∧ tpVarintDecode s v = (n, s)) ∨
      (∃ n, tpVarintDecode s v = (n, s.fail PARAMETER_ERROR)) := by
  unfold tpVarintDecode
  dsimp only
  by_cases h : (varintDecode v).1 = 0 ∨ (varintDecode v).1 ≠ v.length
  · exact .inr ⟨_, by rw [if_pos h]⟩
  · left
    obtain ⟨p, h1, h2, h3⟩ := varintDecode_ok (bs := v) (by omega)
    have hv : v = p := by
      have hd : v.drop (varintDecode v).1 = [] := List.drop_eq_nil_of_le (by omega)
      rw [hd, List.append_nil] at h1
      exact h1
    refine ⟨(varintDecode v).2, ?_, by rw [if_neg h]⟩
    rw [← hv] at h2
    exact h2

theorem tpCidDecode_ok {v : Bytes} (h : (tpCidDecode v).2 = true) :
    v.length ≤ 20 ∧ (tpCidDecode v).1 = v := by
  unfold tpCidDecode CONNECTION_ID_MAX_SIZE at *
  dsimp only at *
  by_cases hl : v.length % 256 ≤ 20
  · rw [if_pos hl] at h ⊢
    have h2 : (List.take (v.length % 256) v).length = v.length := by simpa using h
    rw [List.length_take] at h2
    have h3 : v.length % 256 = v.length := by
      have := Nat.mod_le v.length 256
      omega
    rw [h3] at hl ⊢
    exact ⟨hl, List.take_length⟩
  · rw [if_neg hl] at h
    have h2 : 0 = v.length := by simpa using h
    rw [← h2] at hl
    omega

theorem legalBlock_of_not {t : Nat} {v : Bytes} (h : t ≠ 12 ∧ t ≠ 0x2ab2 ∧ t ≠ 0 ∧ t ≠ 15 ∧ t ≠ 16 ∧ t ≠ 2 ∧ t ≠ 13) :
    LegalBlock t v := by
  unfold LegalBlock
  obtain ⟨h1, h2, h3, h4, h5, h6, h7⟩ := h
  refine ⟨fun h => ?_, fun h => ?_, fun h => ?_, fun h => ?_⟩
  · rcases h with h | h
    · exact absurd h h1
    · exact absurd h h2
  · rcases h with h | h | h
    · exact absurd h h3
    · exact absurd h h4
    · exact absurd h h5
  · exact absurd h h6
  · exact absurd h h7

theorem preferred_legal {v : Bytes} (h : (preferredDecode v).2 = v.length) (hv : v ≠ []) :
    LegalBlock 13 v := by
  unfold preferredDecode CONNECTION_ID_MAX_SIZE at h
  dsimp only at h
  refine ⟨by omega, by omega, by omega, fun _ => ?_⟩
  by_cases h1 : v.length ≥ 41
  · rw [if_pos h1] at h
    by_cases h2 : (v.getD 24 0).toNat > 0 ∧ (v.getD 24 0).toNat ≤ 20 ∧
        25 + (v.getD 24 0).toNat + 16 ≤ v.length
    · rw [if_pos h2] at h
      dsimp only at h
      generalize hl : (v.getD 24 0).toNat = l at h h2
      have e0 : v = v.take 4 ++ (v.drop 4).take 2 ++ (v.drop 6).take 16 ++ (v.drop 22).take 2 ++
          (v.drop 24).take 1 ++ (v.drop 25).take l ++ v.drop (25 + l) := by
        have a (k j : Nat) : v.take k ++ (v.drop k).take j = v.take (k + j) := by
          rw [List.take_add]
        rw [a, a, a, a, a, List.take_append_drop]
      have hg : v.getD 24 0 = v[24]'(by omega) := by
        simp [List.getD_eq_getElem?_getD, List.getElem?_eq_getElem (show 24 < v.length by omega)]
      have e1 : (v.drop 24).take 1 = [v.getD 24 0] := by
        rw [hg, List.drop_eq_getElem_cons (by omega)]
        rfl
      refine ⟨_, _, _, _, _, _, _, e0, ?_, ?_, ?_, ?_, ?_, ?_, ?_, ?_, ?_⟩
      · rw [List.length_take]; omega
      · rw [List.length_take, List.length_drop]; omega
      · rw [List.length_take, List.length_drop]; omega
      · rw [List.length_take, List.length_drop]; omega
      · rw [List.length_take, List.length_drop]; omega
      · rw [e1, List.length_take, List.length_drop]
        simp only [bigEndian, List.length_nil, Nat.pow_zero, Nat.mul_one, Nat.add_zero]
        omega
      · rw [List.length_take, List.length_drop]; omega
      · rw [List.length_take, List.length_drop]; omega
      · rw [List.length_drop]; omega
    · rw [if_neg h2] at h
      dsimp only at h
      omega
  · rw [if_neg h1] at h
    dsimp only at h
    exact absurd (List.length_eq_zero_iff.mp h.symm) hv


theorem upgrade_not_draft27 {old new : Nat} (h : processVersionUpgrade old new = .done)
    (hne : new ≠ old) : new ≠ DRAFT27 := by
  rintro rfl
  unfold processVersionUpgrade at h
  rw [if_neg hne] at h
  have : (supportedVersions.find? (fun e => e.1 == DRAFT27)).bind Prod.snd = none := by decide
  rw [this] at h
  cases h

theorem applied_keep {s : RState} {t : Nat} {v : Bytes} (p : Params)
    (h0 : t ≠ 0) (h16 : t ≠ 16) (hc : CheckedParam s.c t v) : Applied s t v [] (s.setRem p) :=
  { errs := rfl, codes := by simp, present := rfl, same := SameSetup.refl _, version := .inl rfl,
    checked := fun _ _ => hc,
    failed := fun h h' => by simp [RState.setRem, h] at h',
    ocid := by simp [h0, RState.setRem], rcid := by simp [h16, RState.setRem] }

theorem applied_fail {s : RState} {t : Nat} {v : Bytes} (code : Nat) (p : Params)
    (h0 : t ≠ 0) (h16 : t ≠ 16) (hc : TransportParameterError code) :
    Applied s t v [code] ((s.fail code).setRem p) :=
  { errs := rfl, codes := by simpa using hc, present := rfl, same := SameSetup.refl _,
    version := .inl rfl, checked := fun _ h => (by simp at h),
    failed := fun _ _ => .inl (by simp),
    ocid := by simp [h0, RState.setRem, RState.fail], rcid := by simp [h16, RState.setRem, RState.fail] }

theorem applied_fail' {s : RState} {t : Nat} {v : Bytes} (code : Nat)
    (h0 : t ≠ 0) (h16 : t ≠ 16) (hc : TransportParameterError code) : Applied s t v [code] (s.fail code) :=
  applied_fail code s.c.rem h0 h16 hc

theorem transportError8 : TransportParameterError PARAMETER_ERROR := .inl rfl

/-- A parameter without check of its value. -/
theorem applied_plain {s : RState} {t : Nat} {v : Bytes} (f : Nat → Params) (_ht : IntegerType t)
    (hb : LegalBlock t v) (hi : ∀ n, CheckedInteger t n) (h15 : t ≠ 15) (h2 : t ≠ 2) (h0 : t ≠ 0) (h16 : t ≠ 16) :
    ∃ new, Applied s t v new ((tpVarintDecode s v).2.setRem (f (tpVarintDecode s v).1)) := by
  rcases tpVarintDecode_cases s v with ⟨n, hv, he⟩ | ⟨n, he⟩
  · rw [he]
    exact ⟨_, applied_keep _ h0 h16
      ⟨fun _ => ⟨n, hv, hi n⟩, .inl hb, fun h => absurd h h15, fun h => absurd h h2⟩⟩
  · rw [he]
    exact ⟨_, applied_fail _ _ h0 h16 transportError8⟩

theorem mulwrap {n : Nat} (h : ¬ (u32 (u32 n * 1000) > 0x4000 * 1000)) :
    n ≤ 2 ^ 14 ∨ 2 ^ 32 ≤ n * 1000 := by
  by_cases h1 : n ≤ 2 ^ 14 ∨ 2 ^ 32 ≤ n * 1000
  · exact h1
  · unfold u32 at h
    rw [Nat.mod_eq_of_lt (show n < 4294967296 by omega), Nat.mod_eq_of_lt (by omega)] at h
    omega

/-- A parameter with a check of its value. -/
theorem applied_value {s : RState} {t : Nat} {v : Bytes} {s' : RState}
    (k : Nat → RState → Option RState)
    (h : k (tpVarintDecode s v).1 (tpVarintDecode s v).2 = some s')
    (hfail : ∀ n s', k n (s.fail PARAMETER_ERROR) = some s' →
      ∃ new, Applied s t v new s')
    (hok : ∀ n s', Varint v n → k n s = some s' → ∃ new, Applied s t v new s') :
    ∃ new, Applied s t v new s' := by
  rcases tpVarintDecode_cases s v with ⟨n, hv, he⟩ | ⟨n, he⟩
  · rw [he] at h
    exact hok n s' hv h
  · rw [he] at h
    exact hfail n s' h

theorem applied_ret {s s' : RState} {t : Nat} {v : Bytes} (hr : s.ret = true)
    (h0 : t ≠ 0) (h16 : t ≠ 16) (h : s' = s) : Applied s t v [] s' := by
  subst h
  exact { errs := rfl, codes := by simp, present := rfl, same := SameSetup.refl _,
          version := .inl rfl, checked := fun h _ => by simp [h] at hr,
          failed := fun h _ => by simp [h] at hr, ocid := by simp [h0], rcid := by simp [h16] }

theorem checked_int {c : Conn} {t n : Nat} {v : Bytes} (hv : Varint v n) (hi : CheckedInteger t n)
    (hb : LegalBlock t v) (h15 : t ≠ 15) (h2 : t ≠ 2) : CheckedParam c t v :=
  ⟨fun _ => ⟨n, hv, hi⟩, .inl hb, fun h => absurd h h15, fun h => absurd h h2⟩

theorem applied_update {s s' : RState} {t : Nat} {v : Bytes} 
    (h0 : t ≠ 0) (h16 : t ≠ 16) (hc : s.ret = false → CheckedParam s.c t v)
    (he : s'.c.errs = s.c.errs) (hp : s'.present = s.present) (hs : SameSetup s.c s'.c)
    (hv : s'.c.version = s.c.version) (hr : s'.ret = s.ret) (ho : s'.ocid = s.ocid)
    (hrc : s'.rcid = s.rcid) : Applied s t v [] s' :=
  { errs := he, codes := by simp, present := hp, same := hs, version := .inl hv,
    checked := fun h _ => hc h, failed := fun h h' => (by rw [hr, h] at h'; cases h'),
    ocid := by simp [h0, ho], rcid := by simp [h16, hrc] }

macro "blk" : tactic => `(tactic| exact legalBlock_of_not (by decide))
macro "ci" : tactic => `(tactic| (unfold CheckedInteger; omega))

/-- What one parameter does. -/
theorem applyParam_applied {s s' : RState} {t : Nat} {v : Bytes} (h : applyParam s t v = some s') :
    ∃ new, Applied s t v new s' := by
  unfold applyParam at h
  dsimp only at h
  by_cases h5 : t = 5
  · subst h5
    rw [if_pos rfl] at h
    obtain rfl := Option.some.inj h
    exact applied_plain (t := 5) (fun n => { s.c.rem with maxStreamDataBidiLocal := n }) (by decide) (by blk)
      (by intro n; ci) (by decide) (by decide) (by decide) (by decide)
  rw [if_neg h5] at h
  by_cases h6 : t = 6
  · subst h6
    rw [if_pos rfl] at h
    obtain rfl := Option.some.inj h
    exact applied_plain (t := 6) (fun n => { s.c.rem with maxStreamDataBidiRemote := n }) (by decide) (by blk)
      (by intro n; ci) (by decide) (by decide) (by decide) (by decide)
  rw [if_neg h6] at h
  by_cases h7 : t = 7
  · subst h7
    rw [if_pos rfl] at h
    obtain rfl := Option.some.inj h
    exact applied_plain (t := 7) (fun n => { s.c.rem with maxStreamDataUni := n }) (by decide) (by blk)
      (by intro n; ci) (by decide) (by decide) (by decide) (by decide)
  rw [if_neg h7] at h
  by_cases h4 : t = 4
  · subst h4
    rw [if_pos rfl] at h
    obtain rfl := Option.some.inj h
    exact applied_plain (t := 4) (fun n => { s.c.rem with maxData := n }) (by decide) (by blk)
      (by intro n; ci) (by decide) (by decide) (by decide) (by decide)
  rw [if_neg h4] at h
  by_cases h8 : t = 8
  · subst h8
    rw [if_pos rfl] at h
    obtain rfl := Option.some.inj h
    exact applied_plain (t := 8) (fun n => { s.c.rem with maxStreamsBidi := n }) (by decide) (by blk)
      (by intro n; ci) (by decide) (by decide) (by decide) (by decide)
  rw [if_neg h8] at h
  by_cases h1 : t = 1
  · subst h1
    rw [if_pos rfl] at h
    obtain rfl := Option.some.inj h
    exact applied_plain (t := 1) (fun n => { s.c.rem with idleTimeout := n }) (by decide) (by blk)
      (by intro n; ci) (by decide) (by decide) (by decide) (by decide)
  rw [if_neg h1] at h
  by_cases h3 : t = 3
  · subst h3
    refine applied_value (t := 3) (fun n s2 => if s2.ret then some s2
      else if n < 1200 ∨ n > 65527 then some (s2.fail PARAMETER_ERROR)
      else some (s2.setRem { s.c.rem with maxPacketSize := n })) h ?_ ?_
    · intro n s' h
      obtain rfl := Option.some.inj h
      exact ⟨_, applied_fail' _ (by decide) (by decide) transportError8⟩
    · intro n s' hv h
      dsimp only at h
      by_cases hr : s.ret = true
      · rw [if_pos hr] at h
        exact ⟨_, applied_ret hr (by decide) (by decide) (Option.some.inj h).symm⟩
      · rw [if_neg hr] at h
        by_cases hn : n < 1200 ∨ n > 65527
        · rw [if_pos hn] at h
          obtain rfl := Option.some.inj h
          exact ⟨_, applied_fail' _ (by decide) (by decide) transportError8⟩
        · rw [if_neg hn] at h
          obtain rfl := Option.some.inj h
          exact ⟨_, applied_keep _ (by decide) (by decide)
            (checked_int hv (by ci) (by blk) (by decide) (by decide))⟩
  rw [if_neg h3] at h
  by_cases h2 : t = 2
  · subst h2
    rw [if_pos rfl] at h
    by_cases hc : (!s.c.client) = true
    · rw [if_pos hc] at h
      obtain rfl := Option.some.inj h
      exact ⟨_, applied_fail' _ (by decide) (by decide) transportError8⟩
    · rw [if_neg hc] at h
      by_cases hl : v.length ≠ 16
      · rw [if_pos hl] at h
        obtain rfl := Option.some.inj h
        exact ⟨_, applied_fail' _ (by decide) (by decide) transportError8⟩
      · rw [if_neg hl] at h
        obtain rfl := Option.some.inj h
        refine ⟨_, applied_update (by decide) (by decide) (fun _ => ?_) rfl rfl (SameSetup.refl _) rfl rfl rfl rfl⟩
        exact ⟨fun h => absurd h (by decide), .inl ⟨by omega, by omega, fun _ => by omega, by omega⟩, by omega,
          fun _ => by simpa using hc⟩
  rw [if_neg h2] at h
  by_cases h10 : t = 10
  · subst h10
    rw [if_pos rfl] at h
    obtain rfl := Option.some.inj h
    exact applied_plain (t := 10) (fun n => { s.c.rem with ackDelayExponent := n % 256 }) (by decide) (by blk)
      (by intro n; ci) (by decide) (by decide) (by decide) (by decide)
  rw [if_neg h10] at h
  by_cases h9 : t = 9
  · subst h9
    rw [if_pos rfl] at h
    obtain rfl := Option.some.inj h
    exact applied_plain (t := 9) (fun n => { s.c.rem with maxStreamsUni := n }) (by decide) (by blk)
      (by intro n; ci) (by decide) (by decide) (by decide) (by decide)
  rw [if_neg h9] at h
  by_cases h13 : t = 13
  · subst h13
    rw [if_pos rfl] at h
    have key : ∀ p, (if (preferredDecode v).2 ≠ v.length then
        some ((s.setRem p).fail PARAMETER_ERROR) else some (s.setRem p)) = some s' →
        ∃ new, Applied s 13 v new s' := by
      intro p h
      by_cases hd : (preferredDecode v).2 ≠ v.length
      · rw [if_pos hd] at h
        obtain rfl := Option.some.inj h
        exact ⟨_, applied_fail (t := 13) PARAMETER_ERROR p (by decide) (by decide) transportError8⟩
      · rw [if_neg hd] at h
        obtain rfl := Option.some.inj h
        refine ⟨_, applied_keep (t := 13) _ (by decide) (by decide)
          ⟨fun h => absurd h (by decide), ?_, by omega, by omega⟩⟩
        by_cases hv : v = []
        · exact .inr ⟨rfl, hv⟩
        · exact .inl (preferred_legal (by omega) hv)
    cases hp : (preferredDecode v).1 with
    | none => rw [hp] at h; exact key s.c.rem h
    | some a => rw [hp] at h; exact key _ h
  rw [if_neg h13] at h
  by_cases h12 : t = 12
  · subst h12
    rw [if_pos rfl] at h
    by_cases hl : v.length ≠ 0
    · rw [if_pos hl] at h
      obtain rfl := Option.some.inj h
      exact ⟨_, applied_fail' _ (by decide) (by decide) transportError8⟩
    · rw [if_neg hl] at h
      obtain rfl := Option.some.inj h
      exact ⟨_, applied_keep _ (by decide) (by decide) ⟨fun h => absurd h (by decide),
        .inl ⟨fun _ => List.length_eq_zero_iff.mp (by omega), by omega, by omega, by omega⟩, by omega, by omega⟩⟩
  rw [if_neg h12] at h
  by_cases h11 : t = 11
  · subst h11
    refine applied_value (t := 11) (fun n s2 => if u32 (u32 n * 1000) > 0x4000 * 1000 then
      some ((s2.setRem { s.c.rem with maxAckDelay := u32 (u32 n * 1000) }).fail PARAMETER_ERROR)
      else some (s2.setRem { s.c.rem with maxAckDelay := u32 (u32 n * 1000) })) h ?_ ?_
    · intro n s' h
      dsimp only at h
      by_cases hn : u32 (u32 n * 1000) > 0x4000 * 1000
      · rw [if_pos hn] at h
        obtain rfl := Option.some.inj h
        refine ⟨[8, 8], ?_⟩
        exact { errs := rfl, codes := by simp [TransportParameterError], present := rfl, same := SameSetup.refl _,
                version := .inl rfl, checked := fun _ h => (by simp at h),
                failed := fun _ _ => .inl (by simp), ocid := rfl, rcid := rfl }
      · rw [if_neg hn] at h
        obtain rfl := Option.some.inj h
        exact ⟨_, applied_fail _ _ (by decide) (by decide) transportError8⟩
    · intro n s' hv h
      dsimp only at h
      by_cases hn : u32 (u32 n * 1000) > 0x4000 * 1000
      · rw [if_pos hn] at h
        obtain rfl := Option.some.inj h
        exact ⟨_, applied_fail PARAMETER_ERROR { s.c.rem with maxAckDelay := u32 (u32 n * 1000) } (by decide) (by decide) transportError8⟩
      · rw [if_neg hn] at h
        obtain rfl := Option.some.inj h
        have := mulwrap hn
        exact ⟨_, applied_keep _ (by decide) (by decide)
          (checked_int hv (by ci) (by blk) (by decide) (by decide))⟩
  rw [if_neg h11] at h
  by_cases h0 : t = 0
  · subst h0
    rw [if_pos rfl] at h
    obtain rfl := Option.some.inj h
    unfold RState.cidResult
    by_cases hd : (tpCidDecode v).2 = true
    · rw [if_pos hd]
      obtain ⟨hl, he⟩ := tpCidDecode_ok hd
      refine ⟨[], ?_⟩
      exact { errs := rfl, codes := by simp, present := rfl, same := SameSetup.refl _,
              version := .inl rfl,
              checked := fun _ _ => ⟨fun h => absurd h (by decide), .inl ⟨by omega, fun _ => hl, by omega, by omega⟩, by omega, by omega⟩,
              failed := fun _ h => (by cases h), ocid := (by simp [he]), rcid := rfl }
    · rw [if_neg hd]
      refine ⟨[8], ?_⟩
      exact { errs := rfl, codes := by simp [TransportParameterError], present := rfl, same := SameSetup.refl _,
              version := .inl rfl, checked := fun _ h => (by simp at h),
              failed := fun _ _ => .inl (by simp), ocid := (by simp [RState.fail, hd]), rcid := rfl }
  rw [if_neg h0] at h
  by_cases h16 : t = 16
  · subst h16
    rw [if_pos rfl] at h
    obtain rfl := Option.some.inj h
    unfold RState.cidResult
    by_cases hd : (tpCidDecode v).2 = true
    · rw [if_pos hd]
      obtain ⟨hl, he⟩ := tpCidDecode_ok hd
      refine ⟨[], ?_⟩
      exact { errs := rfl, codes := by simp, present := rfl, same := SameSetup.refl _,
              version := .inl rfl,
              checked := fun _ _ => ⟨fun h => absurd h (by decide), .inl ⟨by omega, fun _ => hl, by omega, by omega⟩, by omega, by omega⟩,
              failed := fun _ h => (by cases h), rcid := (by simp [he]), ocid := rfl }
    · rw [if_neg hd]
      refine ⟨[8], ?_⟩
      exact { errs := rfl, codes := by simp [TransportParameterError], present := rfl, same := SameSetup.refl _,
              version := .inl rfl, checked := fun _ h => (by simp at h),
              failed := fun _ _ => .inl (by simp), rcid := (by simp [RState.fail, hd]), ocid := rfl }
  rw [if_neg h16] at h
  by_cases h15 : t = 15
  · subst h15
    rw [if_pos rfl] at h
    unfold RState.cidResult at h
    by_cases hd : (tpCidDecode v).2 = true
    · obtain ⟨hl, he⟩ := tpCidDecode_ok hd
      rw [if_pos hd] at h
      dsimp only at h
      rw [if_neg (by decide), he] at h
      by_cases hc : (!compareCidEq s.c.remoteCid v) = true
      · rw [if_pos hc] at h
        obtain rfl := Option.some.inj h
        refine ⟨[8], ?_⟩
        exact { errs := rfl, codes := by simp [TransportParameterError], present := rfl, same := SameSetup.refl _,
                version := .inl rfl, checked := fun _ h => (by simp at h),
                failed := fun _ _ => .inl (by simp), ocid := rfl, rcid := rfl }
      · rw [if_neg hc] at h
        obtain rfl := Option.some.inj h
        have hcid : v = s.c.remoteCid := by
          unfold compareCidEq at hc
          by_cases hlen : s.c.remoteCid.length = v.length
          · rw [if_pos hlen] at hc
            simp at hc
            exact hc.symm
          · rw [if_neg hlen] at hc
            simp at hc
        refine ⟨[], ?_⟩
        exact { errs := rfl, codes := by simp, present := rfl, same := SameSetup.refl _,
                version := .inl rfl,
                checked := fun _ _ => ⟨fun h => absurd h (by decide), .inl ⟨by omega, fun _ => hl, by omega, by omega⟩, fun _ => hcid, by omega⟩,
                failed := fun _ h => (by cases h), rcid := rfl, ocid := rfl }
    · rw [if_neg hd] at h
      rw [if_pos (show (RState.fail _ _).ret = true from rfl)] at h
      obtain rfl := Option.some.inj h
      refine ⟨[8], ?_⟩
      exact { errs := rfl, codes := by simp [TransportParameterError], present := rfl, same := SameSetup.refl _,
              version := .inl rfl, checked := fun _ h => (by simp at h),
              failed := fun _ _ => .inl (by simp), rcid := rfl, ocid := rfl }
  rw [if_neg h15] at h
  by_cases h14 : t = 14
  · subst h14
    rw [if_pos rfl] at h
    obtain rfl := Option.some.inj h
    exact applied_plain (t := 14) (fun n => { s.c.rem with activeCidLimit := u32 n }) (by decide) (by blk)
      (by intro n; ci) (by decide) (by decide) (by decide) (by decide)
  rw [if_neg h14] at h
  by_cases h32 : t = 32
  · subst h32
    rw [if_pos rfl] at h
    obtain rfl := Option.some.inj h
    exact applied_plain (t := 32) (fun n => { s.c.rem with maxDatagram := u32 n }) (by decide) (by blk)
      (by intro n; ci) (by decide) (by decide) (by decide) (by decide)
  rw [if_neg h32] at h
  by_cases hlb : t = 0x1057
  · subst hlb
    refine applied_value (t := 0x1057) (fun n s2 => if s2.ret then some s2
      else if n = 0 then some (s2.setRem { s.c.rem with lossBit := 1 })
      else if n = 1 then some (s2.setRem { s.c.rem with lossBit := 2 })
      else some (s2.fail PARAMETER_ERROR)) h ?_ ?_
    · intro n s' h
      obtain rfl := Option.some.inj h
      exact ⟨_, applied_fail' _ (by decide) (by decide) transportError8⟩
    · intro n s' hv h
      dsimp only at h
      by_cases hr : s.ret = true
      · rw [if_pos hr] at h
        exact ⟨_, applied_ret hr (by decide) (by decide) (Option.some.inj h).symm⟩
      · rw [if_neg hr] at h
        by_cases hn : n = 0
        · rw [if_pos hn] at h
          obtain rfl := Option.some.inj h
          exact ⟨_, applied_keep _ (by decide) (by decide)
            (checked_int hv (by ci) (by blk) (by decide) (by decide))⟩
        · rw [if_neg hn] at h
          by_cases hn1 : n = 1
          · rw [if_pos hn1] at h
            obtain rfl := Option.some.inj h
            exact ⟨_, applied_keep _ (by decide) (by decide)
              (checked_int hv (by ci) (by blk) (by decide) (by decide))⟩
          · rw [if_neg hn1] at h
            obtain rfl := Option.some.inj h
            exact ⟨_, applied_fail' _ (by decide) (by decide) transportError8⟩
  rw [if_neg hlb] at h
  by_cases hma : t = 0xff04de1b
  · subst hma
    refine applied_value (t := 0xff04de1b) (fun n s2 =>
      if (s2.setRem { s.c.rem with minAckDelay := n }).ret = false ∧ (n = 0 ∨ n > 0xFFFFFF) then
        some ((s2.setRem { s.c.rem with minAckDelay := n }).fail PROTOCOL_VIOLATION)
      else if (s2.setRem { s.c.rem with minAckDelay := n }).c.loc.minAckDelay > 0 then
        some { s2.setRem { s.c.rem with minAckDelay := n } with
          c := { (s2.setRem { s.c.rem with minAckDelay := n }).c with ackFrequency := true } }
      else some (s2.setRem { s.c.rem with minAckDelay := n })) h ?_ ?_
    · intro n s' h
      dsimp only at h
      rw [if_neg (by simp [RState.setRem, RState.fail])] at h
      refine ⟨[8], ?_⟩
      by_cases hl : ((s.fail PARAMETER_ERROR).setRem { s.c.rem with minAckDelay := n }).c.loc.minAckDelay > 0
      · rw [if_pos hl] at h
        obtain rfl := Option.some.inj h
        exact { errs := rfl, codes := by simp [TransportParameterError], present := rfl, same := SameSetup.refl _,
                version := .inl rfl, checked := fun _ h => (by simp at h),
                failed := fun _ _ => .inl (by simp), rcid := rfl, ocid := rfl }
      · rw [if_neg hl] at h
        obtain rfl := Option.some.inj h
        exact { errs := rfl, codes := by simp [TransportParameterError], present := rfl, same := SameSetup.refl _,
                version := .inl rfl, checked := fun _ h => (by simp at h),
                failed := fun _ _ => .inl (by simp), rcid := rfl, ocid := rfl }
    · intro n s' hv h
      dsimp only at h
      by_cases hn : (s.setRem { s.c.rem with minAckDelay := n }).ret = false ∧ (n = 0 ∨ n > 0xFFFFFF)
      · rw [if_pos hn] at h
        obtain rfl := Option.some.inj h
        exact ⟨_, applied_fail PROTOCOL_VIOLATION { s.c.rem with minAckDelay := n } (by decide) (by decide) (.inr (.inl rfl))⟩
      · rw [if_neg hn] at h
        have hc : s.ret = false → CheckedParam s.c 0xff04de1b v := fun hr =>
          checked_int hv (by
            have : ¬ (n = 0 ∨ n > 0xFFFFFF) := fun h => hn ⟨hr, h⟩
            ci) (by blk) (by decide) (by decide)
        by_cases hl : (s.setRem { s.c.rem with minAckDelay := n }).c.loc.minAckDelay > 0
        · rw [if_pos hl] at h
          obtain rfl := Option.some.inj h
          exact ⟨_, applied_update (by decide) (by decide) hc rfl rfl (SameSetup.refl _) rfl rfl rfl rfl⟩
        · rw [if_neg hl] at h
          obtain rfl := Option.some.inj h
          exact ⟨_, applied_update (by decide) (by decide) hc rfl rfl (SameSetup.refl _) rfl rfl rfl rfl⟩
  rw [if_neg hma] at h
  by_cases hts : t = 0x7158
  · subst hts
    refine applied_value (t := 0x7158) (fun n s2 => if s2.ret then some s2
      else if n < 1 ∨ n > 3 then some (s2.fail PARAMETER_ERROR)
      else some (s2.setRem { s.c.rem with timeStamp := n })) h ?_ ?_
    · intro n s' h
      obtain rfl := Option.some.inj h
      exact ⟨_, applied_fail' _ (by decide) (by decide) transportError8⟩
    · intro n s' hv h
      dsimp only at h
      by_cases hr : s.ret = true
      · rw [if_pos hr] at h
        exact ⟨_, applied_ret hr (by decide) (by decide) (Option.some.inj h).symm⟩
      · rw [if_neg hr] at h
        by_cases hn : n < 1 ∨ n > 3
        · rw [if_pos hn] at h
          obtain rfl := Option.some.inj h
          exact ⟨_, applied_fail' _ (by decide) (by decide) transportError8⟩
        · rw [if_neg hn] at h
          obtain rfl := Option.some.inj h
          exact ⟨_, applied_keep _ (by decide) (by decide)
            (checked_int hv (by ci) (by blk) (by decide) (by decide))⟩
  rw [if_neg hts] at h
  by_cases hgq : t = 0x2ab2
  · subst hgq
    rw [if_pos rfl] at h
    by_cases hl : v.length ≠ 0
    · rw [if_pos hl] at h
      obtain rfl := Option.some.inj h
      exact ⟨_, applied_fail' _ (by decide) (by decide) transportError8⟩
    · rw [if_neg hl] at h
      obtain rfl := Option.some.inj h
      exact ⟨_, applied_keep _ (by decide) (by decide) ⟨fun h => absurd h (by decide),
        .inl ⟨fun _ => List.length_eq_zero_iff.mp (by omega), by omega, by omega, by omega⟩, by omega, by omega⟩⟩
  rw [if_neg hgq] at h
  by_cases hmp : t = 0x0f739bbc1b666d0d
  · subst hmp
    rw [if_pos rfl] at h
    obtain rfl := Option.some.inj h
    exact applied_plain (t := 0x0f739bbc1b666d0d) (fun n => { s.c.rem with multipath := true, maxPathId := n }) (by decide) (by blk)
      (by intro n; ci) (by decide) (by decide) (by decide) (by decide)
  rw [if_neg hmp] at h
  by_cases hvn : t = 0x11
  · subst hvn
    rw [if_pos rfl] at h
    have hck : CheckedParam s.c 0x11 v := ⟨fun h => absurd h (by decide), .inl (by blk), by omega, by omega⟩
    cases hp : processVersionNegotiation s.c.client s.c.version v with
    | fail code =>
      rw [hp] at h
      obtain rfl := Option.some.inj h
      refine ⟨_, applied_fail' _ (by decide) (by decide) ?_⟩
      unfold processVersionNegotiation at hp
      have hcl (bs : Bytes) (code : Nat) (h : vnClientLoop bs = .fail code) : code = 8 := by
        fun_induction vnClientLoop bs with
        | case1 => cases h
        | case2 => cases h
        | case3 _ _ _ _ _ _ ih => exact ih h
        | case4 => cases h; rfl
      have hsl (bs : Bytes) (code : Nat) (h : vnServerLoop bs = .fail code) : code = 8 := by
        fun_induction vnServerLoop bs with
        | case1 => cases h
        | case2 _ _ _ _ _ ih => exact ih h
        | case3 => cases h; rfl
      split at hp
      · cases hp; exact .inl rfl
      · rename_i current rest _
        by_cases hcur : current ≠ s.c.version
        · rw [if_pos hcur] at hp
          cases hp
          exact .inr (.inr rfl)
        · rw [if_neg hcur] at hp
          cases hcl2 : s.c.client with
          | true => rw [hcl2] at hp; exact .inl (hsl _ _ hp)
          | false => rw [hcl2] at hp; exact .inl (hcl _ _ hp)
    | ok vn =>
      rw [hp] at h
      dsimp only at h
      have hserver : s.c.client = true → vn = 0 := by
        intro hcl
        unfold processVersionNegotiation at hp
        rw [hcl] at hp
        have hsl (bs : Bytes) (vn : Nat) (h : vnServerLoop bs = .ok vn) : vn = 0 := by
          fun_induction vnServerLoop bs with
          | case1 => cases h; rfl
          | case2 _ _ _ _ _ ih => exact ih h
          | case3 => cases h
        split at hp
        · cases hp
        · rename_i current rest _
          by_cases hcur : current ≠ s.c.version
          · rw [if_pos hcur] at hp; cases hp
          · rw [if_neg hcur] at hp
            exact hsl _ _ hp
      by_cases hu : vn ≠ 0 ∧ s.c.version ≠ vn
      · rw [if_pos hu] at h
        have hcf : s.c.client = false := by
          cases hc : s.c.client with
          | false => rfl
          | true => exact absurd (hserver hc) hu.1
        cases hg : processVersionUpgrade s.c.version vn with
        | done =>
          rw [hg] at h
          obtain rfl := Option.some.inj h
          refine ⟨[], ?_⟩
          exact { errs := rfl, codes := by simp, present := rfl, same := SameSetup.refl _,
                  version := .inr ⟨rfl, hcf, upgrade_not_draft27 hg (fun h => hu.2 h.symm)⟩,
                  checked := fun _ _ => hck,
                  failed := fun _ h => (by cases h), rcid := rfl, ocid := rfl }
        | refused =>
          rw [hg] at h
          obtain rfl := Option.some.inj h
          refine ⟨[], ?_⟩
          exact { errs := rfl, codes := by simp, present := rfl, same := SameSetup.refl _,
                  version := .inl rfl,
                  checked := fun _ _ => hck,
                  failed := fun _ _ => .inr ⟨rfl, hcf, vn, by rw [← hcf]; exact hp, hu.1, hg⟩, rcid := rfl, ocid := rfl }
        | hang => rw [hg] at h; cases h
      · rw [if_neg hu] at h
        obtain rfl := Option.some.inj h
        exact ⟨_, applied_update (by decide) (by decide) (fun _ => hck) rfl rfl (SameSetup.refl _) rfl rfl rfl rfl⟩
  rw [if_neg hvn] at h
  by_cases hbdp : t = 0xebd9
  · subst hbdp
    refine applied_value (t := 0xebd9) (fun n s2 => if s2.ret then some s2
      else if n > 1 then some (s2.fail PARAMETER_ERROR)
      else some (s2.setRem { s.c.rem with bdpFrame := n })) h ?_ ?_
    · intro n s' h
      obtain rfl := Option.some.inj h
      exact ⟨_, applied_fail' _ (by decide) (by decide) transportError8⟩
    · intro n s' hv h
      dsimp only at h
      by_cases hr : s.ret = true
      · rw [if_pos hr] at h
        exact ⟨_, applied_ret hr (by decide) (by decide) (Option.some.inj h).symm⟩
      · rw [if_neg hr] at h
        by_cases hn : n > 1
        · rw [if_pos hn] at h
          obtain rfl := Option.some.inj h
          exact ⟨_, applied_fail' _ (by decide) (by decide) transportError8⟩
        · rw [if_neg hn] at h
          obtain rfl := Option.some.inj h
          exact ⟨_, applied_keep _ (by decide) (by decide)
            (checked_int hv (by ci) (by blk) (by decide) (by decide))⟩
  rw [if_neg hbdp] at h
  by_cases had : t = 0x9f81a176
  · subst had
    refine applied_value (t := 0x9f81a176) (fun n s2 => if s2.ret then some s2
      else if n > 2 then some (s2.fail PARAMETER_ERROR)
      else
        some { s2.setRem { s.c.rem with addressDiscovery := n + 1 } with
          c := { (s2.setRem { s.c.rem with addressDiscovery := n + 1 }).c with
            addressProvider := decide ((n + 1) &&& 2 ≠ 0) && decide (s2.c.loc.addressDiscovery &&& 1 ≠ 0)
            addressReceiver := decide ((n + 1) &&& 1 ≠ 0) && decide (s2.c.loc.addressDiscovery &&& 2 ≠ 0) } }) h ?_ ?_
    · intro n s' h
      obtain rfl := Option.some.inj h
      exact ⟨_, applied_fail' _ (by decide) (by decide) transportError8⟩
    · intro n s' hv h
      dsimp only at h
      by_cases hr : s.ret = true
      · rw [if_pos hr] at h
        exact ⟨_, applied_ret hr (by decide) (by decide) (Option.some.inj h).symm⟩
      · rw [if_neg hr] at h
        by_cases hn : n > 2
        · rw [if_pos hn] at h
          obtain rfl := Option.some.inj h
          exact ⟨_, applied_fail' _ (by decide) (by decide) transportError8⟩
        · rw [if_neg hn] at h
          obtain rfl := Option.some.inj h
          exact ⟨_, applied_update (by decide) (by decide)
            (fun _ => checked_int hv (by ci) (by blk) (by decide) (by decide)) rfl rfl (SameSetup.refl _) rfl rfl rfl rfl⟩
  rw [if_neg had] at h
  obtain rfl := Option.some.inj h
  refine ⟨[], applied_update h0 h16 (fun _ => ⟨fun hi => ?_, .inl ?_, fun h => absurd h h15, fun h => absurd h h2⟩)
    rfl rfl (SameSetup.refl _) rfl rfl rfl rfl⟩
  · simp only [IntegerType, List.mem_cons, List.not_mem_nil, or_false] at hi
    omega
  · exact legalBlock_of_not ⟨h12, hgq, h0, h15, h16, h2, h13⟩

theorem ite_none {α : Type} {c : Prop} [Decidable c] {a b : Option α}
    (h : (if c then a else b) = none) (ha : a ≠ none) : b = none := by
  by_cases hc : c
  · rw [if_pos hc] at h; exact absurd h ha
  · rw [if_neg hc] at h; exact h

/-- The only endless case. -/
theorem applyParam_none {s : RState} {t : Nat} {v : Bytes} (h : applyParam s t v = none) :
    t = 0x11 ∧ ∃ vn, processVersionNegotiation s.c.client s.c.version v = .ok vn ∧
      vn ≠ 0 ∧ processVersionUpgrade s.c.version vn = .hang := by
  by_cases hvn : t = 0x11
  · subst hvn
    refine ⟨rfl, ?_⟩
    unfold applyParam at h
    dsimp only at h
    rw [if_neg (by decide), if_neg (by decide), if_neg (by decide), if_neg (by decide), if_neg (by decide),
      if_neg (by decide), if_neg (by decide), if_neg (by decide), if_neg (by decide), if_neg (by decide),
      if_neg (by decide), if_neg (by decide), if_neg (by decide), if_neg (by decide), if_neg (by decide),
      if_neg (by decide), if_neg (by decide), if_neg (by decide), if_neg (by decide), if_neg (by decide),
      if_neg (by decide), if_neg (by decide), if_neg (by decide), if_pos rfl] at h
    cases hp : processVersionNegotiation s.c.client s.c.version v with
    | fail code => rw [hp] at h; cases h
    | ok vn =>
      rw [hp] at h
      dsimp only at h
      by_cases hu : vn ≠ 0 ∧ s.c.version ≠ vn
      · rw [if_pos hu] at h
        cases hg : processVersionUpgrade s.c.version vn with
        | done => rw [hg] at h; cases h
        | refused => rw [hg] at h; cases h
        | hang => exact ⟨vn, rfl, hu.1, hg⟩
      · rw [if_neg hu] at h; cases h
  · exfalso
    unfold applyParam at h
    dsimp only at h
    iterate 23 replace h := ite_none h (by first | exact Option.some_ne_none _ | ((repeat' split) <;> exact Option.some_ne_none _))
    rw [if_neg hvn] at h
    iterate 2 replace h := ite_none h (by first | exact Option.some_ne_none _ | ((repeat' split) <;> exact Option.some_ne_none _))
    cases h

end Picoquic.TransportParams
