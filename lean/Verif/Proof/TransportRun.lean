import Verif.Proof.TransportChecks
/-!
# Transport parameters: what is accepted
-/

namespace Picoquic.TransportParams
open Picoquic Picoquic.Spec

theorem notePresent_cases (s : RState) (t : Nat) :
    (t < 64 ∧ t ∈ s.present ∧ notePresent s t = s.fail PARAMETER_ERROR) ∨
    (t < 64 ∧ t ∉ s.present ∧ notePresent s t = { s with present := t :: s.present }) ∨
    (¬ t < 64 ∧ notePresent s t = s) := by
  unfold notePresent
  by_cases h : t < 64
  · by_cases h' : t ∈ s.present
    · exact .inl ⟨h, h', by rw [if_pos h, if_pos h']⟩
    · exact .inr (.inl ⟨h, h', by rw [if_pos h, if_neg h']⟩)
  · exact .inr (.inr ⟨h, by rw [if_neg h]⟩)

/-- A run without any error. -/
structure Clean (c0 : Conn) (s : RState) (ps : List (Nat × Bytes)) (s' : RState) : Prop where
  checked : ∀ t v, (t, v) ∈ ps → CheckedParam c0 t v
  present : ∀ t, t ∈ s'.present ↔ t ∈ s.present ∨ (t < 64 ∧ t ∈ ps.map Prod.fst)
  fresh : ∀ t, t < 64 → t ∈ s.present → t ∉ ps.map Prod.fst
  once : ((ps.map Prod.fst).filter (fun t => decide (t < 64))).Nodup
  ocid : (0 ∈ ps.map Prod.fst ∧ (0, s'.ocid) ∈ ps) ∨ (0 ∉ ps.map Prod.fst ∧ s'.ocid = s.ocid)
  rcid : (16 ∈ ps.map Prod.fst ∧ (16, s'.rcid) ∈ ps) ∨ (16 ∉ ps.map Prod.fst ∧ s'.rcid = s.rcid)

theorem CheckedParam.same {c c' : Conn} (hs : SameSetup c c') {t : Nat} {v : Bytes}
    (h : CheckedParam c' t v) : CheckedParam c t v := by
  obtain ⟨h1, h2, h3, h4⟩ := h
  exact ⟨h1, h2, by rw [← hs.2.1]; exact h3, by rw [← hs.1]; exact h4⟩

theorem cid_checked {c : Conn} {v : Bytes} {t : Nat} (ht : t = 0 ∨ t = 16) (h : CheckedParam c t v) :
    (tpCidDecode v).2 = true := by
  have hl : v.length ≤ 20 := by
    rcases h.block with h1 | h1
    · exact h1.2.1 (by omega)
    · omega
  unfold tpCidDecode CONNECTION_ID_MAX_SIZE
  dsimp only
  rw [Nat.mod_eq_of_lt (by omega), if_pos hl]
  simp

theorem run_applied (c0 : Conn) {s s' : RState} (ps : List (Nat × Bytes))
    (hrun : runParams s ps = some s') (hr : s.ret = false) (hc : SameSetup c0 s.c)
    (hver : s.c.version = c0.version ∨
      (0x11 ∈ s.present ∧ c0.client = false ∧ s.c.version ≠ DRAFT27)) :
    ∃ new, s'.c.errs = new ++ s.c.errs ∧ (∀ e ∈ new, TransportParameterError e) ∧ SameSetup c0 s'.c ∧
      (s'.c.version = c0.version ∨ (c0.client = false ∧ s'.c.version ≠ DRAFT27)) ∧
      (s'.ret = true → new ≠ [] ∨ ∃ t v, (t, v) ∈ ps ∧ Refused c0 t v) ∧
      (s'.ret = false → new = [] → Clean c0 s ps s') := by
  induction ps generalizing s with
  | nil =>
    obtain rfl := Option.some.inj hrun
    refine ⟨[], rfl, by simp, hc, ?_, ?_, ?_⟩
    · rcases hver with h | ⟨_, h1, h2⟩
      · exact .inl h
      · exact .inr ⟨h1, h2⟩
    · intro h; rw [hr] at h; cases h
    · intro _ _
      exact ⟨by simp, by simp, by simp, by simp, .inr ⟨by simp, rfl⟩, .inr ⟨by simp, rfl⟩⟩
  | cons p ps ih =>
    obtain ⟨t, v⟩ := p
    rw [runParams, if_neg (by simp [hr])] at hrun
    cases ha : applyParam (notePresent s t) t v with
    | none => rw [ha] at hrun; cases hrun
    | some s1 =>
      rw [ha, Option.bind_some] at hrun
      obtain ⟨new1, A⟩ := applyParam_applied ha
      -- what the check for repetition does
      have hn : ∃ new0, (notePresent s t).c.errs = new0 ++ s.c.errs ∧ (∀ e ∈ new0, TransportParameterError e) ∧
          SameSetup s.c (notePresent s t).c ∧ (notePresent s t).c.version = s.c.version ∧
          (notePresent s t).ocid = s.ocid ∧ (notePresent s t).rcid = s.rcid ∧
          (∀ x, x ∈ s.present → x ∈ (notePresent s t).present) ∧
          ((t < 64 ∧ t ∈ s.present ∧ new0 ≠ []) ∨
           (t < 64 ∧ t ∉ s.present ∧ new0 = [] ∧ (notePresent s t).ret = false ∧
            (notePresent s t).present = t :: s.present ∧ (notePresent s t).c = s.c) ∨
           (¬ t < 64 ∧ new0 = [] ∧ (notePresent s t).ret = false ∧
            (notePresent s t).present = s.present ∧ (notePresent s t).c = s.c)) := by
        rcases notePresent_cases s t with ⟨h1, h2, h3⟩ | ⟨h1, h2, h3⟩ | ⟨h1, h3⟩
        · rw [h3]
          exact ⟨[8], rfl, by simp [TransportParameterError], SameSetup.refl _, rfl, rfl, rfl, fun x h => h,
            .inl ⟨h1, h2, by simp⟩⟩
        · rw [h3]
          exact ⟨[], rfl, by simp, SameSetup.refl _, rfl, rfl, rfl, fun x h => by simp [h],
            .inr (.inl ⟨h1, h2, rfl, hr, rfl, rfl⟩)⟩
        · rw [h3]
          exact ⟨[], rfl, by simp, SameSetup.refl _, rfl, rfl, rfl, fun x h => h,
            .inr (.inr ⟨h1, rfl, hr, rfl, rfl⟩)⟩
      obtain ⟨new0, n1, n2, n3, n4, n5, n6, n7, n8⟩ := hn
      have hc1 : SameSetup c0 s1.c := (hc.trans n3).trans A.same
      have hpr1 : s1.present = (notePresent s t).present := A.present
      -- the version
      have hver1 : s1.c.version = c0.version ∨
          (0x11 ∈ s1.present ∧ c0.client = false ∧ s1.c.version ≠ DRAFT27) := by
        rcases A.version with h | ⟨h1, h2, h3⟩
        · rw [h, n4]
          rcases hver with hv | ⟨v1, v2, v3⟩
          · exact .inl hv
          · exact .inr ⟨by rw [hpr1]; exact n7 _ v1, v2, v3⟩
        · refine .inr ⟨?_, ?_, h3⟩
          · rw [hpr1]
            subst h1
            rcases n8 with ⟨_, m, _⟩ | ⟨_, _, _, _, m, _⟩ | ⟨m, _⟩
            · exact n7 _ m
            · rw [m]; simp
            · omega
          · rw [← hc.1, ← n3.1]; exact h2
      have herr1 : s1.c.errs = (new1 ++ new0) ++ s.c.errs := by rw [A.errs, n1, List.append_assoc]
      have hcode1 : ∀ e ∈ new1 ++ new0, TransportParameterError e := by
        intro e he
        rcases List.mem_append.mp he with h | h
        · exact A.codes e h
        · exact n2 e h
      cases hr1 : s1.ret with
      | true =>
        rw [runParams_ret hr1] at hrun
        obtain rfl := Option.some.inj hrun
        refine ⟨new1 ++ new0, herr1, hcode1, hc1, ?_, ?_, ?_⟩
        · rcases hver1 with h | ⟨_, h1, h2⟩
          · exact .inl h
          · exact .inr ⟨h1, h2⟩
        · intro _
          by_cases hn0 : new0 = []
          · have hret0 : (notePresent s t).ret = false := by
              rcases n8 with ⟨_, _, h⟩ | ⟨_, _, _, h, _⟩ | ⟨_, _, h, _⟩
              · exact absurd hn0 h
              · exact h
              · exact h
            have hcs : (notePresent s t).c = s.c := by
              rcases n8 with ⟨_, _, h⟩ | ⟨_, _, _, _, _, h⟩ | ⟨_, _, _, _, h⟩
              · exact absurd hn0 h
              · exact h
              · exact h
            rcases A.failed hret0 hr1 with h | ⟨h1, h2, vn, h3, h4⟩
            · exact .inl (by simp [h])
            · rw [hcs] at h2 h3 h4
              right
              refine ⟨t, v, by simp, h1, by rw [← hc.1]; exact h2, vn, ?_⟩
              have hv : s.c.version = c0.version := by
                rcases hver with hv | ⟨hv, _⟩
                · exact hv
                · exfalso
                  subst h1
                  rcases n8 with ⟨_, _, h⟩ | ⟨_, h, _⟩ | ⟨h, _⟩
                  · exact h hn0
                  · exact h hv
                  · omega
              rw [← hv]
              exact ⟨h3, h4⟩
          · exact .inl (by simp [hn0])
        · intro h; rw [hr1] at h; cases h
      | false =>
        obtain ⟨new2, e1, e2, e3, e4, e5, e6⟩ := ih hrun hr1 hc1 hver1
        refine ⟨new2 ++ (new1 ++ new0), ?_, ?_, e3, e4, ?_, ?_⟩
        · rw [e1, herr1]; simp only [List.append_assoc]
        · intro e he
          rcases List.mem_append.mp he with h | h
          · exact e2 e h
          · exact hcode1 e h
        · intro h
          rcases e5 h with h' | ⟨t', v', h1, h2⟩
          · exact .inl (by simp [h'])
          · exact .inr ⟨t', v', by simp [h1], h2⟩
        · intro h hnil
          simp only [List.append_eq_nil_iff] at hnil
          obtain ⟨g1, g2, g3⟩ := hnil
          have C := e6 h g1
          have hret0 : (notePresent s t).ret = false := by
            rcases n8 with ⟨_, _, h⟩ | ⟨_, _, _, h, _⟩ | ⟨_, _, h, _⟩
            · exact absurd g3 h
            · exact h
            · exact h
          have hck : CheckedParam c0 t v :=
            (A.checked hret0 g2).same (hc.trans n3)
          refine ⟨?_, ?_, ?_, ?_, ?_, ?_⟩
          · intro t' v' hm
            rcases List.mem_cons.mp hm with hm | hm
            · obtain ⟨rfl, rfl⟩ := Prod.mk.inj hm
              exact hck
            · exact C.checked t' v' hm
          · intro x
            rw [C.present x, hpr1]
            simp only [List.map_cons, List.mem_cons]
            rcases n8 with ⟨_, _, h⟩ | ⟨m1, _, _, _, m, _⟩ | ⟨m1, _, _, m, _⟩
            · exact absurd g3 h
            · rw [m, List.mem_cons]
              constructor
              · rintro ((rfl | h) | ⟨h1, h2⟩)
                · exact .inr ⟨m1, .inl rfl⟩
                · exact .inl h
                · exact .inr ⟨h1, .inr h2⟩
              · rintro (h | ⟨h1, rfl | h2⟩)
                · exact .inl (.inr h)
                · exact .inl (.inl rfl)
                · exact .inr ⟨h1, h2⟩
            · rw [m]
              constructor
              · rintro (h | ⟨h1, h2⟩)
                · exact .inl h
                · exact .inr ⟨h1, .inr h2⟩
              · rintro (h | ⟨h1, rfl | h2⟩)
                · exact .inl h
                · exact absurd h1 m1
                · exact .inr ⟨h1, h2⟩
          · intro x hx hm
            simp only [List.map_cons, List.mem_cons, not_or]
            refine ⟨?_, C.fresh x hx (by rw [hpr1]; exact n7 x hm)⟩
            rintro rfl
            rcases n8 with ⟨_, _, h⟩ | ⟨_, h, _⟩ | ⟨h, _⟩
            · exact h g3
            · exact h hm
            · exact h hx
          · rw [List.map_cons, List.filter_cons]
            by_cases ht : t < 64
            · rw [if_pos (by simpa using ht), List.nodup_cons]
              refine ⟨?_, C.once⟩
              intro hm
              have hm' := (List.mem_filter.mp hm).1
              refine C.fresh t ht ?_ hm'
              rw [hpr1]
              rcases n8 with ⟨_, m, _⟩ | ⟨_, _, _, _, m, _⟩ | ⟨m, _⟩
              · exact n7 _ m
              · rw [m]; simp
              · omega
            · rw [if_neg (by simpa using ht)]
              exact C.once
          · have ho := A.ocid
            rw [n5] at ho
            by_cases h0 : t = 0
            · subst h0
              have hd := cid_checked (.inl rfl) hck
              rw [if_pos ⟨rfl, hd⟩] at ho
              rcases C.ocid with ⟨c1, c2⟩ | ⟨c1, c2⟩
              · exact .inl ⟨by simp, by simp [c2]⟩
              · exact .inl ⟨by simp, by rw [c2, ho]; simp⟩
            · rw [if_neg (by simp [h0]), if_neg h0] at ho
              have h0' : ¬ 0 = t := fun h => h0 h.symm
              rcases C.ocid with ⟨c1, c2⟩ | ⟨c1, c2⟩
              · exact .inl ⟨by simp only [List.map_cons, List.mem_cons]; exact .inr c1, by simp [c2]⟩
              · exact .inr ⟨by simp only [List.map_cons, List.mem_cons, not_or]; exact ⟨h0', c1⟩, by rw [c2, ho]⟩
          · have ho := A.rcid
            rw [n6] at ho
            by_cases h0 : t = 16
            · subst h0
              have hd := cid_checked (.inr rfl) hck
              rw [if_pos ⟨rfl, hd⟩] at ho
              rcases C.rcid with ⟨c1, c2⟩ | ⟨c1, c2⟩
              · exact .inl ⟨by simp, by simp [c2]⟩
              · exact .inl ⟨by simp, by rw [c2, ho]; simp⟩
            · rw [if_neg (by simp [h0]), if_neg h0] at ho
              have h0' : ¬ 16 = t := fun h => h0 h.symm
              rcases C.rcid with ⟨c1, c2⟩ | ⟨c1, c2⟩
              · exact .inl ⟨by simp only [List.map_cons, List.mem_cons]; exact .inr c1, by simp [c2]⟩
              · exact .inr ⟨by simp only [List.map_cons, List.mem_cons, not_or]; exact ⟨h0', c1⟩, by rw [c2, ho]⟩

end Picoquic.TransportParams
