import Verif.Spec.Prague

/-! Lemmas about the Prague congestion control. -/

namespace Picoquic.Prague

/-- The packet size of an event. -/
def Event.env : Event → Env
  | .ack e | .counts _ _ e | .loss e | .timeout e | .spurious e | .rtt e | .reset e => e

structure Inv (s : State) : Prop where
  min : CWIN_MINIMUM ≤ s.cwin
  first : s.first = true → CWIN_INITIAL ≤ s.cwin
  thresh : ∀ t, s.ssthresh = some t → CWIN_MINIMUM ≤ t
  alpha : s.alpha = s.alphaShifted / 16
  half : s.alpha ≤ 512
  slow : s.slow = true → s.alphaShifted = 0
  ect1 : s.epochEct1 ≤ s.ect1
  ce : s.epochCe ≤ s.ce

theorem frac_le (dC dE : Nat) : dC * 1024 % 2 ^ 64 / (dC + dE) ≤ 1024 := by
  have h1 : dC * 1024 % 2 ^ 64 ≤ (dC + dE) * 1024 :=
    Nat.le_trans (Nat.mod_le _ _) (Nat.mul_le_mul_right _ (Nat.le_add_right _ _))
  exact Nat.div_le_of_le_mul h1

/-- The new share. -/
theorem newAlpha_some (s : State) (e : Env) (h : Inv s) :
    ∃ a as, newAlpha s e = some (a, as) ∧ a = as / 16 ∧ a ≤ 1024 ∧
      (s.ce = s.epochCe → a ≤ s.alpha ∧ (s.alphaShifted = 0 → as = 0)) := by
  obtain ⟨_, _, _, ha, hh, _, he, hc⟩ := h
  have hf : ∀ dC dE : Nat, (if 0 < dC then dC * 1024 % 2 ^ 64 / (dC + dE) else 0) ≤ 1024 := by
    intro dC dE
    split
    · exact frac_le dC dE
    · omega
  have hz : s.ce = s.epochCe → ∀ dE : Nat, (if 0 < s.ce - s.epochCe then (s.ce - s.epochCe) * 1024 % 2 ^ 64 /
      (s.ce - s.epochCe + dE) else 0) = 0 := by
    intro h dE
    rw [if_neg (by omega)]
  unfold newAlpha
  rw [if_neg (by simp; omega)]
  simp only
  have hz := fun h => hz h (s.ect1 - s.epochEct1)
  have hf := hf (s.ce - s.epochCe) (s.ect1 - s.epochEct1)
  generalize (if 0 < s.ce - s.epochCe then (s.ce - s.epochCe) * 1024 % 2 ^ 64 /
      (s.ce - s.epochCe + (s.ect1 - s.epochEct1)) else 0) = frac at *
  generalize hS : (decide (s.updateSent ≠ 0) && decide (512 < frac) && decide (s.alpha < 128) &&
      decide (e.srtt < subU e.latest s.updateSent)) = suspect
  have hS0 : s.ce = s.epochCe → suspect = false := by
    intro h
    rw [← hS, hz h]
    simp
  have hfr : (if suspect = true then 128 else frac) ≤ 1024 := by split <;> omega
  have hfz : s.ce = s.epochCe → (if suspect = true then 128 else frac) = 0 := by
    intro h
    rw [hS0 h, hz h]
    rfl
  generalize (if suspect = true then 128 else frac) = fr at *
  split
  · split
    · rename_i hx
      refine ⟨_, _, rfl, by omega, hfr, fun h => ?_⟩
      rw [hfz h] at hx
      simp at hx
    · rw [if_neg (by omega)]
      refine ⟨_, _, rfl, rfl, by omega, fun h => ?_⟩
      have := hfz h
      refine ⟨by omega, fun h0 => by omega⟩
  · exact ⟨_, _, rfl, ha, by omega, fun _ => ⟨Nat.le_refl _, id⟩⟩

theorem recovery_inv (s : State) (timeout : Bool) (e : Env) : Inv (enterRecovery s timeout e) := by
  have hm : CWIN_MINIMUM = 3072 := rfl
  unfold enterRecovery resetL3s
  refine ⟨?_, ?_, ?_, by simp, Nat.zero_le _, fun _ => rfl, Nat.le_refl _, Nat.le_refl _⟩
  · simp only; split <;> (try split) <;> omega
  · intro h; simp [State.first] at h
  · intro t ht
    simp only [Option.some.injEq] at ht
    subst ht
    split <;> omega

theorem update_inv (s : State) (e : Env) (h : Inv s) : ∃ s', updateAlpha s e = some s' ∧ Inv s' ∧
    (s.epochCe = s.ce → s'.cwin = s.cwin ∧ s'.slow = s.slow ∧ s'.ssthresh = s.ssthresh ∧ s'.alpha ≤ s.alpha ∧
      s'.residual = s.residual) ∧
    s.cwin / 2 ≤ s'.cwin := by
  have hm : CWIN_MINIMUM = 3072 := rfl
  unfold updateAlpha
  split
  · exact ⟨s, rfl, h, fun _ => ⟨rfl, rfl, rfl, Nat.le_refl _, rfl⟩, by omega⟩
  · split
    · obtain ⟨a, as, ha, h1, h2, h3⟩ := newAlpha_some s e h
      rw [ha]
      simp only
      split
      · split
        · refine ⟨_, rfl, recovery_inv _ _ _, fun h => by omega, ?_⟩
          simp only [enterRecovery, resetL3s]
          rw [if_neg (by simp)]
          split <;> omega
        · rename_i hc ha2
          have hsub : s.cwin * a / 2048 ≤ s.cwin / 2 := by
            have : s.cwin * a ≤ s.cwin * 512 := Nat.mul_le_mul_left _ (by omega)
            omega
          refine ⟨_, rfl, ⟨?_, ?_, ?_, h1, by simp only; omega, by simp, Nat.le_refl _, Nat.le_refl _⟩,
            fun h => by omega, ?_⟩
          · simp only; split <;> omega
          · intro hf; simp [State.first] at hf
          · intro t ht
            simp only [Option.some.injEq] at ht
            subst ht
            split <;> omega
          · simp only; split <;> omega
      · rename_i hc
        have hce : s.ce = s.epochCe := by have := h.ce; omega
        have h3' := h3 hce
        refine ⟨_, rfl, ⟨h.min, h.first, h.thresh, h1, ?_, ?_, Nat.le_refl _, Nat.le_refl _⟩,
          fun _ => ⟨rfl, rfl, rfl, h3'.1, rfl⟩, by simp only; omega⟩
        · have := h.half; simp only; omega
        · exact fun hs => h3'.2 (h.slow hs)
    · exact ⟨s, rfl, h, fun _ => ⟨rfl, rfl, rfl, Nat.le_refl _, rfl⟩, by omega⟩

theorem grow_inv (s : State) (e : Env) (h : Inv s) : ∃ s', grow s e = some s' ∧ Inv s' ∧ s.cwin ≤ s'.cwin ∧
    s'.ssthresh = s.ssthresh ∧ (s.slow = false → s'.slow = false) ∧
    s'.epochSend = s.epochSend ∧ s'.ce = s.ce ∧ s'.epochCe = s.epochCe ∧
    (s.slow = true → s'.cwin ≤ s.cwin + e.bytes) ∧
    (s.slow = false → s'.cwin ≤ s.cwin + (e.bytes * e.mtu + s.residual) / s.cwin ∧
      (s.alpha = 0 → s'.cwin = s.cwin + (e.bytes * e.mtu + s.residual) / s.cwin)) ∧
    (s.slow = true → e.appSending = true → e.blocked = true → s'.cwin = s.cwin + e.bytes) := by
  have hm : CWIN_MINIMUM = 3072 := rfl
  obtain ⟨h1, h2, h3, h4, h5, h6, h7, h8⟩ := h
  unfold grow
  split
  · rename_i hs
    have ha : s.alpha = 0 := by have := h6 hs; omega
    have hsl : ∃ n, slowIncrease s e = some n ∧ n ≤ e.bytes ∧ (e.blocked = true → n = e.bytes) := by
      unfold slowIncrease
      rw [if_neg (by omega)]
      split
      · exact ⟨0, rfl, by omega, by simp_all⟩
      · rw [if_neg (by simp [ha])]
        exact ⟨_, rfl, Nat.le_refl _, fun _ => rfl⟩
    obtain ⟨n, hn, hle, heq⟩ := hsl
    split
    · rw [hn]
      refine ⟨_, rfl, ⟨by simp only; omega, ?_, h3, h4, h5, fun _ => h6 hs, h7, h8⟩, by simp only; omega, rfl,
        by simp [hs], rfl, rfl, rfl, fun _ => by simp only; omega, by simp [hs],
        fun _ _ hb => by simp only; rw [heq hb]⟩
      intro hf
      have : s.first = true := by
        unfold State.first at hf ⊢
        simp only [Bool.and_eq_true] at hf ⊢
        exact ⟨hs, hf.2⟩
      have := h2 this
      simp only
      omega
    · rename_i hap
      exact ⟨s, rfl, ⟨h1, h2, h3, h4, h5, h6, h7, h8⟩, Nat.le_refl _, rfl, by simp [hs], rfl, rfl, rfl,
        fun _ => by omega, by simp [hs], fun _ ht => absurd ht hap⟩
  · rename_i hs
    rw [if_neg (by omega)]
    have hd : ∀ x : Nat, x * (1024 - s.alpha) / 1024 ≤ x := by
      intro x
      have : x * (1024 - s.alpha) ≤ x * 1024 := Nat.mul_le_mul_left _ (by omega)
      omega
    refine ⟨_, rfl, ⟨by simp only; omega, ?_, h3, h4, h5, h6, h7, h8⟩, by simp only; omega, rfl,
      fun h => by simpa using h, rfl, rfl, rfl, fun h => absurd h hs, ?_, fun h => absurd h hs⟩
    · intro hf; simp [State.first, hs] at hf
    · intro _
      refine ⟨by simp only; have := hd ((e.bytes * e.mtu + s.residual) / s.cwin); omega, ?_⟩
      intro ha
      simp only [ha]
      rw [Nat.sub_zero, Nat.mul_div_cancel _ (by omega)]

/-- The window raised in the first slow start. -/
def boosted (s : State) (e : Env) : State :=
  if s.first then { s with cwin := if s.cwin < e.target then e.target else s.cwin } else s

theorem boosted_inv (s : State) (e : Env) (h : Inv s) : Inv (boosted s e) ∧ s.cwin ≤ (boosted s e).cwin := by
  obtain ⟨h1, h2, h3, h4, h5, h6, h7, h8⟩ := h
  unfold boosted
  split
  · rename_i hf
    have := h2 hf
    refine ⟨⟨?_, ?_, h3, h4, h5, h6, h7, h8⟩, ?_⟩
    · simp only; split <;> omega
    · intro _; simp only; split <;> omega
    · simp only; split <;> omega
  · exact ⟨⟨h1, h2, h3, h4, h5, h6, h7, h8⟩, Nat.le_refl _⟩

theorem onAck_eq (s : State) (e : Env) : onAck s e = match updateAlpha (boosted s e) e with
    | none => none
    | some s => grow s e := rfl

theorem mark_inv (s : State) (e : Env) (h : Inv s) (hv : e.mtu ≤ 1536) : Inv (onMark s e) := by
  have hm : CWIN_MINIMUM = 3072 := rfl
  have hi : CWIN_INITIAL = 15360 := rfl
  obtain ⟨h1, h2, h3, h4, h5, h6, h7, h8⟩ := h
  unfold onMark
  split
  · rename_i hf
    have h2 := h2 hf
    refine ⟨?_, by simp [State.first], ?_, h4, h5, by simp, h7, h8⟩
    · simp only; split <;> omega
    · intro t ht
      simp only [Option.some.injEq] at ht
      subst ht
      split <;> omega
  · exact ⟨h1, h2, h3, h4, h5, h6, h7, h8⟩

theorem step_inv (s : State) (v : Event) (h : Inv s) (hv : v.env.mtu ≤ 1536) :
    ∃ s', step s v = some s' ∧ Inv s' := by
  have hm : CWIN_MINIMUM = 3072 := rfl
  have hi : CWIN_INITIAL = 15360 := rfl
  cases v with
  | ack e =>
    simp only [step, onAck_eq]
    obtain ⟨s1, e1, i1, _⟩ := update_inv _ e (boosted_inv s e h).1
    rw [e1]
    obtain ⟨s2, e2, i2, _⟩ := grow_inv s1 e i1
    exact ⟨s2, e2, i2⟩
  | counts ect1 ce e =>
    simp only [step, Event.env] at *
    have hs : Inv { s with ect1 := if s.ect1 < ect1 then ect1 else s.ect1 } := by
      obtain ⟨h1, h2, h3, h4, h5, h6, h7, h8⟩ := h
      exact ⟨h1, h2, h3, h4, h5, h6, by simp only; split <;> omega, h8⟩
    refine ⟨_, rfl, ?_⟩
    split
    · obtain ⟨h1, h2, h3, h4, h5, h6, h7, h8⟩ := hs
      exact mark_inv _ e ⟨h1, h2, h3, h4, h5, h6, h7, by simp only at h8 ⊢; omega⟩ hv
    · exact hs
  | loss e =>
    refine ⟨_, rfl, ?_⟩
    unfold onLoss
    split
    · exact recovery_inv _ _ _
    · exact h
  | timeout e =>
    refine ⟨_, rfl, ?_⟩
    unfold onLoss
    split
    · exact recovery_inv _ _ _
    · exact h
  | spurious e =>
    refine ⟨_, rfl, ?_⟩
    obtain ⟨h1, h2, h3, h4, h5, h6, h7, h8⟩ := h
    unfold onSpurious
    split
    · split
      · refine ⟨by simp only; omega, by simp [State.first], h3, h4, h5, by simp, h7, h8⟩
      · exact ⟨h1, h2, h3, h4, h5, h6, h7, h8⟩
    · exact ⟨h1, h2, h3, h4, h5, h6, h7, h8⟩
  | rtt e =>
    refine ⟨_, rfl, ?_⟩
    obtain ⟨h1, h2, h3, h4, h5, h6, h7, h8⟩ := h
    unfold onRtt
    split
    · rename_i hf
      have h2' := h2 hf
      by_cases hl : e.longRtt = true <;> by_cases hh : e.hystart = true <;> simp only [hl, hh, if_true] <;>
        constructor <;> (try simp only [State.first]) <;> grind [State.first]
    · exact ⟨h1, h2, h3, h4, h5, h6, h7, h8⟩
  | reset e =>
    refine ⟨_, rfl, ?_⟩
    unfold reset resetL3s
    exact ⟨by simp only; omega, fun _ => Nat.le_refl _, by simp, by simp, Nat.zero_le _, fun _ => rfl, Nat.le_refl _,
      Nat.le_refl _⟩

theorem run_inv (l : List Event) : ∀ s : State, Inv s → (∀ v ∈ l, v.env.mtu ≤ 1536) → ∃ s', run s l = some s' ∧ Inv s' := by
  induction l with
  | nil => intro s h _; exact ⟨s, rfl, h⟩
  | cons v l ih =>
    intro s h hl
    obtain ⟨s1, e1, i1⟩ := step_inv s v h (hl v (by simp))
    simp only [run, e1]
    exact ih s1 i1 (fun x hx => hl x (by simp [hx]))

theorem init_inv : Inv {} :=
  ⟨by decide, fun _ => Nat.le_refl _, by simp, rfl, Nat.zero_le _, fun _ => rfl, Nat.le_refl _, Nat.le_refl _⟩

end Picoquic.Prague
