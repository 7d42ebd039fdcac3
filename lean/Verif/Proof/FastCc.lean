import Verif.Model.FastCc

/-!
# Lemmas about the FAST congestion control
-/

namespace Picoquic.FastCc

structure Inv (s : State) : Prop where
  min : CWIN_MINIMUM ≤ s.cwin
  timeout : s.wasTimeout = true → s.mode = .freeze ∧ s.cwin = CWIN_MINIMUM

theorem init_inv (e : Env) : Inv (init e) := ⟨by simp only [init]; decide, by simp [init]⟩

theorem congestion_inv (s : State) (e : Env) (d t : Bool) (h : Inv s) : Inv (congestion s e d t) := by
  obtain ⟨h1, h2⟩ := h
  unfold congestion
  split
  · exact ⟨h1, h2⟩
  · refine ⟨?_, ?_⟩
    · simp only
      generalize (if d = true then s.cwin - s.cwin / 8 else s.cwin / 2) = c
      split
      · exact Nat.le_refl _
      · rename_i hc
        simp only [Bool.or_eq_true, decide_eq_true_eq, not_or] at hc
        omega
    · simp only
      intro ht
      simp [ht]

theorem thaw_inv (s : State) (e : Env) (h : Inv s) : Inv (thaw s e) := by
  obtain ⟨h1, h2⟩ := h
  unfold thaw
  split
  · exact ⟨h1, by simp⟩
  · exact ⟨h1, h2⟩

theorem thaw_cwin (s : State) (e : Env) : (thaw s e).cwin = s.cwin := by
  unfold thaw; split <;> rfl

theorem epoch_fields (s : State) (e : Env) : (epoch s e).cwin = s.cwin ∧ (epoch s e).mode = s.mode ∧
    (epoch s e).wasTimeout = s.wasTimeout ∧ (epoch s e).wasNotDelay = s.wasNotDelay ∧
    (epoch s e).events = s.events ∧ (epoch s e).endOfFreeze = s.endOfFreeze ∧
    (epoch s e).recoverySequence = s.recoverySequence := by
  unfold epoch; (repeat' split) <;> simp

theorem delay_fields (s : State) (e : Env) : (delay s e).1.cwin = s.cwin ∧ (delay s e).1.mode = s.mode ∧
    (delay s e).1.wasTimeout = s.wasTimeout ∧ (delay s e).1.events = s.events := by
  unfold delay; (repeat' split) <;> simp

theorem onRtt_inv (s : State) (e : Env) (h : Inv s) : Inv (onRtt s e) := by
  obtain ⟨h1, h2⟩ := h
  obtain ⟨a1, a2, a3, _⟩ := epoch_fields s e
  unfold onRtt
  simp only
  generalize epoch s e = s1 at *
  split
  · exact ⟨by omega, by rw [a1, a2, a3]; exact h2⟩
  · rename_i hf
    obtain ⟨b1, b2, b3, _⟩ := delay_fields s1 e
    have hw : s.wasTimeout = true → False := fun hw => hf (a2.trans (h2 hw).1)
    generalize delay s1 e = q at *
    split
    · refine ⟨?_, ?_⟩
      · simp only; split <;> omega
      · simp only
        intro hx
        exact (hw (by rw [← a3, ← b3]; exact hx)).elim
    · split
      · refine congestion_inv _ _ _ _ ⟨by simp only; omega, ?_⟩
        simp only
        intro hx
        exact (hw (by rw [← a3, ← b3]; exact hx)).elim
      · refine ⟨by simp only; omega, ?_⟩
        simp only
        intro hx
        exact (hw (by rw [← a3, ← b3]; exact hx)).elim

theorem act_inv (s : State) (v : Event) (h : Inv s) : Inv (act s v) := by
  cases v with
  | ack e =>
    simp only [act]
    split
    · exact h
    · exact ⟨h.1, h.2⟩
  | mark e => exact congestion_inv _ _ _ _ h
  | loss e =>
    simp only [act]
    split
    · exact congestion_inv _ _ _ _ h
    · exact h
  | timeout e =>
    simp only [act]
    split
    · exact congestion_inv _ _ _ _ h
    · exact h
  | spurious e => exact ⟨h.1, h.2⟩
  | rtt e => exact onRtt_inv s e h
  | reset e => exact init_inv e
  | seed e =>
    simp only [act, seed]
    split
    · rename_i hc
      refine ⟨Nat.le_trans h.1 (Nat.le_of_lt hc.2), ?_⟩
      intro hw
      have := h.2 hw
      rw [hc.1] at this
      exact absurd this.1 (by decide)
    · exact h

theorem run_inv (l : List Event) : ∀ s : State, Inv s → Inv (run s l) := by
  induction l with
  | nil => intro s h; exact h
  | cons v l ih => intro s h; exact ih _ (act_inv _ v (thaw_inv s _ h))

/-- In a freeze nothing but a reset changes the window, and the freeze stays. -/
theorem act_frozen (s : State) (v : Event) (h : Inv s) (hf : s.mode = .freeze) (hr : ∀ e, v ≠ .reset e) :
    (act s v).cwin = s.cwin ∧ (act s v).mode = .freeze := by
  have hc : ∀ e t, (congestion s e false t).cwin = s.cwin ∧ (congestion s e false t).mode = .freeze := by
    intro e t
    unfold congestion
    split
    · exact ⟨rfl, hf⟩
    · rename_i hx
      refine ⟨?_, rfl⟩
      have : t = true ∧ s.wasTimeout = true := by
        cases t <;> cases hw : s.wasTimeout <;> simp_all
      simp [this.1, (h.2 this.2).2]
  cases v with
  | ack e => simp [act, hf]
  | mark e => exact hc e false
  | loss e =>
    simp only [act]
    split
    · exact hc e false
    · exact ⟨rfl, hf⟩
  | timeout e =>
    simp only [act]
    split
    · exact hc e true
    · exact ⟨rfl, hf⟩
  | spurious e => exact ⟨rfl, hf⟩
  | rtt e =>
    obtain ⟨a1, a2, _⟩ := epoch_fields s e
    simp only [act, onRtt]
    rw [if_pos (a2.trans hf)]
    exact ⟨a1, a2.trans hf⟩
  | reset e => exact (hr e rfl).elim
  | seed e => simp [act, seed, hf]

end Picoquic.FastCc
