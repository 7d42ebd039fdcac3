import Verif.Spec.FastCc
import Verif.Proof.FastCc

/-!
# C101: The FAST congestion control keeps its limits
-/

namespace Picoquic.Props

open Picoquic.FastCc Picoquic.Spec

theorem fast_reached (e0 : FastCc.Env) (l : List FastCc.Event) : FastCc.Inv (FastCc.run (FastCc.init e0) l) :=
  FastCc.run_inv l _ (FastCc.init_inv e0)

/-- The window is never below two packets of 1536 bytes. -/
theorem C101_minimum (e0 : FastCc.Env) (l : List FastCc.Event) :
    3072 ≤ (FastCc.run (FastCc.init e0) l).cwin := (fast_reached e0 l).min

theorem thaw_frozen (s : FastCc.State) (e : FastCc.Env) : (FastCc.thaw s e).mode = .freeze ↔ ¬ Thawed s e := by
  unfold FastCc.thaw Thawed
  split
  · rename_i h
    simp only [Bool.and_eq_true, Bool.or_eq_true, decide_eq_true_eq] at h
    constructor
    · simp only
      intro h2
      split at h2 <;> cases h2
    · intro h2
      exact (h2 (Or.inr h.2)).elim
  · rename_i h
    simp only [Bool.and_eq_true, Bool.or_eq_true, decide_eq_true_eq, not_and, not_or] at h
    constructor
    · intro hf
      have := h hf
      rintro (a | a | a)
      · exact a hf
      · exact this.1 a
      · exact this.2 a
    · intro h2
      refine Classical.byContradiction fun h3 => h2 (Or.inl h3)

/-- Acknowledgements and losses that were none do not reduce the window; nor does a window remembered. -/
theorem C101_harmless (s : FastCc.State) (v : FastCc.Event) (h : Harmless v = true) :
    s.cwin ≤ (FastCc.step s v).cwin := by
  rw [← thaw_cwin s v.env]
  unfold FastCc.step
  generalize thaw s v.env = t
  cases v with
  | ack e => simp only [act]; split <;> exact Nat.le_refl _
  | spurious e => exact Nat.le_refl _
  | seed e =>
    simp only [act, FastCc.seed]
    split
    · rename_i hc; exact Nat.le_of_lt hc.2
    · exact Nat.le_refl _
  | _ => cases h

/-- A loss or a mark halves the window, down to the minimum, and a timeout reduces it to the minimum, unless the path is
frozen. -/
theorem C101_loss (e0 : FastCc.Env) (l : List FastCc.Event) (e : FastCc.Env) :
    let s := FastCc.run (FastCc.init e0) l
    Thawed s e →
    (FastCc.step s (.mark e)).cwin = max (s.cwin / 2) 3072 ∧
    (e.lossTest = true → (FastCc.step s (.loss e)).cwin = max (s.cwin / 2) 3072 ∧
      (FastCc.step s (.timeout e)).cwin = 3072) := by
  intro s ht
  have hn : ¬ (thaw s e).mode = .freeze := fun h => (thaw_frozen s e).1 h ht
  have hw := thaw_cwin s e
  have hm : CWIN_MINIMUM = 3072 := rfl
  have hc : ∀ t, (congestion (thaw s e) e false t).cwin = if t then 3072 else max (s.cwin / 2) 3072 := by
    intro t
    unfold congestion
    rw [if_neg (by simp [hn])]
    simp only [Bool.false_eq_true, if_false, hw, hm]
    cases t with
    | true => simp
    | false =>
      simp only [Bool.false_or, decide_eq_true_eq, Bool.false_eq_true, if_false]
      split <;> omega
  refine ⟨hc false, fun hl => ⟨?_, ?_⟩⟩
  · simp only [FastCc.step, FastCc.Event.env, act, hl, if_true]; exact hc false
  · simp only [FastCc.step, FastCc.Event.env, act, hl, if_true]; exact hc true

/-- What a measurement of the RTT does. -/
theorem onRtt_cwin (s : FastCc.State) (e : FastCc.Env) (h : FastCc.Inv s) :
    s.cwin - s.cwin / 8 ≤ (onRtt s e).cwin ∧ (onRtt s e).cwin ≤ s.cwin + s.sinceRtt ∧
    ((onRtt s e).cwin + (onRtt s e).sinceRtt ≤ s.cwin + s.sinceRtt) ∧
    ((onRtt s e).cwin < s.cwin → 3 ≤ s.events ∧ s.mode ≠ .freeze ∧ (onRtt s e).mode = .freeze ∧
      (onRtt s e).wasTimeout = false ∧ (onRtt s e).endOfFreeze = (e.now + (onRtt s e).rttMin) % 2 ^ 64 ∧
      (onRtt s e).recoverySequence = e.sequence ∧
      ((onRtt s e).rttMin + (onRtt s e).threshold ≤ e.rtt ∨ (onRtt s e).threshold = 0)) ∧ (onRtt s e).events ≤ s.events + 1 := by
  have hmin := h.min
  have hm : CWIN_MINIMUM = 3072 := rfl
  obtain ⟨a1, a2, a3, a4, a5, _⟩ := epoch_fields s e
  have a6 : (epoch s e).sinceRtt = s.sinceRtt := by unfold epoch; (repeat' split) <;> rfl
  unfold onRtt
  simp only
  generalize epoch s e = s1 at *
  split
  · refine ⟨by omega, by omega, by omega, by omega, by omega⟩
  · rename_i hf
    obtain ⟨b1, b2, b3, b4⟩ := delay_fields s1 e
    have b5 : (delay s1 e).1.sinceRtt = s1.sinceRtt := by unfold delay; (repeat' split) <;> rfl
    have b6 : (delay s1 e).1.threshold ≤ (delay s1 e).2 → (delay s1 e).1.rttMin + (delay s1 e).1.threshold ≤ e.rtt ∨
        (delay s1 e).1.threshold = 0 := by
      unfold delay
      split
      · simp only; omega
      · split <;> simp only <;> omega
    generalize delay s1 e = q at *
    have hg : gain q.1 q.2 ≤ s.sinceRtt := by
      unfold gain
      rw [b5, a6]
      split
      · exact Nat.le_refl _
      · exact Nat.le_trans (Nat.div_le_div_right (Nat.mul_le_mul_left _ (show q.1.threshold - q.2 ≤ 4 * q.1.threshold by omega)))
          (by by_cases h0 : q.1.threshold = 0
              · simp [h0]
              · rw [Nat.mul_div_cancel _ (by omega)]; exact Nat.le_refl _)
    split
    · simp only
      refine ⟨?_, ?_, ?_, ?_, ?_⟩ <;> (try split) <;> omega
    · split
      · rename_i hd hv
        unfold congestion
        have hq : q.1.mode ≠ .freeze := by rw [b2]; exact hf
        rw [if_neg (by simp [hq])]
        simp only [if_true, Bool.false_or, decide_eq_true_eq, b1, a1]
        refine ⟨?_, ?_, ?_, ?_, ?_⟩
        · split <;> omega
        · split <;> omega
        · split <;> omega
        · intro _
          refine ⟨by omega, by rw [← a2]; exact hf, trivial, trivial, trivial, trivial, ?_⟩
          exact b6 (by omega)
        · omega
      · simp only
        refine ⟨by omega, by omega, by omega, by omega, by omega⟩

/-- A delay takes an eighth of the window, not more; and it takes it only when the last measurement, and three before it,
exceeded the smallest RTT by the threshold, if the threshold is not 0. -/
theorem C101_delay (e0 : FastCc.Env) (l : List FastCc.Event) (e : FastCc.Env) :
    let s := FastCc.run (FastCc.init e0) l
    let s' := FastCc.step s (.rtt e)
    s.cwin - s.cwin / 8 ≤ s'.cwin ∧
    (s'.cwin < s.cwin → 3 ≤ s.events ∧ (s'.rttMin + s'.threshold ≤ e.rtt ∨ s'.threshold = 0)) := by
  intro s s'
  have hi := thaw_inv s e (fast_reached e0 l)
  obtain ⟨h1, _, _, h4, _⟩ := onRtt_cwin (thaw s e) e hi
  rw [thaw_cwin] at h1 h4
  refine ⟨h1, fun h => ?_⟩
  obtain ⟨g1, g2, _, _, _, _, g3⟩ := h4 h
  refine ⟨?_, g3⟩
  unfold thaw at g1
  split at g1
  · simp at g1
  · exact g1

/-- A shorter RTT is noticed: if the last samples are all below the smallest RTT, it is not above the largest of them
afterwards, unless the second ends. -/
theorem C101_min_follows (s : FastCc.State) (e : FastCc.Env) (hf : e.filterInit = true) (he : e.now ≤ s.endOfEpoch)
    (h1 : e.sampleMax < s.rolling) (h2 : e.sampleMax < s.rttMin) (h3 : e.rtt ≤ e.sampleMax) :
    (FastCc.step s (.rtt e)).rttMin ≤ e.sampleMax := by
  have ht : (thaw s e).rttMin = s.rttMin ∧ (thaw s e).rolling = s.rolling ∧ (thaw s e).endOfEpoch = s.endOfEpoch := by
    unfold thaw; split <;> exact ⟨rfl, rfl, rfl⟩
  show (onRtt (thaw s e) e).rttMin ≤ _
  generalize thaw s e = t at *
  have hp : (epoch t e).rttMin = e.sampleMax := by
    unfold epoch
    rw [if_pos hf, if_neg (by omega), if_pos (Or.inl (by omega))]
    simp only
    rw [if_pos (by omega)]
  unfold onRtt
  simp only
  generalize epoch t e = u at *
  have hd : (delay u e).1.rttMin ≤ e.sampleMax := by
    unfold delay
    split
    · exact Nat.le_of_eq hp
    · split
      · exact Nat.le_of_eq hp
      · exact h3
  have hc : ∀ (x : FastCc.State) (d w : Bool), (congestion x e d w).rttMin = x.rttMin := by
    intro x d w; unfold congestion; split <;> rfl
  split
  · exact Nat.le_of_eq hp
  · split
    · exact hd
    · split
      · rw [hc]; exact hd
      · exact hd

theorem thaw_events (s : FastCc.State) (e : FastCc.Env) : (thaw s e).events ≤ s.events := by
  unfold thaw; split
  · exact Nat.zero_le _
  · exact Nat.le_refl _

/-- Up to three measurements of the RTT, however long, do not reduce the window if no delay was counted before. -/
theorem C101_jitter (e0 : FastCc.Env) (l m : List FastCc.Event)
    (h0 : (FastCc.run (FastCc.init e0) l).events = 0) (hm : OnlyRtt m) (hl : m.length ≤ 3) :
    (FastCc.run (FastCc.init e0) l).cwin ≤ (FastCc.run (FastCc.init e0) (l ++ m)).cwin := by
  have key : ∀ (m : List FastCc.Event) (s : FastCc.State), FastCc.Inv s → OnlyRtt m → s.events + m.length ≤ 3 →
      s.cwin ≤ (FastCc.run s m).cwin := by
    intro m
    induction m with
    | nil => intro s _ _ _; exact Nat.le_refl _
    | cons v m ih =>
      intro s hi hm hl
      obtain ⟨e, rfl⟩ := hm v (List.mem_cons_self ..)
      have ht := thaw_inv s e hi
      obtain ⟨_, _, _, h4, h5⟩ := onRtt_cwin (thaw s e) e ht
      have he := thaw_events s e
      have hw := thaw_cwin s e
      simp only [List.length_cons] at hl
      have := ih (FastCc.step s (.rtt e)) (onRtt_inv _ _ ht) (fun w hw => hm w (List.mem_cons_of_mem _ hw))
        (by simp only [FastCc.step, act, FastCc.Event.env]; omega)
      refine Nat.le_trans ?_ this
      simp only [FastCc.step, act, FastCc.Event.env]
      refine Classical.byContradiction fun hc => ?_
      have := (h4 (by omega)).1
      omega
  have hr : FastCc.run (FastCc.init e0) (l ++ m) = FastCc.run (FastCc.run (FastCc.init e0) l) m := by
    simp [FastCc.run]
  rw [hr]
  exact key m _ (fast_reached e0 l) hm (by omega)

theorem congestion_le (s : FastCc.State) (e : FastCc.Env) (d t : Bool) (h : FastCc.Inv s) :
    (congestion s e d t).cwin ≤ s.cwin ∧ (congestion s e d t).sinceRtt = s.sinceRtt := by
  have := h.min
  unfold congestion
  split
  · exact ⟨Nat.le_refl _, rfl⟩
  · refine ⟨?_, rfl⟩
    simp only
    cases d <;> simp only [if_true, Bool.false_eq_true, if_false] <;> split <;> omega

/-- The window grows by no more than the bytes acknowledged: however events follow, it is at most ten packets of 1536
bytes and all the bytes acknowledged. -/
theorem C101_growth (e0 : FastCc.Env) (l : List FastCc.Event) (hl : Undisturbed l) :
    (FastCc.run (FastCc.init e0) l).cwin ≤ 15360 + ackedBytes l := by
  have key : ∀ (l : List FastCc.Event) (s : FastCc.State), FastCc.Inv s → Undisturbed l →
      (FastCc.run s l).cwin + (FastCc.run s l).sinceRtt ≤ s.cwin + s.sinceRtt + ackedBytes l := by
    intro l
    induction l with
    | nil => intro s _ _; exact Nat.le_refl _
    | cons v l ih =>
      intro s hi hu
      have ht := thaw_inv s v.env hi
      have h1 := ih (FastCc.step s v) (act_inv _ v ht) (fun w hw => hu w (List.mem_cons_of_mem _ hw))
      have h2 : (thaw s v.env).cwin + (thaw s v.env).sinceRtt ≤ s.cwin + s.sinceRtt := by
        unfold thaw
        split
        · simp only; omega
        · exact Nat.le_refl _
      have h3 : (FastCc.step s v).cwin + (FastCc.step s v).sinceRtt + ackedBytes l ≤
          (thaw s v.env).cwin + (thaw s v.env).sinceRtt + ackedBytes (v :: l) := by
        unfold FastCc.step
        generalize thaw s v.env = t at *
        cases v with
        | ack e =>
          simp only [act, ackedBytes]
          split
          · omega
          · simp only; omega
        | mark e => have := congestion_le t e false false ht; simp only [act, ackedBytes]; omega
        | loss e => have := congestion_le t e false false ht; simp only [act, ackedBytes]; split <;> omega
        | timeout e => have := congestion_le t e false true ht; simp only [act, ackedBytes]; split <;> omega
        | spurious e => exact Nat.le_refl _
        | rtt e => have := (onRtt_cwin t e ht).2.2.1; simp only [act, ackedBytes]; omega
        | reset e => exact ((hu _ (List.mem_cons_self ..)).1 e rfl).elim
        | seed e => exact ((hu _ (List.mem_cons_self ..)).2 e rfl).elim
      show (FastCc.run (FastCc.step s v) l).cwin + _ ≤ _
      simp only [FastCc.run] at h1 ⊢
      simp only [List.foldl_cons]
      omega
  have := key l (FastCc.init e0) (FastCc.init_inv e0) hl
  have h1 : (FastCc.init e0).cwin = 15360 := rfl
  have h2 : (FastCc.init e0).sinceRtt = 0 := rfl
  omega

/-- How fast it grows: in the first phase by the bytes acknowledged since the last measurement, unless this one shows a delay;
later by a quarter of them at most; and not at all if the sender did not use its window. -/
theorem C101_gain (e0 : FastCc.Env) (l : List FastCc.Event) (e : FastCc.Env) :
    let s := FastCc.run (FastCc.init e0) l
    let s' := FastCc.step s (.rtt e)
    (s.mode = .initial → e.appSending = true →
      s'.cwin = s.cwin + s.sinceRtt ∨ s'.rttMin + s'.threshold ≤ e.rtt ∨ s'.threshold = 0) ∧
    (s.mode ≠ .initial → s'.cwin ≤ s.cwin + s.sinceRtt / 4) ∧
    (e.appSending = false → s'.cwin ≤ s.cwin) := by
  have h := fast_reached e0 l
  generalize FastCc.run (FastCc.init e0) l = s at *
  simp only
  have hi := thaw_inv s e h
  have hw := thaw_cwin s e
  have hm : s.mode = .initial → thaw s e = s := by
    intro hx; unfold thaw; rw [if_neg (by simp [hx])]
  have hm2 : s.mode ≠ .initial → (thaw s e).mode = .initial → (thaw s e).sinceRtt = 0 := by
    intro hx hy
    unfold thaw at hy ⊢
    split
    · rfl
    · rename_i hz; rw [if_neg hz] at hy; exact (hx hy).elim
  have hm3 : (thaw s e).sinceRtt ≤ s.sinceRtt := by
    unfold thaw; split
    · exact Nat.zero_le _
    · exact Nat.le_refl _
  have key : ∀ t : FastCc.State, FastCc.Inv t →
      (t.mode = .initial → e.appSending = true → (onRtt t e).cwin = t.cwin + t.sinceRtt ∨
        (onRtt t e).rttMin + (onRtt t e).threshold ≤ e.rtt ∨ (onRtt t e).threshold = 0) ∧
      (t.mode ≠ .initial → (onRtt t e).cwin ≤ t.cwin + t.sinceRtt / 4) ∧
      (e.appSending = false → (onRtt t e).cwin ≤ t.cwin) := by
    intro t ht
    obtain ⟨a1, a2, a3, a4, a5, _⟩ := epoch_fields t e
    have a6 : (epoch t e).sinceRtt = t.sinceRtt := by unfold epoch; (repeat' split) <;> rfl
    have hep : FastCc.Inv (epoch t e) := ⟨by rw [a1]; exact ht.min, by rw [a1, a2, a3]; exact ht.timeout⟩
    unfold onRtt
    simp only
    generalize epoch t e = t1 at *
    split
    · rename_i hf
      refine ⟨fun hx => ?_, fun _ => by omega, fun _ => by omega⟩
      rw [← a2, hf] at hx; cases hx
    · rename_i hf
      obtain ⟨b1, b2, b3, b4⟩ := delay_fields t1 e
      have b5 : (delay t1 e).1.sinceRtt = t1.sinceRtt := by unfold delay; (repeat' split) <;> rfl
      have b6 : (delay t1 e).1.threshold ≤ (delay t1 e).2 →
          (delay t1 e).1.rttMin + (delay t1 e).1.threshold ≤ e.rtt ∨ (delay t1 e).1.threshold = 0 := by
        unfold delay
        split
        · simp only; omega
        · split <;> simp only <;> omega
      have hq : FastCc.Inv { (delay t1 e).1 with events := (delay t1 e).1.events + 1 } :=
        ⟨by simp only; rw [b1]; exact hep.min, by simp only; rw [b1, b2, b3]; exact hep.timeout⟩
      generalize delay t1 e = q at *
      split
      · simp only
        refine ⟨fun hx ha => Or.inl ?_, fun hx => ?_, fun ha => ?_⟩
        · unfold gain
          rw [if_pos ha, if_pos (b2.trans (a2.trans hx)), b1, a1, b5, a6]
        · have hg : gain q.1 q.2 ≤ t.sinceRtt / 4 := by
            unfold gain
            rw [if_neg (fun hy => hx (a2 ▸ b2 ▸ hy)), b5, a6]
            by_cases h0 : q.1.threshold = 0
            · simp [h0]
            · refine Nat.le_trans (Nat.div_le_div_right (Nat.mul_le_mul_left _ (Nat.sub_le _ q.2))) ?_
              rw [Nat.mul_comm 4, ← Nat.div_div_eq_div_mul, Nat.mul_div_cancel _ (by omega)]
              exact Nat.le_refl _
          split <;> omega
        · rw [if_neg (by simp [ha])]; omega
      · rename_i hd
        split
        · have hc := congestion_le _ e true false hq
          simp only at hc
          refine ⟨fun _ _ => Or.inr ?_, fun _ => by omega, fun _ => by omega⟩
          have hz : (congestion { q.1 with events := q.1.events + 1 } e true false).rttMin = q.1.rttMin ∧
              (congestion { q.1 with events := q.1.events + 1 } e true false).threshold = q.1.threshold := by
            unfold congestion; split <;> exact ⟨rfl, rfl⟩
          rw [hz.1, hz.2]
          exact b6 (by omega)
        · simp only
          exact ⟨fun _ _ => Or.inr (b6 (by omega)), fun _ => by omega, fun _ => by omega⟩
  obtain ⟨k1, k2, k3⟩ := key _ hi
  refine ⟨fun hx ha => ?_, fun hx => ?_, fun ha => ?_⟩
  · have := k1 (by rw [hm hx]; exact hx) ha
    rw [hm hx] at this
    simp only [FastCc.step, FastCc.Event.env, act]
    rw [hm hx]
    exact this
  · simp only [FastCc.step, FastCc.Event.env, act]
    by_cases hy : (thaw s e).mode = .initial
    · have := hm2 hx hy
      have := (onRtt_cwin _ e hi).2.1
      omega
    · have := k2 hy
      omega
  · have := k3 ha
    simp only [FastCc.step, FastCc.Event.env, act]
    omega

theorem congestion_frozen (s : FastCc.State) (e : FastCc.Env) (d t : Bool) (hf : s.mode = .freeze)
    (hw : s.wasTimeout = false) (hd : d = false) : congestion s e d t = s := by
  unfold congestion
  rw [if_pos (by simp [hf, hw, hd])]

/-- In a round trip the window is reduced once: after a loss, a mark or a delay reduced it, nothing, be it a timeout, changes
it until the smallest RTT is over or a packet sent since is acknowledged, if the time of the end fits 64 bits. -/
theorem C101_once_per_round_partial (e0 : FastCc.Env) (l : List FastCc.Event) (v : FastCc.Event) (m : List FastCc.Event)
    (hv : ∀ e, v ≠ .reset e) (ht : ∀ e, v ≠ .timeout e) :
    let s := FastCc.run (FastCc.init e0) l
    let s' := FastCc.step s v
    s'.cwin < s.cwin → v.env.now + s'.rttMin < 2 ^ 64 → WithinRound v.env.now v.env.sequence s'.rttMin m →
    (FastCc.run s' m).cwin = s'.cwin := by
  intro s s' hlt hmod hm
  have hi := thaw_inv s v.env (fast_reached e0 l)
  have hw := thaw_cwin s v.env
  -- the state after the reduction
  have hst : s'.mode = .freeze ∧ s'.wasTimeout = false ∧ s'.endOfFreeze = v.env.now + s'.rttMin ∧
      s'.recoverySequence = v.env.sequence := by
    have hc : ∀ (t : FastCc.State) (e : FastCc.Env), (congestion t e false false).cwin < t.cwin →
        (congestion t e false false).mode = .freeze ∧ (congestion t e false false).wasTimeout = false ∧
        (congestion t e false false).endOfFreeze = (e.now + (congestion t e false false).rttMin) % 2 ^ 64 ∧
        (congestion t e false false).recoverySequence = e.sequence := by
      intro t e h
      unfold congestion at h ⊢
      split
      · rename_i hx; rw [if_pos hx] at h; omega
      · exact ⟨rfl, rfl, rfl, rfl⟩
    have hg : s'.mode = .freeze ∧ s'.wasTimeout = false ∧ s'.endOfFreeze = (v.env.now + s'.rttMin) % 2 ^ 64 ∧
        s'.recoverySequence = v.env.sequence := by
      have hd : s'.cwin < (thaw s v.env).cwin := by omega
      have hs' : s' = act (thaw s v.env) v := rfl
      rw [hs'] at hd ⊢
      generalize thaw s v.env = t at *
      cases v with
      | ack e => simp only [act] at hd; split at hd <;> exact (Nat.lt_irrefl _ hd).elim
      | mark e => exact hc t e hd
      | loss e =>
        simp only [act, FastCc.Event.env] at hd ⊢
        split
        · rename_i hx; rw [if_pos hx] at hd; exact hc t e hd
        · rename_i hx; rw [if_neg hx] at hd; omega
      | timeout e => exact (ht e rfl).elim
      | spurious e => exact (Nat.lt_irrefl _ hd).elim
      | rtt e =>
        obtain ⟨_, _, g1, g2, g3, g4, _⟩ := (onRtt_cwin t e hi).2.2.2.1 hd
        exact ⟨g1, g2, g3, g4⟩
      | reset e => exact (hv e rfl).elim
      | seed e =>
        have := C101_harmless t (.seed e) rfl
        simp only [act, FastCc.seed] at hd
        split at hd
        · rename_i hx; simp only at hd; omega
        · omega
    refine ⟨hg.1, hg.2.1, ?_, hg.2.2.2⟩
    rw [hg.2.2.1, Nat.mod_eq_of_lt hmod]
  clear_value s'
  clear hlt hmod
  obtain ⟨k1, k2, k3, k4⟩ := hst
  have key : ∀ (m : List FastCc.Event) (t : FastCc.State), WithinRound v.env.now v.env.sequence s'.rttMin m →
      t.mode = .freeze → t.wasTimeout = false → t.endOfFreeze = v.env.now + s'.rttMin →
      t.recoverySequence = v.env.sequence → (FastCc.run t m).cwin = t.cwin := by
    intro m
    induction m with
    | nil => intros; rfl
    | cons w m ih =>
      intro t hm h1 h2 h3 h4
      obtain ⟨q1, q2, q3⟩ := hm w (List.mem_cons_self ..)
      have hth : thaw t w.env = t := by
        unfold thaw
        rw [if_neg (by simp [h1]; omega)]
      have ha : (act t w).cwin = t.cwin ∧ (act t w).mode = .freeze ∧ (act t w).wasTimeout = false ∧
          (act t w).endOfFreeze = t.endOfFreeze ∧ (act t w).recoverySequence = t.recoverySequence := by
        cases w with
        | ack e => simp only [act]; rw [if_pos h1]; exact ⟨rfl, h1, h2, rfl, rfl⟩
        | mark e => simp only [act]; rw [congestion_frozen t e _ _ h1 h2 rfl]; exact ⟨rfl, h1, h2, rfl, rfl⟩
        | loss e =>
          simp only [act]; rw [congestion_frozen t e _ _ h1 h2 rfl]; split <;> exact ⟨rfl, h1, h2, rfl, rfl⟩
        | timeout e =>
          simp only [act]; rw [congestion_frozen t e _ _ h1 h2 rfl]; split <;> exact ⟨rfl, h1, h2, rfl, rfl⟩
        | spurious e => exact ⟨rfl, h1, h2, rfl, rfl⟩
        | rtt e =>
          obtain ⟨a1, a2, a3, a4, a5, a6, a7⟩ := epoch_fields t e
          simp only [act, onRtt]
          rw [if_pos (a2.trans h1)]
          exact ⟨a1, a2.trans h1, a3.trans h2, a6, a7⟩
        | reset e => exact (q3 e rfl).elim
        | seed e =>
          simp only [act, FastCc.seed]
          rw [if_neg (by rw [h1]; simp)]
          exact ⟨rfl, h1, h2, rfl, rfl⟩
      have hs : FastCc.run t (w :: m) = FastCc.run (act t w) m := by
        show FastCc.run (FastCc.step t w) m = _
        unfold FastCc.step
        rw [hth]
      obtain ⟨b1, b2, b3, b4, b5⟩ := ha
      rw [hs, ih _ (fun x hx => hm x (List.mem_cons_of_mem _ hx)) b2 b3 (b4.trans h3) (b5.trans h4), b1]
  exact key m s' hm k1 k2 k3 k4

/-- Violated: a timeout reduces the window to the minimum. In the round trip of a loss the timeout is ignored, although a
second timeout after a timeout is not: the test of the kind of the last freeze is the wrong way round. -/
theorem C101_timeout_violated : ∃ (e0 e1 e2 : FastCc.Env),
    let s := FastCc.run (FastCc.init e0) [.ack { bytes := 15360 }, .rtt { rtt := 50000 }, .loss e1]
    e2.lossTest = true ∧ e1.now < e2.now ∧ (FastCc.step s (.timeout e2)).cwin = 15360 :=
  ⟨{ srtt := 250000 }, { now := 100000, sequence := 20, acked := 10 }, { now := 140000, sequence := 21, acked := 10 },
    by decide⟩

/-- Violated: the window is reduced once per round trip. At the end of the first second the smallest RTT is set to the largest
number there is, and the time of the end of a freeze wraps around to the past: three losses of one round trip, at the same
time, reduce the window to an eighth. -/
theorem C101_once_per_round_violated : ∃ (e0 : FastCc.Env) (e : FastCc.Env),
    let s := FastCc.run (FastCc.init e0) [.rtt { now := 50000, rtt := 50000, sampleMax := 50000 },
      .ack { now := 1000001, bytes := 84640 }, .rtt { now := 1000001, rtt := 50000, sampleMax := 50000 }]
    e.acked < e.sequence ∧ s.cwin = 100000 ∧
    (FastCc.run s [.loss e, .loss e, .loss e]).cwin = 12500 :=
  ⟨{ srtt := 250000 }, { now := 1000002, sequence := 20, acked := 10 }, by decide⟩

/-- Violated: delays reduce the window. In the second after the first one any RTT counts as no delay: whatever its length,
the window grows with each measurement. -/
theorem C101_delay_violated (r : Nat) (hr : 50000 ≤ r) (hr2 : r < 2 ^ 64 - 1) (n : Nat) :
    (FastCc.run (FastCc.init { srtt := 250000 })
      ([.rtt { now := 50000, rtt := 50000, sampleMax := 50000 },
        .rtt { now := 1000001, rtt := 50000, sampleMax := 50000 }] ++
       (List.replicate n [FastCc.Event.ack { now := 1900000, bytes := 10000 },
         .rtt { now := 1900000, rtt := r, sampleMax := r }]).flatten)).cwin = 15360 + n * 10000 := by
  have key : ∀ (n : Nat) (s : FastCc.State), s.mode = .initial → s.rttMin = 2 ^ 64 - 1 → s.endOfEpoch = 2000001 →
      s.rolling = 50000 → s.sinceRtt = 0 →
      (FastCc.run s (List.replicate n [FastCc.Event.ack { now := 1900000, bytes := 10000 },
         .rtt { now := 1900000, rtt := r, sampleMax := r }]).flatten).cwin = s.cwin + n * 10000 := by
    intro n
    induction n with
    | zero => intro s _ _ _ _ _; simp [FastCc.run]
    | succ n ih =>
      intro s h1 h2 h3 h4 h5
      rw [List.replicate_succ, List.flatten_cons]
      simp only [FastCc.run, List.foldl_append]
      have e1 : List.foldl FastCc.step s [FastCc.Event.ack { now := 1900000, bytes := 10000 },
         .rtt { now := 1900000, rtt := r, sampleMax := r }] =
          { s with threshold := 25000, events := 0, cwin := s.cwin + 10000, sinceRtt := 0 } := by
        have t1 : ∀ (x : FastCc.State) (e : FastCc.Env), x.mode = .initial → thaw x e = x := by
          intro x e hx
          unfold thaw
          rw [if_neg (by simp [hx])]
        simp only [List.foldl_cons, List.foldl_nil, FastCc.step, FastCc.Event.env]
        rw [t1 s _ h1]
        simp only [act]
        rw [if_neg (by rw [h1]; decide), t1 _ _ (by exact h1)]
        have t2 : ∀ (x : FastCc.State), x.endOfEpoch = 2000001 → x.rolling = 50000 →
            epoch x { now := 1900000, rtt := r, sampleMax := r } = x := by
          intro x hx hy
          unfold epoch
          rw [if_pos rfl, if_neg (by rw [hx]; simp only; omega), if_neg (by rw [hy]; simp only; omega)]
        unfold onRtt
        simp only
        rw [t2 _ (by exact h3) (by exact h4), if_neg (by simp only [h1]; decide)]
        have t3 : ∀ (x : FastCc.State), x.rttMin = 2 ^ 64 - 1 →
            delay x { now := 1900000, rtt := r, sampleMax := r } = ({ x with threshold := 25000 }, 0) := by
          intro x hx
          unfold delay
          rw [if_pos (by rw [hx]; exact hr2), hx]
          rfl
        rw [t3 _ (by exact h2)]
        simp only [gain]
        rw [if_pos (by decide), if_pos h1, if_pos trivial, h5]
      rw [e1]
      have := ih { s with threshold := 25000, events := 0, cwin := s.cwin + 10000, sinceRtt := 0 } h1 h2 h3 h4 rfl
      simp only [FastCc.run] at this
      rw [this]
      omega
  have hrun : ∀ (a b : List FastCc.Event) (s : FastCc.State), FastCc.run s (a ++ b) = FastCc.run (FastCc.run s a) b := by
    intro a b s; simp [FastCc.run]
  rw [hrun, key n _ (by decide) (by decide) (by decide) (by decide) (by decide)]
  congr 1

/-- Violated: without delay, loss and mark the window is not reduced. On a path with an RTT below 8 microseconds the threshold
becomes 0 when the second second ends, and four measurements of that RTT, never a different one, reduce the window. -/
theorem C101_no_delay_violated : ∃ l : List FastCc.Event, OnlyRtt l ∧ (∀ v ∈ l, v.env.rtt = 5 ∧ v.env.sampleMax = 5) ∧
    (FastCc.run (FastCc.init { srtt := 250000 }) l).cwin < 15360 := by
  refine ⟨[.rtt { now := 10, rtt := 5, sampleMax := 5 }, .rtt { now := 20, rtt := 5, sampleMax := 5 },
    .rtt { now := 1000001, rtt := 5, sampleMax := 5 }, .rtt { now := 2000002, rtt := 5, sampleMax := 5 },
    .rtt { now := 2000003, rtt := 5, sampleMax := 5 }, .rtt { now := 2000004, rtt := 5, sampleMax := 5 },
    .rtt { now := 2000005, rtt := 5, sampleMax := 5 }], ?_, ?_, by decide⟩
  · intro v hv
    simp only [List.mem_cons, List.not_mem_nil, or_false] at hv
    rcases hv with h | h | h | h | h | h | h <;> exact ⟨_, h⟩
  · intro v hv
    simp only [List.mem_cons, List.not_mem_nil, or_false] at hv
    rcases hv with h | h | h | h | h | h | h <;> subst h <;> exact ⟨rfl, rfl⟩

/-! Cases that meet the hypotheses. -/

/-- A loss after a first growth, then another in the same round trip, then, when the freeze is over, four long delays. -/
example : (FastCc.run (FastCc.init { srtt := 50000 }) [.ack { bytes := 15360 }, .rtt { rtt := 50000, filterInit := false },
      .loss { now := 60000, sequence := 20, acked := 10 }]).cwin = 15360 ∧
    (FastCc.run (FastCc.init { srtt := 50000 }) [.ack { bytes := 15360 }, .rtt { rtt := 50000, filterInit := false },
      .loss { now := 60000, sequence := 20, acked := 10 }, .mark { now := 70000, sequence := 22, acked := 12 },
      .rtt { now := 120000, acked := 21, rtt := 60000, filterInit := false, sequence := 30 },
      .rtt { now := 120000, acked := 21, rtt := 60000, filterInit := false, sequence := 30 },
      .rtt { now := 120000, acked := 21, rtt := 60000, filterInit := false, sequence := 30 },
      .rtt { now := 120000, acked := 21, rtt := 60000, filterInit := false, sequence := 30 }]).cwin = 13440 := by decide

end Picoquic.Props
