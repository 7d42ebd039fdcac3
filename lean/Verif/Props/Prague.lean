import Verif.Proof.Prague
import Verif.Model.NewReno

/-!
# C100: the Prague congestion window

Under the Prague algorithm the window never falls below two packets, falls only on signs of congestion, at most by half
and at most once in a round trip for marks, and without marks grows as New Reno does.
-/

namespace Picoquic.Props

open Picoquic.Prague Picoquic.Spec

theorem small_env {l : List Event} (h : SmallPackets l) : ∀ v ∈ l, v.env.mtu ≤ 1536 := by
  intro v hv
  have := h v hv
  cases v <;> exact this

/-- Whatever happens, no division by 0 and no wrap-around below 0 takes place, and the window is at least two packets. -/
theorem C100_minimum (l : List Event) (h : SmallPackets l) :
    ∃ s, Prague.run {} l = some s ∧ 2 * 1536 ≤ s.cwin := by
  obtain ⟨s, e, i⟩ := Prague.run_inv l {} Prague.init_inv (small_env h)
  exact ⟨s, e, i.min⟩

theorem reached {l : List Event} {s : Prague.State} (h : SmallPackets l) (hs : Prague.run {} l = some s) :
    Prague.Inv s := by
  obtain ⟨s', e, i⟩ := Prague.run_inv l {} Prague.init_inv (small_env h)
  rw [hs] at e
  cases e
  exact i

/-- An acknowledgement, whichever marks were reported with it, takes away at most half of the window. -/
theorem C100_at_most_half (l : List Event) (h : SmallPackets l) (s : Prague.State) (hs : Prague.run {} l = some s)
    (e : Env) : ∃ s', Prague.step s (.ack e) = some s' ∧ s.cwin / 2 ≤ s'.cwin := by
  have hb := boosted_inv s e (reached h hs)
  obtain ⟨s1, e1, i1, _, a1⟩ := update_inv _ e hb.1
  obtain ⟨s2, e2, _, a2, _⟩ := grow_inv s1 e i1
  refine ⟨s2, ?_, by omega⟩
  simp only [Prague.step, onAck_eq, e1]
  exact e2

/-- Without marks there is no share of marks. -/
theorem no_marks (l : List Event) : ∀ s : Prague.State, Prague.Inv s → s.ce = 0 → s.alphaShifted = 0 → SmallPackets l →
    NoMarks l → ∀ s', Prague.run s l = some s' → s'.ce = 0 ∧ s'.alphaShifted = 0 := by
  induction l with
  | nil => intro s _ h1 h2 _ _ s' hs; simp only [Prague.run, Option.some.injEq] at hs; subst hs; exact ⟨h1, h2⟩
  | cons v l ih =>
    intro s hi hc ha hsm hn s' hs
    have hv : v.env.mtu ≤ 1536 := small_env hsm v (by simp)
    obtain ⟨s1, e1, i1⟩ := Prague.step_inv s v hi hv
    simp only [Prague.run, e1] at hs
    refine ih s1 i1 ?_ ?_ (fun x hx => hsm x (by simp [hx])) (fun x hx => hn x (by simp [hx])) s' hs <;> clear ih hs
    all_goals
      have hnv := hn v (by simp)
      have hep : s.epochCe = 0 := by have := hi.ce; omega
    · cases v with
      | ack e =>
        have hb : (boosted s e).ce = s.ce := by unfold boosted; split <;> rfl
        simp only [Prague.step, onAck_eq] at e1
        obtain ⟨s2, e2, i2, _⟩ := update_inv _ e (boosted_inv s e hi).1
        rw [e2] at e1
        obtain ⟨s3, e3, _, _, _, _, _, c3, _⟩ := grow_inv s2 e i2
        simp only [e3, Option.some.injEq] at e1
        subst e1
        rw [c3]
        have : s2.ce = (boosted s e).ce := by
          unfold updateAlpha at e2
          (repeat' split at e2) <;> first | (cases e2; first | rfl | simp [enterRecovery, resetL3s]) | simp at e2
        omega
      | counts a b e =>
        simp only at hnv
        subst hnv
        simp only [Prague.step, Option.some.injEq, Nat.not_lt_zero, if_false] at e1
        subst e1
        exact hc
      | loss e =>
        simp only [Prague.step, Option.some.injEq, onLoss] at e1
        subst e1
        split <;> simp [enterRecovery, resetL3s, hc]
      | timeout e =>
        simp only [Prague.step, Option.some.injEq, onLoss] at e1
        subst e1
        split <;> simp [enterRecovery, resetL3s, hc]
      | spurious e =>
        simp only [Prague.step, Option.some.injEq, onSpurious] at e1
        subst e1
        split <;> (try split) <;> (try split) <;> exact hc
      | rtt e =>
        simp only [Prague.step, Option.some.injEq, onRtt] at e1
        subst e1
        (repeat' split) <;> exact hc
      | reset e =>
        simp only [Prague.step, Option.some.injEq, Prague.reset, resetL3s] at e1
        subst e1
        exact hc
    · cases v with
      | ack e =>
        have hb : (boosted s e).alphaShifted = s.alphaShifted ∧ (boosted s e).ce = s.ce ∧
            (boosted s e).epochCe = s.epochCe := by
          unfold boosted; split <;> exact ⟨rfl, rfl, rfl⟩
        have ib := (boosted_inv s e hi).1
        simp only [Prague.step, onAck_eq] at e1
        obtain ⟨s2, e2, i2, _⟩ := update_inv _ e ib
        rw [e2] at e1
        have g : ∀ s3, grow s2 e = some s3 → s3.alphaShifted = s2.alphaShifted := by
          intro s3 h3
          unfold grow at h3
          (repeat' split at h3) <;> first | (cases h3; rfl) | simp at h3
        rw [g s1 e1]
        obtain ⟨a, as, hna, _, _, h4⟩ := newAlpha_some (boosted s e) e ib
        have h4 := (h4 (by omega)).2 (by omega)
        unfold updateAlpha at e2
        split at e2
        · cases e2; omega
        · split at e2
          · rw [hna] at e2
            simp only at e2
            rw [if_neg (by omega)] at e2
            cases e2
            exact h4
          · cases e2; omega
      | counts a b e =>
        simp only at hnv
        subst hnv
        simp only [Prague.step, Option.some.injEq, Nat.not_lt_zero, if_false] at e1
        subst e1
        exact ha
      | loss e =>
        simp only [Prague.step, Option.some.injEq, onLoss] at e1
        subst e1
        split <;> simp [enterRecovery, resetL3s, ha]
      | timeout e =>
        simp only [Prague.step, Option.some.injEq, onLoss] at e1
        subst e1
        split <;> simp [enterRecovery, resetL3s, ha]
      | spurious e =>
        simp only [Prague.step, Option.some.injEq, onSpurious] at e1
        subst e1
        split <;> (try split) <;> (try split) <;> exact ha
      | rtt e =>
        simp only [Prague.step, Option.some.injEq, onRtt] at e1
        subst e1
        (repeat' split) <;> exact ha
      | reset e =>
        simp only [Prague.step, Option.some.injEq, Prague.reset, resetL3s] at e1
        subst e1
        rfl

/-- Without marks, whatever was lost before, the window falls only on losses: nothing else reduces it. -/
theorem C100_no_congestion_no_decrease (l : List Event) (h : SmallPackets l) (hn : NoMarks l) (s : Prague.State)
    (hs : Prague.run {} l = some s) (v : Event) (hv : SmallPackets [v]) (hc : NoCongestion v) :
    ∃ s', Prague.step s v = some s' ∧ s.cwin ≤ s'.cwin := by
  have hi := reached h hs
  obtain ⟨hce, hal⟩ := no_marks l {} Prague.init_inv rfl rfl h hn s hs
  cases v with
  | ack e =>
    have hb := boosted_inv s e hi
    have hx : (boosted s e).ce = s.ce ∧ (boosted s e).epochCe = s.epochCe := by
      unfold boosted; split <;> exact ⟨rfl, rfl⟩
    obtain ⟨s1, e1, i1, a1, _⟩ := update_inv _ e hb.1
    obtain ⟨s2, e2, _, a2, _⟩ := grow_inv s1 e i1
    have hep := hi.ce
    have := (a1 (by omega)).1
    refine ⟨s2, ?_, by omega⟩
    simp only [Prague.step, onAck_eq, e1]
    exact e2
  | counts a b e =>
    simp only [NoCongestion] at hc
    subst hc
    refine ⟨_, rfl, ?_⟩
    simp
  | spurious e =>
    refine ⟨_, rfl, ?_⟩
    unfold onSpurious
    split
    · split
      · simp only; omega
      · exact Nat.le_refl _
    · exact Nat.le_refl _
  | rtt e =>
    refine ⟨_, rfl, ?_⟩
    unfold onRtt
    (repeat' split) <;> simp_all <;> omega
  | loss e => exact hc.elim
  | timeout e => exact hc.elim
  | reset e => exact hc.elim

/-- Without marks the window grows as that of New Reno: out of slow start, by what New Reno (`NewReno.onAck`) adds. -/
theorem C100_like_reno (l : List Event) (h : SmallPackets l) (hn : NoMarks l) (s : Prague.State)
    (hs : Prague.run {} l = some s) (hsl : s.slow = false) (e : Env) (r : NewReno.Sim) (er : NewReno.Env)
    (h1 : r.alg = .congestionAvoidance) (h2 : r.cwin = s.cwin) (h3 : r.residualAck = s.residual)
    (h4 : er.bytesAcked = e.bytes) (h5 : er.sendMtu = e.mtu) :
    ∃ s' r', Prague.step s (.ack e) = some s' ∧ NewReno.onAck r er = some r' ∧ s'.cwin = r'.cwin ∧
      s'.residual = r'.residualAck := by
  have hm : CWIN_MINIMUM = 3072 := rfl
  have hi := reached h hs
  obtain ⟨hce, hal⟩ := no_marks l {} Prague.init_inv rfl rfl h hn s hs
  have hb : boosted s e = s := by unfold boosted; rw [if_neg (by simp [State.first, hsl])]
  obtain ⟨s1, e1, i1, a1, _⟩ := update_inv s e hi
  have hep := hi.ce
  obtain ⟨c1, c2, _, c4, c5⟩ := a1 (by omega)
  have ha0 : s1.alpha = 0 := by have := hi.alpha; omega
  have hmin := hi.min
  refine ⟨{ s1 with residual := (e.bytes * e.mtu + s.residual) % s.cwin,
                    cwin := s.cwin + (e.bytes * e.mtu + s.residual) / s.cwin },
    { r with residualAck := (e.bytes * e.mtu + s.residual) % s.cwin,
             cwin := s.cwin + (e.bytes * e.mtu + s.residual) / s.cwin }, ?_, ?_, rfl, rfl⟩
  · simp only [Prague.step, onAck_eq, hb, e1]
    unfold grow
    rw [if_neg (by simp [c2, hsl]), if_neg (by omega), ha0, c1, c5]
    simp only [Nat.sub_zero]
    rw [Nat.mul_div_cancel _ (by omega)]
  · unfold NewReno.onAck
    rw [h1]
    simp only
    rw [if_neg (by omega), h2, h3, h4, h5]

/-- In slow start without marks the window grows by the bytes acknowledged, if the sender used it all, and never by
more, but for the first slow start, in which it may be raised to what the bandwidth measured needs. -/
theorem C100_slow_start (l : List Event) (h : SmallPackets l) (hn : NoMarks l) (s : Prague.State)
    (hs : Prague.run {} l = some s) (hsl : s.slow = true) (e : Env) :
    ∃ s', Prague.step s (.ack e) = some s' ∧
      s'.cwin ≤ (if s.ssthresh = none then max s.cwin e.target else s.cwin) + e.bytes ∧
      (e.appSending = true → e.blocked = true →
        s'.cwin = (if s.ssthresh = none then max s.cwin e.target else s.cwin) + e.bytes) := by
  have hi := reached h hs
  obtain ⟨hce, hal⟩ := no_marks l {} Prague.init_inv rfl rfl h hn s hs
  have hb := boosted_inv s e hi
  have hx : (boosted s e).ce = s.ce ∧ (boosted s e).epochCe = s.epochCe ∧ (boosted s e).slow = s.slow ∧
      (boosted s e).cwin = (if s.ssthresh = none then max s.cwin e.target else s.cwin) := by
    unfold boosted State.first
    cases ht : s.ssthresh with
    | none =>
      simp only [hsl, Option.isNone_none, Bool.and_self, if_true]
      refine ⟨trivial, trivial, trivial, ?_⟩
      split <;> omega
    | some t => simp
  obtain ⟨s1, e1, i1, a1, _⟩ := update_inv _ e hb.1
  obtain ⟨s2, e2, _, _, _, _, _, _, _, g1, _, g2⟩ := grow_inv s1 e i1
  have hep := hi.ce
  obtain ⟨c1, c2, _⟩ := a1 (by omega)
  have hsl1 : s1.slow = true := by rw [c2, hx.2.2.1, hsl]
  rw [hx.2.2.2] at c1
  refine ⟨s2, ?_, ?_, ?_⟩
  · simp only [Prague.step, onAck_eq, e1]
    exact e2
  · rw [← c1]; exact g1 hsl1
  · intro h1 h2; rw [← c1]; exact g2 hsl1 h1 h2

/-- Slow start ends when the window reaches the threshold that the last reduction set: after an acknowledgement of a sender
that used its window, the path is in slow start only if the window is below it. -/
theorem C100_slow_start_ends (l : List Event) (h : SmallPackets l) (s : Prague.State)
    (hs : Prague.run {} l = some s) (e : Env) (ha : e.appSending = true) (s' : Prague.State)
    (h1 : Prague.step s (.ack e) = some s') (hsl : s'.slow = true) (t : Nat) (ht : s'.ssthresh = some t) :
    s'.cwin < t := by
  have hi := reached h hs
  have hb := boosted_inv s e hi
  simp only [Prague.step, onAck_eq] at h1
  obtain ⟨s1, e1, i1, _⟩ := update_inv _ e hb.1
  rw [e1] at h1
  obtain ⟨s2, e2, _, _, b2, c2, _⟩ := grow_inv s1 e i1
  simp only at h1
  rw [e2] at h1
  cases h1
  have h3 : s1.slow = true := by
    cases hx : s1.slow with
    | true => rfl
    | false => rw [c2 hx] at hsl; cases hsl
  unfold grow at e2
  rw [if_pos h3, if_pos ha] at e2
  split at e2
  · cases e2
  · cases e2
    simp only at ht hsl ⊢
    rw [ht] at hsl
    simpa using hsl

/-- If every packet reported since the last update was marked, the window is halved at the next update, unless that came
later than a round trip. `epochSend`, `epochEct1` and `epochCe` are the next packet number and the counts at the last
update. -/
theorem C100_all_marked (l : List Event) (h : SmallPackets l) (s : Prague.State) (hs : Prague.run {} l = some s)
    (hf : s.first = false) (e : Env) (n : Nat) (hh : e.highest = some n) (hn : s.epochSend < n)
    (hc : s.epochCe < s.ce) (hc2 : s.ce - s.epochCe < 2 ^ 54) (he : s.ect1 = s.epochEct1)
    (ht : subU e.latest s.updateSent ≤ e.srtt) :
    ∃ s', Prague.step s (.ack e) = some s' ∧
      s'.cwin = max (s.cwin / 2) 3072 + e.bytes * e.mtu / max (s.cwin / 2) 3072 := by
  have hm : CWIN_MINIMUM = 3072 := rfl
  have hi := reached h hs
  have hb : boosted s e = s := by unfold boosted; rw [if_neg (by simp [hf])]
  have hfrac : (s.ce - s.epochCe) * 1024 % 2 ^ 64 / (s.ce - s.epochCe + (s.ect1 - s.epochEct1)) = 1024 := by
    rw [Nat.mod_eq_of_lt (by omega), show s.ect1 - s.epochEct1 = 0 by omega, Nat.add_zero,
      Nat.mul_div_cancel_left _ (by omega)]
  have hna : newAlpha s e = some (1024, 1024 * 16) := by
    unfold newAlpha
    rw [if_neg (by simp; have := hi.ect1; omega)]
    simp only [hfrac]
    rw [if_pos (show 0 < s.ce - s.epochCe by omega)]
    have : decide (e.srtt < subU e.latest s.updateSent) = false := by simp; omega
    have ha := hi.half
    simp only [this, Bool.and_false, Bool.false_eq_true, if_false, Bool.or_false]
    rw [if_pos (Or.inl (by omega)), if_pos (by simp; omega)]
  have hu : ∃ t : Prague.State, t.cwin = s.cwin ∧ updateAlpha s e = some (enterRecovery t false e) := by
    refine ⟨{ s with alpha := 1024, alphaShifted := 1024 * 16, updateSent := e.latest, epochSend := e.sendSequence,
                     epochEct1 := s.ect1, epochCe := s.ce }, rfl, ?_⟩
    unfold updateAlpha
    rw [hh]
    simp only
    rw [if_pos hn, hna]
    simp only
    rw [if_pos hc, if_pos (by omega)]
  obtain ⟨t, ht1, ht2⟩ := hu
  obtain ⟨s2, e2, _, _, _, _, _, _, _, _, g, _⟩ := grow_inv (enterRecovery t false e) e (recovery_inv _ _ _)
  have hw : (enterRecovery t false e).cwin = max (s.cwin / 2) 3072 := by
    simp only [enterRecovery, resetL3s, Bool.false_eq_true, if_false]
    split <;> omega
  refine ⟨s2, ?_, ?_⟩
  · simp only [Prague.step, onAck_eq, hb, ht2]
    exact e2
  · have := (g rfl).2 rfl
    rw [hw] at this
    simpa [enterRecovery, resetL3s] using this

/-- Out of the first slow start, acknowledgements of packets before the end of the epoch do not reduce the window. -/
theorem acks_keep (n : Nat) (s'' : Prague.State) : ∀ (m : List Event) (t : Prague.State), Prague.Inv t → t.first = false →
    t.epochSend = n → SmallPackets m → AcksUpTo n m → Prague.run t m = some s'' → t.cwin ≤ s''.cwin := by
  intro m
  induction m with
  | nil => intro t _ _ _ _ _ h2; simp only [Prague.run, Option.some.injEq] at h2; subst h2; exact Nat.le_refl _
  | cons v m ih =>
    intro t it ts te hm hu h2
    have hv := hu v (by simp)
    obtain ⟨t1, e1, i1⟩ := Prague.step_inv t v it (small_env hm v (by simp))
    simp only [Prague.run, e1] at h2
    suffices hx : t1.first = false ∧ t1.epochSend = t.epochSend ∧ t.cwin ≤ t1.cwin from
      Nat.le_trans hx.2.2 (ih t1 i1 hx.1 (hx.2.1.trans te) (fun x hx => hm x (by simp [hx]))
        (fun x hx => hu x (by simp [hx])) h2)
    cases v with
    | ack a =>
      have hbt : boosted t a = t := by unfold boosted; rw [if_neg (by simp [ts])]
      have hup : updateAlpha t a = some t := by
        unfold updateAlpha
        split
        · rfl
        · rename_i k hk
          have := hv k hk
          rw [if_neg (by omega)]
      simp only [Prague.step, onAck_eq, hbt, hup] at e1
      obtain ⟨s2, e2, _, a2, d2, b2, c2, _⟩ := grow_inv t a it
      rw [e1] at e2
      cases e2
      refine ⟨?_, c2, a2⟩
      unfold State.first at ts ⊢
      rw [d2]
      cases hsl : t.slow with
      | false => rw [b2 hsl]; rfl
      | true =>
        rw [hsl] at ts
        simp only [Bool.true_and] at ts
        rw [ts, Bool.and_false]
    | counts a b c =>
      simp only [Prague.step, Option.some.injEq] at e1
      subst e1
      have hm : ∀ x : Prague.State, x.first = false → onMark x c = x := by
        intro x hx
        unfold onMark
        rw [if_neg (by rw [hx]; decide)]
      split
      · rw [hm]
        · exact ⟨ts, rfl, Nat.le_refl _⟩
        · exact ts
      · exact ⟨ts, rfl, Nat.le_refl _⟩
    | loss _ => exact hv.elim
    | timeout _ => exact hv.elim
    | spurious _ => exact hv.elim
    | rtt _ => exact hv.elim
    | reset _ => exact hv.elim

/-- A reduction by an acknowledgement is the only one of its round trip: until a packet is acknowledged that was sent
after it, no acknowledgement and no mark reduces the window again. -/
theorem C100_once_per_round (l : List Event) (h : SmallPackets l) (s : Prague.State) (hs : Prague.run {} l = some s)
    (e : Env) (s' : Prague.State) (h1 : Prague.step s (.ack e) = some s') (hd : s'.cwin < s.cwin)
    (m : List Event) (hm : SmallPackets m) (hu : AcksUpTo e.sendSequence m) (s'' : Prague.State)
    (h2 : Prague.run s' m = some s'') : s'.cwin ≤ s''.cwin := by
  have hi := reached h hs
  have hb := boosted_inv s e hi
  -- the state after the reduction
  have hst : Prague.Inv s' ∧ s'.slow = false ∧ s'.epochSend = e.sendSequence := by
    simp only [Prague.step, onAck_eq] at h1
    obtain ⟨s1, e1, i1, _⟩ := update_inv _ e hb.1
    rw [e1] at h1
    obtain ⟨s2, e2, i2, a2, _, b2, c2, _⟩ := grow_inv s1 e i1
    simp only [e2, Option.some.injEq] at h1
    subst h1
    have hlt : s1.cwin < (boosted s e).cwin := by omega
    suffices hx : s1.slow = false ∧ s1.epochSend = e.sendSequence from ⟨i2, b2 hx.1, c2.trans hx.2⟩
    unfold updateAlpha at e1
    split at e1
    · cases e1; omega
    · split at e1
      · split at e1
        · cases e1
        · split at e1
          · split at e1
            · cases e1; exact ⟨rfl, rfl⟩
            · cases e1; exact ⟨rfl, rfl⟩
          · cases e1; simp at hlt
      · cases e1; omega
  obtain ⟨i', sl', es'⟩ := hst
  exact acks_keep e.sendSequence s'' m s' i' (by simp [State.first, sl']) es' hm hu h2

/-- The first mark ends the first slow start and takes one packet from the window. -/
theorem C100_first_mark (s : Prague.State) (hf : s.first = true) (ect1 ce : Nat) (hc : s.ce < ce) (e : Env)
    (hm : e.mtu < s.cwin) :
    ∃ s', Prague.step s (.counts ect1 ce e) = some s' ∧ s'.slow = false ∧ s'.cwin = s.cwin - e.mtu := by
  have hf' : s.slow = true ∧ s.ssthresh.isNone = true := by simpa [State.first] using hf
  refine ⟨_, rfl, ?_, ?_⟩ <;> simp [hc, onMark, State.first, hf'.1, hm] <;> simp_all

/-- A loss, when the test of losses says so, halves the window, a timeout takes it to the minimum; within the smoothed
RTT after that, further losses and timeouts change nothing. -/
theorem C100_loss (s : Prague.State) (timeout : Bool) (e : Env) (hl : e.lossTest = true)
    (ht : e.srtt < subU e.now s.recoveryStart) :
    ∃ s', Prague.step s (if timeout then .timeout e else .loss e) = some s' ∧
      s'.cwin = (if timeout then 2 * 1536 else max (s.cwin / 2) (2 * 1536)) ∧
      ∀ (timeout' : Bool) (e' : Env), subU e'.now e.now ≤ e'.srtt →
        Prague.step s' (if timeout' then .timeout e' else .loss e') = some s' := by
  have hm : CWIN_MINIMUM = 3072 := rfl
  have h0 : ∀ (b : Bool) (t : Prague.State) (e : Env),
      Prague.step t (if b then .timeout e else .loss e) = some (onLoss t b e) := by
    intro b t e; cases b <;> rfl
  refine ⟨_, h0 _ _ _, ?_, ?_⟩
  · unfold onLoss
    rw [if_pos (by simp [hl, ht])]
    simp only [enterRecovery, resetL3s, hm]
    cases timeout
    · simp only [Bool.false_eq_true, if_false]; split <;> omega
    · rfl
  · intro b e' he
    rw [h0]
    have hr : (onLoss s timeout e).recoveryStart = e.now := by
      unfold onLoss
      rw [if_pos (by simp [hl, ht])]
      rfl
    generalize onLoss s timeout e = t at *
    unfold onLoss
    rw [if_neg (by simp [hr]; intro _; omega)]

/-- After a loss or a timeout that changed the window, marks of packets sent before it do not reduce it further. -/
theorem C100_loss_then_marks (s : Prague.State) (timeout : Bool) (e : Env) (hl : e.lossTest = true)
    (ht : e.srtt < subU e.now s.recoveryStart) (s' s'' : Prague.State)
    (h1 : Prague.step s (if timeout then .timeout e else .loss e) = some s')
    (m : List Event) (hm : SmallPackets m) (hu : AcksUpTo e.sendSequence m) (h2 : Prague.run s' m = some s'') :
    s'.cwin ≤ s''.cwin := by
  have h0 : s' = enterRecovery s timeout e := by
    cases timeout <;> simp [Prague.step, onLoss, hl, ht] at h1 <;> exact h1.symm
  subst h0
  refine acks_keep e.sendSequence s'' m _ (recovery_inv _ _ _) ?_ rfl hm hu h2
  simp [State.first, enterRecovery, resetL3s]

/-- A loss that was none gives the window back, but for one byte; a window below two minimums may double. -/
theorem C100_spurious_partial (s : Prague.State) (e e' : Env) (hl : e.lossTest = true)
    (ht : e.srtt < subU e.now s.recoveryStart) (h' : subU e'.now e.now < e'.srtt) :
    ∃ s1 s2, Prague.step s (.loss e) = some s1 ∧ Prague.step s1 (.spurious e') = some s2 ∧
      s.cwin - 1 ≤ s2.cwin ∧ s2.cwin ≤ max s.cwin (4 * 1536) := by
  have hm : CWIN_MINIMUM = 3072 := rfl
  refine ⟨_, _, rfl, rfl, ?_⟩
  unfold onLoss
  rw [if_pos (by simp [hl, ht])]
  simp only [onSpurious, twice, enterRecovery, resetL3s, hm, Bool.false_eq_true, if_false]
  rw [if_pos h']
  have : (if s.cwin / 2 < 3072 then 3072 else s.cwin / 2) = max (s.cwin / 2) 3072 := by split <;> omega
  rw [this]
  rw [if_pos (by omega)]
  simp only
  omega

/-- If there is no threshold, because no loss was acted upon and the clock started less than an RTT ago, or because the
algorithm was reset, a loss that was none makes the window unlimited. -/
theorem C100_unlimited_violated :
    (∃ l s, SmallPackets l ∧ Prague.run {} l = some s ∧ (∀ v ∈ l, ∀ e, v ≠ .reset e) ∧ 2 ^ 63 < s.cwin) ∧
    ∃ l s, SmallPackets l ∧ (∀ v ∈ l, 10 ^ 15 ≤ v.env.now) ∧ Prague.run {} l = some s ∧ 2 ^ 63 < s.cwin := by
  refine ⟨⟨[.loss { lossTest := false, now := 40000, srtt := 50000 }, .spurious { now := 45000, srtt := 50000 }],
    { slow := false, cwin := 2 ^ 64 - 2 }, ?_, by decide, ?_, by decide⟩,
    ⟨[.loss { now := 10 ^ 15, srtt := 50000 }, .reset { now := 10 ^ 15 + 1, srtt := 50000 },
      .spurious { now := 10 ^ 15 + 2, srtt := 50000 }],
    { slow := false, cwin := 2 ^ 64 - 2, recoveryStart := 10 ^ 15 }, ?_, ?_, by decide, by decide⟩⟩
  · intro v hv
    simp only [List.mem_cons, List.not_mem_nil, or_false] at hv
    rcases hv with rfl | rfl <;> simp
  · intro v hv e
    simp only [List.mem_cons, List.not_mem_nil, or_false] at hv
    rcases hv with rfl | rfl <;> simp
  · intro v hv
    simp only [List.mem_cons, List.not_mem_nil, or_false] at hv
    rcases hv with rfl | rfl | rfl <;> simp
  · intro v hv
    simp only [List.mem_cons, List.not_mem_nil, or_false] at hv
    rcases hv with rfl | rfl | rfl <;> simp [Event.env]

/-- Slow start, a mark, a round in which all is marked, and another acknowledgement of that round. -/
example : (Prague.run {} [.ack { bytes := 14400 }, .counts 0 1 {}, .ack { highest := some 5, sendSequence := 20 },
      .counts 0 11 {}, .ack { highest := some 21, sendSequence := 40, bytes := 1440 },
      .ack { highest := some 30, sendSequence := 41, bytes := 1440 }]).map (·.cwin) = some 7654 ∧
    (Prague.run {} [.ack { bytes := 14400 }, .counts 0 1 {}]).map (·.cwin) = some 28320 := by decide

/-- Losses, without marks. -/
example : (Prague.run {} [.ack { bytes := 14640 }, .loss { now := 90000, srtt := 50000 },
      .loss { now := 120000, srtt := 50000 }, .ack { bytes := 15000, mtu := 1500 }]).map (·.cwin) = some 16500 := by decide

/-- A timeout: slow start again up to half the old window, 15000, then slower growth. -/
example : (Prague.run {} [.ack { bytes := 14640 }, .timeout { now := 90000, srtt := 50000 },
      .ack { bytes := 3072 }]).map (fun s => (s.cwin, s.slow)) = some (6144, true) ∧
    (Prague.run {} [.ack { bytes := 14640 }, .timeout { now := 90000, srtt := 50000 },
      .ack { bytes := 3072 }, .ack { bytes := 9000 }]).map (fun s => (s.cwin, s.slow)) = some (15144, false) := by decide

end Picoquic.Props
