import Verif.Model.NewReno
/-!
# C26: the New Reno congestion window
-/

namespace Picoquic.Props
open Picoquic.NewReno

/-- Run a sequence of notifications from the initial state. `none` is a division by zero. -/
def renoRun : Reno → List (Notification × Env) → Option Reno
  | r, [] => some r
  | r, (n, e) :: l => (notify r n e).bind (fun r' => renoRun r' l)

/-- Invariant. -/
def RenoInv (r : Reno) : Prop :=
  r.pathCwin = r.sim.cwin ∧ CWIN_MINIMUM ≤ r.sim.cwin ∧ CWIN_MINIMUM ≤ r.sim.ssthresh

theorem onSpurious_cases (s : Sim) (e : Env) : onSpurious s e = s ∨
    (s.cwin < 2 * s.ssthresh ∧
      onSpurious s e = { s with cwin := 2 * s.ssthresh, alg := .congestionAvoidance }) := by
  unfold onSpurious
  simp only
  by_cases h : (e.now - s.recoveryStart < e.smoothedRtt ∧
    (if e.multipath then s.recoveryStart > e.ackSentTime else s.recoverySequence > e.ackNumber)) ∧
    s.ssthresh ≠ UINT64_MAX ∧ s.cwin < 2 * s.ssthresh
  · right; exact ⟨h.2.2, if_pos h⟩
  · left; exact if_neg h

theorem simNotify_some (s : Sim) (n : Notification) (e : Env)
    (h : CWIN_MINIMUM ≤ s.cwin) (h' : CWIN_MINIMUM ≤ s.ssthresh) :
    ∃ s', simNotify s n e = some s' ∧ CWIN_MINIMUM ≤ s'.cwin ∧ CWIN_MINIMUM ≤ s'.ssthresh ∧
      (n ≠ .ecnEc → n ≠ .repeated → n ≠ .timeout → n ≠ .reset → s.cwin ≤ s'.cwin) := by
  have hc : CWIN_MINIMUM = 3072 := rfl
  have hr : ∃ s', (some (if s.recoverySequence ≤ e.lostPacket then enterRecovery s n e else s))
      = some s' ∧ CWIN_MINIMUM ≤ s'.cwin ∧ CWIN_MINIMUM ≤ s'.ssthresh := by
    refine ⟨_, rfl, ?_⟩
    split
    · unfold enterRecovery
      simp only
      constructor <;> repeat' split
      all_goals omega
    · exact ⟨h, h'⟩
  cases n with
  | acknowledgement =>
    simp only [simNotify, onAck]
    split
    · exact ⟨_, rfl, by simp only; omega, by simp only; omega, fun _ _ _ _ => by simp⟩
    · rw [if_neg (by omega)]
      refine ⟨_, rfl, ?_, by simp only; omega, fun _ _ _ _ => by simp⟩
      simp only
      generalize (e.bytesAcked * e.sendMtu + s.residualAck) / s.cwin = x
      omega
  | ecnEc =>
    obtain ⟨s', a, b, c⟩ := hr
    exact ⟨s', a, b, c, fun h => absurd rfl h⟩
  | repeated =>
    obtain ⟨s', a, b, c⟩ := hr
    exact ⟨s', a, b, c, fun _ h => absurd rfl h⟩
  | timeout =>
    obtain ⟨s', a, b, c⟩ := hr
    exact ⟨s', a, b, c, fun _ _ h => absurd rfl h⟩
  | spuriousRepeat =>
    refine ⟨_, rfl, ?_⟩
    rcases onSpurious_cases s e with g | ⟨g1, g⟩ <;> rw [g]
    · exact ⟨h, h', fun _ _ _ _ => Nat.le_refl _⟩
    · simp only; omega
  | rttMeasurement => exact ⟨s, rfl, h, h', fun _ _ _ _ => Nat.le_refl _⟩
  | reset =>
    refine ⟨_, rfl, by decide, by decide, fun _ _ _ h => absurd rfl h⟩
  | seedCwin =>
    simp only [simNotify, seedCwin]
    refine ⟨_, rfl, ?_⟩
    split
    · simp only; omega
    · exact ⟨h, h', fun _ _ _ _ => Nat.le_refl _⟩
  | other => exact ⟨s, rfl, h, h', fun _ _ _ _ => Nat.le_refl _⟩

theorem notify_some (r : Reno) (n : Notification) (e : Env) (h : RenoInv r) :
    ∃ r', notify r n e = some r' ∧ RenoInv r' ∧
      (n ≠ .ecnEc → n ≠ .repeated → n ≠ .timeout → n ≠ .reset → r.pathCwin ≤ r'.pathCwin) := by
  obtain ⟨h1, h2, h3⟩ := h
  have viaSim : ∃ r', ((simNotify r.sim n e).map (fun s => (⟨s, s.cwin⟩ : Reno))) = some r' ∧
      RenoInv r' ∧
      (n ≠ .ecnEc → n ≠ .repeated → n ≠ .timeout → n ≠ .reset → r.pathCwin ≤ r'.pathCwin) := by
    obtain ⟨s', a, b, c, d⟩ := simNotify_some r.sim n e h2 h3
    rw [a]
    exact ⟨⟨s', s'.cwin⟩, rfl, ⟨rfl, b, c⟩, fun x1 x2 x3 x4 => by rw [h1]; exact d x1 x2 x3 x4⟩
  cases n with
  | acknowledgement =>
    simp only [notify]
    have hset : ∃ q, (if r.initialSlowStart then
        r.setCwin (if e.targetWin > r.pathCwin then e.targetWin else r.pathCwin) else r) = q ∧
        RenoInv q ∧ r.pathCwin ≤ q.pathCwin := by
      refine ⟨_, rfl, ?_⟩
      unfold RenoInv
      split
      · simp only [Reno.setCwin]
        split <;> (refine ⟨⟨trivial, ?_, ?_⟩, ?_⟩ <;> omega)
      · exact ⟨⟨h1, h2, h3⟩, Nat.le_refl _⟩
    obtain ⟨q, hq, ⟨q1, q2, q3⟩, hle⟩ := hset
    simp only [hq]
    split
    · obtain ⟨s', a, b, c, d⟩ := simNotify_some q.sim .acknowledgement e q2 q3
      rw [a]
      refine ⟨⟨s', s'.cwin⟩, rfl, ⟨rfl, b, c⟩, fun x1 x2 x3 x4 => ?_⟩
      have := d x1 x2 x3 x4
      simp only; omega
    · exact ⟨q, rfl, ⟨q1, q2, q3⟩, fun _ _ _ _ => hle⟩
  | ecnEc => exact viaSim
  | repeated => exact viaSim
  | timeout => exact viaSim
  | spuriousRepeat => exact viaSim
  | seedCwin => exact viaSim
  | rttMeasurement =>
    simp only [notify]
    have hset : ∃ q, (if e.longRtt then
        r.setCwin (if e.longWin > r.pathCwin then e.longWin else r.pathCwin) else r) = q ∧
        RenoInv q ∧ r.pathCwin ≤ q.pathCwin := by
      refine ⟨_, rfl, ?_⟩
      unfold RenoInv
      split
      · simp only [Reno.setCwin]
        split <;> (refine ⟨⟨trivial, ?_, ?_⟩, ?_⟩ <;> omega)
      · exact ⟨⟨h1, h2, h3⟩, Nat.le_refl _⟩
    obtain ⟨q, hq, ⟨q1, q2, q3⟩, hle⟩ := hset
    simp only [hq]
    split
    · split
      · exact ⟨_, rfl, ⟨rfl, q2, q2⟩, fun _ _ _ _ => by simp only; omega⟩
      · exact ⟨_, rfl, ⟨q1, q2, q3⟩, fun _ _ _ _ => hle⟩
    · exact ⟨_, rfl, ⟨h1, h2, h3⟩, fun _ _ _ _ => Nat.le_refl _⟩
  | reset =>
    exact ⟨_, rfl, ⟨rfl, by decide, by decide⟩, fun _ _ _ h => absurd rfl h⟩
  | other => exact ⟨_, rfl, ⟨h1, h2, h3⟩, fun _ _ _ _ => Nat.le_refl _⟩

theorem renoRun_inv (l : List (Notification × Env)) (r : Reno) (h : RenoInv r) :
    ∃ r', renoRun r l = some r' ∧ RenoInv r' := by
  induction l generalizing r with
  | nil => exact ⟨r, rfl, h⟩
  | cons x l ih =>
    obtain ⟨n, e⟩ := x
    obtain ⟨r1, a, b, _⟩ := notify_some r n e h
    obtain ⟨r2, c, d⟩ := ih r1 b
    exact ⟨r2, by simp [renoRun, a, c], d⟩

theorem renoInit_inv : RenoInv Reno.init := ⟨rfl, by decide, by decide⟩

/-- **C26, minimum.** After any sequence of notifications, in any order and with any values, no
division by zero took place and the window of the path is at least two packets of 1536 bytes. -/
theorem C26_window_at_least_minimum (l : List (Notification × Env)) :
    ∃ r, renoRun Reno.init l = some r ∧ 2 * 1536 ≤ r.pathCwin := by
  obtain ⟨r, a, b, c, _⟩ := renoRun_inv l Reno.init renoInit_inv
  exact ⟨r, a, by rw [b]; exact c⟩

/-- **C26, growth.** After any history, acknowledgements, RTT measurements, spurious
retransmissions and bandwidth seeds never decrease the window: only losses, congestion marks,
timeouts and resets do. -/
theorem C26_only_losses_decrease (l : List (Notification × Env)) (r : Reno)
    (h : renoRun Reno.init l = some r) (n : Notification) (e : Env)
    (hn : n ∉ [Notification.ecnEc, .repeated, .timeout, .reset]) :
    ∃ r', notify r n e = some r' ∧ r.pathCwin ≤ r'.pathCwin := by
  obtain ⟨r0, a, b⟩ := renoRun_inv l Reno.init renoInit_inv
  rw [h] at a
  cases a
  obtain ⟨r', c, d, f⟩ := notify_some r n e b
  simp only [List.mem_cons, List.not_mem_nil, or_false, not_or] at hn
  exact ⟨r', c, f hn.1 hn.2.1 hn.2.2.1 hn.2.2.2⟩

/-- **C26, reduction.** After any history, a loss or congestion mark leaves the window unchanged, or
sets it to the larger of half its value and the minimum; a timeout leaves it unchanged or sets
it to the minimum. The reduction takes place exactly when the packet lost was sent after the
previous reduction. -/
theorem C26_loss_halves (l : List (Notification × Env)) (r : Reno)
    (h : renoRun Reno.init l = some r) (n : Notification) (e : Env)
    (hn : n = .ecnEc ∨ n = .repeated ∨ n = .timeout) :
    ∃ r', notify r n e = some r' ∧
      (e.lostPacket < r.sim.recoverySequence → r' = r) ∧
      (r.sim.recoverySequence ≤ e.lostPacket →
        r'.pathCwin = (if n = .timeout then 2 * 1536 else max (r.pathCwin / 2) (2 * 1536)) ∧
        r'.sim.recoverySequence = e.sendSequence) := by
  obtain ⟨r0, a, b1, b2, b3⟩ := renoRun_inv l Reno.init renoInit_inv
  rw [h] at a
  cases a
  have key : ∃ r', ((some (if r.sim.recoverySequence ≤ e.lostPacket then enterRecovery r.sim n e
      else r.sim)).map (fun s => (⟨s, s.cwin⟩ : Reno))) = some r' ∧
      (e.lostPacket < r.sim.recoverySequence → r' = r) ∧
      (r.sim.recoverySequence ≤ e.lostPacket →
        r'.pathCwin = (if n = .timeout then 2 * 1536 else max (r.pathCwin / 2) (2 * 1536)) ∧
        r'.sim.recoverySequence = e.sendSequence) := by
    refine ⟨_, rfl, ?_, ?_⟩
    · intro hlt
      rw [if_neg (by omega)]
      cases r
      simp only [Reno.mk.injEq, true_and]
      exact b1.symm
    · intro hle
      rw [if_pos hle]
      simp only [enterRecovery, b1, and_true]
      have hc : CWIN_MINIMUM = 3072 := rfl
      split
      · rfl
      · split <;> omega
  rcases hn with rfl | rfl | rfl <;> exact key

/-- **C26, once per recovery period.** After a reduction made when packets up to `sendSequence`
(excluded) had been sent, further losses of these packets have no effect, whatever
notifications other than reset came in between. -/
theorem C26_one_reduction_per_round (r : Reno) (n : Notification) (e : Env) (h : RenoInv r)
    (hn : n = .ecnEc ∨ n = .repeated ∨ n = .timeout)
    (hle : r.sim.recoverySequence ≤ e.lostPacket) (r1 : Reno) (h1 : notify r n e = some r1)
    (l : List (Notification × Env))
    (hl : ∀ x ∈ l, x.1 ≠ .reset ∧
      (x.1 = .ecnEc ∨ x.1 = .repeated ∨ x.1 = .timeout → x.2.lostPacket < e.sendSequence)) :
    ∃ r2, renoRun r1 l = some r2 ∧ r1.pathCwin ≤ r2.pathCwin := by
  have hseq : r1.sim.recoverySequence = e.sendSequence := by
    rcases hn with rfl | rfl | rfl <;>
      (simp only [notify, simNotify, Option.map_some, Option.some.injEq] at h1
       rw [← h1, if_pos hle]
       rfl)
  have hinv : RenoInv r1 := by
    obtain ⟨r', a, b, _⟩ := notify_some r n e h
    rw [h1] at a; cases a; exact b
  clear h1 hle hn h
  induction l generalizing r1 with
  | nil => exact ⟨r1, rfl, Nat.le_refl _⟩
  | cons x l ih =>
    obtain ⟨n', e'⟩ := x
    obtain ⟨hx1, hx2⟩ := hl (n', e') (by simp)
    simp only at hx1 hx2
    obtain ⟨r', a, b, c⟩ := notify_some r1 n' e' hinv
    have hstep : r'.sim.recoverySequence = e.sendSequence ∧ r1.pathCwin ≤ r'.pathCwin := by
      by_cases hred : n' = .ecnEc ∨ n' = .repeated ∨ n' = .timeout
      · have hlt := hx2 hred
        have : r' = r1 := by
          have hgo : notify r1 n' e' = some ⟨r1.sim, r1.sim.cwin⟩ := by
            rcases hred with rfl | rfl | rfl <;>
              (simp only [notify, simNotify, Option.map_some]
               rw [if_neg (by omega)])
          rw [a] at hgo
          cases r1
          obtain ⟨g1, _⟩ := hinv
          simp only at g1
          rw [g1]
          exact Option.some.inj hgo
        subst this
        exact ⟨hseq, Nat.le_refl _⟩
      · simp only [not_or] at hred
        refine ⟨?_, c hred.1 hred.2.1 hred.2.2 hx1⟩
        rw [← hseq]
        cases n' with
        | acknowledgement =>
          simp only [notify] at a
          have hset : ∀ q, (if r1.initialSlowStart then
              r1.setCwin (if e'.targetWin > r1.pathCwin then e'.targetWin else r1.pathCwin)
              else r1) = q → q.sim.recoverySequence = r1.sim.recoverySequence := by
            intro q hq; rw [← hq]; split <;> rfl
          generalize (if r1.initialSlowStart then
              r1.setCwin (if e'.targetWin > r1.pathCwin then e'.targetWin else r1.pathCwin)
              else r1) = q at a hset
          have hq := hset q rfl
          rw [← hq]
          split at a
          · simp only [simNotify, onAck] at a
            split at a
            · cases a; rfl
            · split at a
              · cases a
              · cases a; rfl
          · cases a; rfl
        | ecnEc => exact absurd rfl hred.1
        | repeated => exact absurd rfl hred.2.1
        | timeout => exact absurd rfl hred.2.2
        | spuriousRepeat =>
          simp only [notify, simNotify, Option.map_some, Option.some.injEq] at a
          rw [← a]
          rcases onSpurious_cases r1.sim e' with g | ⟨_, g⟩ <;> rw [g]
        | seedCwin =>
          simp only [notify, simNotify, seedCwin, Option.map_some, Option.some.injEq] at a
          rw [← a]; split <;> rfl
        | rttMeasurement =>
          simp only [notify] at a
          repeat' split at a
          all_goals (cases a; rfl)
        | reset => exact absurd rfl hx1
        | other => cases a; rfl
    obtain ⟨r2, d1, d2⟩ := ih r' (fun y hy => hl y (by simp [hy])) hstep.1 b
    exact ⟨r2, by simp [renoRun, a, d1], Nat.le_trans hstep.2 d2⟩

/-- A history: growth, loss of packet 5 when 10 was next, then the loss of packet 7 is ignored. -/
example :
    let e : Env := ⟨20000, 5, 1440, 1000, 50000, 10, 4, 0, false, true, false, 0, 0, false⟩
    ((renoRun Reno.init [(.acknowledgement, e)]).map (·.pathCwin) = some 35360) ∧
    ((renoRun Reno.init [(.acknowledgement, e), (.repeated, e)]).map (·.pathCwin) = some 17680) ∧
    ((renoRun Reno.init [(.acknowledgement, e), (.repeated, e),
      (.repeated, { e with lostPacket := 7 })]).map (·.pathCwin) = some 17680) := by
  decide

end Picoquic.Props
