import Verif.Model.Timing
/-!
# C27: round trip time estimates; C28: retransmission timer
-/

namespace Picoquic.Props
open Picoquic.Timing

/-- Run a sequence of measurements; also collect the samples retained, latest first. -/
def rttRun : List Measure → Rtt × List Nat
  | [] => (Rtt.init, [])
  | m :: ms =>
    let (r, l) := rttRun ms
    let r' := updatePathRtt r m
    (r', if !r.isInitialized || m.usable then r'.sample :: l else l)

/-- The invariant kept by the measurements. `l` is the list of samples. -/
structure RttInv (r : Rtt) (l : List Nat) : Prop where
  maxMem : ∀ x ∈ l, x ≤ r.rttMax
  maxIn : l ≠ [] → r.rttMax ∈ l
  maxNil : l = [] → r.rttMax = 0
  /-- Period counters. -/
  sumLe : r.sumInPeriod ≤ r.nbInPeriod * r.maxInPeriod
  sumGe : 0 < r.nbInPeriod → r.nbInPeriod * r.minInPeriod ≤ r.sumInPeriod
  pMax : r.maxInPeriod ≤ r.rttMax
  pMin : 0 < r.nbInPeriod → r.minInPeriod ≤ r.maxInPeriod
  /-- Before the first period ends. -/
  before : r.isInitialized = false → r.rttMin = 0 ∧
    ((l = [] ∧ r.nbInPeriod = 0) ∨ (0 < r.nbInPeriod ∧ r.minInPeriod ∈ l ∧ ∀ x ∈ l, r.minInPeriod ≤ x))
  /-- After. -/
  after : r.isInitialized = true → r.rttMin ∈ l ∧ (∀ x ∈ l, r.rttMin ≤ x) ∧
    r.rttMin ≤ r.smoothed ∧ r.smoothed ≤ r.rttMax ∧
    r.variant ≤ max (r.rttMax / 2) (r.rttMax - r.rttMin) ∧
    r.smoothed + 3 * r.variant ≤ r.retransmitTimer ∧
    (0 < r.nbInPeriod → r.rttMin ≤ r.minInPeriod)

theorem accumulate_inv (r : Rtt) (l : List Nat) (est : Nat) (h : RttInv r l) :
    RttInv (accumulate r est) (est :: l) ∧ 0 < (accumulate r est).nbInPeriod ∧
    (accumulate r est).minInPeriod ≤ est ∧ est ≤ (accumulate r est).maxInPeriod ∧
    (accumulate r est).sample = est ∧ (accumulate r est).isInitialized = r.isInitialized := by
  obtain ⟨h1, h2, h2', h3, h4, h5, h6, h7, h8⟩ := h
  have hnb : (r.nbInPeriod + 1 = 1) ↔ r.nbInPeriod = 0 := by omega
  have hmx : ∃ M, (accumulate r est).maxInPeriod = M ∧ est ≤ M ∧
      (0 < r.nbInPeriod → r.maxInPeriod ≤ M) ∧ (r.nbInPeriod = 0 → M = est) ∧
      M ≤ (accumulate r est).rttMax := by
    refine ⟨_, rfl, ?_⟩
    unfold accumulate
    simp only [hnb]
    refine ⟨?_, ?_, ?_, ?_⟩ <;> repeat' split
    all_goals omega
  have hmn : ∃ m, (accumulate r est).minInPeriod = m ∧ m ≤ est ∧
      (0 < r.nbInPeriod → m ≤ r.minInPeriod) ∧ (0 < r.nbInPeriod → m = est ∨ m = r.minInPeriod) ∧
      (r.nbInPeriod = 0 → m = est) := by
    refine ⟨_, rfl, ?_⟩
    unfold accumulate
    simp only [hnb]
    refine ⟨?_, ?_, ?_, ?_⟩ <;> repeat' split
    all_goals omega
  have hRM : (accumulate r est).rttMax = max r.rttMax est := by
    unfold accumulate; simp only; split <;> omega
  have hRm : (accumulate r est).rttMin = min r.rttMin est := by
    unfold accumulate; simp only; split <;> omega
  have hT : (accumulate r est).retransmitTimer ≥ r.retransmitTimer := by
    unfold accumulate; simp only; split <;> omega
  have e1 : (accumulate r est).nbInPeriod = r.nbInPeriod + 1 := rfl
  have e2 : (accumulate r est).sumInPeriod = r.sumInPeriod + est := rfl
  have e3 : (accumulate r est).sample = est := rfl
  have e4 : (accumulate r est).isInitialized = r.isInitialized := rfl
  have e5 : (accumulate r est).smoothed = r.smoothed := rfl
  have e6 : (accumulate r est).variant = r.variant := rfl
  generalize accumulate r est = q at *
  obtain ⟨M, hM, hM1, hM2, hM3, hM4⟩ := hmx
  obtain ⟨m, hm, hm1, hm2, hm3, hm4⟩ := hmn
  refine ⟨⟨?_, ?_, by simp, ?_, ?_, by omega, ?_, ?_, ?_⟩, by omega, by omega, by omega, e3, e4⟩
  · intro x hx
    simp only [List.mem_cons] at hx
    rcases hx with rfl | hx
    · omega
    · have := h1 x hx; omega
  · intro _
    rw [hRM]
    by_cases hle : r.rttMax ≤ est
    · simp [Nat.max_eq_right hle]
    · rw [Nat.max_eq_left (by omega)]
      by_cases hl : l = []
      · have := h2' hl; omega
      · exact List.mem_cons_of_mem _ (h2 hl)
  · rw [e1, e2, hM, Nat.add_mul]
    by_cases h0 : r.nbInPeriod = 0
    · rw [h0] at h3 ⊢; omega
    · have := Nat.mul_le_mul_left r.nbInPeriod (hM2 (by omega))
      omega
  · intro _
    rw [e1, e2, hm, Nat.add_mul]
    by_cases h0 : r.nbInPeriod = 0
    · rw [h0]; omega
    · have := Nat.mul_le_mul_left r.nbInPeriod (hm2 (by omega))
      have := h4 (by omega)
      omega
  · intro _; omega
  · intro hi
    rw [e4] at hi
    obtain ⟨b1, b2⟩ := h7 hi
    refine ⟨by omega, Or.inr ⟨by omega, ?_⟩⟩
    rw [hm]
    rcases b2 with ⟨rfl, b2⟩ | ⟨b2, b3, b4⟩
    · have := hm4 b2
      subst this; simp
    · constructor
      · rcases hm3 b2 with e | e
        · simp [e]
        · rw [e]; exact List.mem_cons_of_mem _ b3
      · intro x hx
        simp only [List.mem_cons] at hx
        rcases hx with rfl | hx
        · exact hm1
        · have := b4 x hx; have := hm2 b2; omega
  · intro hi
    rw [e4] at hi
    obtain ⟨a1, a2, a3, a4, a5, a6, a7⟩ := h8 hi
    refine ⟨?_, ?_, by omega, by omega, by omega, by omega, ?_⟩
    · rw [hRm]
      by_cases hle : r.rttMin ≤ est
      · rw [Nat.min_eq_left hle]; exact List.mem_cons_of_mem _ a1
      · rw [Nat.min_eq_right (by omega)]; simp
    · intro x hx
      simp only [List.mem_cons] at hx
      rcases hx with rfl | hx
      · omega
      · have := a2 x hx; omega
    · intro _
      by_cases h0 : r.nbInPeriod = 0
      · have := hm4 h0; omega
      · have := hm3 (by omega); have := a7 (by omega); omega

theorem endPeriod_inv (r : Rtt) (l : List Nat) (m : Measure) (est : Nat) (h : RttInv r l)
    (hpos : 0 < r.nbInPeriod) (h1 : r.minInPeriod ≤ est) (h2 : est ≤ r.maxInPeriod) :
    RttInv (endPeriod r m est) l ∧ (endPeriod r m est).sample = r.sample := by
  obtain ⟨b1, b2, b2', b3, b4, b5, b6, b7, b8⟩ := h
  -- the average is in the range of the period
  have havg : ∃ avg, (if r.nbInPeriod > 1 then r.sumInPeriod / r.nbInPeriod else est) = avg ∧
      r.minInPeriod ≤ avg ∧ avg ≤ r.maxInPeriod := by
    refine ⟨_, rfl, ?_⟩
    split
    · constructor
      · rw [Nat.le_div_iff_mul_le hpos, Nat.mul_comm]; exact b4 hpos
      · apply Nat.div_le_of_le_mul
        exact b3
    · exact ⟨h1, h2⟩
  obtain ⟨avg, ha, ha1, ha2⟩ := havg
  have hmm := b6 hpos
  have hvs : varSample r ≤ max r.smoothed r.maxInPeriod - min r.smoothed r.minInPeriod := by
    unfold varSample
    simp only
    repeat' split
    all_goals omega
  generalize hvsq : varSample r = vs at *
  unfold endPeriod
  simp only [ha, hvsq]
  cases hi : r.isInitialized with
  | false =>
    obtain ⟨c1, c2⟩ := b7 hi
    simp only [Bool.not_false, if_true]
    rcases c2 with ⟨rfl, c2⟩ | ⟨c2, c3, c4⟩
    · omega
    refine ⟨⟨b1, b2, b2', by simp, by simp, by simp, by simp, by simp, ?_⟩, trivial⟩
    intro _
    simp only
    refine ⟨c3, c4, by omega, by omega, by omega, by omega, by omega⟩
  | true =>
    obtain ⟨c1, c2, c3, c4, c5, c6, c7⟩ := b8 hi
    simp only [Bool.not_true, Bool.false_eq_true, if_false]
    have := c7 hpos
    refine ⟨⟨b1, b2, b2', by simp, by simp, by simp, by simp, by simp [hi], ?_⟩, trivial⟩
    intro _
    simp only
    refine ⟨c1, c2, by omega, by omega, by omega, by omega, by omega⟩

theorem updatePathRtt_inv (r : Rtt) (l : List Nat) (m : Measure) (h : RttInv r l) :
    RttInv (updatePathRtt r m)
      (if !r.isInitialized || m.usable then (updatePathRtt r m).sample :: l else l) ∧
    ((!r.isInitialized || m.usable) = true → (updatePathRtt r m).sample = sampleOf r m) := by
  unfold updatePathRtt
  split
  · rename_i hc
    simp only
    obtain ⟨a1, a2, a3, a4, a5, a6⟩ := accumulate_inv r l (sampleOf r m) h
    generalize ((match m.highest with | none => true | some h => _) || _ : Bool) = c
    split
    · obtain ⟨b1, b2⟩ := endPeriod_inv _ _ m (sampleOf r m) a1 a2 a3 a4
      rw [b2, a5]
      exact ⟨b1, fun _ => rfl⟩
    · rw [a5]
      exact ⟨a1, fun _ => rfl⟩
  · rename_i hc
    exact ⟨h, fun hh => absurd hh hc⟩

theorem rttRun_inv (ms : List Measure) : RttInv (rttRun ms).1 (rttRun ms).2 := by
  induction ms with
  | nil => exact ⟨by simp [rttRun], by simp [rttRun], by simp [rttRun, Rtt.init],
      by simp [rttRun, Rtt.init], by simp [rttRun, Rtt.init], by simp [rttRun, Rtt.init],
      by simp [rttRun, Rtt.init], by simp [rttRun, Rtt.init], by simp [rttRun, Rtt.init]⟩
  | cons m ms ih =>
    have := (updatePathRtt_inv (rttRun ms).1 (rttRun ms).2 m ih).1
    simpa only [rttRun] using this

/-- **C27.** After any sequence of measurements on a path, and once the first estimate was made: the
minimum and maximum round trip times are the smallest and largest of all samples, the smoothed round
trip time is between them, the deviation is at most the larger of the spread and half the largest
sample, and the retransmission timer is at least the smoothed round trip time plus three
deviations. -/
theorem C27_rtt_within_samples (ms : List Measure) (hi : (rttRun ms).1.isInitialized = true) :
    let r := (rttRun ms).1
    let samples := (rttRun ms).2
    (r.rttMin ∈ samples ∧ ∀ x ∈ samples, r.rttMin ≤ x) ∧
    (r.rttMax ∈ samples ∧ ∀ x ∈ samples, x ≤ r.rttMax) ∧
    (r.rttMin ≤ r.smoothed ∧ r.smoothed ≤ r.rttMax) ∧
    r.variant ≤ max (r.rttMax - r.rttMin) (r.rttMax / 2) ∧
    r.smoothed + 3 * r.variant ≤ r.retransmitTimer := by
  obtain ⟨b1, b2, b2', b3, b4, b5, b6, b7, b8⟩ := rttRun_inv ms
  obtain ⟨c1, c2, c3, c4, c5, c6, c7⟩ := b8 hi
  refine ⟨⟨c1, c2⟩, ⟨b2 (List.ne_nil_of_mem c1), b1⟩, ⟨c3, c4⟩, by omega, c6⟩

/-- **C27, the samples.** A retained sample is the time from sending to acknowledgement, minus at
most the acknowledgement delay announced by the peer, itself limited to the local maximum; the
subtraction never brings the sample below the smallest one known. -/
theorem C27_sample_bounds (ms : List Measure) (m : Measure)
    (hu : ((rttRun ms).1.isInitialized = false) ∨ m.usable = true) :
    ∃ x, (rttRun (m :: ms)).2 = x :: (rttRun ms).2 ∧
      x ≤ m.now - m.sendTime ∧
      (m.now - m.sendTime) - min m.ackDelay m.localMaxAckDelay ≤ x ∧
      ((rttRun ms).1.isInitialized = true → min (m.now - m.sendTime) (rttRun ms).1.rttMin ≤ x) ∧
      ((rttRun ms).1.isInitialized = false → x = m.now - m.sendTime) := by
  have hc : (!(rttRun ms).1.isInitialized || m.usable) = true := by
    rcases hu with h | h <;> simp [h]
  have hs := (updatePathRtt_inv (rttRun ms).1 (rttRun ms).2 m (rttRun_inv ms)).2 hc
  refine ⟨sampleOf (rttRun ms).1 m, ?_, ?_⟩
  · simp only [rttRun]
    rw [if_pos hc, hs]
  · unfold sampleOf
    simp only
    by_cases hn : m.now > m.sendTime
    · rw [if_pos hn]
      cases hi : (rttRun ms).1.isInitialized <;> simp only [Bool.false_and, Bool.true_and]
      · simp
      · repeat' split
        all_goals simp
        all_goals omega
    · rw [if_neg hn]
      refine ⟨by omega, by omega, by omega, by omega⟩

/-- Three measurements, the last reduced by the acknowledgement delay. -/
example : let ms : List Measure :=
    [⟨true, 3000, 3400, 100, true, 50, 25, none⟩, ⟨true, 2000, 2200, 0, true, 50, 25, none⟩,
      ⟨true, 1000, 1300, 0, true, 50, 25, none⟩]
    (rttRun ms).1.isInitialized = true ∧ (rttRun ms).2 = [350, 200, 300] ∧
    (rttRun ms).1.rttMin = 200 ∧ (rttRun ms).1.smoothed = 294 := by decide

/-! ## C28 -/

/-- The multiplier applied after `nb` retransmissions. -/
def backoffFactor (nb : Nat) : Nat :=
  if nb < 3 then 2 ^ nb
  else (4 + (min (nb - 2) 18) % 4) * 2 ^ ((min (nb - 2) 18) / 4)

theorem backoffFactor_mono (a b : Nat) (h : a ≤ b) : backoffFactor a ≤ backoffFactor b := by
  have hcap : ∀ n, backoffFactor n = backoffFactor (min n 20) := by
    intro n
    by_cases hn : n ≤ 20
    · rw [Nat.min_eq_left hn]
    · rw [Nat.min_eq_right (by omega)]
      unfold backoffFactor
      rw [if_neg (by omega), if_neg (by omega), Nat.min_eq_right (by omega)]
      rfl
  have hfin : ∀ x : Fin 21, ∀ y : Fin 21, x ≤ y → backoffFactor x ≤ backoffFactor y := by
    decide +kernel
  rw [hcap a, hcap b]
  exact hfin ⟨min a 20, by omega⟩ ⟨min b 20, by omega⟩ (by simp only [Fin.mk_le_mk]; omega)

theorem backoffFactor_le (nb : Nat) : backoffFactor nb ≤ 96 := by
  have := backoffFactor_mono nb (max nb 20) (by omega)
  have h2 : backoffFactor (max nb 20) = 96 := by
    unfold backoffFactor
    rw [if_neg (by omega), Nat.min_eq_right (by omega)]
  omega

theorem backoff_eq (t nb : Nat) (ht : t < 2 ^ 56) : backoff t nb = t * backoffFactor nb := by
  unfold backoff backoffFactor
  simp only
  by_cases h0 : nb = 0
  · subst h0; simp
  rw [if_neg h0]
  by_cases h3 : nb < 3
  · rw [if_pos h3, if_pos h3]
    have : nb = 1 ∨ nb = 2 := by omega
    rcases this with rfl | rfl <;> simp only [u64] <;> omega
  · rw [if_neg h3, if_neg h3]
    have hn : (if nb - 2 > 18 then 18 else nb - 2) = min (nb - 2) 18 := by split <;> omega
    rw [hn]
    have hb : min (nb - 2) 18 ≤ 18 := by omega
    generalize min (nb - 2) 18 = n at *
    have hq : n / 4 ≤ 4 := by omega
    have hr : n % 4 < 4 := by omega
    have hp : 2 ^ (2 + n / 4) = 4 * 2 ^ (n / 4) := by rw [Nat.pow_add]
    rw [hp]
    generalize n % 4 = k at *
    have hp2 : 2 ^ (n / 4) ≤ 2 ^ 4 := Nat.pow_le_pow_right (by omega) hq
    generalize 2 ^ (n / 4) = q at *
    have hx : t * q ≤ t * 16 := Nat.mul_le_mul_left t hp2
    have e1 : t * (4 * q) = 4 * (t * q) := by rw [Nat.mul_left_comm]
    have e2 : t * ((4 + k) * q) = 4 * (t * q) + k * (t * q) := by
      rw [Nat.mul_left_comm, Nat.add_mul]
    rw [e1, e2]
    generalize t * q = x at *
    have hu : u64 (4 * x) = 4 * x := by simp only [u64]; omega
    rw [hu]
    have hk : k = 0 ∨ k = 1 ∨ k = 2 ∨ k = 3 := by omega
    have hx' : x ≤ 2 ^ 60 := by omega
    have hu2 : u64 (k * (4 * x)) = k * (4 * x) := by
      unfold u64
      rcases hk with rfl | rfl | rfl | rfl <;> exact Nat.mod_eq_of_lt (by omega)
    rw [hu2]
    unfold u64
    rcases hk with rfl | rfl | rfl | rfl <;> rw [Nat.mod_eq_of_lt (by omega)] <;> omega

/-- **C28, negation.** The delay does not always grow with the number of retransmissions. First
case: with a 2 second idle timeout, the delay of the first retransmission (400 ms) is longer than
that of the next ones, since the limit of one sixteenth of the idle timeout only applies to
these. Second case: on a path with a long minimum round trip time, the delay drops from 1.2 s to
0.975 s, since delays above 2 s are replaced by one and a half round trip times. -/
theorem C28_backoff_decreases_violated :
    (∃ e : TimerEnv, ∃ t0 t1, e.handshake = false ∧ e.rttMin ≤ TARGET_SATELLITE_RTT ∧
      currentRetransmitTimer e 0 = some t0 ∧ currentRetransmitTimer e 1 = some t1 ∧ t1 < t0) ∧
    (∃ e : TimerEnv, ∃ t0 t1, e.handshake = false ∧ e.retransmitTimer ≤ e.idleTimeout / 16 ∧
      currentRetransmitTimer e 0 = some t0 ∧ currentRetransmitTimer e 1 = some t1 ∧ t1 < t0) := by
  refine ⟨⟨⟨400000, 2000000, 2000, false, 250000, 250000⟩, 400000, 125000, ?_⟩,
    ⟨⟨1200000, 60000000, 60000, false, 650000, 650000⟩, 1200000, 975000, ?_⟩⟩ <;> decide

/-- **C28, what holds.** Outside of these two cases (the timer is already below the idle timeout
limit, or at least one retransmission took place; the minimum round trip time is not above the
satellite threshold, or the smoothed value is at least two thirds of the large timer), the delay
never decreases when the number of retransmissions grows. Timers are assumed less than 2^56
microseconds. In the long handshake case, the shift must not overflow. -/
theorem C28_backoff_monotone_partial (e : TimerEnv) (nb nb' : Nat) (hle : nb ≤ nb')
    (ht : e.retransmitTimer < 2 ^ 56)
    (hidle : 0 < nb ∨ e.idleTimeout ≤ 15 ∨ e.retransmitTimer ≤ e.idleTimeout / 16)
    (hsat : e.rttMin ≤ TARGET_SATELLITE_RTT ∨
      (LARGE_RETRANSMIT_TIMER ≤ e.smoothed * 3 / 2 ∧ e.smoothed < 2 ^ 60))
    (hlong : e.handshake = true → HANDSHAKE_MAX_MS < e.maxIdleTimeout →
      nb' < 64 ∧ e.retransmitTimer * 2 ^ nb' < 2 ^ 64) :
    ∃ t t', currentRetransmitTimer e nb = some t ∧ currentRetransmitTimer e nb' = some t' ∧
      t ≤ t' := by
  unfold currentRetransmitTimer
  simp only [backoff_eq _ _ ht]
  have hm : e.retransmitTimer * backoffFactor nb ≤ e.retransmitTimer * backoffFactor nb' :=
    Nat.mul_le_mul_left _ (backoffFactor_mono _ _ hle)
  have h0 : nb = 0 → e.retransmitTimer * backoffFactor nb = e.retransmitTimer := by
    rintro rfl; simp [backoffFactor]
  have h1 : ∃ r r', (if nb > 0 ∧ e.idleTimeout > 15 ∧
        e.retransmitTimer * backoffFactor nb > e.idleTimeout / 16 then e.idleTimeout / 16
        else e.retransmitTimer * backoffFactor nb) = r ∧
      (if nb' > 0 ∧ e.idleTimeout > 15 ∧
        e.retransmitTimer * backoffFactor nb' > e.idleTimeout / 16 then e.idleTimeout / 16
        else e.retransmitTimer * backoffFactor nb') = r' ∧ r ≤ r' := by
    refine ⟨_, _, rfl, rfl, ?_⟩
    generalize e.retransmitTimer * backoffFactor nb = x at *
    generalize e.retransmitTimer * backoffFactor nb' = y at *
    repeat' split
    all_goals omega
  obtain ⟨r, r', hr, hr', hrr⟩ := h1
  rw [hr, hr']
  cases hh : e.handshake with
  | true =>
    simp only [if_true]
    by_cases hl : HANDSHAKE_MAX_MS < e.maxIdleTimeout
    · obtain ⟨g1, g2⟩ := hlong hh hl
      simp only [if_pos hl, if_neg (show ¬ nb ≥ 64 by omega), if_neg (show ¬ nb' ≥ 64 by omega)]
      refine ⟨_, _, rfl, rfl, ?_⟩
      have hp : e.retransmitTimer * 2 ^ nb ≤ e.retransmitTimer * 2 ^ nb' :=
        Nat.mul_le_mul_left _ (Nat.pow_le_pow_right (by omega) hle)
      generalize e.retransmitTimer * 2 ^ nb = x at *
      generalize e.retransmitTimer * 2 ^ nb' = y at *
      have hx : u64 x = x := by simp only [u64]; omega
      have hy : u64 y = y := by simp only [u64]; omega
      rw [hx, hy]
      repeat' split
      all_goals omega
    · rw [if_neg hl, if_neg hl]
      refine ⟨_, _, rfl, rfl, ?_⟩
      repeat' split
      all_goals omega
  | false =>
    simp only [Bool.false_eq_true, if_false]
    have halt : ∃ alt, (if e.rttMin > TARGET_SATELLITE_RTT then u64 (e.smoothed * 3) / 2
        else LARGE_RETRANSMIT_TIMER) = alt ∧ LARGE_RETRANSMIT_TIMER ≤ alt := by
      refine ⟨_, rfl, ?_⟩
      split
      · rcases hsat with h | ⟨h, h'⟩
        · omega
        · have : u64 (e.smoothed * 3) = e.smoothed * 3 := by simp only [u64]; omega
          rw [this]; exact h
      · exact Nat.le_refl _
    obtain ⟨alt, ha, ha'⟩ := halt
    rw [ha]
    generalize LARGE_RETRANSMIT_TIMER = L at *
    by_cases c1 : r > L <;> by_cases c2 : r' > L
    · rw [if_pos c1, if_pos c2]
      refine ⟨_, _, rfl, rfl, ?_⟩
      repeat' split
      all_goals omega
    · omega
    · rw [if_neg c1, if_pos c2]
      refine ⟨_, _, rfl, rfl, ?_⟩
      repeat' split
      all_goals omega
    · rw [if_neg c1, if_neg c2]
      exact ⟨_, _, rfl, rfl, hrr⟩

/-- **C28, limits.** The delay is at most the documented limits: 1 second during the handshake, or
one tenth of the local idle timeout if this one is longer than 30 seconds; later 2 seconds, or one
and a half round trip times on paths longer than the satellite threshold; and, once retransmissions
took place and the handshake is done, one sixteenth of the idle timeout. -/
theorem C28_backoff_limits (e : TimerEnv) (nb : Nat) (t : Nat)
    (h : currentRetransmitTimer e nb = some t) :
    (e.handshake = true → t ≤ if e.maxIdleTimeout > 30000 then e.maxIdleTimeout * 100 else 1000000) ∧
    (e.handshake = false → e.rttMin ≤ 610000 → t ≤ 2000000) ∧
    (e.handshake = false → 610000 < e.rttMin → t ≤ max 2000000 (e.smoothed * 3 / 2)) ∧
    (e.handshake = false → 0 < nb → 15 < e.idleTimeout → t ≤ e.idleTimeout / 16) := by
  have hsat : TARGET_SATELLITE_RTT = 610000 := rfl
  have hL : LARGE_RETRANSMIT_TIMER = 2000000 := rfl
  have hI : INITIAL_MAX_RETRANSMIT_TIMER = 1000000 := rfl
  have hH : HANDSHAKE_MAX_MS = 30000 := rfl
  unfold currentRetransmitTimer at h
  simp only [hsat, hL, hI, hH] at h
  generalize hb : backoff e.retransmitTimer nb = b at h
  have h1 : ∃ r, (if nb > 0 ∧ e.idleTimeout > 15 ∧ b > e.idleTimeout / 16 then e.idleTimeout / 16
        else b) = r ∧ (0 < nb → 15 < e.idleTimeout → r ≤ e.idleTimeout / 16) := by
    refine ⟨_, rfl, ?_⟩
    split <;> omega
  obtain ⟨r, hr, hr'⟩ := h1
  rw [hr] at h
  have hu : ∀ x, u64 x ≤ x := fun x => Nat.mod_le _ _
  cases hh : e.handshake with
  | true =>
    rw [hh] at h
    simp only [if_true] at h
    simp only [forall_const, true_and, reduceCtorEq, false_implies, and_true]
    by_cases hl : 30000 < e.maxIdleTimeout
    · rw [if_pos hl] at h
      rw [if_pos hl]
      split at h
      · cases h
      · have := hu (e.maxIdleTimeout * 100)
        have h' := Option.some.inj h
        rw [← h']
        split <;> omega
    · rw [if_neg hl] at h
      rw [if_neg hl]
      have h' := Option.some.inj h
      rw [← h']
      split <;> omega
  | false =>
    rw [hh] at h
    simp only [Bool.false_eq_true, if_false] at h
    simp only [forall_const, true_and, reduceCtorEq, false_implies]
    have := hu (e.smoothed * 3)
    by_cases hl : r > 2000000
    · rw [if_pos hl] at h
      have h' := Option.some.inj h
      rw [← h']
      clear h h'
      refine ⟨?_, ?_, ?_⟩ <;> intros <;> repeat' split
      all_goals omega
    · rw [if_neg hl] at h
      have h' := Option.some.inj h
      rw [← h']
      refine ⟨?_, ?_, ?_⟩ <;> intros <;> omega

/-- The hypotheses of the partial theorem on a usual path: delays 0.3, 0.6, 1.2, 1.5 s. -/
example : let e : TimerEnv := ⟨300000, 30000000, 30000, false, 50000, 60000⟩
    e.retransmitTimer ≤ e.idleTimeout / 16 ∧ e.rttMin ≤ TARGET_SATELLITE_RTT ∧
    [0, 1, 2, 3, 4, 9].map (currentRetransmitTimer e) =
      [some 300000, some 600000, some 1200000, some 1500000, some 1800000, some 1875000] := by
  decide

end Picoquic.Props
