import Verif.Model.Pacing
/-!
# C25: pacing bounds the sending rate, and does not block forever
-/

namespace Picoquic.Props
open Picoquic.Pacing

/-- What happens to the pacer of a path. `trySend`: a packet of `length` bytes is ready at time
`now`; it is sent if and only if the pacer authorizes it. The other two are the updates made by
congestion control. -/
inductive PacingEvent where
  | trySend (now nextTime length : Nat) (train : Bool)
  | parameters (now packetNs quantumNs smoothedRtt : Nat)
  | window (now cwin smoothedRtt packetNs quantumNs : Nat)

/-- Time of an event. -/
def PacingEvent.time : PacingEvent → Nat
  | .trySend now _ _ _ => now
  | .parameters now _ _ _ => now
  | .window now _ _ _ _ => now

/-- Effect of an event, and the length of the packet sent, if any. -/
def pacingStep (mtu : Nat) (p : Pacing) : PacingEvent → Pacing × Nat
  | .trySend now nextTime length train =>
    let a := isAuthorized p now nextTime train
    if a.ok then (afterSend a.pacing length mtu now, length) else (a.pacing, 0)
  | .parameters _ packetNs quantumNs rtt => (updateParameters p packetNs quantumNs rtt, 0)
  | .window _ cwin rtt packetNs quantumNs => (updateWindow p cwin mtu rtt packetNs quantumNs, 0)

/-- For each event in turn, the state before it and the length sent. -/
def pacingRun (mtu : Nat) (p : Pacing) : List PacingEvent → List (Pacing × Nat)
  | [] => []
  | e :: es => (p, (pacingStep mtu p e).2) :: pacingRun mtu (pacingStep mtu p e).1 es

/-- The state after the events. -/
def pacingEnd (mtu : Nat) (p : Pacing) : List PacingEvent → Pacing
  | [] => p
  | e :: es => pacingEnd mtu (pacingStep mtu p e).1 es

/-- Packets never exceed the MTU. -/
def Sized (mtu : Nat) : PacingEvent → Prop
  | .trySend _ _ length _ => length ≤ mtu
  | _ => True

/-- The invariant: the bucket is never in debt and never over its maximum. -/
def PInv (p : Pacing) : Prop := 0 ≤ p.bucket ∧ p.bucket ≤ p.bucketMax ∧ 0 ≤ p.packetTime

theorem updateBucket_spec (p : Pacing) (now : Nat) (h : PInv p) :
    PInv (updateBucket p now) ∧ (updateBucket p now).packetTime = p.packetTime ∧
    (updateBucket p now).bucketMax = p.bucketMax ∧
    (updateBucket p now).evaluationTime = max p.evaluationTime now ∧
    (updateBucket p now).bucket ≤ p.bucket + (max p.evaluationTime now - p.evaluationTime) * 1000 := by
  obtain ⟨h1, h2, h3⟩ := h
  have hclip : ¬ p.bucket < -p.packetTime := by omega
  unfold updateBucket PInv
  simp only [if_neg hclip]
  split
  · rename_i hn
    simp only
    generalize hd : ((now - p.evaluationTime : Nat) : Int) = d
    have hmx : max p.evaluationTime now = now := by omega
    split <;> (refine ⟨⟨?_, ?_, ?_⟩, trivial, trivial, ?_, ?_⟩ <;> omega)
  · simp only
    refine ⟨⟨?_, ?_, ?_⟩, trivial, trivial, ?_, ?_⟩ <;> omega

theorem cost_bounds (p : Pacing) (length mtu : Nat) (h : PInv p) (hl : length ≤ mtu)
    (hm : 0 < mtu) :
    0 ≤ cost p length mtu ∧ cost p length mtu ≤ p.packetTime ∧
    p.packetTime * length ≤ mtu * cost p length mtu := by
  obtain ⟨h1, h2, h3⟩ := h
  unfold cost
  have hmz : (0 : Int) < mtu := by omega
  have hpl : p.packetTime * length ≤ p.packetTime * mtu :=
    Int.mul_le_mul_of_nonneg_left (by omega) h3
  have hpos : 0 ≤ p.packetTime * length := Int.mul_nonneg h3 (by omega)
  refine ⟨Int.ediv_nonneg (by omega) (by omega), ?_, ?_⟩
  · have : (p.packetTime * length + (mtu - 1 : Nat)) / mtu ≤
        (p.packetTime * mtu + (mtu - 1 : Nat)) / mtu := Int.ediv_le_ediv hmz (by omega)
    have h4 : (p.packetTime * mtu + (mtu - 1 : Nat)) / (mtu : Int) = p.packetTime := by
      rw [Int.add_comm, Int.add_mul_ediv_right _ _ (by omega),
        Int.ediv_eq_zero_of_lt (by omega) (by omega)]
      omega
    omega
  · have := Int.mul_ediv_add_emod (p.packetTime * length + (mtu - 1 : Nat)) mtu
    have h5 := Int.emod_lt_of_pos (p.packetTime * length + (mtu - 1 : Nat)) hmz
    omega

theorem isAuthorized_spec (p : Pacing) (now nextTime : Nat) (train : Bool) (h : PInv p) :
    let a := isAuthorized p now nextTime train
    a.pacing.bucket = (updateBucket p now).bucket ∧
    a.pacing.bucketMax = p.bucketMax ∧ a.pacing.packetTime = p.packetTime ∧
    a.pacing.evaluationTime = max p.evaluationTime now ∧
    (a.ok = true ↔ p.packetTime ≤ (updateBucket p now).bucket) := by
  obtain ⟨h1, h2, h3, h4, h5⟩ := updateBucket_spec p now h
  simp only
  unfold isAuthorized
  simp only
  generalize updateBucket p now = q at *
  generalize (if (train || q.bandwidthPause) = true then _ else _ : Int) = r
  split
  · split
    · refine ⟨rfl, h3, h2, h4, ?_⟩
      simp only [Bool.false_eq_true, false_iff]; omega
    · refine ⟨rfl, h3, h2, h4, ?_⟩
      simp only [Bool.false_eq_true, false_iff]; omega
  · refine ⟨rfl, h3, h2, h4, ?_⟩
    simp only [true_iff]; omega

theorem updateParameters_inv (p : Pacing) (a b r : Nat) (h : PInv p) :
    PInv (updateParameters p a b r) ∧
    (updateParameters p a b r).bucket ≤ p.bucket ∧
    (updateParameters p a b r).evaluationTime = p.evaluationTime := by
  obtain ⟨h1, h2, h3⟩ := h
  unfold updateParameters PInv
  simp only
  generalize (if b = 0 then 16 * (if a = 0 then 1 else if a > r * 1000 then r * 1000 else a) else b)
    = bm
  generalize (if a = 0 then 1 else if a > r * 1000 then r * 1000 else a) = pt
  split <;> (refine ⟨⟨?_, ?_, ?_⟩, ?_, trivial⟩ <;> omega)

theorem updateWindow_inv (p : Pacing) (cwin mtu r a b : Nat) (h : PInv p) :
    PInv (updateWindow p cwin mtu r a b) ∧
    (updateWindow p cwin mtu r a b).bucket ≤ p.bucket ∧
    (updateWindow p cwin mtu r a b).evaluationTime = p.evaluationTime := by
  unfold updateWindow
  simp only
  split
  · obtain ⟨h1, h2, h3⟩ := h
    unfold PInv
    simp only
    split <;> (refine ⟨⟨?_, ?_, ?_⟩, ?_, trivial⟩ <;> omega)
  · exact updateParameters_inv p a b r h

/-- The effect of one event on the credit. `spent` is the credit consumed by the packet sent. -/
theorem pacingStep_spec (mtu : Nat) (hm : 0 < mtu) (p : Pacing) (e : PacingEvent) (h : PInv p)
    (hs : Sized mtu e) (t1 t2 : Nat) (ht : t1 ≤ e.time ∧ e.time ≤ t2) (B : Int)
    (hB : p.bucketMax ≤ B) :
    ∃ spent : Int, PInv (pacingStep mtu p e).1 ∧
      p.packetTime * (pacingStep mtu p e).2 ≤ mtu * spent ∧ 0 ≤ spent ∧
      p.evaluationTime ≤ (pacingStep mtu p e).1.evaluationTime ∧
      (p.evaluationTime ≤ t2 → (pacingStep mtu p e).1.evaluationTime ≤ t2) ∧
      ((pacingStep mtu p e).1.bucket + spent ≤
          p.bucket + ((pacingStep mtu p e).1.evaluationTime - p.evaluationTime) * 1000) ∧
      ((pacingStep mtu p e).1.bucket + spent ≤ B) ∧
      (spent = 0 ∨ t1 ≤ (pacingStep mtu p e).1.evaluationTime) := by
  cases e with
  | trySend now nextTime length train =>
    simp only [PacingEvent.time] at ht
    simp only [Sized] at hs
    obtain ⟨a1, a2, a3, a4, a5⟩ := isAuthorized_spec p now nextTime train h
    obtain ⟨b1, b2, b3, b4, b5⟩ := updateBucket_spec p now h
    have hinv : PInv (isAuthorized p now nextTime train).pacing := by
      unfold PInv at b1 ⊢
      rw [a1, a2, a3]; omega
    simp only [pacingStep]
    split
    · rename_i hok
      have hge := a5.1 hok
      obtain ⟨c1, c2, c3, c4, c5⟩ := updateBucket_spec (isAuthorized p now nextTime train).pacing now hinv
      -- the second update at the same time changes nothing
      have hsame : updateBucket (isAuthorized p now nextTime train).pacing now =
          (isAuthorized p now nextTime train).pacing := by
        generalize (isAuthorized p now nextTime train).pacing = q at *
        unfold PInv at hinv
        unfold updateBucket
        simp only [if_neg (show ¬ q.bucket < -q.packetTime by omega),
          if_neg (show ¬ now > q.evaluationTime by rw [a4]; omega)]
      obtain ⟨d1, d2, d3⟩ := cost_bounds (isAuthorized p now nextTime train).pacing length mtu
        hinv hs hm
      refine ⟨cost (isAuthorized p now nextTime train).pacing length mtu, ?_⟩
      unfold afterSend
      rw [hsame]
      simp only
      unfold PInv at *
      simp only
      rw [a3] at d2 d3
      rw [a1, a2, a3, a4]
      refine ⟨⟨by omega, by omega, by omega⟩, d3, d1, by omega, by omega, by omega, by omega, by omega⟩
    · refine ⟨0, ?_⟩
      unfold PInv at *
      rw [a1, a2, a3, a4]
      simp only
      refine ⟨⟨by omega, by omega, by omega⟩, by simp, by omega, by omega, by omega, by omega,
        by omega, by omega⟩
  | parameters now a b r =>
    obtain ⟨h1, h2, h3⟩ := updateParameters_inv p a b r h
    refine ⟨0, h1, by simp [pacingStep], by omega, ?_, ?_, ?_, ?_, Or.inl rfl⟩ <;>
      simp only [pacingStep] <;> unfold PInv at h <;> omega
  | window now cwin r a b =>
    obtain ⟨h1, h2, h3⟩ := updateWindow_inv p cwin mtu r a b h
    refine ⟨0, h1, by simp [pacingStep], by omega, ?_, ?_, ?_, ?_, Or.inl rfl⟩ <;>
      simp only [pacingStep] <;> unfold PInv at h <;> omega

/-- The sum of a list of integers. -/
def total (l : List Int) : Int := l.foldr (· + ·) 0

theorem pacingRun_spec (mtu : Nat) (hm : 0 < mtu) (B : Int) (hB0 : 0 ≤ B) (t1 t2 : Nat)
    (hle : t1 ≤ t2) (es : List PacingEvent)
    (p : Pacing) (h : PInv p) (hev : p.evaluationTime ≤ t2)
    (hes : ∀ e ∈ es, Sized mtu e ∧ t1 ≤ e.time ∧ e.time ≤ t2)
    (hB : ∀ q ∈ pacingRun mtu p es, q.1.bucketMax ≤ B) :
    total ((pacingRun mtu p es).map (fun q => q.1.packetTime * q.2)) ≤
      mtu * (min B (p.bucket + (max t1 p.evaluationTime - p.evaluationTime) * 1000) +
        (t2 - max t1 p.evaluationTime) * 1000) := by
  induction es generalizing p with
  | nil =>
    simp only [pacingRun, total, List.map_nil, List.foldr_nil]
    unfold PInv at h
    apply Int.mul_nonneg (by omega)
    omega
  | cons e es ih =>
    have hp := hB (p, _) (List.mem_cons_self ..)
    simp only at hp
    obtain ⟨spent, s1, s2, s3, s4, s5, s6, s7, s8⟩ := pacingStep_spec mtu hm p e h (hes e (by simp)).1
      t1 t2 (hes e (by simp)).2 B hp
    have := ih (pacingStep mtu p e).1 s1 (s5 hev) (fun e' he' => hes e' (by simp [he']))
      (fun q hq => hB q (by simp [pacingRun, hq]))
    simp only [pacingRun, total, List.map_cons, List.foldr_cons] at *
    generalize (pacingStep mtu p e).1 = q at *
    refine Int.le_trans (Int.add_le_add s2 this) ?_
    rw [← Int.mul_add]
    apply Int.mul_le_mul_of_nonneg_left _ (by omega)
    unfold PInv at *
    omega

/-- **C25, rate.** Take any reachable state of the pacer, any interval `[t1, t2]` and any sequence
of events in it, in which packets no larger than the MTU are sent only when the pacer authorizes
them, while congestion control changes the pacing parameters at will. Weighing each byte sent with
the time per byte in force (`packetTime / mtu` nanoseconds), the total is at most the duration of
the interval plus one bucket (`B` bounds the bucket sizes configured during the interval). -/
theorem C25_rate_bound (mtu : Nat) (hm : 0 < mtu) (now0 : Nat) (history es : List PacingEvent)
    (hhist : ∀ e ∈ history, Sized mtu e) (t1 t2 : Nat) (hle : t1 ≤ t2)
    (hpast : ∀ e ∈ history, e.time ≤ t1) (h0 : now0 ≤ t1)
    (hes : ∀ e ∈ es, Sized mtu e ∧ t1 ≤ e.time ∧ e.time ≤ t2) (B : Int) (hB0 : 0 ≤ B)
    (hB : ∀ q ∈ pacingRun mtu (pacingEnd mtu (init now0) history) es, q.1.bucketMax ≤ B) :
    total ((pacingRun mtu (pacingEnd mtu (init now0) history) es).map
      (fun q => q.1.packetTime * q.2)) ≤ mtu * (B + (t2 - t1) * 1000) := by
  have key : ∀ (l : List PacingEvent) (p : Pacing), (∀ e ∈ l, Sized mtu e ∧ e.time ≤ t1) →
      PInv p → p.evaluationTime ≤ t1 →
      PInv (pacingEnd mtu p l) ∧ (pacingEnd mtu p l).evaluationTime ≤ t1 := by
    intro l
    induction l with
    | nil => intro p _ h1 h2; exact ⟨h1, h2⟩
    | cons e l ih =>
      intro p hl h1 h2
      obtain ⟨spent, s1, s2, s3, s4, s5, s6, s7, s8⟩ := pacingStep_spec mtu hm p e h1
        (hl e (by simp)).1 0 t1 ⟨by omega, (hl e (by simp)).2⟩ p.bucketMax (Int.le_refl _)
      exact ih _ (fun e' he' => hl e' (by simp [he'])) s1 (s5 h2)
  obtain ⟨hi, hv⟩ := key history (init now0) (fun e he => ⟨hhist e he, hpast e he⟩)
    (by simp [PInv, init]) (by simpa [init] using h0)
  refine Int.le_trans (pacingRun_spec mtu hm B hB0 t1 t2 hle es _ hi (by omega) hes hB) ?_
  apply Int.mul_le_mul_of_nonneg_left _ (by omega)
  omega

/-- **C25, rate, constant parameters.** Without parameter changes: bytes times time per MTU is at
most MTU times (bucket + interval). -/
theorem C25_bytes_bound (mtu : Nat) (hm : 0 < mtu) (p : Pacing) (h : PInv p)
    (sends : List (Nat × Nat × Nat × Bool)) (t1 t2 : Nat) (hle : t1 ≤ t2)
    (hev : p.evaluationTime ≤ t2)
    (hes : ∀ s ∈ sends, s.2.2.1 ≤ mtu ∧ t1 ≤ s.1 ∧ s.1 ≤ t2) :
    p.packetTime * total ((pacingRun mtu p (sends.map
      (fun s => .trySend s.1 s.2.1 s.2.2.1 s.2.2.2))).map (fun q => (q.2 : Int))) ≤
      mtu * (p.bucketMax + (t2 - t1) * 1000) := by
  have hconst : ∀ (l : List (Nat × Nat × Nat × Bool)) (p : Pacing), PInv p →
      (∀ s ∈ l, s.2.2.1 ≤ mtu ∧ t1 ≤ s.1 ∧ s.1 ≤ t2) →
      ∀ q ∈ pacingRun mtu p (l.map (fun s => .trySend s.1 s.2.1 s.2.2.1 s.2.2.2)),
        q.1.packetTime = p.packetTime ∧ q.1.bucketMax = p.bucketMax := by
    intro l
    induction l with
    | nil => intro p _ _ q hq; simp [pacingRun] at hq
    | cons s l ih =>
      intro p hp hl q hq
      simp only [List.map_cons, pacingRun, List.mem_cons] at hq
      rcases hq with rfl | hq
      · exact ⟨rfl, rfl⟩
      · obtain ⟨a1, a2, a3, a4, a5⟩ := isAuthorized_spec p s.1 s.2.1 s.2.2.2 hp
        have hpar : (pacingStep mtu p (.trySend s.1 s.2.1 s.2.2.1 s.2.2.2)).1.packetTime =
              p.packetTime ∧
            (pacingStep mtu p (.trySend s.1 s.2.1 s.2.2.1 s.2.2.2)).1.bucketMax = p.bucketMax := by
          simp only [pacingStep]
          split
          · simp only [afterSend]
            obtain ⟨b1, b2, b3, b4, b5⟩ := updateBucket_spec p s.1 hp
            have hinv : PInv (isAuthorized p s.1 s.2.1 s.2.2.2).pacing := by
              unfold PInv at b1 ⊢; rw [a1, a2, a3]; omega
            obtain ⟨c1, c2, c3, c4, c5⟩ :=
              updateBucket_spec (isAuthorized p s.1 s.2.1 s.2.2.2).pacing s.1 hinv
            rw [c2, c3, a2, a3]; exact ⟨rfl, rfl⟩
          · exact ⟨a3, a2⟩
        obtain ⟨spent, s1, _⟩ := pacingStep_spec mtu hm p (.trySend s.1 s.2.1 s.2.2.1 s.2.2.2) hp
          (hl s (by simp)).1 t1 t2 (hl s (by simp)).2 p.bucketMax (Int.le_refl _)
        have := ih _ s1 (fun s' hs' => hl s' (by simp [hs'])) q hq
        rw [this.1, this.2]; exact hpar
  have hc := hconst sends p h hes
  have hmul : ∀ l : List (Pacing × Nat), (∀ q ∈ l, q.1.packetTime = p.packetTime) →
      p.packetTime * total (l.map (fun q => (q.2 : Int))) =
        total (l.map (fun q => q.1.packetTime * q.2)) := by
    intro l
    induction l with
    | nil => intro _; simp [total]
    | cons q l ih =>
      intro hl
      have := ih (fun q' hq' => hl q' (by simp [hq']))
      simp only [total, List.map_cons, List.foldr_cons] at *
      rw [Int.mul_add, this, hl q (by simp)]
  rw [hmul _ (fun q hq => (hc q hq).1)]
  have hb : 0 ≤ p.bucketMax := by unfold PInv at h; omega
  refine Int.le_trans (pacingRun_spec mtu hm p.bucketMax hb t1 t2 hle _ p h hev ?_ ?_) ?_
  · intro e he
    obtain ⟨s, hs, rfl⟩ := List.mem_map.1 he
    exact ⟨(hes s hs).1, (hes s hs).2⟩
  · intro q hq; rw [(hc q hq).2]; exact Int.le_refl _
  · apply Int.mul_le_mul_of_nonneg_left _ (by omega)
    unfold PInv at h; omega

/-- The bound is met with packets actually sent: 3 of 4 packets pass. -/
example : ((pacingRun 1000 ⟨0, 2000, 2000, 1000, false⟩
    [.trySend 10 100 1000 false, .trySend 10 100 1000 false, .trySend 10 100 1000 false,
     .trySend 11 100 1000 false]).map (·.2)) = [1000, 1000, 0, 1000] ∧
    PInv ⟨0, 2000, 2000, 1000, false⟩ := by
  unfold PInv; decide

/-- **C25, progress.** Provided that the bucket can hold one packet: when the pacer refuses a packet
and announces a time, then any request at that time or later, with no packet sent in between, is
authorized. -/
theorem C25_wait_is_enough_partial (p : Pacing) (h : PInv p) (hroom : p.packetTime ≤ p.bucketMax)
    (now nextTime : Nat) (hclock : p.evaluationTime ≤ now) (train : Bool) (hno : (isAuthorized p now nextTime train).ok = false)
    (hann : (isAuthorized p now nextTime train).nextTime < nextTime)
    (later nextTime' : Nat) (train' : Bool)
    (hlater : (isAuthorized p now nextTime train).nextTime ≤ later) :
    (isAuthorized (isAuthorized p now nextTime train).pacing later nextTime' train').ok = true := by
  obtain ⟨a1, a2, a3, a4, a5⟩ := isAuthorized_spec p now nextTime train h
  obtain ⟨b1, b2, b3, b4, b5⟩ := updateBucket_spec p now h
  have hinv : PInv (isAuthorized p now nextTime train).pacing := by
    unfold PInv at b1 ⊢; rw [a1, a2, a3]; omega
  obtain ⟨c1, c2, c3, c4, c5⟩ := isAuthorized_spec (isAuthorized p now nextTime train).pacing later
    nextTime' train' hinv
  rw [c5]
  -- the announced time
  have hlt : (updateBucket p now).bucket < p.packetTime := by
    rcases Int.lt_or_le (updateBucket p now).bucket p.packetTime with hl | hl
    · exact hl
    · rw [a5.2 hl] at hno; exact absurd hno (by decide)
  have hnext : (p.packetTime - (updateBucket p now).bucket <
      ((isAuthorized p now nextTime train).nextTime - now : Int) * 1000) ∧
      now < (isAuthorized p now nextTime train).nextTime := by
    revert hann hno
    unfold isAuthorized
    simp only
    rw [b2, if_pos hlt]
    generalize updateBucket p now = q at *
    rw [b3]
    have hreq : ∀ r : Int, p.packetTime - q.bucket ≤ r →
        p.packetTime - q.bucket < ((1 : Int) + r.tdiv 1000) * 1000 ∧ 0 ≤ r.tdiv 1000 := by
      intro r hr
      have hr0 : 0 ≤ r := by omega
      rw [Int.tdiv_eq_ediv_of_nonneg hr0]
      omega
    have hr1 : p.packetTime - q.bucket ≤ (if (train || q.bandwidthPause) = true then
        (if p.bucketMax > 10 * p.packetTime then 10 * p.packetTime else p.bucketMax) - q.bucket
        else p.packetTime - q.bucket) := by
      unfold PInv at h
      split
      · split <;> omega
      · omega
    have := hreq _ hr1
    generalize (if (train || q.bandwidthPause) = true then
        (if p.bucketMax > 10 * p.packetTime then 10 * p.packetTime else p.bucketMax) - q.bucket
        else p.packetTime - q.bucket) = r at *
    split
    · intro _ _
      simp only
      omega
    · intro _ hcontra
      simp only at hcontra; omega
  generalize hN : (isAuthorized p now nextTime train).nextTime = N at *
  generalize (isAuthorized p now nextTime train).pacing = q at *
  unfold PInv at hinv
  unfold updateBucket
  simp only [if_neg (show ¬ q.bucket < -q.packetTime by omega)]
  simp only [if_pos (show later > q.evaluationTime by omega)]
  have hcast : ((later - q.evaluationTime : Nat) : Int) = (later : Int) - now := by omega
  rw [hcast]
  have : ((N : Int) - now) * 1000 ≤ ((later : Int) - now) * 1000 := by omega
  split <;> omega

/-- The hypotheses are met by a refusal. -/
example : let p : Pacing := ⟨0, 500, 2000, 1000, false⟩
    PInv p ∧ p.packetTime ≤ p.bucketMax ∧ (isAuthorized p 0 100 false).ok = false ∧
    (isAuthorized p 0 100 false).nextTime = 1 := by
  unfold PInv; decide

/-- **C25, progress fails.** If the smoothed round trip time is 0 when the window is updated, as
happens when the first acknowledgement is processed in the same microsecond as the send, then the
bucket is set to 0 and the packet time to 1: every request is refused, at any time, until the
parameters are updated again. -/
theorem C25_zero_rtt_blocks_violated (p : Pacing) (h : PInv p) (cwin mtu packetNs quantumNs : Nat)
    (requests : List (Nat × Nat × Nat × Bool)) :
    ∀ q ∈ pacingRun mtu (updateWindow p cwin mtu 0 packetNs quantumNs)
      (requests.map (fun s => .trySend s.1 s.2.1 s.2.2.1 s.2.2.2)),
      ∀ now nextTime train, (isAuthorized q.1 now nextTime train).ok = false := by
  have hgood : ∀ q : Pacing, PInv q → q.bucketMax = 0 → q.packetTime = 1 →
      ∀ now nextTime train, (isAuthorized q now nextTime train).ok = false := by
    intro q hq hb hp now nextTime train
    obtain ⟨a1, a2, a3, a4, a5⟩ := isAuthorized_spec q now nextTime train hq
    obtain ⟨b1, b2, b3, b4, b5⟩ := updateBucket_spec q now hq
    unfold PInv at b1
    cases hc : (isAuthorized q now nextTime train).ok with
    | false => rfl
    | true => have := a5.1 hc; omega
  have hloop : ∀ (l : List (Nat × Nat × Nat × Bool)) (p : Pacing), PInv p → p.bucketMax = 0 →
      p.packetTime = 1 →
      ∀ q ∈ pacingRun mtu p (l.map (fun s => .trySend s.1 s.2.1 s.2.2.1 s.2.2.2)),
        PInv q.1 ∧ q.1.bucketMax = 0 ∧ q.1.packetTime = 1 := by
    intro l
    induction l with
    | nil => intro p _ _ _ q hq; simp [pacingRun] at hq
    | cons s l ih =>
      intro p h1 h2 h3 q hq
      simp only [List.map_cons, pacingRun, List.mem_cons] at hq
      rcases hq with rfl | hq
      · exact ⟨h1, h2, h3⟩
      · have hno := hgood p h1 h2 h3 s.1 s.2.1 s.2.2.2
        obtain ⟨a1, a2, a3, a4, a5⟩ := isAuthorized_spec p s.1 s.2.1 s.2.2.2 h1
        obtain ⟨b1, b2, b3, b4, b5⟩ := updateBucket_spec p s.1 h1
        have hst : (pacingStep mtu p (.trySend s.1 s.2.1 s.2.2.1 s.2.2.2)).1 =
            (isAuthorized p s.1 s.2.1 s.2.2.2).pacing := by
          simp [pacingStep, hno]
        rw [hst] at hq
        refine ih _ ?_ (by omega) (by omega) q hq
        unfold PInv at b1 ⊢; rw [a1, a2, a3]; omega
  intro q hq
  have hw : PInv (updateWindow p cwin mtu 0 packetNs quantumNs) ∧
      (updateWindow p cwin mtu 0 packetNs quantumNs).bucketMax = 0 ∧
      (updateWindow p cwin mtu 0 packetNs quantumNs).packetTime = 1 := by
    refine ⟨(updateWindow_inv p cwin mtu 0 packetNs quantumNs h).1, ?_, ?_⟩ <;> simp [updateWindow]
  obtain ⟨g1, g2, g3⟩ := hloop requests _ hw.1 hw.2.1 hw.2.2 q hq
  exact hgood q.1 g1 g2 g3

/-- After any update with a positive round trip time, one packet fits in the bucket, provided that
the quantum is 0 or at least one packet: this is the hypothesis of `C25_wait_is_enough_partial`. -/
theorem C25_room_for_one_packet (p : Pacing) (cwin mtu rtt packetNs quantumNs : Nat) (hr : 0 < rtt)
    (hq : quantumNs = 0 ∨ (packetNs ≤ quantumNs ∧ 0 < quantumNs)) :
    (updateWindow p cwin mtu rtt packetNs quantumNs).packetTime ≤
      (updateWindow p cwin mtu rtt packetNs quantumNs).bucketMax := by
  unfold updateWindow updateParameters
  simp only
  split
  · simp only; omega
  · simp only
    repeat' split
    all_goals omega

end Picoquic.Props
