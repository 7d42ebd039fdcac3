import Verif.Spec.PathMarks
/-!
# C105: marks of congestion and losses are reported as they were
-/

namespace Picoquic.Props
open Picoquic.PathMarks Picoquic.Spec

/-- What holds at any time. -/
structure MarksOk (y : MarkSys) : Prop where
  e0 : y.recv.ect0 = marked y.arrived 2
  e1 : y.recv.ect1 = marked y.arrived 1
  ce : y.recv.ce = marked y.arrived 3
  quiet : y.recv.sending = false → y.recv.ect0 = 0 ∧ y.recv.ect1 = 0 ∧ y.recv.ce = 0
  frames : ∀ c, some c ∈ y.frames → c.ect0 ≤ y.recv.ect0 ∧ c.ect1 ≤ y.recv.ect1 ∧ c.ce ≤ y.recv.ce
  snd : y.snd.ect0 ≤ y.recv.ect0 ∧ y.snd.ect1 ≤ y.recv.ect1 ∧ y.snd.ce ≤ y.recv.ce
  told : y.snd.told ≤ y.snd.ce ∧ (0 < y.snd.ce → 0 < y.snd.told)

theorem marked_append (l : List Nat) (t m : Nat) : marked (l ++ [t]) m = marked l m + if t % 4 = m then 1 else 0 := by
  unfold marked
  rw [List.filter_append, List.length_append]
  by_cases h : t % 4 = m <;> simp [h]

theorem account_spec (l : Local) (t : Nat) :
    (account l t).ect0 = l.ect0 + (if t % 4 = 2 then 1 else 0) ∧ (account l t).ect1 = l.ect1 + (if t % 4 = 1 then 1 else 0) ∧
      (account l t).ce = l.ce + (if t % 4 = 3 then 1 else 0) ∧
      ((account l t).sending = false → l.sending = false ∧ t % 4 = 0) := by
  unfold account
  have h : t % 4 = 0 ∨ t % 4 = 1 ∨ t % 4 = 2 ∨ t % 4 = 3 := by omega
  rcases h with h | h | h | h <;> rw [h] <;> simp

theorem received_spec (r : Remote) (c : Counts) :
    (ackReceived r (some c)).ect0 = max r.ect0 c.ect0 ∧ (ackReceived r (some c)).ect1 = max r.ect1 c.ect1 ∧
      (ackReceived r (some c)).ce = max r.ce c.ce ∧
      (ackReceived r (some c)).told = r.told + (if c.ce > r.ce then 1 else 0) := by
  unfold ackReceived
  dsimp only
  by_cases h0 : c.ect0 > r.ect0 <;> by_cases h1 : c.ect1 > r.ect1 <;> by_cases h2 : c.ce > r.ce <;>
    simp only [h0, h1, h2, if_true, if_false] <;> refine ⟨?_, ?_, ?_, ?_⟩ <;> first | omega | rfl | (simp; done) | (simp; omega)

theorem marks_step (y : MarkSys) (e : MarkEvent) (h : MarksOk y) : MarksOk (markStep y e) := by
  obtain ⟨h1, h2, h3, h4, h5, h6, h7⟩ := h
  cases e with
  | arrive tos =>
    obtain ⟨a0, a1, a2, a3⟩ := account_spec y.recv tos
    simp only [markStep]
    refine ⟨?_, ?_, ?_, ?_, ?_, ?_, h7⟩
    · simp only [a0, marked_append]; omega
    · simp only [a1, marked_append]; omega
    · simp only [a2, marked_append]; omega
    · intro hs
      obtain ⟨b1, b2⟩ := a3 hs
      obtain ⟨b3, b4, b5⟩ := h4 b1
      simp only [a0, a1, a2, b2, b3, b4, b5]
      decide
    · intro c hc
      obtain ⟨b1, b2, b3⟩ := h5 c hc
      simp only [a0, a1, a2]
      omega
    · simp only [a0, a1, a2]
      omega
  | ack fits =>
    simp only [markStep]
    refine ⟨h1, h2, h3, h4, ?_, h6, h7⟩
    intro c hc
    rcases List.mem_append.1 hc with hc | hc
    · exact h5 c hc
    · have hc := List.mem_singleton.1 hc
      unfold ackCounts at hc
      split at hc
      · cases hc
        exact ⟨Nat.le_refl _, Nat.le_refl _, Nat.le_refl _⟩
      · exact absurd hc (by simp)
  | ackArrives i =>
    simp only [markStep]
    cases hf : y.frames[i]? with
    | none => exact ⟨h1, h2, h3, h4, h5, h6, h7⟩
    | some f =>
      cases f with
      | none => exact ⟨h1, h2, h3, h4, h5, h6, h7⟩
      | some c =>
        obtain ⟨b1, b2, b3⟩ := h5 c (List.mem_of_getElem? hf)
        obtain ⟨a0, a1, a2, a3⟩ := received_spec y.snd c
        refine ⟨h1, h2, h3, h4, h5, ?_, ?_⟩
        · simp only [a0, a1, a2]; omega
        · simp only [a2, a3]
          split <;> omega

theorem marks_run : ∀ (es : List MarkEvent) (y : MarkSys), MarksOk y → MarksOk (markRun y es) := by
  intro es
  induction es with
  | nil => intro y h; exact h
  | cons e es ih => intro y h; exact ih _ (marks_step y e h)

theorem marks_start : MarksOk markStart :=
  ⟨rfl, rfl, rfl, fun _ => ⟨rfl, rfl, rfl⟩, fun c hc => absurd hc (by simp [markStart]), ⟨Nat.le_refl _, Nat.le_refl _, Nat.le_refl _⟩,
    ⟨Nat.le_refl _, fun h => absurd h (Nat.lt_irrefl 0)⟩⟩

/-- **C105 (counts).** The counts at the receiver are the numbers of packets that arrived with each mark. -/
theorem C105_counts (es : List MarkEvent) :
    let y := markRun markStart es
    y.recv.ect0 = marked y.arrived 2 ∧ y.recv.ect1 = marked y.arrived 1 ∧ y.recv.ce = marked y.arrived 3 := by
  have h := marks_run es _ marks_start
  exact ⟨h.e0, h.e1, h.ce⟩

/-- **C105 (nothing is made up).** Whatever the order in which ACK frames arrive, the sender never knows of more marks than packets arrived with, and the congestion control is told no more often than packets
with a mark of congestion arrived, and at least once if the sender knows of one. -/
theorem C105_no_more (es : List MarkEvent) :
    let y := markRun markStart es
    y.snd.ect0 ≤ marked y.arrived 2 ∧ y.snd.ect1 ≤ marked y.arrived 1 ∧ y.snd.ce ≤ marked y.arrived 3 ∧ y.snd.told ≤ marked y.arrived 3 ∧
      (0 < y.snd.ce → 0 < y.snd.told) := by
  intro y
  have h : MarksOk y := marks_run es _ marks_start
  have a := h.snd
  have b := h.told
  have c := h.e0
  have d := h.e1
  have e := h.ce
  refine ⟨?_, ?_, ?_, ?_, b.2⟩ <;> (show _ ≤ _) <;> omega

/-- **C105 (the last report).** When an ACK frame with room for the counts arrives, the sender knows the counts of the time when it was sent, also if frames that are older or newer have arrived before. -/
theorem C105_latest (es es' : List MarkEvent) :
    let y := markRun markStart es
    let z := markRun (markStep y (.ack true)) es'
    let z' := markStep z (.ackArrives y.frames.length)
    marked y.arrived 2 ≤ z'.snd.ect0 ∧ marked y.arrived 1 ≤ z'.snd.ect1 ∧ marked y.arrived 3 ≤ z'.snd.ce := by
  intro y z z'
  have h : MarksOk y := marks_run es _ marks_start
  have keep : ∀ (es : List MarkEvent) (y : MarkSys) (i : Nat) (f : Option Counts), y.frames[i]? = some f → (markRun y es).frames[i]? = some f := by
    intro es
    induction es with
    | nil => intro y i f hf; exact hf
    | cons e es ih =>
      intro y i f hf
      refine ih (markStep y e) i f ?_
      cases e with
      | arrive tos => exact hf
      | ack fits =>
        show (y.frames ++ _)[i]? = _
        rw [List.getElem?_append_left (List.getElem?_eq_some_iff.1 hf).1]
        exact hf
      | ackArrives j =>
        simp only [markStep]
        split <;> exact hf
  have hf : z.frames[y.frames.length]? = some (ackCounts y.recv true) := by
    refine keep es' _ _ _ ?_
    show (y.frames ++ [ackCounts y.recv true])[y.frames.length]? = _
    rw [List.getElem?_append_right (Nat.le_refl _), Nat.sub_self]
    rfl
  have hz : z'.snd = ackReceived z.snd (ackCounts y.recv true) := by
    show (markStep z (.ackArrives y.frames.length)).snd = _
    simp only [markStep, hf]
  rw [hz, ← h.e0, ← h.e1, ← h.ce]
  by_cases hs : y.recv.sending = true
  · have e : ackCounts y.recv true = some ⟨y.recv.ect0, y.recv.ect1, y.recv.ce⟩ := by unfold ackCounts; rw [if_pos ⟨hs, rfl⟩]
    rw [e]
    obtain ⟨a0, a1, a2, _⟩ := received_spec z.snd ⟨y.recv.ect0, y.recv.ect1, y.recv.ce⟩
    rw [a0, a1, a2]
    simp only
    omega
  · obtain ⟨b1, b2, b3⟩ := h.quiet (by simpa using hs)
    rw [b1, b2, b3]
    exact ⟨Nat.zero_le _, Nat.zero_le _, Nat.zero_le _⟩

/-- **C105 (any peer).** For any ACK frame of any peer: the counts never decrease, and the congestion control is told exactly if there are more marks of congestion than before, once. -/
theorem C105_any_peer (r : Remote) (c : Counts) :
    let r' := ackReceived r (some c)
    r.ect0 ≤ r'.ect0 ∧ r.ect1 ≤ r'.ect1 ∧ r.ce ≤ r'.ce ∧ (r'.told = r.told + 1 ↔ r.ce < r'.ce) ∧ (r'.told = r.told ↔ r.ce = r'.ce) ∧
      ackReceived r' (some c) = r' := by
  obtain ⟨a0, a1, a2, a3⟩ := received_spec r c
  intro r'
  have a0 : r'.ect0 = _ := a0
  have a1 : r'.ect1 = _ := a1
  have a2 : r'.ce = _ := a2
  have a3 : r'.told = _ := a3
  obtain ⟨b0, b1, b2, b3⟩ := received_spec r' c
  refine ⟨by omega, by omega, by omega, ?_, ?_, ?_⟩
  · rw [a3]; split <;> omega
  · rw [a3]; split <;> omega
  · cases hx : ackReceived r' (some c) with
    | mk x0 x1 x2 x3 =>
      rw [hx] at b0 b1 b2 b3
      cases hy : r' with
      | mk y0 y1 y2 y3 =>
        rw [hy] at a0 a1 a2 b0 b1 b2 b3
        simp only at a0 a1 a2 b0 b1 b2 b3
        rw [if_neg (by omega)] at b3
        have : x0 = y0 ∧ x1 = y1 ∧ x2 = y2 ∧ x3 = y3 := by omega
        rw [this.1, this.2.1, this.2.2.1, this.2.2.2]

/-! ### Signs of loss -/

theorem loss_bits_spec (s : LossState) :
    (lossBits s).1.square = s.square + 1 ∧ (lossBits s).1.found = s.found ∧
      (lossBits s).1.reported = s.reported + (if s.found > s.reported then 1 else 0) ∧
      (lossBits s).2 = (if (s.square + 1) / 64 % 2 = 1 then 16 else 0) + (if s.found > s.reported then 8 else 0) := by
  unfold lossBits
  dsimp only
  have : (s.square + 1) / 64 % 2 = 0 ∨ (s.square + 1) / 64 % 2 = 1 := by omega
  split <;> rcases this with h | h <;> simp [h]

/-- **C105 (the square signal).** The n-th packet behind any state, the first one being number 0, has the bit which is inverted every 64 packets. -/
theorem C105_square (es : List LossEvent) : ∀ (s : LossState) (n b : Nat), (lossRun s es).2[n]? = some b →
    (parseLoss b).2 = ((s.square + n + 1) / 64 % 2 == 1) := by
  induction es with
  | nil => intro s n b h; exact absurd h (by simp [lossRun])
  | cons e es ih =>
    intro s n b h
    cases e with
    | found => exact ih (lossFound s) n b h
    | send =>
      obtain ⟨a1, a2, a3, a4⟩ := loss_bits_spec s
      cases n with
      | zero =>
        have h : some (lossBits s).2 = some b := h
        cases h
        rw [a4]
        unfold parseLoss
        simp only [Nat.add_zero]
        have : (s.square + 1) / 64 % 2 = 0 ∨ (s.square + 1) / 64 % 2 = 1 := by omega
        rcases this with h | h <;> by_cases h2 : s.found > s.reported <;> simp [h, h2]
      | succ n =>
        have h : (lossRun (lossBits s).1 es).2[n]? = some b := h
        rw [ih _ n b h, a1]
        have : s.square + 1 + n + 1 = s.square + (n + 1) + 1 := by omega
        rw [this]

/-- **C105 (reports of losses).** The packets with a report of a loss are never more than the losses found; and when as many packets were sent behind the last loss as there were losses to report, all losses
are reported, each one once. -/
theorem C105_reports (es es' : List LossEvent) (s : LossState) (none_left : s.reported = s.found) :
    lossReports (lossRun s es).2 ≤ lossCount es ∧
    (lossCount es ≤ lossSent es' → lossCount es' = 0 → lossReports (lossRun s (es ++ es')).2 = lossCount es) := by
  have rep : ∀ (es : List LossEvent) (s : LossState), s.reported ≤ s.found →
      lossReports (lossRun s es).2 + s.reported = (lossRun s es).1.reported ∧ (lossRun s es).1.reported ≤ (lossRun s es).1.found ∧
        (lossRun s es).1.found = s.found + lossCount es := by
    intro es
    induction es with
    | nil => intro s h; exact ⟨Nat.zero_add _, h, rfl⟩
    | cons e es ih =>
      intro s h
      cases e with
      | found =>
        obtain ⟨a, b, c⟩ := ih (lossFound s) (by unfold lossFound; simp only; omega)
        refine ⟨a, b, ?_⟩
        show (lossRun (lossFound s) es).1.found = _
        rw [c]
        simp only [lossFound, lossCount]
        omega
      | send =>
        obtain ⟨a1, a2, a3, a4⟩ := loss_bits_spec s
        obtain ⟨a, b, c⟩ := ih (lossBits s).1 (by rw [a2, a3]; split <;> omega)
        refine ⟨?_, b, ?_⟩
        · show lossReports ((lossBits s).2 :: (lossRun (lossBits s).1 es).2) + s.reported = (lossRun (lossBits s).1 es).1.reported
          rw [← a, a3]
          have hb : (parseLoss (lossBits s).2).1 = decide (s.found > s.reported) := by
            rw [a4]
            unfold parseLoss
            split <;> split <;> simp_all
          unfold lossReports
          rw [List.filter_cons, hb]
          by_cases hx : s.found > s.reported <;> simp [hx] <;> omega
        · show (lossRun (lossBits s).1 es).1.found = _
          rw [c, a2]
          rfl
  have app : ∀ (es : List LossEvent) (s : LossState), (lossRun s (es ++ es')).1 = (lossRun (lossRun s es).1 es').1 := by
    intro es
    induction es with
    | nil => intro s; rfl
    | cons e es ih =>
      intro s
      cases e with
      | found => exact ih (lossFound s)
      | send => exact ih (lossBits s).1
  have catchup : ∀ (es : List LossEvent) (s : LossState), lossCount es = 0 → s.found ≤ s.reported + lossSent es →
      (lossRun s es).1.found ≤ (lossRun s es).1.reported := by
    intro es
    induction es with
    | nil => intro s _ h; exact h
    | cons e es ih =>
      intro s h0 h
      cases e with
      | found => exact absurd h0 (by simp [lossCount])
      | send =>
        obtain ⟨a1, a2, a3, a4⟩ := loss_bits_spec s
        refine ih (lossBits s).1 h0 ?_
        rw [a2, a3]
        simp only [lossSent] at h
        split <;> omega
  obtain ⟨a, b, c⟩ := rep es s (by omega)
  refine ⟨by omega, ?_⟩
  intro h1 h2
  obtain ⟨a', b', c'⟩ := rep (es ++ es') s (by omega)
  have h3 := catchup es' (lossRun s es).1 h2 (by omega)
  rw [← app] at h3
  have h4 : lossCount (es ++ es') = lossCount es := by
    clear a b c a' b' c' h3 h1
    induction es with
    | nil => exact h2
    | cons e es ih => cases e <;> simp [lossCount, ih]
  omega

/-- **C105 (the packet).** Whatever the other bits are, both ends read the same bits. -/
theorem C105_bits (s : LossState) (byte low : Nat) (hl : low < 8) (clear : byte / 8 % 4 = 0) :
    parseLoss ((byte + (lossBits s).2) / 8 * 8 + low) = (decide (s.found > s.reported), (s.square + 1) / 64 % 2 == 1) := by
  obtain ⟨a1, a2, a3, a4⟩ := loss_bits_spec s
  rw [a4]
  unfold parseLoss
  by_cases h1 : (s.square + 1) / 64 % 2 = 1 <;> by_cases h2 : s.found > s.reported
  · simp only [h1, h2, if_true, decide_true]
    have : ((byte + (16 + 8)) / 8 * 8 + low) / 8 % 2 = 1 ∧ ((byte + (16 + 8)) / 8 * 8 + low) / 16 % 2 = 1 := by omega
    rw [this.1, this.2]; rfl
  · simp only [h1, h2, if_true, if_false, decide_false]
    have : ((byte + (16 + 0)) / 8 * 8 + low) / 8 % 2 = 0 ∧ ((byte + (16 + 0)) / 8 * 8 + low) / 16 % 2 = 1 := by omega
    rw [this.1, this.2]; rfl
  · have h1 : (s.square + 1) / 64 % 2 = 0 := by omega
    simp only [h1, h2, if_true, decide_true]
    have : ((byte + ((if 0 = 1 then 16 else 0) + 8)) / 8 * 8 + low) / 8 % 2 = 1 ∧ ((byte + ((if 0 = 1 then 16 else 0) + 8)) / 8 * 8 + low) / 16 % 2 = 0 := by
      rw [if_neg (by decide)]; omega
    rw [this.1, this.2]; rfl
  · have h1 : (s.square + 1) / 64 % 2 = 0 := by omega
    simp only [h1, h2, if_false, decide_false]
    have : ((byte + ((if 0 = 1 then 16 else 0) + 0)) / 8 * 8 + low) / 8 % 2 = 0 ∧ ((byte + ((if 0 = 1 then 16 else 0) + 0)) / 8 * 8 + low) / 16 % 2 = 0 := by
      rw [if_neg (by decide)]; omega
    rw [this.1, this.2]; rfl

/-- **C105, violation.** The first block of the square signal of a path has 63 packets, all others 64: an observer counts the loss of a packet that was not sent. -/
theorem C105_first_block_violated (es : List LossEvent) (b : Nat) :
    (∀ n, n < 63 → (lossRun ⟨0, 0, 0⟩ es).2[n]? = some b → (parseLoss b).2 = false) ∧
      ∀ n, 63 ≤ n → n < 127 → (lossRun ⟨0, 0, 0⟩ es).2[n]? = some b → (parseLoss b).2 = true := by
  constructor
  · intro n hn h
    rw [C105_square es _ n b h]
    have : (0 + n + 1) / 64 % 2 = 0 := by omega
    simp only [this]; rfl
  · intro n hn hm h
    rw [C105_square es _ n b h]
    have : (0 + n + 1) / 64 % 2 = 1 := by omega
    simp only [this]; rfl

/-! ### Examples -/

example :
    let y := markRun markStart [.arrive 2, .arrive 1, .ack true, .arrive 3, .arrive 3, .ack true, .arrive 0, .ackArrives 1, .ackArrives 0, .ack false, .ackArrives 2]
    y.recv = ⟨1, 1, 2, true⟩ ∧ y.snd = ⟨1, 1, 2, 1⟩ ∧ marked y.arrived 3 = 2 ∧ y.frames = [some ⟨1, 1, 0⟩, some ⟨1, 1, 2⟩, none] := by
  decide +kernel

example : (lossRun ⟨62, 0, 0⟩ [.send, .found, .found, .send, .send, .send]).2 = [0, 24, 24, 16] ∧
    lossReports [0, 24, 24, 16] = 2 ∧ lossCount [.send, .found, .found] ≤ lossSent [.send, .send, .send] := by
  decide +kernel

end Picoquic.Props
