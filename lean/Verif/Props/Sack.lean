import Verif.Proof.Sack
/-!
# Properties C05, C06, C43: the record of received packets
-/

namespace Picoquic.Props
open Picoquic Picoquic.Spec Picoquic.Sack

/-- Records the ranges of `ops` (first, last, time), one after the other. -/
def recordAll (ops : List (Nat × Nat × Nat)) : SackList :=
  ops.foldl (fun s op => (updateSackList s op.1 op.2.1 op.2.2).1) SackList.init

theorem recordAll_spec (ops : List (Nat × Nat × Nat)) (hops : ∀ op ∈ ops, op.1 ≤ op.2.1) :
    Sep (recordAll ops).items ∧ (recordAll ops).horizonDelay = 0 ∧
    ∀ n, Cov (recordAll ops).items n ↔ ∃ op ∈ ops, op.1 ≤ n ∧ n ≤ op.2.1 := by
  have key : ∀ (ops : List (Nat × Nat × Nat)) (s : SackList), (∀ op ∈ ops, op.1 ≤ op.2.1) →
      Sep s.items → s.horizonDelay = 0 →
      let t := ops.foldl (fun s op => (updateSackList s op.1 op.2.1 op.2.2).1) s
      Sep t.items ∧ t.horizonDelay = 0 ∧
      ∀ n, Cov t.items n ↔ Cov s.items n ∨ ∃ op ∈ ops, op.1 ≤ n ∧ n ≤ op.2.1 := by
    intro ops
    induction ops with
    | nil => intro s _ hs h0; simp [hs, h0]
    | cons op ops ih =>
      intro s hops hs h0
      have hu := updateCore_spec s op.1 op.2.1 op.2.2 hs (hops op (by simp))
      have he : (updateSackList s op.1 op.2.1 op.2.2) = updateCore s op.1 op.2.1 op.2.2 := by
        unfold updateSackList; rw [h0]; simp
      rw [List.foldl_cons, he]
      obtain ⟨u1, u2, _, _, u5, _⟩ := hu
      obtain ⟨i1, i2, i3⟩ := ih _ (fun o ho => hops o (by simp [ho])) u1 (by rw [u5, h0])
      refine ⟨i1, i2, fun n => ?_⟩
      rw [i3, u2]
      simp [or_assoc]
  obtain ⟨h1, h2, h3⟩ := key ops SackList.init hops sep_nil rfl
  refine ⟨h1, h2, fun n => ?_⟩
  have := cov_nil n
  rw [recordAll, h3]
  simp [SackList.init, this]

/-- **C05.** After any sequence of recorded ranges, in any order and with any overlap: the stored
ranges are non-empty, sorted and non-adjacent; a number is reported as already received exactly if
some recorded range contains it; recording a further range reports "duplicate" (1) exactly if all
its numbers were already recorded; and the range check used for stream data answers "nothing new"
exactly in the same case. -/
theorem C05_sack_is_received_set (ops : List (Nat × Nat × Nat)) (hops : ∀ op ∈ ops, op.1 ≤ op.2.1) :
    Separated ((recordAll ops).items.map fun i => (i.start, i.stop)) ∧
    (∀ n, isPnAlreadyReceived (recordAll ops) n = true ↔ ∃ op ∈ ops, op.1 ≤ n ∧ n ≤ op.2.1) ∧
    (∀ lo hi now, lo ≤ hi →
      ((updateSackList (recordAll ops) lo hi now).2 = 1 ↔
        ∀ n, lo ≤ n → n ≤ hi → ∃ op ∈ ops, op.1 ≤ n ∧ n ≤ op.2.1)) ∧
    (∀ lo hi now, lo ≤ hi →
      ((updateSackList (recordAll ops) lo hi now).2 = 0 ∨
       (updateSackList (recordAll ops) lo hi now).2 = 1)) ∧
    (∀ lo hi, lo ≤ hi →
      (checkSackList (recordAll ops) lo hi = true ↔
        ∀ n, lo ≤ n → n ≤ hi → ∃ op ∈ ops, op.1 ≤ n ∧ n ≤ op.2.1)) := by
  obtain ⟨h1, h2, h3⟩ := recordAll_spec ops hops
  have he : ∀ lo hi now, updateSackList (recordAll ops) lo hi now =
      updateCore (recordAll ops) lo hi now := by
    intro lo hi now; unfold updateSackList; rw [h2]; simp
  refine ⟨(sep_iff _).1 h1, ?_, ?_, ?_, ?_⟩
  · intro n
    rw [← h3, ← findRangeBelow_cov _ h1]
    unfold isPnAlreadyReceived
    rw [if_neg (by rw [h2]; simp)]
    exact Iff.rfl
  · intro lo hi now hle
    obtain ⟨_, _, _, u4, _, _⟩ := updateCore_spec (recordAll ops) lo hi now h1 hle
    rw [he, u4]
    constructor
    · intro h n a b; exact (h3 n).1 (h n a b)
    · intro h n a b; exact (h3 n).2 (h n a b)
  · intro lo hi now hle
    obtain ⟨_, _, u3, _, _, _⟩ := updateCore_spec (recordAll ops) lo hi now h1 hle
    rw [he]; exact u3
  · intro lo hi hle
    rw [checkSackList_cov _ h1 _ _ hle]
    constructor
    · intro h n a b; exact (h3 n).1 (h n a b)
    · intro h n a b; exact (h3 n).2 (h n a b)

/-- Non-vacuity of C05: out-of-order arrivals merge into two ranges. -/
example :
    (∀ op ∈ [(7, 7, 0), (1, 3, 1), (5, 6, 2), (9, 9, 3)], op.1 ≤ op.2.1) ∧
    ((recordAll [(7, 7, 0), (1, 3, 1), (5, 6, 2), (9, 9, 3)]).items.map
      fun i => (i.start, i.stop)) = [(1, 3), (5, 7), (9, 9)] ∧
    isPnAlreadyReceived (recordAll [(7, 7, 0), (1, 3, 1), (5, 6, 2), (9, 9, 3)]) 4 = false := by
  decide

/-- Validity of a history: acknowledged ranges are non-empty intervals. -/
def ValidOps (ops : List Op) : Prop := ∀ a b, Op.ackOfAck a b ∈ ops → a ≤ b

theorem run_spec (ops : List Op) (hv : ValidOps ops) (s : SackList) (hs : Sep s.items)
    (h0 : s.horizonDelay = 0) :
    Sep (run s ops).items ∧ (run s ops).horizonDelay = 0 ∧
    (∀ n, Cov (run s ops).items n → Cov s.items n ∨ ∃ now, Op.received n now ∈ ops) ∧
    (∀ n, Cov s.items n → (∀ a b, Op.ackOfAck a b ∈ ops → ¬ (a ≤ n ∧ n ≤ b)) →
      Cov (run s ops).items n) ∧
    (∀ m, (Cov s.items m ∨ ∃ now, Op.received m now ∈ ops) →
      ∃ n, m ≤ n ∧ Cov (run s ops).items n) := by
  induction ops generalizing s with
  | nil =>
    refine ⟨hs, h0, fun n h => .inl h, fun n h _ => h, ?_⟩
    rintro m (h | ⟨now, h⟩)
    · exact ⟨m, Nat.le_refl _, h⟩
    · simp at h
  | cons op ops ih =>
    have hv' : ValidOps ops := fun a b h => hv a b (by simp [h])
    -- what one step does
    have hstep : Sep (step s op).items ∧ (step s op).horizonDelay = 0 ∧
        (∀ n, Cov (step s op).items n → Cov s.items n ∨ ∃ now, op = Op.received n now) ∧
        (∀ n, Cov s.items n → (∀ a b, op = Op.ackOfAck a b → ¬ (a ≤ n ∧ n ≤ b)) →
          Cov (step s op).items n) ∧
        (∀ m, (Cov s.items m ∨ ∃ now, op = Op.received m now) →
          ∃ n, m ≤ n ∧ Cov (step s op).items n) := by
      cases op with
      | received pn now =>
        obtain ⟨u1, u2, _, _, u5, _⟩ := updateCore_spec s pn pn now hs (Nat.le_refl _)
        have he : step s (.received pn now) = (updateCore s pn pn now).1 := by
          simp only [step, recordPnReceived, updateSackList]; rw [h0]; simp
        rw [he]
        refine ⟨u1, by rw [u5, h0], ?_, ?_, ?_⟩
        · intro n h
          rcases (u2 n).1 h with h | ⟨h1, h2⟩
          · exact .inl h
          · exact .inr ⟨now, by have : n = pn := by omega
                                rw [this]⟩
        · intro n h _; exact (u2 n).2 (.inl h)
        · rintro m (h | ⟨now', h⟩)
          · exact ⟨m, Nat.le_refl _, (u2 m).2 (.inl h)⟩
          · injection h with h _
            exact ⟨m, Nat.le_refl _, (u2 m).2 (.inr (by omega))⟩
      | ackOfAck a b =>
        obtain ⟨p1, p2, p3, p4, p5, p6⟩ := ackOfAck_spec s a b hs (hv a b (by simp)) h0
        refine ⟨p1, p2, fun n h => .inl (p3 n h), fun n h h' => p4 n h (h' a b rfl), ?_⟩
        rintro m (h | ⟨now', h⟩)
        · have hm := cov_le_last s hs m h
          have hm' : Cov (processAckOfAckRange s a b).items
              (sackListLast (processAckOfAckRange s a b)) := by
            have hne : (processAckOfAckRange s a b).items ≠ [] := by
              intro hn
              have := p6.2 hn
              rw [this] at h; exact cov_nil _ h
            obtain ⟨x, hx⟩ : ∃ x, x ∈ (processAckOfAckRange s a b).items :=
              List.exists_mem_of_ne_nil _ hne
            exact (cov_le_last _ p1 x.start ⟨x, hx, Nat.le_refl _, p1.2 x hx⟩).2
          exact ⟨_, by rw [p5]; exact hm.1, hm'⟩
        · exact absurd h (by simp)
      | sent k opp =>
        obtain ⟨r1, r2, _⟩ := recordSent_ranges s k opp
        have hc : ∀ n, Cov (step s (.sent k opp)).items n ↔ Cov s.items n := by
          intro n; rw [cov_iff, cov_iff, show (step s (.sent k opp)) = recordSent s k opp from rfl, r1]
        refine ⟨?_, ?_, fun n h => .inl ((hc n).1 h), fun n h _ => (hc n).2 h, ?_⟩
        · rw [sep_iff, show (step s (.sent k opp)) = recordSent s k opp from rfl, r1, ← sep_iff]
          exact hs
        · rw [show (step s (.sent k opp)) = recordSent s k opp from rfl, r2]; exact h0
        · rintro m (h | ⟨now', h⟩)
          · exact ⟨m, Nat.le_refl _, (hc m).2 h⟩
          · exact absurd h (by simp)
    obtain ⟨s1, s2, s3, s4, s5⟩ := hstep
    obtain ⟨i1, i2, i3, i4, i5⟩ := ih hv' _ s1 s2
    refine ⟨i1, i2, ?_, ?_, ?_⟩
    · intro n h
      rcases i3 n h with h | ⟨now, h⟩
      · rcases s3 n h with h | ⟨now, h⟩
        · exact .inl h
        · exact .inr ⟨now, by simp [h]⟩
      · exact .inr ⟨now, by simp [h]⟩
    · intro n h h'
      exact i4 n (s4 n h (fun a b ha => h' a b (by simp [ha])))
        (fun a b ha => h' a b (by simp [ha]))
    · rintro m h
      have : (Cov s.items m ∨ ∃ now, op = Op.received m now) ∨ ∃ now, Op.received m now ∈ ops := by
        rcases h with h | ⟨now, h⟩
        · exact .inl (.inl h)
        · rcases List.mem_cons.1 h with h | h
          · exact .inl (.inr ⟨now, h.symm⟩)
          · exact .inr ⟨now, h⟩
      rcases this with h | h
      · obtain ⟨n, hn1, hn2⟩ := s5 m h
        obtain ⟨n', hn1', hn2'⟩ := i5 n (.inl hn2)
        exact ⟨n', by omega, hn2'⟩
      · exact i5 m (.inr h)

theorem isPn_cov (s : SackList) (hs : Sep s.items) (h0 : s.horizonDelay = 0) (n : Nat) :
    isPnAlreadyReceived s n = true ↔ Cov s.items n := by
  rw [← findRangeBelow_cov _ hs]
  unfold isPnAlreadyReceived
  rw [if_neg (by rw [h0]; simp)]
  exact Iff.rfl

/-- **C06 (violated).** A packet number that was received is *not* always recognised as a duplicate
later: once the peer acknowledged our ACK frame, its range is forgotten. Here packets 0, 1, 2 are
received, an ACK of [0, 2] is sent and acknowledged, and packets 0 and 1 would be accepted again. -/
theorem C06_duplicate_detection_violated :
    ∃ (ops : List Op) (n now : Nat), ValidOps ops ∧ Op.received n now ∈ ops ∧
      isPnAlreadyReceived (run SackList.init ops) n = false := by
  refine ⟨[.received 0 10, .received 1 11, .received 2 12, .sent 0 false, .ackOfAck 0 2], 0, 10,
    ?_, by decide, by decide⟩
  intro a b h
  simp at h
  omega

/-- **C06 (partial).** What does hold, over all histories of receptions, ACKs sent and
acknowledgements of ACKs: no number is ever reported as received that was not; a number stays
recognised as long as no acknowledged ACK range covering it is processed after its reception; and
some number at least as large as any received one stays recognised (the top range survives).
Missing for the full property: numbers covered by an acknowledged ACK range are forgotten. -/
theorem C06_duplicate_detection_partial (before after : List Op) (n now : Nat)
    (hv : ValidOps (before ++ Op.received n now :: after)) :
    (∀ m, isPnAlreadyReceived (run SackList.init (before ++ Op.received n now :: after)) m = true →
      ∃ t, Op.received m t ∈ before ++ Op.received n now :: after) ∧
    ((∀ a b, Op.ackOfAck a b ∈ after → ¬ (a ≤ n ∧ n ≤ b)) →
      isPnAlreadyReceived (run SackList.init (before ++ Op.received n now :: after)) n = true) ∧
    (∃ m, n ≤ m ∧
      isPnAlreadyReceived (run SackList.init (before ++ Op.received n now :: after)) m = true) := by
  obtain ⟨h1, h2, h3, h4, h5⟩ :=
    run_spec (before ++ Op.received n now :: after) hv SackList.init sep_nil rfl
  refine ⟨?_, ?_, ?_⟩
  · intro m hm
    rw [isPn_cov _ h1 h2] at hm
    rcases h3 m hm with h | h
    · exact absurd h (cov_nil m)
    · exact h
  · intro ha
    rw [isPn_cov _ h1 h2]
    have hvb : ValidOps before := fun a b h => hv a b (by simp [h])
    have hva : ValidOps after := fun a b h => hv a b (by simp [h])
    obtain ⟨b1, b2, _⟩ := run_spec before hvb SackList.init sep_nil rfl
    have hr : run SackList.init (before ++ Op.received n now :: after) =
        run (step (run SackList.init before) (.received n now)) after := by
      simp [run]
    rw [hr]
    obtain ⟨u1, u2, _, _, u5, _⟩ :=
      updateCore_spec (run SackList.init before) n n now b1 (Nat.le_refl _)
    have he : step (run SackList.init before) (.received n now) =
        (updateCore (run SackList.init before) n n now).1 := by
      simp only [step, recordPnReceived, updateSackList]; rw [b2]; simp
    obtain ⟨_, _, _, a4, _⟩ := run_spec after hva
      (step (run SackList.init before) (.received n now)) (by rw [he]; exact u1)
      (by rw [he, u5, b2])
    apply a4 n _ ha
    rw [he]
    exact (u2 n).2 (.inr (by omega))
  · obtain ⟨m, hm1, hm2⟩ := h5 n (.inr ⟨now, by simp⟩)
    exact ⟨m, hm1, (isPn_cov _ h1 h2 m).2 hm2⟩

/-- Non-vacuity of C06: a history mixing all operations, where 4 was received after the
acknowledgement of [1, 2] and stays recognised. -/
example : ValidOps ([Op.received 1 0, .received 2 0, .sent 0 false, .ackOfAck 1 2] ++
      Op.received 4 1 :: [.received 6 2]) ∧
    isPnAlreadyReceived (run SackList.init ([Op.received 1 0, .received 2 0, .sent 0 false,
      .ackOfAck 1 2] ++ Op.received 4 1 :: [.received 6 2])) 4 = true := by
  refine ⟨?_, by decide⟩
  intro a b h
  simp at h
  omega

/-- **C43.** After any history, with or without the horizon mechanism, the counters by which ACK
ranges are selected are exact: entry `i` is the number of ranges sent exactly `i` times. -/
theorem C43_range_counters_exact (delay : Int) (ops : List Op) :
    ∀ i, i < MAX_ACK_RANGE_REPEAT →
      (run { SackList.init with horizonDelay := delay } ops).rc0 i =
        ((run { SackList.init with horizonDelay := delay } ops).items.filter
          (fun x => x.sent0 == i)).length ∧
      (run { SackList.init with horizonDelay := delay } ops).rc1 i =
        ((run { SackList.init with horizonDelay := delay } ops).items.filter
          (fun x => x.sent1 == i)).length := by
  have key : ∀ (ops : List Op) (s : SackList), CountsOk s → CountsOk (run s ops) := by
    intro ops
    induction ops with
    | nil => intro s h; exact h
    | cons op ops ih =>
      intro s h
      apply ih
      cases op with
      | received pn now => exact update_counts s pn pn now h
      | ackOfAck a b => exact ackOfAck_counts s a b h
      | sent k opp => exact recordSent_counts s k opp h
  intro i hi
  have := key ops { SackList.init with horizonDelay := delay } (by
    intro i _; simp [SackList.init]) i hi
  rw [← List.countP_eq_length_filter, ← List.countP_eq_length_filter]
  exact this

/-- Nothing is recorded outside the array. -/
def InArray (c : Counts) : Prop := ∀ i, MAX_ACK_RANGE_REPEAT ≤ i → c i = 0

theorem InArray.add {c : Counts} (h : InArray c) {j : Nat} (d : Int)
    (hj : j < MAX_ACK_RANGE_REPEAT) : InArray (c.add j d) := by
  intro i hi; rw [add_apply, h i hi]; split <;> omega

theorem InArray.uncount {c : Counts} (h : InArray c) (n : Nat) : InArray (uncount c n) := by
  unfold Sack.uncount; split
  · exact h.add _ (by assumption)
  · exact h

theorem InArray.recount {c : Counts} (h : InArray c) (n : Nat) : InArray (recount c n) :=
  (h.uncount n).add _ (by decide)

theorem InArray.recordSentCounts {c : Counts} (h : InArray c) (n : Nat) :
    InArray (recordSentCounts c n) := by
  unfold Sack.recordSentCounts
  have h1 : InArray (if n < MAX_ACK_RANGE_REPEAT then c.add n (-1) else c) := by
    split
    · exact h.add _ (by assumption)
    · exact h
  simp only
  split
  · exact h1.add _ (by assumption)
  · exact h1

theorem extendLoop_inArray (previous : Item) (after : List Item) (rc0 rc1 : Counts)
    (pnMax now : Nat) (h0 : InArray rc0) (h1 : InArray rc1) :
    InArray (extendLoop previous after rc0 rc1 pnMax now).2.2.1 ∧
    InArray (extendLoop previous after rc0 rc1 pnMax now).2.2.2 := by
  induction after generalizing previous rc0 rc1 with
  | nil =>
    unfold extendLoop; split
    · exact ⟨h0.recount _, h1.recount _⟩
    · exact ⟨h0, h1⟩
  | cons next rest ih =>
    unfold extendLoop; split
    · split
      · exact ⟨h0.recount _, h1.recount _⟩
      · exact ih _ _ _ ((h0.recount _).uncount _) ((h1.recount _).uncount _)
    · exact ⟨h0, h1⟩

theorem horizonLoop_inArray (now : Nat) (delay : Int) (items : List Item) (hz : Nat)
    (rc0 rc1 : Counts) (h0 : InArray rc0) (h1 : InArray rc1) :
    InArray (horizonLoop now delay items hz rc0 rc1).2.2.1 ∧
    InArray (horizonLoop now delay items hz rc0 rc1).2.2.2 := by
  induction items generalizing hz rc0 rc1 with
  | nil => exact ⟨h0, h1⟩
  | cons first rest ih =>
    unfold horizonLoop; split
    · cases rest with
      | nil => exact ⟨h0, h1⟩
      | cons next rest' => exact ih _ _ _ (h0.uncount _) (h1.uncount _)
    · exact ⟨h0, h1⟩

theorem step_inArray (s : SackList) (op : Op) (h0 : InArray s.rc0) (h1 : InArray s.rc1) :
    InArray (step s op).rc0 ∧ InArray (step s op).rc1 := by
  cases op with
  | received pn now =>
    have hno : ∀ lo hi f, InArray (updateCore.noOverlap s pn pn now lo hi f).1.rc0 ∧
        InArray (updateCore.noOverlap s pn pn now lo hi f).1.rc1 := by
      intro lo hi f
      unfold updateCore.noOverlap
      split
      · exact ⟨h0.add _ (by decide), h1.add _ (by decide)⟩
      · split
        · exact ⟨h0.add _ (by decide), h1.add _ (by decide)⟩
        · exact extendLoop_inArray _ _ _ _ _ _ (h0.recount _) (h1.recount _)
    have hcore : InArray (updateCore s pn pn now).1.rc0 ∧
        InArray (updateCore s pn pn now).1.rc1 := by
      unfold updateCore
      simp only
      split
      · exact hno _ _ _
      · split
        · exact hno _ _ _
        · exact extendLoop_inArray _ _ _ _ _ _ h0 h1
    simp only [step, recordPnReceived, updateSackList]
    split
    · exact horizonLoop_inArray _ _ _ _ _ _ hcore.1 hcore.2
    · exact hcore
  | ackOfAck a b =>
    simp only [step, processAckOfAckRange]
    repeat' split
    all_goals first
      | exact ⟨h0, h1⟩
      | exact ⟨h0.uncount _, h1.uncount _⟩
  | sent k opp =>
    simp only [step, recordSent]
    repeat' split
    all_goals first
      | exact ⟨h0, h1⟩
      | exact ⟨h0, h1.recordSentCounts _⟩
      | exact ⟨h0.recordSentCounts _, h1⟩

/-- **C43, memory safety.** No operation ever writes the counters outside of the array of 4. -/
theorem C43_range_counters_in_bounds (delay : Int) (ops : List Op) :
    ∀ i, MAX_ACK_RANGE_REPEAT ≤ i →
      (run { SackList.init with horizonDelay := delay } ops).rc0 i = 0 ∧
      (run { SackList.init with horizonDelay := delay } ops).rc1 i = 0 := by
  have key : ∀ (ops : List Op) (s : SackList), InArray s.rc0 → InArray s.rc1 →
      InArray (run s ops).rc0 ∧ InArray (run s ops).rc1 := by
    intro ops
    induction ops with
    | nil => intro s h0 h1; exact ⟨h0, h1⟩
    | cons op ops ih =>
      intro s h0 h1
      have := step_inArray s op h0 h1
      exact ih _ this.1 this.2
  intro i hi
  have := key ops { SackList.init with horizonDelay := delay } (fun _ _ => rfl) (fun _ _ => rfl)
  exact ⟨this.1 i hi, this.2 i hi⟩

/-- Non-vacuity of C43. -/
example : (run SackList.init [.received 1 0, .received 5 0, .sent 1 false]).rc0 0 = 1 ∧
    (run SackList.init [.received 1 0, .received 5 0, .sent 1 false]).rc0 1 = 1 := by decide

end Picoquic.Props
