import Verif.Proof.AckFormat
/-!
# Which ranges an ACK frame carries
-/

namespace Picoquic.Ack
open Picoquic Picoquic.Spec Picoquic.Sack

theorem pick_length_le (opp : Bool) (m : Nat) (is : List Item) (skip n : Nat) :
    (pick opp m is skip n).length ≤ 32 - n := by
  induction is generalizing skip n with
  | nil => simp [pick]
  | cons i is ih =>
    rw [pick]
    by_cases h : n < 32
    · rw [if_pos h]
      split
      · split
        · exact ih _ _
        · have := ih skip (n + 1)
          rw [List.length_cons]; omega
      · exact ih _ _
    · rw [if_neg h]; simp

theorem pick_le (opp : Bool) (m : Nat) (is : List Item) (skip n : Nat) :
    ∀ i ∈ pick opp m is skip n, timesSent i opp ≤ m := by
  induction is generalizing skip n with
  | nil => simp [pick]
  | cons i is ih =>
    rw [pick]
    by_cases h : n < 32
    · rw [if_pos h]
      split
      · split
        · exact ih _ _
        · intro j hj
          rcases List.mem_cons.1 hj with rfl | hj
          · assumption
          · exact ih _ _ j hj
      · exact ih _ _
    · rw [if_neg h]; simp

theorem pick_subset (opp : Bool) (m : Nat) (is : List Item) (skip n : Nat) :
    ∀ i ∈ pick opp m is skip n, i ∈ is := by
  induction is generalizing skip n with
  | nil => simp [pick]
  | cons i is ih =>
    intro j hj
    rw [pick] at hj
    split at hj
    · split at hj
      · split at hj
        · exact List.mem_cons_of_mem _ (ih _ _ j hj)
        · rcases List.mem_cons.1 hj with rfl | hj
          · exact List.mem_cons_self
          · exact List.mem_cons_of_mem _ (ih _ _ j hj)
      · exact List.mem_cons_of_mem _ (ih _ _ j hj)
    · cases hj

/-- Ranges determine the items. -/
theorem item_unique {items : List Item} (h : Sep items) {i j : Item} (hi : i ∈ items) (hj : j ∈ items)
    (hs : i.start = j.start) : i = j := by
  obtain ⟨h1, h2⟩ := h
  induction items with
  | nil => cases hi
  | cons x xs ih =>
    obtain ⟨p1, p2⟩ := List.pairwise_cons.1 h1
    rcases List.mem_cons.1 hi with rfl | hi' <;> rcases List.mem_cons.1 hj with rfl | hj'
    · rfl
    · have := p1 j hj'; have := h2 i hi; omega
    · have := p1 i hi'; have := h2 j hj; omega
    · exact ih hi' hj' p2 (fun k hk => h2 k (List.mem_cons_of_mem _ hk))

/-- The items sent fewer than `m` times, and those sent exactly `m` times. -/
def below (opp : Bool) (m : Nat) (is : List Item) : Nat := is.countP fun i => decide (timesSent i opp < m)
/-- See `below`. -/
def exactly (opp : Bool) (m : Nat) (is : List Item) : Nat := is.countP fun i => timesSent i opp == m

/-- If the number of items to pick does not exceed the limit, all those sent fewer times are picked, and
the number is as planned. -/
theorem pick_full (opp : Bool) (m : Nat) (is : List Item) (skip n : Nat)
    (h : n + below opp m is + (exactly opp m is - skip) ≤ 32) :
    (pick opp m is skip n).length = below opp m is + (exactly opp m is - skip) ∧
    ∀ i ∈ is, timesSent i opp < m → i ∈ pick opp m is skip n := by
  induction is generalizing skip n with
  | nil => simp [pick, below, exactly]
  | cons i is ih =>
    rw [pick]
    unfold below exactly at h ⊢
    simp only [List.countP_cons] at h ⊢
    by_cases h1 : timesSent i opp < m
    · have h2 : ¬ timesSent i opp = m := by omega
      simp only [h1, h2, decide_true, if_true, beq_iff_eq, if_false, false_and] at h ⊢
      have := ih skip (n + 1) (by unfold below exactly; omega)
      unfold below exactly at this
      rw [if_pos (by omega), if_pos (by omega), List.length_cons, this.1]
      refine ⟨by omega, ?_⟩
      intro j hj hlt
      rcases List.mem_cons.1 hj with rfl | hj
      · simp
      · exact List.mem_cons_of_mem _ (this.2 j hj hlt)
    · by_cases h2 : timesSent i opp = m
      · simp only [h2, Nat.lt_irrefl, decide_false, beq_self_eq_true, if_true, Nat.le_refl, true_and] at h ⊢
        simp only [Bool.false_eq_true, if_false, Nat.add_zero] at h ⊢
        by_cases h3 : skip > 0
        · have := ih (skip - 1) n (by unfold below exactly; omega)
          unfold below exactly at this
          rw [if_pos h3]
          by_cases h4 : n < 32
          · rw [if_pos h4, this.1]
            refine ⟨by omega, ?_⟩
            intro j hj hlt
            rcases List.mem_cons.1 hj with rfl | hj
            · omega
            · exact this.2 j hj hlt
          · rw [if_neg h4]
            have hz : List.countP (fun i => decide (timesSent i opp < m)) is = 0 := by omega
            refine ⟨by simp; omega, ?_⟩
            intro j hj hlt
            rcases List.mem_cons.1 hj with rfl | hj
            · omega
            · rw [List.countP_eq_zero] at hz
              exact absurd (by simpa using hlt) (hz j hj)
        · have := ih skip (n + 1) (by unfold below exactly; omega)
          unfold below exactly at this
          rw [if_pos (by omega), if_neg h3, List.length_cons, this.1]
          refine ⟨by omega, ?_⟩
          intro j hj hlt
          rcases List.mem_cons.1 hj with rfl | hj
          · omega
          · exact List.mem_cons_of_mem _ (this.2 j hj hlt)
      · have h5 : ¬ timesSent i opp ≤ m := by omega
        simp only [h1, h2, h5, decide_false, beq_iff_eq, if_false, Bool.false_eq_true, Nat.add_zero] at h ⊢
        have := ih skip n (by unfold below exactly; omega)
        unfold below exactly at this
        by_cases h4 : n < 32
        · rw [if_pos h4, this.1]
          refine ⟨rfl, ?_⟩
          intro j hj hlt
          rcases List.mem_cons.1 hj with rfl | hj
          · omega
          · exact this.2 j hj hlt
        · rw [if_neg h4]
          refine ⟨by simp; omega, ?_⟩
          have hz : List.countP (fun i => decide (timesSent i opp < m)) is = 0 := by omega
          intro j hj hlt
          rcases List.mem_cons.1 hj with rfl | hj
          · omega
          · rw [List.countP_eq_zero] at hz
            exact absurd (by simpa using hlt) (hz j hj)

/-- Without items to skip: the limit is reached or every item sent at most `m` times is picked. -/
theorem pick_noskip (opp : Bool) (m : Nat) (is : List Item) (n : Nat) (hn : n ≤ 32) :
    (pick opp m is 0 n).length = 32 - n ∨ ∀ i ∈ is, timesSent i opp ≤ m → i ∈ pick opp m is 0 n := by
  induction is generalizing n with
  | nil => simp
  | cons i is ih =>
    rw [pick]
    by_cases h : n < 32
    · rw [if_pos h]
      by_cases h1 : timesSent i opp ≤ m
      · rw [if_pos h1, if_neg (by omega)]
        rcases ih (n + 1) (by omega) with h2 | h2
        · left; rw [List.length_cons]; omega
        · right
          intro j hj hle
          rcases List.mem_cons.1 hj with rfl | hj
          · simp
          · exact List.mem_cons_of_mem _ (h2 j hj hle)
      · rw [if_neg h1]
        rcases ih n hn with h2 | h2
        · exact .inl h2
        · right
          intro j hj hle
          rcases List.mem_cons.1 hj with rfl | hj
          · exact absurd hle h1
          · exact h2 j hj hle
    · rw [if_neg h]; left; simp; omega

/-- The selection loop with exact counters: either some repeat count below the limit has 32 items or
fewer times sent, or the limit of repeats is used. -/
theorem selectLoop_spec (opp : Bool) (rc : Counts) (first : Nat) (is : List Item)
    (hrc : ∀ i, i < MAX_ACK_RANGE_REPEAT → rc i - (if i = first then 1 else 0) = (exactly opp i is : Int)) :
    ∀ n i, n + i = MAX_ACK_RANGE_REPEAT → below opp i is < 32 →
    (selectLoop rc first 32 n i (below opp i is) = (MAX_ACK_RANGE_REPEAT, 0) ∧
      below opp MAX_ACK_RANGE_REPEAT is < 32) ∨
    ∃ m skip, selectLoop rc first 32 n i (below opp i is) = (m, skip) ∧ m < MAX_ACK_RANGE_REPEAT ∧
      below opp m is < 32 ∧ below opp m is + exactly opp m is = 32 + skip := by
  intro n
  induction n with
  | zero =>
    intro i hi hb
    have : i = MAX_ACK_RANGE_REPEAT := by omega
    subst this
    exact .inl ⟨rfl, hb⟩
  | succ n ih =>
    intro i hi hb
    have hnext : below opp (i + 1) is = below opp i is + exactly opp i is := by
      unfold below exactly
      induction is with
      | nil => rfl
      | cons x xs ihx =>
        clear ih hrc hb
        have : ∀ xs : List Item, xs.countP (fun j => decide (timesSent j opp < i + 1)) =
            xs.countP (fun j => decide (timesSent j opp < i)) + xs.countP (fun j => timesSent j opp == i) := by
          intro xs
          induction xs with
          | nil => rfl
          | cons y ys ih =>
            simp only [List.countP_cons, ih]
            by_cases h1 : timesSent y opp < i
            · have : timesSent y opp < i + 1 := by omega
              have h2 : ¬ timesSent y opp = i := by omega
              simp [h1, h2, this]; omega
            · by_cases h2 : timesSent y opp = i
              · simp [h2]; omega
              · have : ¬ timesSent y opp < i + 1 := by omega
                simp [h1, h2, this]
        exact this (x :: xs)
    have hcum : (let cumul : Int := (below opp i is : Int) + rc i
        if i = first then cumul - 1 else cumul) = (below opp (i + 1) is : Int) := by
      have := hrc i (by omega)
      rw [hnext]
      dsimp only
      split <;> rename_i hf
      · rw [if_pos hf] at this; omega
      · rw [if_neg hf] at this; omega
    rw [selectLoop]
    dsimp only at hcum ⊢
    rw [hcum]
    by_cases hge : (below opp (i + 1) is : Int) ≥ 32
    · rw [if_pos hge]
      right
      refine ⟨i, _, rfl, by omega, hb, ?_⟩
      rw [← hnext]
      omega
    · rw [if_neg hge]
      exact ih (i + 1) (by omega) (by omega)

theorem selectAckRanges_spec (opp : Bool) (rc : Counts) (first : Nat) (is : List Item)
    (hrc : ∀ i, i < MAX_ACK_RANGE_REPEAT → rc i - (if i = first then 1 else 0) = (exactly opp i is : Int)) :
    (selectAckRanges rc first 32 = (MAX_ACK_RANGE_REPEAT, 0) ∧ below opp MAX_ACK_RANGE_REPEAT is < 32) ∨
    ∃ m skip, selectAckRanges rc first 32 = (m, skip) ∧ m < MAX_ACK_RANGE_REPEAT ∧
      below opp m is < 32 ∧ below opp m is + exactly opp m is = 32 + skip := by
  have h0 : below opp 0 is = 0 := by unfold below; simp
  have := selectLoop_spec opp rc first is hrc MAX_ACK_RANGE_REPEAT 0 rfl (by omega)
  rw [h0] at this
  exact this

/-- Exact counters after counting the first range again. -/
theorem counts_others (s : SackList) (hc : CountsOk s) (last : Item) (hl : s.items.getLast? = some last)
    (opp : Bool) : ∀ i, i < MAX_ACK_RANGE_REPEAT →
      SackList.rc (recordSent s (s.items.length - 1) opp) opp i - (if i = timesSent last opp + 1 then 1 else 0) =
        (exactly opp i s.items.dropLast.reverse : Int) := by
  intro i hi
  have hsplit := dropLast_append_getLast? hl
  have hget : s.items[s.items.length - 1]? = some last := by
    rw [List.getLast?_eq_getElem?] at hl; exact hl
  have hci := hc i hi
  have hcount : ∀ p : Item → Bool, (s.items.countP p : Int) =
      s.items.dropLast.countP p + (if p last then 1 else 0) := by
    intro p
    conv => lhs; rw [hsplit]
    rw [List.countP_append]
    simp only [List.countP_cons, List.countP_nil]
    split <;> omega
  unfold recordSent SackList.rc exactly
  rw [hget]
  dsimp only
  rw [List.countP_reverse]
  cases opp with
  | true =>
    simp only [if_true, timesSent]
    rw [recordSentCounts_apply _ _ _ hi, hci.2, hcount]
    by_cases h1 : last.sent1 = i
    · simp [h1]
    · simp [h1]
  | false =>
    simp only [Bool.false_eq_true, if_false, timesSent]
    rw [recordSentCounts_apply _ _ _ hi, hci.1, hcount]
    by_cases h1 : last.sent0 = i
    · simp [h1]
    · simp [h1]

end Picoquic.Ack
