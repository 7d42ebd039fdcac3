import Verif.Proof.AckProcess
/-!
# Acknowledged packets are exactly removed
-/

namespace Picoquic.Ack
open Picoquic Picoquic.Spec

/-! ### Any frame, well formed or not -/

theorem ackRange_progress (largest : Nat) (w : Work) (bs : Bytes) :
    Progress (fun n => n ≤ largest) w (ackRange largest w bs).1 := by
  unfold ackRange
  cases hd : framesVarintDecode bs with
  | none => exact Progress.refl _ _
  | some y =>
    obtain ⟨r, bs1⟩ := y
    dsimp only
    by_cases hlt : largest + 1 < r + 1
    · rw [if_pos hlt]; exact Progress.refl _ _
    · rw [if_neg hlt]
      have h := (processRange_progress largest (r + 1) w (by omega)).mono
        (Q := fun n => n ≤ largest) (fun n hn => hn.2)
      generalize processRange largest (r + 1) w = z at h ⊢
      obtain ⟨z1, z2⟩ := z
      cases z2 with
      | false => exact h
      | true =>
        exact h.trans ((spurious_progress (largest + 1 - (r + 1)) largest z1).mono (fun n hn => hn.2))

theorem ackLoop_progress (n largest : Nat) (w : Work) (bs : Bytes) :
    Progress (fun n => n ≤ largest) w (ackLoop n largest w bs).1 := by
  induction n generalizing largest w bs with
  | zero =>
    rw [ackLoop]
    have h := ackRange_progress largest w bs
    generalize ackRange largest w bs = z at h ⊢
    obtain ⟨z1, z2⟩ := z
    cases z2 <;> exact h
  | succ n ih =>
    rw [ackLoop]
    have h := ackRange_progress largest w bs
    generalize ackRange largest w bs = z at h ⊢
    obtain ⟨z1, z2⟩ := z
    cases z2 with
    | error e => exact h
    | ok x =>
      obtain ⟨range, bs1⟩ := x
      dsimp only
      cases hd : framesVarintDecode bs1 with
      | none => exact h
      | some y =>
        obtain ⟨gap, bs2⟩ := y
        dsimp only
        by_cases hlt : largest < gap + 1 + range
        · rw [if_pos hlt]; exact h
        · rw [if_neg hlt]
          exact h.trans ((ih _ z1 bs2).mono (fun n hn => by omega))

/-! ### Ordered lists -/

/-- From newest to oldest. -/
def Desc (l : List Pkt) : Prop := l.Pairwise (fun a b => b.seq < a.seq)

/-- A descending list is split by a range. -/
theorem desc_split {l : List Pkt} (h : Desc l) (lo hi : Nat) (hle : lo ≤ hi + 1) :
    l = l.filter (fun p => decide (p.seq > hi)) ++
      (l.filter (fun p => decide (lo ≤ p.seq ∧ p.seq ≤ hi)) ++ l.filter (fun p => decide (p.seq < lo))) := by
  induction l with
  | nil => rfl
  | cons p l ih =>
    have hp := (List.pairwise_cons.1 h).1
    have ih := ih (List.pairwise_cons.1 h).2
    have none : ∀ (q : Pkt → Bool), (∀ x ∈ l, q x = false) → l.filter q = [] := by
      intro q hq
      rw [List.filter_eq_nil_iff]
      intro x hx; simp [hq x hx]
    by_cases h1 : p.seq > hi
    · have h2 : ¬ (lo ≤ p.seq ∧ p.seq ≤ hi) := by omega
      have h3 : ¬ p.seq < lo := by omega
      rw [List.filter_cons_of_pos (by simpa using h1), List.filter_cons_of_neg (by simpa using h2),
        List.filter_cons_of_neg (by simpa using h3), List.cons_append, ← ih]
    · have e1 := none (fun p => decide (p.seq > hi)) (fun x hx => by have := hp x hx; simp; omega)
      rw [e1, List.nil_append] at ih
      by_cases h2 : lo ≤ p.seq
      · have h4 : lo ≤ p.seq ∧ p.seq ≤ hi := ⟨h2, by omega⟩
        have h3 : ¬ p.seq < lo := by omega
        rw [List.filter_cons_of_neg (by simpa using h1), e1, List.filter_cons_of_pos (by simpa using h4),
          List.filter_cons_of_neg (by simpa using h3), List.nil_append, List.cons_append, ← ih]
      · have e2 := none (fun p => decide (lo ≤ p.seq ∧ p.seq ≤ hi)) (fun x hx => by
          have := hp x hx; simp; omega)
        rw [e2, List.nil_append] at ih
        have h4 : ¬ (lo ≤ p.seq ∧ p.seq ≤ hi) := by omega
        have h3 : p.seq < lo := by omega
        rw [List.filter_cons_of_neg (by simpa using h1), e1, List.filter_cons_of_neg (by simpa using h4), e2,
          List.filter_cons_of_pos (by simpa using h3), List.nil_append, List.nil_append, ← ih]

theorem passOver_eq {hi : Nat} {older : List Pkt} (h : Desc older) (newer : List Pkt) :
    passOver hi older newer = (older.filter (fun p => decide (p.seq ≤ hi)),
      (older.filter (fun p => decide (p.seq > hi))).reverse ++ newer) := by
  induction older generalizing newer with
  | nil => rfl
  | cons p older ih =>
    have hp := (List.pairwise_cons.1 h).1
    rw [passOver]
    by_cases h1 : p.seq > hi
    · rw [if_pos h1, ih (List.pairwise_cons.1 h).2, List.filter_cons_of_neg (by simpa using h1),
        List.filter_cons_of_pos (by simpa using h1)]
      simp
    · rw [if_neg h1]
      have e1 : (p :: older).filter (fun p => decide (p.seq ≤ hi)) = p :: older := by
        rw [List.filter_eq_self]
        intro x hx
        rcases List.mem_cons.1 hx with rfl | hx
        · simpa using h1
        · have := hp x hx; simp; omega
      have e2 : (p :: older).filter (fun p => decide (p.seq > hi)) = [] := by
        rw [List.filter_eq_nil_iff]
        intro x hx
        rcases List.mem_cons.1 hx with rfl | hx
        · simpa using h1
        · have := hp x hx; simp; omega
      rw [e1, e2]; rfl

theorem passOver_id {hi : Nat} {older : List Pkt} (h : ∀ p ∈ older, p.seq ≤ hi) (newer : List Pkt) :
    passOver hi older newer = (older, newer) := by
  cases older with
  | nil => rfl
  | cons p older => rw [passOver, if_neg (by have := h p (by simp); omega)]

/-- Leaving transit, one packet after the other. -/
theorem total_cons (p : Pkt) (l : List Pkt) : total (p :: l) = p.size + total l := by simp [total]

/-- One range, when all packets considered are at most its end. -/
theorem processRange_below (lo r : Nat) (w : Work) (hd : Desc w.older) (hle : ∀ p ∈ w.older, p.seq < lo + r)
    (ht : ∀ p ∈ w.older, lo ≤ p.seq → p.trap = false) :
    processRange (lo + r - 1) r w =
      ({ w with older := w.older.filter (fun p => decide (p.seq < lo))
                inTransit := w.inTransit - total (w.older.filter (fun p => decide (lo ≤ p.seq)))
                acked := w.acked ++ w.older.filter (fun p => decide (lo ≤ p.seq)) }, true) := by
  induction r generalizing w with
  | zero =>
    have e1 : w.older.filter (fun p => decide (p.seq < lo)) = w.older := by
      rw [List.filter_eq_self]; intro x hx; simpa using hle x hx
    have e2 : w.older.filter (fun p => decide (lo ≤ p.seq)) = [] := by
      rw [List.filter_eq_nil_iff]; intro x hx; have := hle x hx; simp; omega
    rw [processRange, e1, e2]
    simp [total]
  | succ r ih =>
    have hhi : lo + (r + 1) - 1 = lo + r := by omega
    rw [hhi, processRange, passOver_id (fun p hp => by have := hle p hp; omega)]
    obtain ⟨older, newer, lp, lr, it, ac⟩ := w
    dsimp only at *
    cases older with
    | nil => simp [total]
    | cons p older =>
      dsimp only
      have hp := (List.pairwise_cons.1 hd).1
      have hd' := (List.pairwise_cons.1 hd).2
      by_cases he : p.seq = lo + r
      · have htp := ht p (by simp) (by omega)
        rw [if_pos he, htp, if_neg (by decide), leaveTransit_eq htp]
        have := ih { older := older, newer := newer, lostPassed := lp, lostRest := lr, inTransit := it - p.size
                     acked := ac ++ [p] } hd' (fun x hx => by have := hp x hx; omega)
          (fun x hx => ht x (by simp [hx]))
        rw [this]
        dsimp only
        rw [List.filter_cons_of_neg (by simp; omega), List.filter_cons_of_pos (by simp; omega), total_cons]
        simp [Nat.sub_sub]
      · rw [if_neg he]
        have := ih { older := p :: older, newer := newer, lostPassed := lp, lostRest := lr, inTransit := it, acked := ac }
          hd (fun x hx => by
            dsimp only at hx
            rcases List.mem_cons.1 hx with rfl | hx
            · have := hle x (by simp); omega
            · have := hp x hx; have := hle p (by simp); omega) ht
        rw [this]

/-- One range: exactly the packets in it leave. -/
theorem processRange_exact {lo hi : Nat} (hlh : lo ≤ hi) (w : Work) (hd : Desc w.older)
    (ht : ∀ p ∈ w.older, lo ≤ p.seq → p.seq ≤ hi → p.trap = false) :
    processRange hi (hi + 1 - lo) w =
      ({ w with older := w.older.filter (fun p => decide (p.seq < lo))
                newer := (w.older.filter (fun p => decide (p.seq > hi))).reverse ++ w.newer
                inTransit := w.inTransit - total (w.older.filter (fun p => decide (lo ≤ p.seq ∧ p.seq ≤ hi)))
                acked := w.acked ++ w.older.filter (fun p => decide (lo ≤ p.seq ∧ p.seq ≤ hi)) }, true) := by
  have hpo := passOver_eq (hi := hi) hd w.newer
  -- the first step only depends on the packets left after passing over the newer ones
  have hfirst : processRange hi (hi + 1 - lo) w = processRange hi (hi + 1 - lo)
      { w with older := w.older.filter (fun p => decide (p.seq ≤ hi))
               newer := (w.older.filter (fun p => decide (p.seq > hi))).reverse ++ w.newer } := by
    obtain ⟨r, hr⟩ : ∃ r, hi + 1 - lo = r + 1 := ⟨hi - lo, by omega⟩
    rw [hr, processRange, processRange, hpo]
    dsimp only
    rw [passOver_id (fun p hp => by
      have := (List.mem_filter.1 hp).2
      simpa using this)]
  rw [hfirst]
  have hb := processRange_below lo (hi + 1 - lo)
    { w with older := w.older.filter (fun p => decide (p.seq ≤ hi))
             newer := (w.older.filter (fun p => decide (p.seq > hi))).reverse ++ w.newer }
    (hd.sublist List.filter_sublist)
    (fun p hp => by
      have := (List.mem_filter.1 hp).2
      simp at this; omega)
    (fun p hp hl => by
      have := List.mem_filter.1 hp
      exact ht p this.1 hl (by simpa using this.2))
  have e : lo + (hi + 1 - lo) - 1 = hi := by omega
  rw [e] at hb
  rw [hb]
  dsimp only
  have e1 : (w.older.filter (fun p => decide (p.seq ≤ hi))).filter (fun p => decide (p.seq < lo)) =
      w.older.filter (fun p => decide (p.seq < lo)) := by
    rw [List.filter_filter]
    apply List.filter_congr
    intro x _
    by_cases h : x.seq < lo
    · simp [h]; omega
    · simp [h]
  have e2 : (w.older.filter (fun p => decide (p.seq ≤ hi))).filter (fun p => decide (lo ≤ p.seq)) =
      w.older.filter (fun p => decide (lo ≤ p.seq ∧ p.seq ≤ hi)) := by
    rw [List.filter_filter]
    apply List.filter_congr
    intro x _
    simp
  rw [e1, e2]

/-- A skipped number in the range is detected. -/
theorem processRange_below_trap (lo r : Nat) (w : Work) (hd : Desc w.older) (hle : ∀ p ∈ w.older, p.seq < lo + r)
    (ht : ∃ p ∈ w.older, lo ≤ p.seq ∧ p.trap = true) : (processRange (lo + r - 1) r w).2 = false := by
  induction r generalizing w with
  | zero =>
    obtain ⟨p, hp, h1, _⟩ := ht
    have := hle p hp
    omega
  | succ r ih =>
    have hhi : lo + (r + 1) - 1 = lo + r := by omega
    rw [hhi, processRange, passOver_id (fun p hp => by have := hle p hp; omega)]
    obtain ⟨older, newer, lp, lr, it, ac⟩ := w
    dsimp only at *
    obtain ⟨q, hq, hq1, hq2⟩ := ht
    cases older with
    | nil => cases hq
    | cons p older =>
      dsimp only
      have hp := (List.pairwise_cons.1 hd).1
      have hd' := (List.pairwise_cons.1 hd).2
      by_cases he : p.seq = lo + r
      · rw [if_pos he]
        cases htp : p.trap with
        | true => rfl
        | false =>
          rw [if_neg (by decide)]
          apply ih
          · exact hd'
          · intro x hx; have := hp x hx; omega
          · rcases List.mem_cons.1 hq with rfl | hq
            · rw [htp] at hq2; cases hq2
            · exact ⟨q, hq, hq1, hq2⟩
      · rw [if_neg he]
        apply ih
        · exact hd
        · intro x hx
          dsimp only at hx
          rcases List.mem_cons.1 hx with rfl | hx
          · have := hle x (by simp); omega
          · have := hp x hx; have := hle p (by simp); omega
        · exact ⟨q, hq, hq1, hq2⟩

theorem processRange_trap {lo hi : Nat} (hlh : lo ≤ hi) (w : Work) (hd : Desc w.older)
    (ht : ∃ p ∈ w.older, lo ≤ p.seq ∧ p.seq ≤ hi ∧ p.trap = true) : (processRange hi (hi + 1 - lo) w).2 = false := by
  have hpo := passOver_eq (hi := hi) hd w.newer
  have hfirst : processRange hi (hi + 1 - lo) w = processRange hi (hi + 1 - lo)
      { w with older := w.older.filter (fun p => decide (p.seq ≤ hi))
               newer := (w.older.filter (fun p => decide (p.seq > hi))).reverse ++ w.newer } := by
    obtain ⟨r, hr⟩ : ∃ r, hi + 1 - lo = r + 1 := ⟨hi - lo, by omega⟩
    rw [hr, processRange, processRange, hpo]
    dsimp only
    rw [passOver_id (fun p hp => by
      have := (List.mem_filter.1 hp).2
      simpa using this)]
  rw [hfirst]
  have e : lo + (hi + 1 - lo) - 1 = hi := by omega
  have hb := processRange_below_trap lo (hi + 1 - lo)
    { w with older := w.older.filter (fun p => decide (p.seq ≤ hi))
             newer := (w.older.filter (fun p => decide (p.seq > hi))).reverse ++ w.newer }
    (hd.sublist List.filter_sublist)
    (fun p hp => by
      have := (List.mem_filter.1 hp).2
      simp at this; omega)
    (by
      obtain ⟨p, h1, h2, h3, h4⟩ := ht
      exact ⟨p, List.mem_filter.2 ⟨h1, by simpa using h3⟩, h2, h4⟩)
  rw [e] at hb
  exact hb

theorem checkSpurious_exact {lo hi : Nat} (rest : List Pkt) (hd : Desc rest) (passed acked : List Pkt) :
    checkSpurious lo hi rest passed acked =
      ((rest.filter (fun p => decide (p.seq > hi ∧ lo ≤ p.seq))).reverse ++ passed,
        rest.filter (fun p => decide (p.seq < lo)),
        acked ++ rest.filter (fun p => decide (lo ≤ p.seq ∧ p.seq ≤ hi))) := by
  induction rest generalizing passed acked with
  | nil => simp [checkSpurious]
  | cons p rest ih =>
    have hp := (List.pairwise_cons.1 hd).1
    have hd' := (List.pairwise_cons.1 hd).2
    rw [checkSpurious]
    by_cases h1 : p.seq ≥ lo
    · rw [if_pos h1]
      by_cases h2 : p.seq ≤ hi
      · rw [if_pos h2, ih hd', List.filter_cons_of_neg (by simp; omega), List.filter_cons_of_neg (by simp; omega),
          List.filter_cons_of_pos (by simp; omega)]
        simp
      · rw [if_neg h2, ih hd', List.filter_cons_of_pos (by simp; omega), List.filter_cons_of_neg (by simp; omega),
          List.filter_cons_of_neg (by simp; omega)]
        simp
    · rw [if_neg h1]
      have none : ∀ (q : Pkt → Bool), (∀ x ∈ p :: rest, q x = false) → (p :: rest).filter q = [] := by
        intro q hq
        rw [List.filter_eq_nil_iff]
        intro x hx; simp [hq x hx]
      have hall : ∀ x ∈ p :: rest, x.seq < lo := by
        intro x hx
        rcases List.mem_cons.1 hx with rfl | hx
        · omega
        · have := hp x hx; omega
      rw [none _ (fun x hx => by have := hall x hx; simp; omega), none (fun p => decide (lo ≤ p.seq ∧ p.seq ≤ hi))
        (fun x hx => by have := hall x hx; simp; omega)]
      have : (p :: rest).filter (fun p => decide (p.seq < lo)) = p :: rest := by
        rw [List.filter_eq_self]; intro x hx; simpa using hall x hx
      rw [this]; simp

/-- Membership in ranges, decidable form. -/
def inR (rs : List (Nat × Nat)) (p : Pkt) : Bool := rs.any fun r => decide (r.1 ≤ p.seq ∧ p.seq ≤ r.2)

theorem inR_iff (rs : List (Nat × Nat)) (p : Pkt) : inR rs p = true ↔ InRanges rs p.seq := by
  simp [inR, InRanges]

/-- Splitting off the first of descending ranges. -/
theorem filter_not_ranges {l : List Pkt} (hd : Desc l) {lo hi : Nat} (hlh : lo ≤ hi) (rs : List (Nat × Nat))
    (hrs : ∀ r ∈ rs, r.2 < lo) :
    l.filter (fun p => !inR ((lo, hi) :: rs) p) =
      l.filter (fun p => decide (p.seq > hi)) ++ (l.filter (fun p => decide (p.seq < lo))).filter (fun p => !inR rs p) := by
  have hs := desc_split hd lo hi (by omega)
  conv => lhs; rw [hs]
  have notIn : ∀ p : Pkt, lo ≤ p.seq → inR rs p = false := by
    intro p hp
    cases h : inR rs p with
    | false => rfl
    | true =>
      obtain ⟨r, hr, h1, h2⟩ := (inR_iff rs p).1 h
      have := hrs r hr
      omega
  rw [List.filter_append, List.filter_append]
  have e1 : (l.filter (fun p => decide (p.seq > hi))).filter (fun p => !inR ((lo, hi) :: rs) p) =
      l.filter (fun p => decide (p.seq > hi)) := by
    rw [List.filter_eq_self]
    intro x hx
    have hx := (List.mem_filter.1 hx).2
    simp at hx
    have : inR ((lo, hi) :: rs) x = false := by
      show (decide (lo ≤ x.seq ∧ x.seq ≤ hi) || inR rs x) = false
      rw [notIn x (by omega)]; simp; omega
    rw [this]; rfl
  have e2 : (l.filter (fun p => decide (lo ≤ p.seq ∧ p.seq ≤ hi))).filter (fun p => !inR ((lo, hi) :: rs) p) = [] := by
    rw [List.filter_eq_nil_iff]
    intro x hx
    have hx := (List.mem_filter.1 hx).2
    have : inR ((lo, hi) :: rs) x = true := by
      show (decide (lo ≤ x.seq ∧ x.seq ≤ hi) || inR rs x) = true
      rw [hx]; rfl
    rw [this]; simp
  have e3 : (l.filter (fun p => decide (p.seq < lo))).filter (fun p => !inR ((lo, hi) :: rs) p) =
      (l.filter (fun p => decide (p.seq < lo))).filter (fun p => !inR rs p) := by
    apply List.filter_congr
    intro x hx
    have hx := (List.mem_filter.1 hx).2
    simp at hx
    show (!(decide (lo ≤ x.seq ∧ x.seq ≤ hi) || inR rs x)) = _
    have : decide (lo ≤ x.seq ∧ x.seq ≤ hi) = false := by simp; omega
    rw [this]; simp
  rw [e1, e2, e3, List.nil_append]

/-- All ranges: exactly the packets in them leave, if no skipped number is among them. -/
theorem applyRanges_exact (rs : List (Nat × Nat)) (hr : ∀ r ∈ rs, r.1 ≤ r.2)
    (hp : rs.Pairwise (fun a b => b.2 + 1 < a.1)) :
    ∀ w : Work, Desc w.older → Desc w.lostRest →
    (∀ p ∈ w.older, InRanges rs p.seq → p.trap = false) →
    (applyRanges w rs).2 = true ∧
    pend (applyRanges w rs).1 = (w.older.filter (fun p => !inR rs p)).reverse ++ w.newer ∧
    lst (applyRanges w rs).1 = w.lostPassed.reverse ++ w.lostRest.filter (fun p => !inR rs p) := by
  induction rs with
  | nil =>
    intro w _ _ _
    have : ∀ l : List Pkt, l.filter (fun p => !inR [] p) = l := fun l => by
      rw [List.filter_eq_self]; intro x _; rfl
    rw [this, this]
    exact ⟨rfl, rfl, rfl⟩
  | cons r rs ih =>
    intro w hd hdl ht
    obtain ⟨lo, hi⟩ := r
    have hlh : lo ≤ hi := hr (lo, hi) (by simp)
    have hlow : ∀ r ∈ rs, r.2 < lo := by
      intro r h
      have := (List.pairwise_cons.1 hp).1 r h
      dsimp only at this
      omega
    have hex := processRange_exact hlh w hd (fun p h1 h2 h3 => ht p h1 ⟨(lo, hi), by simp, h2, h3⟩)
    rw [applyRanges]
    unfold applyRange
    dsimp only
    rw [hex]
    dsimp only
    rw [checkSpurious_exact w.lostRest hdl]
    dsimp only
    obtain ⟨i1, i2, i3⟩ := ih (fun x hx => hr x (by simp [hx])) (List.pairwise_cons.1 hp).2
      { older := w.older.filter (fun p => decide (p.seq < lo))
        newer := (w.older.filter (fun p => decide (p.seq > hi))).reverse ++ w.newer
        lostPassed := (w.lostRest.filter (fun p => decide (p.seq > hi ∧ lo ≤ p.seq))).reverse ++ w.lostPassed
        lostRest := w.lostRest.filter (fun p => decide (p.seq < lo))
        inTransit := w.inTransit - total (w.older.filter (fun p => decide (lo ≤ p.seq ∧ p.seq ≤ hi)))
        acked := w.acked ++ w.older.filter (fun p => decide (lo ≤ p.seq ∧ p.seq ≤ hi)) ++
          w.lostRest.filter (fun p => decide (lo ≤ p.seq ∧ p.seq ≤ hi)) }
      (hd.sublist List.filter_sublist) (hdl.sublist List.filter_sublist)
      (fun p hp' hin => by
        obtain ⟨x, hx, hx'⟩ := hin
        exact ht p (List.mem_filter.1 hp').1 ⟨x, by simp [hx], hx'⟩)
    refine ⟨i1, ?_, ?_⟩
    · rw [i2, filter_not_ranges hd hlh rs hlow]
      dsimp only
      rw [List.reverse_append, List.append_assoc]
    · rw [i3, filter_not_ranges hdl hlh rs hlow]
      dsimp only
      rw [List.reverse_append, List.reverse_reverse, List.append_assoc]
      have : w.lostRest.filter (fun p => decide (p.seq > hi ∧ lo ≤ p.seq)) =
          w.lostRest.filter (fun p => decide (p.seq > hi)) := by
        apply List.filter_congr
        intro x _
        by_cases h : x.seq > hi
        · simp [h]; omega
        · simp [h]
      rw [this]

/-- The packets in flight, whatever the state of the list of lost packets. -/
theorem applyRanges_pend (rs : List (Nat × Nat)) (hr : ∀ r ∈ rs, r.1 ≤ r.2)
    (hp : rs.Pairwise (fun a b => b.2 + 1 < a.1)) :
    ∀ w : Work, Desc w.older →
    (∀ p ∈ w.older, InRanges rs p.seq → p.trap = false) →
    (applyRanges w rs).2 = true ∧
    pend (applyRanges w rs).1 = (w.older.filter (fun p => !inR rs p)).reverse ++ w.newer := by
  induction rs with
  | nil =>
    intro w _ _
    have : ∀ l : List Pkt, l.filter (fun p => !inR [] p) = l := fun l => by
      rw [List.filter_eq_self]; intro x _; rfl
    rw [this]
    exact ⟨rfl, rfl⟩
  | cons r rs ih =>
    intro w hd ht
    obtain ⟨lo, hi⟩ := r
    have hlh : lo ≤ hi := hr (lo, hi) (by simp)
    have hlow : ∀ r ∈ rs, r.2 < lo := by
      intro r h
      have := (List.pairwise_cons.1 hp).1 r h
      dsimp only at this
      omega
    have hex := processRange_exact hlh w hd (fun p h1 h2 h3 => ht p h1 ⟨(lo, hi), by simp, h2, h3⟩)
    rw [applyRanges]
    unfold applyRange
    dsimp only
    rw [hex]
    dsimp only
    generalize checkSpurious lo hi w.lostRest _ _ = y
    obtain ⟨y1, y2, y3⟩ := y
    dsimp only
    obtain ⟨i1, i2⟩ := ih (fun x hx => hr x (by simp [hx])) (List.pairwise_cons.1 hp).2
      { older := w.older.filter (fun p => decide (p.seq < lo))
        newer := (w.older.filter (fun p => decide (p.seq > hi))).reverse ++ w.newer
        lostPassed := y1
        lostRest := y2
        inTransit := w.inTransit - total (w.older.filter (fun p => decide (lo ≤ p.seq ∧ p.seq ≤ hi)))
        acked := y3 }
      (hd.sublist List.filter_sublist)
      (fun p hp' hin => by
        obtain ⟨x, hx, hx'⟩ := hin
        exact ht p (List.mem_filter.1 hp').1 ⟨x, by simp [hx], hx'⟩)
    refine ⟨i1, ?_⟩
    rw [i2, filter_not_ranges hd hlh rs hlow]
    dsimp only
    rw [List.reverse_append, List.append_assoc]

/-- A skipped number in some range is detected. -/
theorem applyRanges_trap (rs : List (Nat × Nat)) (hr : ∀ r ∈ rs, r.1 ≤ r.2)
    (hp : rs.Pairwise (fun a b => b.2 + 1 < a.1)) :
    ∀ w : Work, Desc w.older → (∃ p ∈ w.older, InRanges rs p.seq ∧ p.trap = true) →
    (applyRanges w rs).2 = false := by
  induction rs with
  | nil => rintro w _ ⟨p, _, ⟨r, hr, _⟩, _⟩; cases hr
  | cons r rs ih =>
    intro w hd ht
    obtain ⟨lo, hi⟩ := r
    have hlh : lo ≤ hi := hr (lo, hi) (by simp)
    rw [applyRanges]
    unfold applyRange
    dsimp only
    by_cases hhere : ∃ p ∈ w.older, lo ≤ p.seq ∧ p.seq ≤ hi ∧ p.trap = true
    · have := processRange_trap hlh w hd hhere
      generalize processRange hi (hi + 1 - lo) w = x at this ⊢
      obtain ⟨x1, x2⟩ := x
      dsimp only at this
      subst this
      rfl
    · have hex := processRange_exact hlh w hd (fun p h1 h2 h3 => by
        cases h : p.trap with
        | false => rfl
        | true => exact absurd ⟨p, h1, h2, h3, h⟩ hhere)
      rw [hex]
      dsimp only
      apply ih (fun x hx => hr x (by simp [hx])) (List.pairwise_cons.1 hp).2
      · exact hd.sublist List.filter_sublist
      · obtain ⟨p, h1, ⟨r, hr', h2, h3⟩, h4⟩ := ht
        rcases List.mem_cons.1 hr' with rfl | hr'
        · exact absurd ⟨p, h1, h2, h3, h4⟩ hhere
        · have := (List.pairwise_cons.1 hp).1 r hr'
          dsimp only at this
          refine ⟨p, List.mem_filter.2 ⟨h1, ?_⟩, ⟨r, hr', h2, h3⟩, h4⟩
          simp; omega

end Picoquic.Ack
