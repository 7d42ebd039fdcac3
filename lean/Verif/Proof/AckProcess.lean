import Verif.Model.AckProcess
import Verif.Spec.Ack
import Verif.Spec.Intervals
import Verif.Proof.IntFormat
/-!
# Proofs about received ACK frames
-/

namespace Picoquic.Ack
open Picoquic Picoquic.Spec

/-! ### Effects of any acknowledgement -/

/-- The pending packets during the processing of a frame. -/
def pend (w : Work) : List Pkt := w.older.reverse ++ w.newer
/-- The lost packets during the processing of a frame. -/
def lst (w : Work) : List Pkt := w.lostPassed.reverse ++ w.lostRest
/-- Sum of the sizes. -/
def total (l : List Pkt) : Nat := (l.map Pkt.size).sum

theorem total_append (a b : List Pkt) : total (a ++ b) = total a + total b := by
  simp [total]

theorem leaveTransit_eq {t : Nat} {p : Pkt} (h : p.trap = false) : leaveTransit t p = t - p.size := by
  unfold leaveTransit
  rw [h, if_neg (by decide)]
  split <;> omega

/-- From `w` to `w'` some packets whose numbers satisfy `P` were acknowledged, and nothing else. -/
def Progress (P : Nat → Prop) (w w' : Work) : Prop :=
  (pend w').Sublist (pend w) ∧ (lst w').Sublist (lst w) ∧
  ∃ rp rl new : List Pkt, w'.acked = w.acked ++ new ∧ new.Perm (rp ++ rl) ∧
    (pend w).Perm (pend w' ++ rp) ∧ (lst w).Perm (lst w' ++ rl) ∧
    (∀ p ∈ rp, P p.seq ∧ p.trap = false) ∧ (∀ p ∈ rl, P p.seq) ∧
    w'.inTransit = w.inTransit - total rp

theorem Progress.refl (P : Nat → Prop) (w : Work) : Progress P w w :=
  ⟨List.Sublist.refl _, List.Sublist.refl _, [], [], [], by simp, by simp, by simp, by simp, by simp, by simp,
    by simp [total]⟩

theorem Progress.trans {P : Nat → Prop} {a b c : Work} (h1 : Progress P a b) (h2 : Progress P b c) :
    Progress P a c := by
  obtain ⟨s1, s2, rp, rl, new, e1, e2, e3, e4, e5, e6, e7⟩ := h1
  obtain ⟨t1, t2, rp', rl', new', f1, f2, f3, f4, f5, f6, f7⟩ := h2
  refine ⟨t1.trans s1, t2.trans s2, rp' ++ rp, rl' ++ rl, new ++ new', ?_, ?_, ?_, ?_, ?_, ?_, ?_⟩
  · rw [f1, e1, List.append_assoc]
  · have h := e2.append f2
    refine h.trans ?_
    have : (rp ++ rl ++ (rp' ++ rl')).Perm (rp' ++ rp ++ (rl' ++ rl)) := by
      rw [List.perm_iff_count]
      intro x
      simp only [List.count_append]
      omega
    exact this
  · refine e3.trans ?_
    rw [← List.append_assoc]
    exact f3.append_right rp
  · refine e4.trans ?_
    rw [← List.append_assoc]
    exact f4.append_right rl
  · intro p hp
    rcases List.mem_append.1 hp with hp | hp
    · exact f5 p hp
    · exact e5 p hp
  · intro p hp
    rcases List.mem_append.1 hp with hp | hp
    · exact f6 p hp
    · exact e6 p hp
  · rw [f7, e7, total_append]; omega

theorem Progress.mono {P Q : Nat → Prop} (hpq : ∀ n, P n → Q n) {a b : Work} (h : Progress P a b) : Progress Q a b := by
  obtain ⟨s1, s2, rp, rl, new, e1, e2, e3, e4, e5, e6, e7⟩ := h
  exact ⟨s1, s2, rp, rl, new, e1, e2, e3, e4, fun p hp => ⟨hpq _ (e5 p hp).1, (e5 p hp).2⟩,
    fun p hp => hpq _ (e6 p hp), e7⟩

theorem passOver_pend (h : Nat) (older newer : List Pkt) :
    (passOver h older newer).1.reverse ++ (passOver h older newer).2 = older.reverse ++ newer := by
  induction older generalizing newer with
  | nil => rfl
  | cons p older ih =>
    rw [passOver]
    split
    · rw [ih]; simp
    · rfl

theorem processRange_progress (hi range : Nat) (w : Work) (hr : range ≤ hi + 1) :
    Progress (fun n => hi + 1 - range ≤ n ∧ n ≤ hi) w (processRange hi range w).1 := by
  induction range generalizing hi w with
  | zero => exact Progress.refl _ _
  | succ range ih =>
    rw [processRange]
    have hpo := passOver_pend hi w.older w.newer
    generalize passOver hi w.older w.newer = o at hpo ⊢
    obtain ⟨o1, o2⟩ := o
    dsimp only at hpo ⊢
    have move : ∀ w' : Work, w'.acked = w.acked → w'.inTransit = w.inTransit →
        pend w' = pend w → lst w' = lst w → Progress (fun n => hi + 1 - (range + 1) ≤ n ∧ n ≤ hi) w w' := by
      intro w' h1 h2 h3 h4
      exact ⟨by rw [h3]; exact List.Sublist.refl _, by rw [h4]; exact List.Sublist.refl _, [], [], [], by simp [h1],
        by simp, by simp [h3], by simp [h4], by simp, by simp, by simp [h2, total]⟩
    have hnext : range ≤ hi - 1 + 1 := by omega
    have hmono : ∀ {a b : Work}, Progress (fun n => hi - 1 + 1 - range ≤ n ∧ n ≤ hi - 1) a b → 0 < range →
        Progress (fun n => hi + 1 - (range + 1) ≤ n ∧ n ≤ hi) a b :=
      fun h hpos => h.mono (fun n hn => ⟨by omega, by omega⟩)
    have hcont : ∀ w' : Work, Progress (fun n => hi + 1 - (range + 1) ≤ n ∧ n ≤ hi) w w' →
        Progress (fun n => hi + 1 - (range + 1) ≤ n ∧ n ≤ hi) w (processRange (hi - 1) range w').1 := by
      intro w' hw'
      rcases Nat.eq_zero_or_pos range with h0 | h0
      · subst h0
        rw [processRange]
        exact hw'
      · exact hw'.trans (hmono (ih (hi - 1) w' hnext) h0)
    cases o1 with
    | nil => exact move _ rfl rfl hpo rfl
    | cons p older =>
      dsimp only
      by_cases he : p.seq = hi
      · rw [if_pos he]
        cases ht : p.trap with
        | true =>
          rw [if_pos rfl]
          exact move _ rfl rfl hpo rfl
        | false =>
          rw [if_neg (by decide)]
          apply hcont
          rw [leaveTransit_eq ht]
          have hperm : (pend w).Perm ((older.reverse ++ o2) ++ [p]) := by
            unfold pend
            rw [← hpo, List.reverse_cons, List.append_assoc, List.append_assoc]
            exact List.Perm.append_left _ List.perm_append_comm
          refine ⟨?_, List.Sublist.refl _, [p], [], [p], rfl, by simp, hperm, by simp [lst], ?_, by simp, ?_⟩
          · unfold pend
            rw [← hpo, List.reverse_cons, List.append_assoc]
            exact List.Sublist.append (List.Sublist.refl _) (List.sublist_append_right _ _)
          · intro q hq
            rw [List.mem_singleton] at hq
            subst hq
            exact ⟨⟨by omega, by omega⟩, ht⟩
          · simp [total]
      · rw [if_neg he]
        apply hcont
        exact move _ rfl rfl hpo rfl

theorem checkSpurious_spec (start stop : Nat) (rest passed acked : List Pkt) :
    ∃ rl, (checkSpurious start stop rest passed acked).2.2 = acked ++ rl ∧
      ((checkSpurious start stop rest passed acked).1.reverse ++ (checkSpurious start stop rest passed acked).2.1).Sublist
        (passed.reverse ++ rest) ∧
      (passed.reverse ++ rest).Perm
        (((checkSpurious start stop rest passed acked).1.reverse ++ (checkSpurious start stop rest passed acked).2.1) ++ rl) ∧
      ∀ p ∈ rl, start ≤ p.seq ∧ p.seq ≤ stop := by
  induction rest generalizing passed acked with
  | nil => exact ⟨[], by simp [checkSpurious], by simp [checkSpurious], by simp [checkSpurious], by simp⟩
  | cons p rest ih =>
    rw [checkSpurious]
    by_cases h1 : p.seq ≥ start
    · rw [if_pos h1]
      by_cases h2 : p.seq ≤ stop
      · rw [if_pos h2]
        obtain ⟨rl, e1, e2, e3, e4⟩ := ih passed (acked ++ [p])
        refine ⟨p :: rl, by rw [e1]; simp, ?_, ?_, ?_⟩
        · exact e2.trans (List.Sublist.append (List.Sublist.refl _) (List.sublist_cons_self _ _))
        · have := e3.cons p
          refine List.Perm.trans ?_ (this.trans ?_)
          · exact List.perm_middle
          · exact List.perm_middle.symm
        · intro q hq
          rcases List.mem_cons.1 hq with rfl | hq
          · exact ⟨h1, h2⟩
          · exact e4 q hq
      · rw [if_neg h2]
        obtain ⟨rl, e1, e2, e3, e4⟩ := ih (p :: passed) acked
        rw [List.reverse_cons, List.append_assoc] at e2 e3
        exact ⟨rl, e1, e2, e3, e4⟩
    · rw [if_neg h1]
      exact ⟨[], by simp, List.Sublist.refl _, by simp, by simp⟩

/-- The lost packets found in one range. -/
theorem spurious_progress (start stop : Nat) (w : Work) :
    Progress (fun n => start ≤ n ∧ n ≤ stop) w
      { w with
        lostPassed := (checkSpurious start stop w.lostRest w.lostPassed w.acked).1
        lostRest := (checkSpurious start stop w.lostRest w.lostPassed w.acked).2.1
        acked := (checkSpurious start stop w.lostRest w.lostPassed w.acked).2.2 } := by
  obtain ⟨rl, e1, e2, e3, e4⟩ := checkSpurious_spec start stop w.lostRest w.lostPassed w.acked
  exact ⟨List.Sublist.refl _, e2, [], rl, rl, e1, by simp, by simp [pend], e3, by simp, e4, by simp [total]⟩

/-! ### One range and all ranges -/

/-- One range applied: `none` if a skipped number is acknowledged. -/
def applyRange (w : Work) (r : Nat × Nat) : Work × Bool :=
  match processRange r.2 (r.2 + 1 - r.1) w with
  | (w, false) => (w, false)
  | (w, true) =>
    ({ w with
        lostPassed := (checkSpurious r.1 r.2 w.lostRest w.lostPassed w.acked).1
        lostRest := (checkSpurious r.1 r.2 w.lostRest w.lostPassed w.acked).2.1
        acked := (checkSpurious r.1 r.2 w.lostRest w.lostPassed w.acked).2.2 }, true)

/-- Ranges applied one after the other until a skipped number is found. -/
def applyRanges : Work → List (Nat × Nat) → Work × Bool
  | w, [] => (w, true)
  | w, r :: rs =>
    match applyRange w r with
    | (w, false) => (w, false)
    | (w, true) => applyRanges w rs

theorem applyRange_progress (w : Work) (r : Nat × Nat) (hr : r.1 ≤ r.2) :
    Progress (fun n => r.1 ≤ n ∧ n ≤ r.2) w (applyRange w r).1 := by
  unfold applyRange
  have h := processRange_progress r.2 (r.2 + 1 - r.1) w (by omega)
  have e : r.2 + 1 - (r.2 + 1 - r.1) = r.1 := by omega
  rw [e] at h
  generalize processRange r.2 (r.2 + 1 - r.1) w = x at h ⊢
  obtain ⟨w', b⟩ := x
  cases b with
  | false => exact h
  | true => exact h.trans (spurious_progress r.1 r.2 w')

theorem applyRanges_progress (w : Work) (rs : List (Nat × Nat)) (hr : ∀ r ∈ rs, r.1 ≤ r.2) :
    Progress (InRanges rs) w (applyRanges w rs).1 := by
  induction rs generalizing w with
  | nil => exact Progress.refl _ _
  | cons r rs ih =>
    rw [applyRanges]
    have h := (applyRange_progress w r (hr r (by simp))).mono
      (Q := InRanges (r :: rs)) (fun n hn => ⟨r, by simp, hn⟩)
    generalize applyRange w r = x at h ⊢
    obtain ⟨w', b⟩ := x
    cases b with
    | false => exact h
    | true =>
      refine h.trans ((ih w' (fun x hx => hr x (by simp [hx]))).mono ?_)
      rintro n ⟨x, hx, h'⟩
      exact ⟨x, by simp [hx], h'⟩

theorem AckRanges.ordered {largest : Nat} {body : Bytes} {rs : List (Nat × Nat)} (h : AckRanges largest body rs) :
    (∀ r ∈ rs, r.1 ≤ r.2 ∧ r.2 ≤ largest) ∧ rs.Pairwise (fun a b => b.2 + 1 < a.1) ∧
    ∃ lo t, rs = (lo, largest) :: t := by
  induction h with
  | @last largest len l hv hle =>
    refine ⟨?_, by simp, _, _, rfl⟩
    intro r hr
    rw [List.mem_singleton] at hr
    subst hr
    exact ⟨by dsimp only; omega, Nat.le_refl _⟩
  | @more largest len gap next l g body ranges hl hle hg hn _ ih =>
    obtain ⟨h1, h2, _⟩ := ih
    refine ⟨?_, ?_, _, _, rfl⟩
    · intro r hr
      rcases List.mem_cons.1 hr with rfl | hr
      · exact ⟨by dsimp only; omega, Nat.le_refl _⟩
      · have := h1 r hr; omega
    · rw [List.pairwise_cons]
      refine ⟨?_, h2⟩
      intro r hr
      have := h1 r hr
      dsimp only
      omega

theorem varint_decode {p : Bytes} {n : Nat} (h : Varint p n) (rest : Bytes) :
    framesVarintDecode (p ++ rest) = some (n, rest) := by
  obtain ⟨k, hk⟩ := h
  exact framesVarintDecode_of_isVarint hk rest

theorem varint_of_decode {bs rest : Bytes} {n : Nat} (h : framesVarintDecode bs = some (n, rest)) :
    ∃ p, bs = p ++ rest ∧ Varint p n := by
  obtain ⟨k, p, h1, h2⟩ := isVarint_of_decode h
  exact ⟨p, h1, k, h2⟩

theorem ackRange_eq {largest len : Nat} {l rest : Bytes} (hv : Varint l len) (hle : len ≤ largest) (w : Work) :
    ackRange largest w (l ++ rest) =
      ((applyRange w (largest - len, largest)).1,
        if (applyRange w (largest - len, largest)).2 then .ok (len + 1, rest) else .error .protocolViolation) := by
  unfold ackRange applyRange
  rw [varint_decode hv]
  dsimp only
  rw [if_neg (by omega)]
  have e : largest + 1 - (largest - len) = len + 1 := by omega
  have e2 : largest + 1 - (len + 1) = largest - len := by omega
  rw [e, e2]
  generalize processRange largest (len + 1) w = x
  obtain ⟨w', b⟩ := x
  cases b <;> rfl

/-- The loop applies the ranges of a well formed body. -/
theorem ackLoop_of_ranges {largest : Nat} {body : Bytes} {rs : List (Nat × Nat)} (h : AckRanges largest body rs)
    (w : Work) (rest : Bytes) :
    ackLoop (rs.length - 1) largest w (body ++ rest) =
      ((applyRanges w rs).1, if (applyRanges w rs).2 then .ok rest else .error .protocolViolation) := by
  induction h generalizing w with
  | @last largest len l hv hle =>
    rw [List.length_singleton, ackLoop, ackRange_eq hv hle, applyRanges]
    generalize applyRange w (largest - len, largest) = x
    obtain ⟨w', b⟩ := x
    cases b <;> rfl
  | @more largest len gap next l g body ranges hl hle hg hn hsub ih =>
    have hpos : 0 < ranges.length := by cases hsub <;> simp
    obtain ⟨n, hn'⟩ : ∃ n, ranges.length = n + 1 := ⟨ranges.length - 1, by omega⟩
    rw [List.length_cons, hn', Nat.add_sub_cancel, ackLoop, List.append_assoc, ackRange_eq hl hle, applyRanges]
    generalize applyRange w (largest - len, largest) = x
    obtain ⟨w', b⟩ := x
    cases b with
    | false => rfl
    | true =>
      dsimp only
      rw [if_pos rfl]
      dsimp only
      rw [List.append_assoc, varint_decode hg]
      dsimp only
      rw [if_neg (by omega)]
      have e : largest - (gap + 1 + (len + 1)) = next := by omega
      have := ih w'
      rw [hn', Nat.add_sub_cancel] at this
      rw [e, this]

/-- What the loop accepts. -/
theorem ranges_of_ackLoop {n largest : Nat} {w w' : Work} {bs rest : Bytes}
    (h : ackLoop n largest w bs = (w', .ok rest)) :
    ∃ body rs, bs = body ++ rest ∧ AckRanges largest body rs ∧ rs.length = n + 1 := by
  have first : ∀ {largest : Nat} {w w' : Work} {bs : Bytes} {x : Nat × Bytes},
      ackRange largest w bs = (w', .ok x) →
      ∃ l len, bs = l ++ x.2 ∧ Varint l len ∧ len ≤ largest ∧ x.1 = len + 1 := by
    intro largest w w' bs x h
    unfold ackRange at h
    cases hd : framesVarintDecode bs with
    | none => rw [hd] at h; cases h
    | some y =>
      rw [hd] at h
      obtain ⟨len, r⟩ := y
      dsimp only at h
      by_cases hle : largest + 1 < len + 1
      · rw [if_pos hle] at h; cases h
      · rw [if_neg hle] at h
        obtain ⟨p, hp, hv⟩ := varint_of_decode hd
        generalize processRange largest (len + 1) w = z at h
        obtain ⟨z1, z2⟩ := z
        cases z2 with
        | false => cases h
        | true =>
          dsimp only at h
          have := congrArg Prod.snd h
          dsimp only at this
          injection this with this
          subst this
          exact ⟨p, len, hp, hv, by omega, rfl⟩
  induction n generalizing largest w w' bs with
  | zero =>
    rw [ackLoop] at h
    cases hr : ackRange largest w bs with
    | mk w1 res =>
      rw [hr] at h
      cases res with
      | error e => cases h
      | ok x =>
        obtain ⟨range, bs1⟩ := x
        dsimp only at h
        have h2 := congrArg Prod.snd h
        dsimp only at h2
        injection h2 with h2
        subst h2
        obtain ⟨l, len, e1, e2, e3, _⟩ := first hr
        exact ⟨l, _, e1, .last e2 e3, rfl⟩
  | succ n ih =>
    rw [ackLoop] at h
    cases hr : ackRange largest w bs with
    | mk w1 res =>
      rw [hr] at h
      cases res with
      | error e => cases h
      | ok x =>
        obtain ⟨range, bs1⟩ := x
        dsimp only at h
        obtain ⟨l, len, e1, e2, e3, e4⟩ := first hr
        dsimp only at e1 e4
        cases hd : framesVarintDecode bs1 with
        | none => rw [hd] at h; cases h
        | some y =>
          rw [hd] at h
          obtain ⟨gap, bs2⟩ := y
          dsimp only at h
          by_cases hlt : largest < gap + 1 + range
          · rw [if_pos hlt] at h; cases h
          · rw [if_neg hlt] at h
            obtain ⟨p, hp, hv⟩ := varint_of_decode hd
            obtain ⟨body, rs, f1, f2, f3⟩ := ih h
            refine ⟨l ++ (p ++ body), _, ?_, .more e2 e3 hv (next := largest - (gap + 1 + range)) (by omega) f2, ?_⟩
            · rw [e1, hp, f1]; simp
            · rw [List.length_cons, f3]

end Picoquic.Ack
