import Verif.Proof.StreamCredit
/-!
# Proofs about credit for finished streams
-/

namespace Picoquic.StreamCredit
open Picoquic Picoquic.StreamInput Picoquic.Spec

/-- The counters count the flags. -/
theorem run_count (p : Params) (max0 : Nat) (cl : Bool) (ops : List Op) (u : Bool) :
    ∃ L : List Nat, L.Nodup ∧ (∀ id, id ∈ L ↔ (run p (initial max0 cl) ops).updated id = true ∧ p.receiveOnly id = u) ∧
      (run p (initial max0 cl) ops).computed u = (initial max0 cl).computed u + 4 * L.length := by
  induction ops using snoc_induction with
  | h0 => exact ⟨[], List.nodup_nil, fun id => ⟨fun h => (by cases h), fun h => (by cases h.1)⟩, rfl⟩
  | h1 l op ih =>
    rw [run_snoc]
    obtain ⟨L, h1, h2, h3⟩ := ih
    generalize run p (initial max0 cl) l = st at *
    by_cases hc : (!st.updated op.id && (creditPoints p st.rx op).any (isComplete p op.id) &&
        decide (u = p.receiveOnly op.id)) = true
    · refine ⟨op.id :: L, ?_, ?_, ?_⟩
      · simp only [Bool.and_eq_true, Bool.not_eq_true'] at hc
        refine List.nodup_cons.2 ⟨fun h => ?_, h1⟩
        rw [((h2 _).1 h).1] at hc
        cases hc.1.1
      · intro i
        simp only [Bool.and_eq_true, Bool.not_eq_true', decide_eq_true_eq] at hc
        rw [updated_step, List.mem_cons, h2 i]
        by_cases hi : i = op.id
        · rw [hi]; simp [hc.1.2, hc.2]
        · simp [hi]
      · rw [computed_step, if_pos hc, h3, List.length_cons]; omega
    · refine ⟨L, h1, ?_, ?_⟩
      · intro i
        rw [updated_step, h2 i]
        by_cases hi : i = op.id
        · rw [hi]
          simp only [Bool.and_eq_true, Bool.not_eq_true', decide_eq_true_eq] at hc
          rw [decide_eq_true rfl, Bool.true_and, Bool.or_eq_true]
          refine and_congr_left fun hu => ⟨.inl, ?_⟩
          rintro (h | h)
          · exact h
          · cases hx : st.updated op.id with
            | true => rfl
            | false => exact absurd ⟨⟨hx, h⟩, hu.symm⟩ hc
        · simp [hi]
      · rw [computed_step, if_neg hc, h3]; omega

theorem agree_true (o : Nat) (b : Bytes) : Agree (fun _ _ => True) o b := fun _ _ _ => trivial

/-- Everything before `F` was received: it was delivered or dropped. -/
theorem consumed_of {A : Nat → UInt8 → Prop} {R : Nat → Prop} {s : Stream} (h : Inv A R s) {F : Nat}
    (hR : ∀ i, i < F → R i) : F ≤ s.consumed := by
  by_cases hlt : s.consumed < F
  · rcases (h.cov s.consumed).2 (hR _ hlt) with h' | ⟨c, hc, h1, _⟩
    · omega
    · have := h.ahead c hc; omega
  · omega

theorem input_consumed {m d : Nat} {s : Stream} {o : Nat} {f : Bool} {b : Bytes} {R : Nat → Prop}
    (hR : Inv (fun _ _ => True) R s) (hlim : s.finOffset ≤ s.maxdataLocal)
    (he : (streamNetworkInput m d s o f b).error = none) :
    s.consumed ≤ (streamNetworkInput m d s o f b).stream.consumed ∧
    (streamNetworkInput m d s o f b).stream.consumed ≤ max s.finOffset (o + b.length) := by
  have hc := streamNetworkInput_cases m d s o f b hlim
  simp only at hc
  rcases hc with ⟨e1, _⟩ | ⟨e1, _⟩ | ⟨_, _, e3, _, e5, notify, hnot, e6, e7⟩
  · rw [he] at e1; cases e1
  · rw [he] at e1; cases e1
  · have hIa := hR.accepted f (o + b.length) (fun h => (e5 h).1)
    obtain ⟨m1, _, _⟩ := deliver_spec _ R (accepted s f (o + b.length)) o b notify hIa (agree_true o b)
      (by simp only [accepted]; omega)
    obtain ⟨cl, de, hfin, _⟩ := finish_fields (deliver (accepted s f (o + b.length)) o b notify).1
    rw [e6, hfin]
    exact ⟨m1.mono, m1.le⟩

/-- What is known of a stream that was received to the end. -/
structure Done (F : Nat) (st : State) (s : Stream) (id : Nat) : Prop where
  ended : s.finReceived = true ∨ s.resetReceived = true
  size : s.finOffset = F
  all : s.consumed = F
  upd : s.sendClosed = true → st.updated id = true

theorem sized_mono {F : Nat} {l : List Op} {op : Op} {id : Nat} (h : SizedStream F (l ++ [op]) id) : SizedStream F l id :=
  ⟨fun o f b hm => h.1 o f b (mem_snoc_left hm), fun f hm => h.2 f (mem_snoc_left hm)⟩

theorem hon_of {F : Nat} {p : Params} {max0 : Nat} {cl : Bool} {id : Nat} {ops : List Op} (hs : SizedStream F ops id)
    (hnr : ∀ f, Op.reset id f ∉ ops) (herr : (run p (initial max0 cl) ops).rx.error = none) :
    ∃ ev, Hon (fun _ _ => True) (some F) ops id (sOf p (run p (initial max0 cl) ops).rx id) ev := by
  rw [rx_run] at herr ⊢
  refine ⟨_, run_hon (fun _ _ => True) (some F) p max0 id ops (fun o f b hm => ?_) hnr herr⟩
  obtain ⟨h1, h2⟩ := hs.1 o f b hm
  refine ⟨agree_true o b, fun f' hf' => ?_, fun hf => ?_⟩
  · cases hf'; exact h1
  · rw [h2 hf]

/-- Before any reset: a stream finished on both sides has its credit. -/
theorem run_unreset (F : Nat) (p : Params) (max0 : Nat) (cl : Bool) (id : Nat) (ops : List Op)
    (hs : SizedStream F ops id) (hnr : ∀ f, Op.reset id f ∉ ops)
    (herr : (run p (initial max0 cl) ops).rx.error = none)
    (h1 : (sOf p (run p (initial max0 cl) ops).rx id).finReceived = true)
    (h2 : (sOf p (run p (initial max0 cl) ops).rx id).consumed = (sOf p (run p (initial max0 cl) ops).rx id).finOffset)
    (h3 : (sOf p (run p (initial max0 cl) ops).rx id).sendClosed = true) :
    (run p (initial max0 cl) ops).updated id = true := by
  induction ops using snoc_induction with
  | h0 => cases h1
  | h1 l op ih =>
    obtain ⟨ev', hH'⟩ := hon_of hs hnr herr
    rw [run_snoc] at herr h1 h2 h3 hH' ⊢
    have he : (run p (initial max0 cl) l).rx.error = none := by
      rw [rx_step] at herr; exact step_error _ _ _ herr
    have hs0 := sized_mono hs
    have hnr0 : ∀ f, Op.reset id f ∉ l := fun f h => hnr f (mem_snoc_left h)
    obtain ⟨ev, hH⟩ := hon_of hs0 hnr0 he
    have ih := ih hs0 hnr0 he
    have hI : CInv (run p (initial max0 cl) l).rx := by rw [rx_run]; exact run_cinv p max0 l
    generalize run p (initial max0 cl) l = st at *
    have hlim := sOf_lim (p := p) id hI
    rcases cstep hI herr id with ⟨m, ss, di, hs, hu, _⟩ | ⟨x, y, rfl, hid, hs, hu⟩ |
      ⟨o, f, b, rfl, hd, e1, hs, hu⟩ | ⟨f, rfl, _⟩
    · rw [hu]; rw [hs] at h1 h2 h3; exact ih h1 h2 h3
    · rw [hu]
      have hcomp : isComplete p id (sOf p (step p st (.sendSide id x y)).rx id) = true :=
        (complete_iff _ _ _).2 ⟨by omega, .inl h1, .inr h3⟩
      rw [hcomp, Bool.and_true]
      obtain ⟨cl', de, hd⟩ := delete_fields { sOf p st.rx id with
        sendClosed := (sOf p st.rx id).sendClosed || x, sendAcked := (sOf p st.rx id).sendAcked || y }
      rw [hs, hd] at h1 h2 h3
      simp only [Bool.or_eq_true] at h1 h2 h3
      cases hsc : (sOf p st.rx id).sendClosed with
      | true => rw [ih h1 h2 hsc, Bool.true_or]
      | false =>
        rcases h3 with h3 | h3
        · rw [hsc] at h3; cases h3
        · simp [h3]
    · rw [hu]
      have hcomp : isComplete p id (sOf p (step p st (.frame id o f b)).rx id) = true :=
        (complete_iff _ _ _).2 ⟨by omega, .inl h1, .inr h3⟩
      have hsig := hH'.tight h1 h2
      obtain ⟨f1, f2, f3, f4, f5, f6, f7⟩ := input_flags hlim e1
      rw [← hs] at f1 f2 f3 f4 f5 f6 f7
      have hcl : (sOf p (step p st (.frame id o f b)).rx id).isClosed = true := by
        rw [f6 hsig, h1, h3, hsig]; simp
      rw [hcomp, hsig, hcl]
      cases hc0 : (sOf p st.rx id).isClosed with
      | true =>
        have hsig0 := hH.closed (.inl hc0)
        obtain ⟨g1, g2⟩ := hH.inv.base.sig hsig0
        rw [ih g1 g2 (by rw [← f3]; exact h3), Bool.true_or]
      | false => simp
    · exact absurd (mem_snoc_right _) (hnr f)

/-- The state stays so. -/
theorem done_step {F : Nat} {p : Params} {st : State} {op : Op} {id : Nat} {R : Nat → Prop} (hI : CInv st.rx)
    (hR : Inv (fun _ _ => True) R (sOf p st.rx id)) (hs : SizedStream F [op] id)
    (herr : (step p st op).rx.error = none) (hD : Done F st (sOf p st.rx id) id) :
    Done F (step p st op) (sOf p (step p st op).rx id) id := by
  have hlim := sOf_lim (p := p) id hI
  obtain ⟨d1, d2, d3, d4⟩ := hD
  rcases cstep hI herr id with ⟨m, ss, di, hs', hu, _⟩ | ⟨x, y, rfl, hid, hs', hu⟩ |
    ⟨o, f, b, rfl, hd, e1, hs', hu⟩ | ⟨f, rfl, hd, e1, hs', hu⟩
  · exact ⟨by rw [hs']; exact d1, by rw [hs']; exact d2, by rw [hs']; exact d3, by rw [hs', hu]; exact d4⟩
  · obtain ⟨cl', de, hd⟩ := delete_fields { sOf p st.rx id with
      sendClosed := (sOf p st.rx id).sendClosed || x, sendAcked := (sOf p st.rx id).sendAcked || y }
    have e := hs'.trans hd
    refine ⟨by rw [e]; exact d1, by rw [e]; exact d2, by rw [e]; exact d3, fun h => ?_⟩
    rw [hu]
    have hcomp : isComplete p id (sOf p (step p st (.sendSide id x y)).rx id) = true :=
      (complete_iff _ _ _).2 ⟨by rw [e]; simp only; omega, by rw [e]; exact d1, .inr h⟩
    rw [hcomp, Bool.and_true]
    rw [e] at h
    simp only [Bool.or_eq_true] at h
    cases hsc : (sOf p st.rx id).sendClosed with
    | true => rw [d4 hsc, Bool.true_or]
    | false =>
      rcases h with h | h
      · rw [hsc] at h; cases h
      · simp [h]
  · obtain ⟨f1, f2, f3, f4, f5, _, _⟩ := input_flags hlim e1
    obtain ⟨c1, c2⟩ := input_consumed hR hlim e1
    rw [← hs'] at f1 f2 f3 f4 f5 c1 c2
    have hle := (hs.1 o f b (List.mem_singleton.2 rfl)).1
    refine ⟨?_, by omega, by omega, fun h => ?_⟩
    · rw [f1, f2, Bool.or_eq_true]
      rcases d1 with d1 | d1
      · exact .inl (.inl d1)
      · exact .inr d1
    · rw [hu, d4 (by rw [← f3]; exact h), Bool.true_or]
  · obtain ⟨f1, f2, f3, f4, f5, f6⟩ := reset_flags hlim e1
    rw [← hs'] at f1 f2 f3 f4 f5 f6
    have hF := hs.2 f (List.mem_singleton.2 rfl)
    refine ⟨.inr f2, by omega, by omega, fun h => ?_⟩
    rw [hu, d4 (by rw [← f3]; exact h), Bool.true_or]

/-- A stream reset after all its data. -/
theorem run_reset (F : Nat) (p : Params) (max0 : Nat) (cl : Bool) (id : Nat) (before after : List Op)
    (hs : SizedStream F (before ++ .reset id F :: after) id) (hnr : ∀ f, Op.reset id f ∉ before)
    (hall : ∀ i, i < F → Received before id i)
    (herr : (run p (initial max0 cl) (before ++ .reset id F :: after)).rx.error = none) :
    Done F (run p (initial max0 cl) (before ++ .reset id F :: after))
      (sOf p (run p (initial max0 cl) (before ++ .reset id F :: after)).rx id) id := by
  induction after using snoc_induction with
  | h0 =>
    rw [run_snoc] at herr ⊢
    have he : (run p (initial max0 cl) before).rx.error = none := by
      rw [rx_step] at herr; exact step_error _ _ _ herr
    have hs0 := sized_mono hs
    obtain ⟨ev, hH⟩ := hon_of hs0 hnr he
    have hJ := run_unreset F p max0 cl id before hs0 hnr he
    have hI : CInv (run p (initial max0 cl) before).rx := by rw [rx_run]; exact run_cinv p max0 before
    generalize run p (initial max0 cl) before = st at *
    have hlim := sOf_lim (p := p) id hI
    have h1 := consumed_of hH.inv hall
    have h2 := hH.inv.base.le
    have h3 := hH.finLe F rfl
    rcases cstep hI herr id with ⟨m, ss, di, hs', hu, _, h4, _⟩ | ⟨x, y, h, _⟩ |
      ⟨o, f, b, h, _⟩ | ⟨f, h, hd, e1, hs', hu⟩
    · have hsig := hH.closed (.inr (h4 F rfl))
      obtain ⟨g1, g2⟩ := hH.inv.base.sig hsig
      exact ⟨by rw [hs']; exact .inl g1, by rw [hs']; simp only; omega, by rw [hs']; simp only; omega, by
        rw [hs', hu]; exact hJ g1 g2⟩
    · cases h
    · cases h
    · cases h
      obtain ⟨f1, f2, f3, f4, f5, f6⟩ := reset_flags hlim e1
      rw [← hs'] at f1 f2 f3 f4 f5 f6
      refine ⟨.inr f2, by omega, by omega, fun h => ?_⟩
      have hcomp : isComplete p id (sOf p (step p st (.reset id F)).rx id) = true :=
        (complete_iff _ _ _).2 ⟨by omega, .inr f2, .inr h⟩
      rw [hu, hcomp, hH.noReset]; simp
  | h1 l op ih =>
    have e : before ++ Op.reset id F :: (l ++ [op]) = (before ++ .reset id F :: l) ++ [op] := by simp
    rw [e] at hs herr ⊢
    rw [run_snoc] at herr ⊢
    have he : (run p (initial max0 cl) (before ++ .reset id F :: l)).rx.error = none := by
      rw [rx_step] at herr; exact step_error _ _ _ herr
    have hD := ih (sized_mono hs) he
    have hI : CInv (run p (initial max0 cl) (before ++ .reset id F :: l)).rx := by rw [rx_run]; exact run_cinv p max0 _
    obtain ⟨R, hR⟩ := (run_gen (fun _ _ => True) p max0 id (before ++ .reset id F :: l) (fun o _ b _ => agree_true o b)).inv
    refine done_step (R := R) hI (by rw [rx_run]; exact hR) ⟨?_, ?_⟩ herr hD
    · intro o f b hm; exact hs.1 o f b (List.mem_append_right _ hm)
    · intro f hm; exact hs.2 f (List.mem_append_right _ hm)

/-- A stream finished on both sides has its credit. -/
theorem run_finished (F : Nat) (p : Params) (max0 : Nat) (cl : Bool) (id : Nat) (ops : List Op)
    (hs : SizedStream F ops id) (herr : (run p (initial max0 cl) ops).rx.error = none)
    (hl : LocallyFinished p.receiveOnly ops id) (hf : FullyReceived F ops id ∨ ResetAtEnd F ops id) :
    (run p (initial max0 cl) ops).updated id = true := by
  have hsc := (run_means p max0 cl ops herr id).sent.2 hl
  rcases hf with ⟨hnr, hfin, hall⟩ | ⟨before, after, rfl, hnr, hall⟩
  · obtain ⟨ev, hH⟩ := hon_of hs hnr herr
    have h1 := hH.fin.2 hfin
    have h2 := consumed_of hH.inv hall
    have h3 := hH.inv.base.le
    have h4 := hH.finLe F rfl
    exact run_unreset F p max0 cl id ops hs hnr herr h1 (by omega) hsc
  · exact (run_reset F p max0 cl id before after hs hnr hall herr).upd hsc

/-- A deleted stream that misses data never gets its credit. -/
theorem stuck_step (p : Params) (st : State) (op : Op) (id : Nat) (hop : op.id = id) (hid : id ∈ st.rx.ids)
    (hd : (st.rx.get id).deleted = true) (hc : (st.rx.get id).consumed < (st.rx.get id).finOffset)
    (he : st.rx.error = none) :
    (step p st op).computed = st.computed ∧ id ∈ (step p st op).rx.ids ∧ ((step p st op).rx.get id).deleted = true ∧
    ((step p st op).rx.get id).consumed < ((step p st op).rx.get id).finOffset ∧ (step p st op).rx.error = none := by
  have hs : sOf p st.rx id = st.rx.get id := by unfold sOf; rw [if_pos hid]
  have hl : looked p st.rx id = false := not_looked (by rw [hs]; exact hd)
  have hany : (creditPoints p st.rx op).any (isComplete p op.id) = false := by
    rw [hop]
    cases op with
    | frame j o f b => change j = id at hop; subst hop; simp only [creditPoints]; rw [hl]; rfl
    | reset j f => change j = id at hop; subst hop; simp only [creditPoints]; rw [hl]; rfl
    | sendSide j x y =>
      change j = id at hop; subst hop
      simp only [creditPoints]
      rw [if_pos hid]
      split
      · rw [List.any_cons, List.any_nil, Bool.or_false]
        unfold isComplete
        rw [decide_eq_false (by simp only [deleteIfClosed]; omega)]; rfl
      · rfl
    | _ => rfl
  refine ⟨?_, ?_⟩
  · funext u
    rw [computed_step, hany]; simp
  · rw [rx_step]
    cases op with
    | frame j o f b =>
      change j = id at hop; subst hop
      simp only [StreamInput.step]
      rw [if_neg (by rw [he]; simp)]
      unfold onFrame findOrCreate
      simp only
      rw [if_pos hid]
      simp only
      rw [if_pos hd]
      exact ⟨hid, hd, hc, he⟩
    | reset j f =>
      change j = id at hop; subst hop
      simp only [StreamInput.step]
      rw [if_neg (by rw [he]; simp)]
      unfold onFrame findOrCreate
      simp only
      rw [if_pos hid]
      simp only
      rw [if_pos hd]
      exact ⟨hid, hd, hc, he⟩
    | raiseConn n => exact ⟨hid, hd, hc, he⟩
    | sendSide j x y =>
      change j = id at hop; subst hop
      simp only [StreamInput.step]
      rw [if_pos hid]
      refine ⟨hid, ?_, ?_, he⟩
      · simp [Conn.set, deleteIfClosed, hd]
      · simp only [Conn.set, deleteIfClosed, if_true]; exact hc
    | stopSending j | discard j | raiseStream j n =>
      change j = id at hop; subst hop
      simp only [StreamInput.step]
      split <;> first
        | exact ⟨hid, hd, hc, he⟩
        | exact ⟨hid, by simp [Conn.set, hd], by simp only [Conn.set, if_true]; exact hc, he⟩

theorem stuck (p : Params) (ops : List Op) (st : State) (id : Nat) (hop : ∀ op ∈ ops, op.id = id) (hid : id ∈ st.rx.ids)
    (hd : (st.rx.get id).deleted = true) (hc : (st.rx.get id).consumed < (st.rx.get id).finOffset)
    (he : st.rx.error = none) : (run p st ops).computed = st.computed ∧ (run p st ops).rx.error = none := by
  induction ops generalizing st with
  | nil => exact ⟨rfl, he⟩
  | cons op ops ih =>
    obtain ⟨h1, h2, h3, h4, h5⟩ := stuck_step p st op id (hop op (List.mem_cons_self ..)) hid hd hc he
    obtain ⟨h6, h7⟩ := ih (step p st op) (fun o h => hop o (List.mem_cons_of_mem _ h)) h2 h3 h4 h5
    exact ⟨h6.trans h1, h7⟩

end Picoquic.StreamCredit
