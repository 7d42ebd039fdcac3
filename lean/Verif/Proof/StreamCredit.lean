import Verif.Model.StreamCredit
import Verif.Spec.StreamCredit
import Verif.Proof.StreamOrder
/-!
# Proofs about the credit for streams opened by the peer
-/

namespace Picoquic.StreamCredit
open Picoquic Picoquic.StreamInput Picoquic.Spec

theorem run_snoc (p : Params) (st : State) (ops : List Op) (op : Op) :
    run p st (ops ++ [op]) = step p (run p st ops) op := by
  simp [run, List.foldl_append]

theorem run_append (p : Params) (st : State) (a b : List Op) : run p st (a ++ b) = run p (run p st a) b := by
  simp [run, List.foldl_append]

theorem fold_spec (p : Params) (j : Nat) (pts : List Stream) (st : State) :
    (∀ i, (pts.foldl (updateMaxStreamIdLocal p j) st).updated i =
      (st.updated i || (decide (i = j) && pts.any (isComplete p j)))) ∧
    (∀ u, (pts.foldl (updateMaxStreamIdLocal p j) st).computed u =
      st.computed u + if !st.updated j && pts.any (isComplete p j) && decide (u = p.receiveOnly j) then 4 else 0) := by
  induction pts generalizing st with
  | nil => simp
  | cons a pts ih =>
    simp only [List.foldl_cons]
    obtain ⟨h1, h2⟩ := ih (updateMaxStreamIdLocal p j st a)
    by_cases hc : (!st.updated j && isComplete p j a) = true
    · have he : updateMaxStreamIdLocal p j st a = { st with
          updated := fun i => if i = j then true else st.updated i
          computed := fun u => if u = p.receiveOnly j then st.computed u + 4 else st.computed u } := by
        unfold updateMaxStreamIdLocal; rw [if_pos hc]
      rw [he] at h1 h2 ⊢
      simp only [Bool.and_eq_true, Bool.not_eq_true'] at hc
      refine ⟨fun i => ?_, fun u => ?_⟩
      · rw [h1 i]
        by_cases hi : i = j
        · simp [hi, hc.2]
        · simp [hi]
      · rw [h2 u]
        by_cases hu : u = p.receiveOnly j
        · simp [hu, hc.1, hc.2]
        · simp [hu]
    · have he : updateMaxStreamIdLocal p j st a = st := by
        unfold updateMaxStreamIdLocal; rw [if_neg hc]
      rw [he] at h1 h2 ⊢
      refine ⟨fun i => ?_, fun u => ?_⟩
      · rw [h1 i]
        by_cases hi : i = j
        · subst hi
          cases hu : st.updated i <;> cases ha : isComplete p i a <;> simp [hu, ha] at hc ⊢
        · simp [hi]
      · rw [h2 u]
        have : (!st.updated j && pts.any (isComplete p j)) =
            (!st.updated j && (a :: pts).any (isComplete p j)) := by
          cases hu : st.updated j <;> cases ha : isComplete p j a <;> simp [hu, ha] at hc ⊢
        by_cases hx : (!st.updated j && pts.any (isComplete p j) && decide (u = p.receiveOnly j)) = true
        · rw [if_pos hx, if_pos (by rw [← this]; exact hx)]
        · rw [if_neg hx, if_neg (by rw [← this]; exact hx)]

theorem rx_step (p : Params) (st : State) (op : Op) : (step p st op).rx = (StreamInput.step p st.rx op).1 := rfl

theorem updated_step (p : Params) (st : State) (op : Op) (i : Nat) : (step p st op).updated i =
    (st.updated i || (decide (i = op.id) && (creditPoints p st.rx op).any (isComplete p op.id))) :=
  (fold_spec p op.id _ st).1 i

theorem computed_step (p : Params) (st : State) (op : Op) (u : Bool) : (step p st op).computed u =
    st.computed u + if !st.updated op.id && (creditPoints p st.rx op).any (isComplete p op.id) &&
      decide (u = p.receiveOnly op.id) then 4 else 0 :=
  (fold_spec p op.id _ st).2 u

theorem rx_run (p : Params) (st : State) (ops : List Op) :
    (run p st ops).rx = (StreamInput.run p st.rx ops).1 := by
  induction ops using snoc_induction with
  | h0 => rfl
  | h1 l a ih => rw [run_snoc, StreamInput.run_snoc, rx_step, ih]

/-- The frame was looked at, if it was processed without error. -/
theorem looked_of {p : Params} {c : Conn} {id : Nat} {f : Nat → Nat → Stream → Out} (he : c.error = none)
    (hd : (sOf p c id).deleted = false) (h : (onFrame p c id f).1.error = none) : looked p c id = true := by
  unfold looked
  rw [he, hd]
  cases hf : findOrCreate p c id with
  | none => unfold onFrame at h; rw [hf] at h; cases h
  | some c' => rfl

theorem not_looked {p : Params} {c : Conn} {id : Nat} (hd : (sOf p c id).deleted = true) : looked p c id = false := by
  unfold looked; rw [hd]; simp

/-- What an operation does to stream `id` and to its flag. -/
theorem cstep {p : Params} {st : State} {op : Op} (hI : CInv st.rx) (herr : (step p st op).rx.error = none) (id : Nat) :
    let s := sOf p st.rx id
    let s' := sOf p (step p st op).rx id
    let u := st.updated id
    let u' := (step p st op).updated id
    (∃ m ss di, s' = { s with maxdataLocal := m, stopSending := ss, discarded := di } ∧ u' = u ∧
      (∀ o f b, op = .frame id o f b → s.deleted = true) ∧ (∀ f, op = .reset id f → s.deleted = true) ∧
      (∀ x y, op = .sendSide id x y → id ∉ st.rx.ids)) ∨
    (∃ x y, op = .sendSide id x y ∧ id ∈ st.rx.ids ∧
      s' = deleteIfClosed { s with sendClosed := s.sendClosed || x, sendAcked := s.sendAcked || y } ∧
      u' = (u || (((x && !s.sendClosed) || (!s.isClosed && s'.isClosed)) && isComplete p id s'))) ∨
    (∃ o f b, op = .frame id o f b ∧ s.deleted = false ∧
      (streamNetworkInput st.rx.maxdataLocal st.rx.dataReceived s o f b).error = none ∧
      s' = (streamNetworkInput st.rx.maxdataLocal st.rx.dataReceived s o f b).stream ∧
      u' = (u || ((f && !s.finReceived && isComplete p id { s with finReceived := true }) ||
        (s'.finSignalled && !s.isClosed && s'.isClosed && isComplete p id s')))) ∨
    (∃ f, op = .reset id f ∧ s.deleted = false ∧
      (streamReset st.rx.maxdataLocal st.rx.dataReceived s f).error = none ∧
      s' = (streamReset st.rx.maxdataLocal st.rx.dataReceived s f).stream ∧
      u' = (u || (!s.resetReceived && isComplete p id s'))) := by
  intro s s' u u'
  have hu' : u' = (u || (decide (id = op.id) && (creditPoints p st.rx op).any (isComplete p op.id))) :=
    updated_step p st op id
  have hE := step_eff p st.rx op id hI
  have herr' : (StreamInput.step p st.rx op).1.error = none := herr
  rw [herr'] at hE
  rcases hE with ⟨_, m, ss, di, cl, sc, sa, de, hs, _, _, _, _, h4, _, _, h7⟩ |
    ⟨o, f, b, rfl, hd, he, _, hs, hr⟩ | ⟨f, rfl, hd, he, _, hs, hr⟩
  · by_cases hop : ∃ x y, op = .sendSide id x y
    · obtain ⟨x, y, rfl⟩ := hop
      by_cases hid : id ∈ st.rx.ids
      · have hg : st.rx.get id = s := by
          show st.rx.get id = sOf p st.rx id
          unfold sOf; rw [if_pos hid]
        have hs' : s' = deleteIfClosed { s with sendClosed := s.sendClosed || x, sendAcked := s.sendAcked || y } := by
          show sOf p (StreamInput.step p st.rx _).1 id = _
          simp only [StreamInput.step]
          rw [if_pos hid, sOf_set_eq p st.rx id _ hid, hg]
        refine .inr (.inl ⟨x, y, rfl, hid, hs', ?_⟩)
        rw [hu', show (Op.sendSide id x y).id = id from rfl, decide_eq_true rfl, Bool.true_and]
        congr 1
        simp only [creditPoints]
        rw [if_pos hid, hg, ← hs']
        by_cases hc : ((x && !s.sendClosed) || (!s.isClosed && s'.isClosed)) = true
        · rw [if_pos hc, hc]; simp
        · rw [if_neg hc, Bool.eq_false_iff.2 hc]; simp
      · refine .inl ⟨s.maxdataLocal, s.stopSending, s.discarded, ?_, ?_, (by intro _ _ _ h; cases h), (by intro _ h; cases h),
          fun _ _ _ => hid⟩
        · show sOf p (StreamInput.step p st.rx _).1 id = _
          simp only [StreamInput.step]
          rw [if_neg hid]
        · rw [hu']; simp only [creditPoints]; rw [if_neg hid]; simp
    · obtain ⟨e1, e2, e3⟩ := h7 (fun x y h => hop ⟨x, y, h⟩)
      have h4' := h4 rfl
      -- the flag `sendAcked` changes with `sendSide` only
      have hsa : sOf p (StreamInput.step p st.rx op).1 id = { sOf p st.rx id with maxdataLocal := m, stopSending := ss, discarded := di } := by
        have hsa' : (sOf p (StreamInput.step p st.rx op).1 id).sendAcked = (sOf p st.rx id).sendAcked := by
          cases op with
          | frame j o f b =>
            by_cases hj : j = id
            · subst hj
              simp only [StreamInput.step]
              split
              · rfl
              · rcases onFrame_eff (p := p) (id := j) (j := j)
                  (f := fun m d s => streamNetworkInput m d s o f b) hI with ⟨h, _⟩ | ⟨_, _, h, _⟩ | ⟨_, h, _⟩
                · exact absurd rfl h
                · rw [h]
                · rw [h4'.1 o f b rfl] at h; cases h
            · simp only [StreamInput.step]
              split
              · rfl
              · rcases onFrame_eff (p := p) (id := id) (j := j)
                  (f := fun m d s => streamNetworkInput m d s o f b) hI with ⟨_, h⟩ | ⟨h, _⟩ | ⟨h, _⟩
                · rw [h]
                · exact absurd h.symm hj
                · exact absurd h.symm hj
          | reset j f =>
            by_cases hj : j = id
            · subst hj
              simp only [StreamInput.step]
              split
              · rfl
              · rcases onFrame_eff (p := p) (id := j) (j := j)
                  (f := fun m d s => streamReset m d s f) hI with ⟨h, _⟩ | ⟨_, _, h, _⟩ | ⟨_, h, _⟩
                · exact absurd rfl h
                · rw [h]
                · rw [h4'.2 f rfl] at h; cases h
            · simp only [StreamInput.step]
              split
              · rfl
              · rcases onFrame_eff (p := p) (id := id) (j := j)
                  (f := fun m d s => streamReset m d s f) hI with ⟨_, h⟩ | ⟨h, _⟩ | ⟨h, _⟩
                · rw [h]
                · exact absurd h.symm hj
                · exact absurd h.symm hj
          | sendSide j x y =>
            simp only [StreamInput.step]
            split
            · rw [sOf_set_ne p st.rx id j _ (fun h => hop ⟨x, y, by rw [h]⟩)]
            · rfl
          | raiseConn _ => rfl
          | stopSending j | discard j | raiseStream j _ =>
            simp only [StreamInput.step]
            split
            · rename_i hj
              by_cases h : id = j
              · subst h
                first
                | (rw [sOf_set_eq p st.rx id _ hj]; unfold sOf; rw [if_pos hj])
                | (rw [sOf_set_eq p st.rx id _ hj.1]; unfold sOf; rw [if_pos hj.1])
              · rw [sOf_set_ne p st.rx id j _ h]
            · rfl
        rw [hs] at hsa' ⊢
        simp only at hsa'
        rw [hsa', e1, e2, e3]
      refine .inl ⟨m, ss, di, hsa, ?_, h4'.1, h4'.2, fun x y h => absurd ⟨x, y, h⟩ hop⟩
      rw [hu']
      by_cases hid : id = op.id
      · have : creditPoints p st.rx op = [] := by
          cases op with
          | frame j o f b =>
            have hj : id = j := hid
            subst hj
            simp only [creditPoints]
            rw [not_looked (h4'.1 o f b rfl)]; rfl
          | reset j f =>
            have hj : id = j := hid
            subst hj
            simp only [creditPoints]
            rw [not_looked (h4'.2 f rfl)]; rfl
          | sendSide j x y => exact absurd ⟨x, y, by rw [show id = j from hid]⟩ hop
          | _ => rfl
        rw [this]; simp
      · simp [hid]
  · refine .inr (.inr (.inl ⟨o, f, b, rfl, hd, hr.symm, hs, ?_⟩))
    have hl : looked p st.rx id = true := by
      refine looked_of (f := fun m d s => streamNetworkInput m d s o f b) he hd ?_
      simp only [StreamInput.step, he] at herr'
      exact herr'
    rw [hu', show (Op.frame id o f b).id = id from rfl, decide_eq_true rfl, Bool.true_and]
    congr 1
    simp only [creditPoints]
    rw [if_pos hl]
    have hss : (streamNetworkInput st.rx.maxdataLocal st.rx.dataReceived (sOf p st.rx id) o f b).stream = s' := hs.symm
    rw [hss, ← hr, List.any_append]
    congr 1
    · by_cases hc : (f && !s.finReceived) = true
      · show (List.any (if (f && !s.finReceived) = true then [{ s with finReceived := true }] else []) _) = _
        rw [if_pos hc, hc]; simp
      · show (List.any (if (f && !s.finReceived) = true then [{ s with finReceived := true }] else []) _) = _
        rw [if_neg hc, Bool.eq_false_iff.2 hc]; simp
    · rw [show (none : Option Nat).isNone = true from rfl, Bool.true_and]
      by_cases hc : (s'.finSignalled && !s.isClosed && s'.isClosed) = true
      · rw [if_pos hc, hc]; simp
      · rw [if_neg hc, Bool.eq_false_iff.2 hc]; simp
  · refine .inr (.inr (.inr ⟨f, rfl, hd, hr.symm, hs, ?_⟩))
    have hl : looked p st.rx id = true := by
      refine looked_of (f := fun m d s => streamReset m d s f) he hd ?_
      simp only [StreamInput.step, he] at herr'
      exact herr'
    rw [hu', show (Op.reset id f).id = id from rfl, decide_eq_true rfl, Bool.true_and]
    congr 1
    simp only [creditPoints]
    rw [if_pos hl]
    have hss : (streamReset st.rx.maxdataLocal st.rx.dataReceived (sOf p st.rx id) f).stream = s' := hs.symm
    rw [hss, ← hr]
    rw [show (none : Option Nat).isNone = true from rfl, Bool.true_and]
    by_cases hc : (!s.resetReceived) = true
    · show (List.any (if (!s.resetReceived) = true then [s'] else []) _) = _
      rw [if_pos hc, hc]; simp
    · show (List.any (if (!s.resetReceived) = true then [s'] else []) _) = _
      rw [if_neg hc, Bool.eq_false_iff.2 hc]; simp

/-! ## What the flag means -/

theorem mem_snoc_left {ops : List Op} {x op : Op} (h : x ∈ ops) : x ∈ ops ++ [op] := List.mem_append_left _ h
theorem mem_snoc_right {ops : List Op} (op : Op) : op ∈ ops ++ [op] := List.mem_append_right _ (List.mem_singleton.2 rfl)

theorem openedBy_mono {ops : List Op} {id : Nat} (h : OpenedBy ops id) (op : Op) : OpenedBy (ops ++ [op]) id := by
  rcases h with ⟨o, f, b, h⟩ | ⟨f, h⟩
  · exact .inl ⟨o, f, b, mem_snoc_left h⟩
  · exact .inr ⟨f, mem_snoc_left h⟩

theorem endReceived_mono {ops : List Op} {id : Nat} (h : EndReceived ops id) (op : Op) : EndReceived (ops ++ [op]) id := by
  rcases h with ⟨o, b, h⟩ | ⟨f, h⟩
  · exact .inl ⟨o, b, mem_snoc_left h⟩
  · exact .inr ⟨f, mem_snoc_left h⟩

theorem locallyFinished_mono {r : Nat → Bool} {ops : List Op} {id : Nat} (h : LocallyFinished r ops id) (op : Op) :
    LocallyFinished r (ops ++ [op]) id := by
  rcases h with h | ⟨b, a, y, h, h'⟩
  · exact .inl h
  · exact .inr ⟨b, a ++ [op], y, by rw [h]; simp, h'⟩

theorem delete_fields (s : Stream) : ∃ cl de, deleteIfClosed s = { s with isClosed := cl, deleted := de } := ⟨_, _, rfl⟩

/-- Which fields a STREAM frame without error changes. -/
theorem input_fields {m d : Nat} {s : Stream} {o : Nat} {f : Bool} {b : Bytes} (hlim : s.finOffset ≤ s.maxdataLocal)
    (he : (streamNetworkInput m d s o f b).error = none) :
    ∃ s1, SameButDelivery (accepted s f (o + b.length)) s1 ∧ (streamNetworkInput m d s o f b).stream = finish s1 := by
  have hc := streamNetworkInput_cases m d s o f b hlim
  simp only at hc
  rcases hc with ⟨e1, _⟩ | ⟨e1, _⟩ | ⟨_, _, e3, _, e5, notify, hnot, e6, e7⟩
  · rw [he] at e1; cases e1
  · rw [he] at e1; cases e1
  · exact ⟨_, deliver_same _ _ _ _, e6⟩

/-- The flags of a stream after a STREAM frame without error. -/
theorem input_flags {m d : Nat} {s : Stream} {o : Nat} {f : Bool} {b : Bytes} (hlim : s.finOffset ≤ s.maxdataLocal)
    (he : (streamNetworkInput m d s o f b).error = none) :
    let s' := (streamNetworkInput m d s o f b).stream
    s'.finReceived = (s.finReceived || f) ∧ s'.resetReceived = s.resetReceived ∧ s'.sendClosed = s.sendClosed ∧
    s'.sendAcked = s.sendAcked ∧ s'.finOffset = max s.finOffset (o + b.length) ∧
    (s'.finSignalled = true → s'.isClosed = (s.isClosed || (s'.sendClosed &&
      ((s'.finReceived && s'.finSignalled) || (s'.resetReceived && s'.resetSignalled))))) ∧
    (s'.finSignalled = false → s'.isClosed = s.isClosed) := by
  obtain ⟨s1, h1, h2⟩ := input_fields hlim he
  simp only [h2]
  have h3 : s1.finReceived = (s.finReceived || f) := by rw [h1]; rfl
  have h4 : s1.resetReceived = s.resetReceived := by rw [h1]; rfl
  have h5 : s1.sendClosed = s.sendClosed := by rw [h1]; rfl
  have h6 : s1.sendAcked = s.sendAcked := by rw [h1]; rfl
  have h7 : s1.finOffset = max s.finOffset (o + b.length) := by rw [h1]; rfl
  have h8 : s1.isClosed = s.isClosed := by rw [h1]; rfl
  unfold finish
  split
  · rename_i h
    refine ⟨h3, h4, h5, h6, h7, fun _ => ?_, fun h' => ?_⟩
    · simp only [deleteIfClosed, h8]
    · simp only [deleteIfClosed] at h'; rw [h] at h'; cases h'
  · rename_i h
    refine ⟨h3, h4, h5, h6, h7, fun h' => absurd h' h, fun _ => h8⟩

/-- A RESET_STREAM frame without error. -/
theorem reset_flags {m d : Nat} {s : Stream} {f : Nat} (hlim : s.finOffset ≤ s.maxdataLocal)
    (he : (streamReset m d s f).error = none) :
    let s' := (streamReset m d s f).stream
    s'.finReceived = s.finReceived ∧ s'.resetReceived = true ∧ s'.sendClosed = s.sendClosed ∧
    s'.sendAcked = s.sendAcked ∧ s'.finOffset = max s.finOffset f ∧ s'.consumed = s.consumed := by
  have hc := streamReset_cases m d s f hlim
  simp only at hc
  rcases hc with ⟨e1, _⟩ | ⟨e1, _⟩ | ⟨_, _, _, _, _, _, sig, cl, de, e⟩
  · rw [he] at e1; cases e1
  · rw [he] at e1; cases e1
  · simp only [e]; exact ⟨trivial, trivial, trivial, trivial, trivial, trivial⟩

theorem complete_iff (p : Params) (id : Nat) (s : Stream) : isComplete p id s = true ↔
    s.finOffset ≤ s.consumed ∧ (s.finReceived = true ∨ s.resetReceived = true) ∧
      (p.receiveOnly id = true ∨ s.sendClosed = true) := by
  unfold isComplete
  simp only [Bool.and_eq_true, decide_eq_true_eq, Bool.or_eq_true, and_assoc, ge_iff_le]

theorem onFrame_ids {p : Params} {c : Conn} {j : Nat} {f : Nat → Nat → Stream → Out} (hI : CInv c) (i : Nat) :
    (i ∈ (onFrame p c j f).1.ids → i ∈ c.ids ∨ i = j) ∧ (i ∈ c.ids → i ∈ (onFrame p c j f).1.ids) ∧
    ((onFrame p c j f).1.error = none → j ∈ (onFrame p c j f).1.ids) := by
  unfold onFrame
  cases hf : findOrCreate p c j with
  | none => exact ⟨.inl, fun h => h, fun h => by cases h⟩
  | some c' =>
    obtain ⟨-, h2, -, -, -, h6, -, -⟩ := findOrCreate_spec hf hI
    simp only
    split
    · exact ⟨fun h => (h6 i).1 h, fun h => (h6 i).2 (.inl h), fun _ => h2⟩
    · exact ⟨fun h => (h6 i).1 h, fun h => (h6 i).2 (.inl h), fun _ => h2⟩

theorem step_ids {p : Params} {c : Conn} {op : Op} (hI : CInv c) (i : Nat) :
    (i ∈ (StreamInput.step p c op).1.ids → i ∈ c.ids ∨ (∃ o f b, op = .frame i o f b) ∨ ∃ f, op = .reset i f) ∧
    (i ∈ c.ids → i ∈ (StreamInput.step p c op).1.ids) ∧
    ((StreamInput.step p c op).1.error = none →
      ((∃ o f b, op = .frame i o f b) ∨ ∃ f, op = .reset i f) → i ∈ (StreamInput.step p c op).1.ids) := by
  cases op with
  | frame j o f b =>
    simp only [StreamInput.step]
    split
    · rename_i he
      exact ⟨.inl, fun h => h, fun h => by rw [h] at he; cases he⟩
    · obtain ⟨h1, h2, h3⟩ := onFrame_ids (p := p) (j := j) (f := fun m d s => streamNetworkInput m d s o f b) hI i
      refine ⟨fun h => ?_, h2, fun h h' => ?_⟩
      · rcases h1 h with h | rfl
        · exact .inl h
        · exact .inr (.inl ⟨o, f, b, rfl⟩)
      · rcases h' with ⟨_, _, _, h'⟩ | ⟨_, h'⟩
        · cases h'; exact h3 h
        · cases h'
  | reset j f =>
    simp only [StreamInput.step]
    split
    · rename_i he
      exact ⟨.inl, fun h => h, fun h => by rw [h] at he; cases he⟩
    · obtain ⟨h1, h2, h3⟩ := onFrame_ids (p := p) (j := j) (f := fun m d s => streamReset m d s f) hI i
      refine ⟨fun h => ?_, h2, fun h h' => ?_⟩
      · rcases h1 h with h | rfl
        · exact .inl h
        · exact .inr (.inr ⟨f, rfl⟩)
      · rcases h' with ⟨_, _, _, h'⟩ | ⟨_, h'⟩
        · cases h'
        · cases h'; exact h3 h
  | raiseConn n => exact ⟨.inl, fun h => h, fun _ h => by rcases h with ⟨_, _, _, h⟩ | ⟨_, h⟩ <;> cases h⟩
  | stopSending j | discard j | raiseStream j _ | sendSide j _ _ =>
    simp only [StreamInput.step]
    split <;> exact ⟨.inl, fun h => h, fun _ h => by rcases h with ⟨_, _, _, h⟩ | ⟨_, h⟩ <;> cases h⟩

/-- What the state of a stream says of the history. -/
structure Means (p : Params) (ops : List Op) (st : State) (id : Nat) : Prop where
  ids : id ∈ st.rx.ids ↔ OpenedBy ops id
  fin : (sOf p st.rx id).finReceived = true → FinReceived ops id
  reset : (sOf p st.rx id).resetReceived = true → ∃ f, Op.reset id f ∈ ops
  sent : (sOf p st.rx id).sendClosed = true ↔ LocallyFinished p.receiveOnly ops id
  upd : st.updated id = true → EndReceived ops id ∧ LocallyFinished p.receiveOnly ops id ∧ id ∈ st.rx.ids

theorem locallyFinished_snoc {r : Nat → Bool} {ops : List Op} {op : Op} {id : Nat} :
    LocallyFinished r (ops ++ [op]) id ↔ LocallyFinished r ops id ∨ ∃ y, op = .sendSide id true y ∧ OpenedBy ops id := by
  constructor
  · rintro (h | ⟨b, a, y, h, h'⟩)
    · exact .inl (.inl h)
    · rcases List.eq_nil_or_concat a with rfl | ⟨a', x, rfl⟩
      · have := List.append_inj' h rfl
        rw [this.1]
        exact .inr ⟨y, (List.singleton_inj.1 this.2), h'⟩
      · rw [List.concat_eq_append, ← List.cons_append, ← List.append_assoc] at h
        have := List.append_inj' h rfl
        exact .inl (.inr ⟨b, a', y, this.1, h'⟩)
  · rintro (h | ⟨y, rfl, h⟩)
    · exact locallyFinished_mono h op
    · exact .inr ⟨ops, [], y, rfl, h⟩

theorem run_means (p : Params) (max0 : Nat) (cl : Bool) (ops : List Op)
    (herr : (run p (initial max0 cl) ops).rx.error = none) (id : Nat) :
    Means p ops (run p (initial max0 cl) ops) id := by
  induction ops using snoc_induction with
  | h0 =>
    have h0 : sOf p (initial max0 cl).rx id = { maxdataLocal := p.initialMax id, sendClosed := p.receiveOnly id } := rfl
    refine ⟨?_, ?_, ?_, ?_, ?_⟩
    · constructor
      · intro h; cases h
      · rintro (⟨_, _, _, h⟩ | ⟨_, h⟩) <;> cases h
    · intro h; change (sOf p (initial max0 cl).rx id).finReceived = true at h; rw [h0] at h; cases h
    · intro h; change (sOf p (initial max0 cl).rx id).resetReceived = true at h; rw [h0] at h; cases h
    · change (sOf p (initial max0 cl).rx id).sendClosed = true ↔ _
      rw [h0]
      constructor
      · exact .inl
      · rintro (h | ⟨b, a, y, h, _⟩)
        · exact h
        · cases b <;> cases h
    · intro h; cases h
  | h1 l op ih =>
    rw [run_snoc] at herr ⊢
    have he : (run p (initial max0 cl) l).rx.error = none := by
      rw [rx_step] at herr; exact step_error _ _ _ herr
    have hM := ih he
    have hI : CInv (run p (initial max0 cl) l).rx := by
      rw [rx_run]; exact run_cinv p max0 l
    generalize run p (initial max0 cl) l = st at *
    have hlim := sOf_lim (p := p) id hI
    obtain ⟨i1, i2, i3⟩ := step_ids (p := p) (op := op) hI id
    have hids : id ∈ (step p st op).rx.ids ↔ OpenedBy (l ++ [op]) id := by
      rw [rx_step]
      constructor
      · intro h
        rcases i1 h with h | ⟨o, f, b, rfl⟩ | ⟨f, rfl⟩
        · exact openedBy_mono (hM.ids.1 h) op
        · exact .inl ⟨o, f, b, mem_snoc_right _⟩
        · exact .inr ⟨f, mem_snoc_right _⟩
      · intro h
        by_cases hop : (∃ o f b, op = .frame id o f b) ∨ ∃ f, op = .reset id f
        · exact i3 herr hop
        · refine i2 (hM.ids.2 ?_)
          rcases h with ⟨o, f, b, h⟩ | ⟨f, h⟩
          · rcases List.mem_append.1 h with h | h
            · exact .inl ⟨o, f, b, h⟩
            · exact absurd (.inl ⟨o, f, b, (List.mem_singleton.1 h).symm⟩) hop
          · rcases List.mem_append.1 h with h | h
            · exact .inr ⟨f, h⟩
            · exact absurd (.inr ⟨f, (List.mem_singleton.1 h).symm⟩) hop
    have hkeep : id ∈ st.rx.ids → id ∈ (step p st op).rx.ids := fun h => by rw [rx_step]; exact i2 h
    have hfinM := fun h => (show FinReceived l id → FinReceived (l ++ [op]) id from
      fun ⟨o, b, h⟩ => ⟨o, b, mem_snoc_left h⟩) (hM.fin h)
    have hresM := fun h => (show (∃ f, Op.reset id f ∈ l) → (∃ f, Op.reset id f ∈ l ++ [op]) from
      fun ⟨f, h⟩ => ⟨f, mem_snoc_left h⟩) (hM.reset h)
    have hupdM : st.updated id = true → EndReceived (l ++ [op]) id ∧ LocallyFinished p.receiveOnly (l ++ [op]) id ∧
        id ∈ (step p st op).rx.ids := fun h =>
      ⟨endReceived_mono (hM.upd h).1 op, locallyFinished_mono (hM.upd h).2.1 op, hkeep (hM.upd h).2.2⟩
    rcases cstep hI herr id with ⟨m, ss, di, hs, hu, h3, h4, h5⟩ | ⟨x, y, rfl, hid, hs, hu⟩ |
      ⟨o, f, b, rfl, hd, h1, hs, hu⟩ | ⟨f, rfl, hd, h1, hs, hu⟩
    · have hsent : ((sOf p st.rx id).sendClosed = true ↔ LocallyFinished p.receiveOnly (l ++ [op]) id) := by
        rw [locallyFinished_snoc, ← hM.sent]
        constructor
        · exact .inl
        · rintro (h | ⟨y, rfl, h⟩)
          · exact h
          · exact absurd (hM.ids.2 h) (h5 true y rfl)
      refine ⟨hids, ?_, ?_, ?_, ?_⟩
      · rw [hs]; exact hfinM
      · rw [hs]; exact hresM
      · rw [hs]; exact hsent
      · rw [hu]; exact hupdM
    · obtain ⟨cl', de, hd⟩ := delete_fields { sOf p st.rx id with
        sendClosed := (sOf p st.rx id).sendClosed || x, sendAcked := (sOf p st.rx id).sendAcked || y }
      have hsent : (((sOf p st.rx id).sendClosed || x) = true ↔ LocallyFinished p.receiveOnly (l ++ [.sendSide id x y]) id) := by
        rw [locallyFinished_snoc, ← hM.sent, Bool.or_eq_true]
        constructor
        · rintro (h | h)
          · exact .inl h
          · exact .inr ⟨y, by rw [h], hM.ids.1 hid⟩
        · rintro (h | ⟨y, h, _⟩)
          · exact .inl h
          · cases h; exact .inr rfl
      refine ⟨hids, ?_, ?_, ?_, ?_⟩
      · rw [hs, hd]; exact hfinM
      · rw [hs, hd]; exact hresM
      · rw [hs, hd]; exact hsent
      · intro h
        rw [hu, Bool.or_eq_true, Bool.and_eq_true] at h
        rcases h with h | ⟨_, h⟩
        · exact hupdM h
        · rw [complete_iff, hs, hd] at h
          obtain ⟨_, h6, h7⟩ := h
          refine ⟨?_, ?_, hkeep hid⟩
          · rcases h6 with h6 | h6
            · exact .inl (hfinM h6)
            · exact .inr (hresM h6)
          · rcases h7 with h7 | h7
            · exact .inl h7
            · exact hsent.1 h7
    · obtain ⟨f1, f2, f3, f4, f5, f6, f7⟩ := input_flags hlim h1
      have hfin' : ((sOf p st.rx id).finReceived || f) = true → FinReceived (l ++ [.frame id o f b]) id := by
        rw [Bool.or_eq_true]
        rintro (h | h)
        · exact hfinM h
        · subst h; exact ⟨o, b, mem_snoc_right _⟩
      have hsent : ((sOf p st.rx id).sendClosed = true ↔ LocallyFinished p.receiveOnly (l ++ [.frame id o f b]) id) := by
        rw [locallyFinished_snoc, ← hM.sent]
        constructor
        · exact .inl
        · rintro (h | ⟨y, h, _⟩)
          · exact h
          · cases h
      have hid : id ∈ (step p st (.frame id o f b)).rx.ids := hids.2 (.inl ⟨o, f, b, mem_snoc_right _⟩)
      refine ⟨hids, ?_, ?_, ?_, ?_⟩
      · rw [hs, f1]; exact hfin'
      · rw [hs, f2]; exact hresM
      · rw [hs, f3]; exact hsent
      · intro h
        simp only [hu, Bool.or_eq_true, Bool.and_eq_true] at h
        rcases h with h | ⟨h, h'⟩ | ⟨_, h⟩
        · exact hupdM h
        · rw [complete_iff] at h'
          refine ⟨.inl (hfin' (by rw [h.1, Bool.or_true])), ?_, hid⟩
          rcases h'.2.2 with h7 | h7
          · exact .inl h7
          · exact hsent.1 h7
        · rw [complete_iff, hs, f1, f2, f3] at h
          obtain ⟨_, h6, h7⟩ := h
          refine ⟨?_, ?_, hid⟩
          · rcases h6 with h6 | h6
            · exact .inl (hfin' h6)
            · exact .inr (hresM h6)
          · rcases h7 with h7 | h7
            · exact .inl h7
            · exact hsent.1 h7
    · obtain ⟨f1, f2, f3, f4, f5, f6⟩ := reset_flags hlim h1
      have hres' : ∃ f', Op.reset id f' ∈ l ++ [.reset id f] := ⟨f, mem_snoc_right _⟩
      have hsent : ((sOf p st.rx id).sendClosed = true ↔ LocallyFinished p.receiveOnly (l ++ [.reset id f]) id) := by
        rw [locallyFinished_snoc, ← hM.sent]
        constructor
        · exact .inl
        · rintro (h | ⟨y, h, _⟩)
          · exact h
          · cases h
      have hid : id ∈ (step p st (.reset id f)).rx.ids := hids.2 (.inr hres')
      refine ⟨hids, ?_, ?_, ?_, ?_⟩
      · rw [hs, f1]; exact hfinM
      · intro _; exact hres'
      · rw [hs, f3]; exact hsent
      · intro h
        rw [hu, Bool.or_eq_true, Bool.and_eq_true] at h
        rcases h with h | ⟨_, h⟩
        · exact hupdM h
        · rw [complete_iff, hs, f3] at h
          refine ⟨.inr hres', ?_, hid⟩
          rcases h.2.2 with h7 | h7
          · exact .inl h7
          · exact hsent.1 h7

end Picoquic.StreamCredit
