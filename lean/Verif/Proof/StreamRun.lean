import Verif.Proof.StreamDeliver
/-!
# Proofs about sequences of stream frames
-/

namespace Picoquic.StreamInput
open Picoquic Picoquic.Spec

theorem run_append (p : Params) (c : Conn) (a b : List Op) :
    run p c (a ++ b) = ((run p (run p c a).1 b).1, (run p c a).2 ++ (run p (run p c a).1 b).2) := by
  induction a generalizing c with
  | nil => simp [run]
  | cons op ops ih => simp only [List.cons_append, run, ih, List.append_assoc]

theorem run_snoc (p : Params) (c : Conn) (a : List Op) (op : Op) :
    run p c (a ++ [op]) = ((step p (run p c a).1 op).1,
      (run p c a).2 ++ (step p (run p c a).1 op).2.map (fun e => (op.id, e))) := by
  rw [run_append]; simp [run]

theorem eventsOn_append (id : Nat) (a b : List (Nat × Event)) :
    eventsOn id (a ++ b) = eventsOn id a ++ eventsOn id b := by simp [eventsOn]

theorem eventsOn_map (id j : Nat) (es : List Event) :
    eventsOn id (es.map (fun e => (j, e))) = if j = id then es else [] := by
  unfold eventsOn
  by_cases h : j = id
  · induction es with
    | nil => simp
    | cons e es ih => simp only [List.map_cons, List.filter_cons, h, decide_true, if_true] at ih ⊢
                      rw [ih]
  · induction es with
    | nil => simp
    | cons e es ih => simp only [List.map_cons, List.filter_cons, h, decide_false, if_false] at ih ⊢
                      simpa using ih

/-- Induction on a sequence from its end. -/
theorem snoc_induction {α : Type} {P : List α → Prop} (h0 : P [])
    (h1 : ∀ l a, P l → P (l ++ [a])) (l : List α) : P l := by
  rw [← List.reverse_reverse l]
  induction l.reverse with
  | nil => exact h0
  | cons a l ih => rw [List.reverse_cons]; exact h1 _ _ ih

/-! ## The two frames -/

/-- The stream once a frame or a reset is accepted, before delivery. -/
def accepted (s : Stream) (fin : Bool) (newFin : Nat) : Stream :=
  { s with finReceived := s.finReceived || fin, finOffset := max s.finOffset newFin }

theorem flowControlCheck_spec (m d : Nat) (s : Stream) (newFin : Nat) (hlim : s.finOffset ≤ s.maxdataLocal) :
    (newFin ≤ s.maxdataLocal ∧ (newFin > s.finOffset → d + (newFin - s.finOffset) ≤ m) ∧
      flowControlCheck m d s newFin =
        .ok (d + (newFin - s.finOffset), { s with finOffset := max s.finOffset newFin })) ∨
    ((newFin > s.maxdataLocal ∨ (newFin > s.finOffset ∧ d + (newFin - s.finOffset) > m)) ∧
      flowControlCheck m d s newFin = .error FLOW_CONTROL_ERROR) := by
  unfold flowControlCheck
  by_cases h1 : newFin > s.maxdataLocal
  · rw [if_pos h1]; exact Or.inr ⟨Or.inl h1, rfl⟩
  · rw [if_neg h1]
    by_cases h2 : newFin > s.finOffset
    · rw [if_pos h2]
      simp only
      by_cases h3 : newFin - s.finOffset > m ∨ m - (newFin - s.finOffset) < d
      · rw [if_pos h3]
        exact Or.inr ⟨Or.inr ⟨h2, by omega⟩, rfl⟩
      · rw [if_neg h3]
        refine Or.inl ⟨by omega, fun _ => by omega, ?_⟩
        rw [Nat.max_eq_right (by omega)]
    · rw [if_neg h2]
      refine Or.inl ⟨by omega, fun h => absurd h h2, ?_⟩
      rw [Nat.max_eq_left (by omega), show newFin - s.finOffset = 0 by omega]
      rfl

theorem streamNetworkInput_cases (m d : Nat) (s : Stream) (offset : Nat) (fin : Bool) (bytes : Bytes)
    (hlim : s.finOffset ≤ s.maxdataLocal) :
    let o := streamNetworkInput m d s offset fin bytes
    let newFin := offset + bytes.length
    (o.error = some FINAL_OFFSET_ERROR ∧ o.events = [] ∧ o.stream = s ∧ o.dataReceived = d ∧
      s.finReceived = true ∧ (newFin > s.finOffset ∨ (fin = true ∧ newFin ≠ s.finOffset))) ∨
    (o.error = some FLOW_CONTROL_ERROR ∧ o.events = [] ∧
      o.stream = { s with finReceived := s.finReceived || fin } ∧ o.dataReceived = d ∧
      s.finReceived = false ∧
      (newFin > s.maxdataLocal ∨ (newFin > s.finOffset ∧ d + (newFin - s.finOffset) > m))) ∨
    (o.error = none ∧ o.dataReceived = d + (newFin - s.finOffset) ∧ newFin ≤ s.maxdataLocal ∧
      (newFin > s.finOffset → d + (newFin - s.finOffset) ≤ m) ∧
      (s.finReceived = true → newFin ≤ s.finOffset ∧ (fin = true → newFin = s.finOffset)) ∧
      ∃ notify, (notify = (fin && !s.finReceived)) ∧
      o.stream = finish (deliver (accepted s fin newFin) offset bytes notify).1 ∧
      o.events = (deliver (accepted s fin newFin) offset bytes notify).2) := by
  intro o newFin
  simp only [show o = streamNetworkInput m d s offset fin bytes from rfl]
  clear o
  unfold streamNetworkInput
  simp only [show offset + bytes.length = newFin from rfl]
  cases hf : s.finReceived with
  | true =>
    simp only [if_true]
    by_cases hc : (if fin = true then s.finOffset ≠ newFin else newFin > s.finOffset)
    · rw [if_pos hc]
      refine Or.inl ⟨rfl, rfl, rfl, rfl, trivial, ?_⟩
      cases fin with
      | true => simp only [if_true] at hc; exact Or.inr ⟨rfl, fun h => hc h.symm⟩
      | false => simp only [Bool.false_eq_true, if_false] at hc; exact Or.inl hc
    · rw [if_neg hc]
      have hle : newFin ≤ s.finOffset ∧ (fin = true → newFin = s.finOffset) := by
        cases fin with
        | true =>
          simp only [if_true, ne_eq, Decidable.not_not] at hc
          exact ⟨by omega, fun _ => hc.symm⟩
        | false =>
          simp only [Bool.false_eq_true, if_false] at hc
          exact ⟨by omega, fun h => absurd h (by simp)⟩
      have hacc : accepted s fin newFin = s := by
        unfold accepted
        rw [Nat.max_eq_left hle.1, hf]
        simp only [Bool.true_or]
        rw [← hf]
      right; right
      refine ⟨rfl, ?_, by omega, fun h => by omega, fun _ => hle, false, by simp, ?_, ?_⟩
      · rw [show newFin - s.finOffset = 0 by omega]; rfl
      · rw [hacc]
      · rw [hacc]
  | false =>
    simp only [Bool.false_eq_true, if_false, Bool.false_or, Bool.not_false, Bool.and_true]
    have hs : (if fin = true then { s with finReceived := true } else s) =
        { s with finReceived := fin } := by
      cases fin with
      | true => rfl
      | false => simp only [Bool.false_eq_true, if_false]; rw [← hf]
    rw [hs]
    by_cases hn : newFin > s.finOffset
    · rw [if_pos hn]
      have hf' := flowControlCheck_spec m d { s with finReceived := fin } newFin hlim
      simp only at hf'
      rcases hf' with ⟨h1, h2, h3⟩ | ⟨h1, h2⟩
      · rw [h3]
        right; right
        exact ⟨rfl, rfl, h1, h2, fun h => absurd h (by simp), fin, rfl,
          by simp [accepted, hf], by simp [accepted, hf]⟩
      · rw [h2]
        right; left
        exact ⟨rfl, rfl, rfl, rfl, trivial, h1⟩
    · rw [if_neg hn]
      right; right
      have hacc : accepted s fin newFin = { s with finReceived := fin } := by
        unfold accepted; rw [Nat.max_eq_left (by omega), hf]; rfl
      refine ⟨rfl, ?_, by omega, fun h => absurd h hn, fun h => absurd h (by simp), fin, rfl, ?_, ?_⟩
      · rw [show newFin - s.finOffset = 0 by omega]; rfl
      · rw [hacc]
      · rw [hacc]

theorem streamReset_cases (m d : Nat) (s : Stream) (final : Nat) (hlim : s.finOffset ≤ s.maxdataLocal) :
    let o := streamReset m d s final
    (o.error = some FINAL_OFFSET_ERROR ∧ o.events = [] ∧ o.stream = s ∧ o.dataReceived = d ∧
      (s.finReceived = true ∨ s.resetReceived = true) ∧ final ≠ s.finOffset) ∨
    (o.error = some FLOW_CONTROL_ERROR ∧ o.events = [] ∧ o.stream = s ∧ o.dataReceived = d ∧
      (final > s.maxdataLocal ∨ (final > s.finOffset ∧ d + (final - s.finOffset) > m))) ∨
    (o.error = none ∧ o.dataReceived = d + (final - s.finOffset) ∧ final ≤ s.maxdataLocal ∧
      (final > s.finOffset → d + (final - s.finOffset) ≤ m) ∧
      ((s.finReceived = true ∨ s.resetReceived = true) → final = s.finOffset) ∧
      (o.events = [] ∨ o.events = [Event.reset]) ∧
      ∃ sig closed deleted, o.stream = { s with
        finOffset := max s.finOffset final, resetReceived := true, resetSignalled := sig,
        isClosed := closed, deleted := deleted }) := by
  intro o
  simp only [show o = streamReset m d s final from rfl]
  clear o
  unfold streamReset
  by_cases hc : ((s.finReceived || s.resetReceived) && decide (final ≠ s.finOffset)) = true
  · rw [if_pos hc]
    simp only [Bool.and_eq_true, Bool.or_eq_true, decide_eq_true_eq] at hc
    exact Or.inl ⟨rfl, rfl, rfl, rfl, hc.1, hc.2⟩
  · rw [if_neg hc]
    have hfin : (s.finReceived = true ∨ s.resetReceived = true) → final = s.finOffset := by
      intro h
      simp only [Bool.and_eq_true, Bool.or_eq_true, decide_eq_true_eq, not_and, ne_eq,
        Decidable.not_not] at hc
      exact hc h
    rcases flowControlCheck_spec m d s final hlim with ⟨h1, h2, h3⟩ | ⟨h1, h2⟩
    · rw [h3]
      right; right
      simp only
      by_cases hr : s.resetReceived = true
      · rw [if_pos hr]
        refine ⟨rfl, rfl, h1, h2, hfin, Or.inl rfl, s.resetSignalled, s.isClosed, s.deleted, ?_⟩
        simp only
        rw [← hr]
      · rw [if_neg hr]
        by_cases hs : s.resetSignalled = true
        · rw [if_pos hs]
          exact ⟨rfl, rfl, h1, h2, hfin, Or.inl rfl, s.resetSignalled, s.isClosed, s.deleted, rfl⟩
        · rw [if_neg hs]
          refine ⟨rfl, rfl, h1, h2, hfin, ?_, true, _, _, rfl⟩
          simp only
          split
          · exact Or.inl rfl
          · exact Or.inr rfl
    · rw [h2]
      exact Or.inr (Or.inl ⟨rfl, rfl, rfl, rfl, h1⟩)

/-! ## Flow control on the connection -/

/-- The data charged to each stream. -/
def charged (c : Conn) : Nat := (c.ids.map (fun id => (c.get id).finOffset)).sum

/-- What holds of the connection. -/
structure CInv (c : Conn) : Prop where
  nodup : c.ids.Nodup
  lim : ∀ id ∈ c.ids, (c.get id).finOffset ≤ (c.get id).maxdataLocal
  sum : c.dataReceived = charged c
  le : c.dataReceived ≤ c.maxdataLocal

theorem sum_set_of_not_mem (ids : List Nat) (get : Nat → Stream) (id : Nat) (s : Stream) (h : id ∉ ids) :
    (ids.map (fun j => (if j = id then s else get j).finOffset)).sum =
    (ids.map (fun j => (get j).finOffset)).sum := by
  congr 1
  apply List.map_congr_left
  intro j hj
  rw [if_neg (by intro h'; rw [h'] at hj; exact h hj)]

theorem charged_set (c : Conn) (id : Nat) (s : Stream) (hnd : c.ids.Nodup) (hid : id ∈ c.ids) :
    charged (c.set id s) + (c.get id).finOffset = charged c + s.finOffset := by
  unfold charged Conn.set
  simp only
  generalize c.get = get
  generalize c.ids = ids at *
  induction ids with
  | nil => simp at hid
  | cons j js ih =>
    simp only [List.map_cons, List.sum_cons]
    rw [List.nodup_cons] at hnd
    by_cases hj : j = id
    · subst hj
      rw [if_pos rfl, sum_set_of_not_mem js get j s hnd.1]
      omega
    · have hid' : id ∈ js := by
        simp only [List.mem_cons] at hid
        rcases hid with h | h
        · exact absurd h.symm hj
        · exact h
      rw [if_neg hj]
      have := ih hnd.2 hid'
      omega

theorem findOrCreate_spec {p : Params} {c c' : Conn} {id : Nat} (h : findOrCreate p c id = some c')
    (hI : CInv c) :
    CInv c' ∧ id ∈ c'.ids ∧ c'.maxdataLocal = c.maxdataLocal ∧ c'.dataReceived = c.dataReceived ∧
    c'.error = c.error ∧ (∀ j, j ∈ c'.ids ↔ j ∈ c.ids ∨ j = id) ∧
    (∀ j ∈ c.ids, c'.get j = c.get j) ∧
    (id ∉ c.ids → c'.get id = { maxdataLocal := p.initialMax id, sendClosed := p.receiveOnly id }) := by
  unfold findOrCreate at h
  by_cases hid : id ∈ c.ids
  · rw [if_pos hid] at h
    simp only [Option.some.injEq] at h
    subst h
    refine ⟨hI, hid, rfl, rfl, rfl, ?_, fun _ _ => rfl, fun h => absurd hid h⟩
    intro j
    constructor
    · exact Or.inl
    · rintro (h | rfl)
      · exact h
      · exact hid
  · rw [if_neg hid] at h
    split at h
    · simp only [Option.some.injEq] at h
      subst h
      have hget : ∀ j ∈ c.ids, (if j = id then ({ maxdataLocal := p.initialMax id, sendClosed := p.receiveOnly id } : Stream) else c.get j) = c.get j := by
        intro j hj
        rw [if_neg (by intro h'; rw [h'] at hj; exact hid hj)]
      refine ⟨⟨List.nodup_cons.2 ⟨hid, hI.nodup⟩, ?_, ?_, hI.le⟩, by simp, rfl, rfl, rfl, ?_, hget, ?_⟩
      · intro j hj
        simp only [List.mem_cons] at hj
        simp only [Conn.set]
        rcases hj with rfl | hj
        · simp
        · rw [hget j hj]; exact hI.lim j hj
      · have := sum_set_of_not_mem c.ids c.get id { maxdataLocal := p.initialMax id, sendClosed := p.receiveOnly id } hid
        simp only [charged, Conn.set, List.map_cons, List.sum_cons, if_true, Nat.zero_add]
        rw [this]
        exact hI.sum
      · intro j
        simp only [List.mem_cons]
        exact or_comm
      · intro _
        simp [Conn.set]
    · cases h

theorem onFrame_cinv {p : Params} {c : Conn} {id : Nat} {f : Nat → Nat → Stream → Out} (hI : CInv c)
    (hf : ∀ m d s, s.finOffset ≤ s.maxdataLocal → d ≤ m →
      (f m d s).stream.finOffset ≤ (f m d s).stream.maxdataLocal ∧ (f m d s).dataReceived ≤ m ∧
      (f m d s).dataReceived + s.finOffset = d + (f m d s).stream.finOffset) :
    CInv (onFrame p c id f).1 := by
  unfold onFrame
  cases h : findOrCreate p c id with
  | none => exact ⟨hI.nodup, hI.lim, hI.sum, hI.le⟩
  | some c' =>
    simp only
    obtain ⟨h1, h2, -⟩ := findOrCreate_spec h hI
    by_cases hd : (c'.get id).deleted = true
    · rw [if_pos hd]; exact h1
    · rw [if_neg hd]
      obtain ⟨f1, f2, f3⟩ := hf c'.maxdataLocal c'.dataReceived (c'.get id) (h1.lim id h2) h1.le
      generalize f c'.maxdataLocal c'.dataReceived (c'.get id) = o at *
      refine ⟨h1.nodup, ?_, ?_, f2⟩
      · intro j hj
        simp only [Conn.set]
        split
        · exact f1
        · exact h1.lim j hj
      · have := charged_set c' id o.stream h1.nodup h2
        have h3 := h1.sum
        have : charged { c'.set id o.stream with dataReceived := o.dataReceived, error := o.error } =
          charged (c'.set id o.stream) := rfl
        simp only at this ⊢
        rw [this]
        omega

theorem set_cinv {c : Conn} {id : Nat} {s : Stream} (hI : CInv c) (hid : id ∈ c.ids)
    (h1 : s.finOffset = (c.get id).finOffset) (h2 : s.finOffset ≤ s.maxdataLocal) : CInv (c.set id s) := by
  refine ⟨hI.nodup, ?_, ?_, hI.le⟩
  · intro j hj
    simp only [Conn.set]
    split
    · exact h2
    · exact hI.lim j hj
  · have := charged_set c id s hI.nodup hid
    have h3 := hI.sum
    have : (c.set id s).dataReceived = c.dataReceived := rfl
    omega

theorem finish_finOffset (s : Stream) : (finish s).finOffset = s.finOffset := by
  unfold finish deleteIfClosed; split <;> rfl
theorem finish_maxdataLocal (s : Stream) : (finish s).maxdataLocal = s.maxdataLocal := by
  unfold finish deleteIfClosed; split <;> rfl

theorem step_cinv (p : Params) (c : Conn) (op : Op) (hI : CInv c) : CInv (step p c op).1 := by
  cases op with
  | frame id offset fin bytes =>
    simp only [step]
    split
    · exact hI
    · apply onFrame_cinv hI
      intro m d s hs hd
      have hc := streamNetworkInput_cases m d s offset fin bytes hs
      simp only at hc
      rcases hc with ⟨_, _, h3, h4, _⟩ | ⟨_, _, h3, h4, _⟩ | ⟨_, h2, h3, h4, _, notify, _, h6, _⟩
      · rw [h3, h4]; exact ⟨hs, hd, rfl⟩
      · rw [h3, h4]; exact ⟨hs, hd, rfl⟩
      · rw [h6, finish_finOffset, finish_maxdataLocal]
        have hsame := deliver_same (accepted s fin (offset + bytes.length)) offset bytes notify
        rw [hsame.finOffset, show (deliver (accepted s fin (offset + bytes.length)) offset bytes
          notify).1.maxdataLocal = s.maxdataLocal by rw [hsame]; rfl, h2]
        simp only [accepted]
        omega
  | reset id final =>
    simp only [step]
    split
    · exact hI
    · apply onFrame_cinv hI
      intro m d s hs hd
      have hc := streamReset_cases m d s final hs
      simp only at hc
      rcases hc with ⟨_, _, h3, h4, _⟩ | ⟨_, _, h3, h4, _⟩ | ⟨_, h2, h3, h4, _, _, sig, cl, de, h6⟩
      · rw [h3, h4]; exact ⟨hs, hd, rfl⟩
      · rw [h3, h4]; exact ⟨hs, hd, rfl⟩
      · rw [h6, h2]
        simp only
        omega
  | stopSending id =>
    simp only [step]
    split
    · rename_i h; exact set_cinv hI h rfl (hI.lim id h)
    · exact hI
  | discard id =>
    simp only [step]
    split
    · rename_i h; exact set_cinv hI h rfl (hI.lim id h)
    · exact hI
  | raiseStream id newMax =>
    simp only [step]
    split
    · rename_i h
      exact set_cinv hI h.1 rfl (by have := hI.lim id h.1; simp only; omega)
    · exact hI
  | raiseConn inc =>
    simp only [step]
    exact ⟨hI.nodup, hI.lim, hI.sum, by have := hI.le; simp only; omega⟩
  | sendSide id cl ac =>
    simp only [step]
    split
    · rename_i h; exact set_cinv hI h rfl (hI.lim id h)
    · exact hI

theorem run_cinv (p : Params) (max0 : Nat) (ops : List Op) : CInv (run p (initial max0) ops).1 := by
  induction ops using snoc_induction with
  | h0 => exact ⟨by simp [run, initial], by simp [run, initial], rfl, by simp [run, initial]⟩
  | h1 l a ih => rw [run_snoc]; exact step_cinv p _ a ih

end Picoquic.StreamInput
