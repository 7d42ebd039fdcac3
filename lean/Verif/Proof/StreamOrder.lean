import Verif.Proof.StreamRun
/-!
# Proofs about the order of delivery over sequences of frames
-/

namespace Picoquic.StreamInput
open Picoquic Picoquic.Spec

/-- Local changes, and frames that are ignored. -/
def Quiet (op : Op) (id : Nat) (s s' : Stream) (ev : List Event) (err' : Option Nat) : Prop :=
  ev = [] ∧ ∃ m st di cl sc sa de,
    s' = { s with
      maxdataLocal := m, stopSending := st, discarded := di, isClosed := cl, sendClosed := sc,
      sendAcked := sa, deleted := de } ∧ s.maxdataLocal ≤ m ∧
    (st = s.stopSending ∨ (st = true ∧ op = .stopSending id)) ∧
    (di = s.discarded ∨ (di = true ∧ op = .discard id)) ∧
    ((cl = true ∨ de = true) →
      s.isClosed = true ∨ s.deleted = true ∨ s.finSignalled = true ∨ s.resetReceived = true) ∧
    (err' = none → (∀ o f b, op = .frame id o f b → s.deleted = true) ∧
      (∀ f, op = .reset id f → s.deleted = true)) ∧
    (s.deleted = true → de = true) ∧ (m = s.maxdataLocal ∨ op = .raiseStream id m) ∧
    ((∀ x y, op ≠ .sendSide id x y) → sc = s.sendClosed ∧ cl = s.isClosed ∧ de = s.deleted)

/-- The effect of an operation on stream `id`. -/
def Eff (c : Conn) (op : Op) (id : Nat) (s s' : Stream) (ev : List Event) (err' : Option Nat) : Prop :=
  Quiet op id s s' ev err' ∨
  (∃ offset fin bytes, op = .frame id offset fin bytes ∧ s.deleted = false ∧ c.error = none ∧
    ev = (streamNetworkInput c.maxdataLocal c.dataReceived s offset fin bytes).events ∧
    s' = (streamNetworkInput c.maxdataLocal c.dataReceived s offset fin bytes).stream ∧
    err' = (streamNetworkInput c.maxdataLocal c.dataReceived s offset fin bytes).error) ∨
  (∃ final, op = .reset id final ∧ s.deleted = false ∧ c.error = none ∧
    ev = (streamReset c.maxdataLocal c.dataReceived s final).events ∧
    s' = (streamReset c.maxdataLocal c.dataReceived s final).stream ∧
    err' = (streamReset c.maxdataLocal c.dataReceived s final).error)

theorem quiet_same (op : Op) (id : Nat) (s : Stream) (err' : Option Nat)
    (h1 : err' = none → (∀ o f b, op = .frame id o f b → s.deleted = true))
    (h2 : err' = none → (∀ f, op = .reset id f → s.deleted = true)) : Quiet op id s s [] err' :=
  ⟨rfl, s.maxdataLocal, s.stopSending, s.discarded, s.isClosed, s.sendClosed, s.sendAcked, s.deleted,
    rfl, Nat.le_refl _, Or.inl rfl, Or.inl rfl, fun h => by
      rcases h with h | h
      · exact Or.inl h
      · exact Or.inr (Or.inl h), fun h => ⟨h1 h, h2 h⟩, fun h => h, Or.inl rfl, fun _ => ⟨rfl, rfl, rfl⟩⟩

theorem sOf_set_ne (p : Params) (c : Conn) (id j : Nat) (s : Stream) (h : id ≠ j) :
    sOf p (c.set j s) id = sOf p c id := by
  simp [sOf, Conn.set, h]

theorem sOf_set_eq (p : Params) (c : Conn) (id : Nat) (s : Stream) (h : id ∈ c.ids) :
    sOf p (c.set id s) id = s := by
  simp [sOf, Conn.set, h]

theorem sOf_findOrCreate {p : Params} {c c' : Conn} {j : Nat} (id : Nat)
    (h : findOrCreate p c j = some c') (hI : CInv c) : sOf p c' id = sOf p c id := by
  obtain ⟨-, -, -, -, -, h6, h7, h8⟩ := findOrCreate_spec h hI
  unfold sOf
  by_cases h1 : id ∈ c.ids
  · rw [if_pos h1, if_pos ((h6 id).2 (Or.inl h1)), h7 id h1]
  · rw [if_neg h1]
    by_cases h2 : id = j
    · subst h2
      rw [if_pos ((h6 id).2 (Or.inr rfl)), h8 h1]
    · rw [if_neg (by rw [h6 id]; simp [h1, h2])]

/-- The effect of a frame, for any of the two frame handlers. -/
theorem onFrame_eff {p : Params} {c : Conn} {id j : Nat} {f : Nat → Nat → Stream → Out} (hI : CInv c) :
    (id ≠ j ∧ sOf p (onFrame p c j f).1 id = sOf p c id) ∨
    (id = j ∧ (onFrame p c j f).2 = [] ∧ sOf p (onFrame p c j f).1 id = sOf p c id ∧
      ((onFrame p c j f).1.error ≠ none ∨ (sOf p c id).deleted = true)) ∨
    (id = j ∧ (sOf p c id).deleted = false ∧
      (onFrame p c j f).2 = (f c.maxdataLocal c.dataReceived (sOf p c id)).events ∧
      sOf p (onFrame p c j f).1 id = (f c.maxdataLocal c.dataReceived (sOf p c id)).stream ∧
      (onFrame p c j f).1.error = (f c.maxdataLocal c.dataReceived (sOf p c id)).error) := by
  unfold onFrame
  cases h : findOrCreate p c j with
  | none =>
    simp only
    by_cases hj : id = j
    · exact Or.inr (Or.inl ⟨hj, trivial, rfl, Or.inl (by simp)⟩)
    · exact Or.inl ⟨hj, rfl⟩
  | some c' =>
    simp only
    have hs := sOf_findOrCreate id h hI
    obtain ⟨-, h2, h3, h4, -, -, -, -⟩ := findOrCreate_spec h hI
    by_cases hj : id = j
    · subst hj
      have hg : c'.get id = sOf p c id := by rw [← hs]; unfold sOf; rw [if_pos h2]
      rw [hg, h3, h4]
      by_cases hd : (sOf p c id).deleted = true
      · rw [if_pos hd]
        exact Or.inr (Or.inl ⟨rfl, rfl, hs, Or.inr hd⟩)
      · rw [if_neg hd]
        refine Or.inr (Or.inr ⟨rfl, by simpa using hd, rfl, ?_, rfl⟩)
        exact sOf_set_eq p c' id _ h2
    · refine Or.inl ⟨hj, ?_⟩
      by_cases hd : (c'.get j).deleted = true
      · rw [if_pos hd]; exact hs
      · rw [if_neg hd]
        rw [← hs]
        exact sOf_set_ne p c' id j _ hj

/-- A frame on a stream that exists, or can be created, is processed. -/
theorem onFrame_exact {p : Params} {c : Conn} {id : Nat} {f : Nat → Nat → Stream → Out} (hI : CInv c)
    (hid : id ∈ c.ids ∨ p.mayCreate id = true) (hd : (sOf p c id).deleted = false) :
    (onFrame p c id f).2 = (f c.maxdataLocal c.dataReceived (sOf p c id)).events ∧
    sOf p (onFrame p c id f).1 id = (f c.maxdataLocal c.dataReceived (sOf p c id)).stream ∧
    (onFrame p c id f).1.error = (f c.maxdataLocal c.dataReceived (sOf p c id)).error := by
  have hsome : ∃ c', findOrCreate p c id = some c' := by
    unfold findOrCreate
    by_cases h : id ∈ c.ids
    · rw [if_pos h]; exact ⟨_, rfl⟩
    · rw [if_neg h]
      rcases hid with h' | h'
      · exact absurd h' h
      · rw [if_pos h']; exact ⟨_, rfl⟩
  obtain ⟨c', h⟩ := hsome
  have hs := sOf_findOrCreate id h hI
  obtain ⟨-, h2, h3, h4, -, -, -, -⟩ := findOrCreate_spec h hI
  have hg : c'.get id = sOf p c id := by rw [← hs]; unfold sOf; rw [if_pos h2]
  unfold onFrame
  rw [h]
  simp only
  rw [hg, h3, h4, hd]
  simp only [Bool.false_eq_true, if_false]
  exact ⟨trivial, sOf_set_eq p c' id _ h2, trivial⟩

theorem step_eff (p : Params) (c : Conn) (op : Op) (id : Nat) (hI : CInv c) :
    Eff c op id (sOf p c id) (sOf p (step p c op).1 id)
      (if op.id = id then (step p c op).2 else []) (step p c op).1.error := by
  cases op with
  | frame j offset fin bytes =>
    rw [show (Op.frame j offset fin bytes).id = j from rfl]
    simp only [step]
    by_cases he : c.error.isSome = true
    · rw [if_pos he]
      left
      simp only [ite_self]
      apply quiet_same
      · intro h; rw [h] at he; simp at he
      · intro h; rw [h] at he; simp at he
    · rw [if_neg he]
      have he' : c.error = none := by simpa using he
      rcases onFrame_eff (p := p) (id := id) (j := j)
        (f := fun m d s => streamNetworkInput m d s offset fin bytes) hI with ⟨h1, h2⟩ | ⟨h1, h2, h3, h4⟩ |
        ⟨h1, h2, h3, h4, h5⟩
      · left
        rw [h2, if_neg (Ne.symm h1)]
        apply quiet_same
        · intro _ o f b h; simp only [Op.frame.injEq] at h; exact absurd h.1.symm h1
        · intro _ f h; cases h
      · left
        rw [h3, h2, ite_self]
        apply quiet_same
        · intro h o f b _
          rcases h4 with h4 | h4
          · exact absurd h h4
          · exact h4
        · intro _ f h; cases h
      · right; left
        subst h1
        rw [if_pos rfl]
        exact ⟨offset, fin, bytes, rfl, h2, he', h3, h4, h5⟩
  | reset j final =>
    rw [show (Op.reset j final).id = j from rfl]
    simp only [step]
    by_cases he : c.error.isSome = true
    · rw [if_pos he]
      left
      simp only [ite_self]
      apply quiet_same
      · intro h; rw [h] at he; simp at he
      · intro h; rw [h] at he; simp at he
    · rw [if_neg he]
      have he' : c.error = none := by simpa using he
      rcases onFrame_eff (p := p) (id := id) (j := j)
        (f := fun m d s => streamReset m d s final) hI with ⟨h1, h2⟩ | ⟨h1, h2, h3, h4⟩ |
        ⟨h1, h2, h3, h4, h5⟩
      · left
        rw [h2, if_neg (Ne.symm h1)]
        apply quiet_same
        · intro _ o f b h; cases h
        · intro _ f h; simp only [Op.reset.injEq] at h; exact absurd h.1.symm h1
      · left
        rw [h3, h2, ite_self]
        apply quiet_same
        · intro _ o f b h; cases h
        · intro h f _
          rcases h4 with h4 | h4
          · exact absurd h h4
          · exact h4
      · right; right
        subst h1
        rw [if_pos rfl]
        exact ⟨final, rfl, h2, he', h3, h4, h5⟩
  | stopSending j =>
    left
    simp only [step, ite_self]
    by_cases hj : j ∈ c.ids
    · rw [if_pos hj]
      by_cases h : id = j
      · subst h
        rw [sOf_set_eq p c id _ hj]
        have hg : c.get id = sOf p c id := by unfold sOf; rw [if_pos hj]
        rw [hg]
        generalize sOf p c id = s
        exact ⟨rfl, s.maxdataLocal, true, s.discarded, s.isClosed, s.sendClosed, s.sendAcked, s.deleted,
          rfl, Nat.le_refl _, Or.inr ⟨rfl, rfl⟩, Or.inl rfl, fun h => by
            rcases h with h | h
            · exact Or.inl h
            · exact Or.inr (Or.inl h), fun _ => ⟨(by intro _ _ _ h; cases h), (by intro _ h; cases h)⟩, fun h => h, Or.inl rfl, fun _ => ⟨rfl, rfl, rfl⟩⟩
      · rw [sOf_set_ne p c id j _ h]
        exact quiet_same _ _ _ _ (by intro _ _ _ _ h; cases h) (by intro _ _ h; cases h)
    · rw [if_neg hj]
      exact quiet_same _ _ _ _ (by intro _ _ _ _ h; cases h) (by intro _ _ h; cases h)
  | discard j =>
    left
    simp only [step, ite_self]
    by_cases hj : j ∈ c.ids
    · rw [if_pos hj]
      by_cases h : id = j
      · subst h
        rw [sOf_set_eq p c id _ hj]
        have hg : c.get id = sOf p c id := by unfold sOf; rw [if_pos hj]
        rw [hg]
        generalize sOf p c id = s
        exact ⟨rfl, s.maxdataLocal, s.stopSending, true, s.isClosed, s.sendClosed, s.sendAcked, s.deleted,
          rfl, Nat.le_refl _, Or.inl rfl, Or.inr ⟨rfl, rfl⟩, fun h => by
            rcases h with h | h
            · exact Or.inl h
            · exact Or.inr (Or.inl h), fun _ => ⟨(by intro _ _ _ h; cases h), (by intro _ h; cases h)⟩, fun h => h, Or.inl rfl, fun _ => ⟨rfl, rfl, rfl⟩⟩
      · rw [sOf_set_ne p c id j _ h]
        exact quiet_same _ _ _ _ (by intro _ _ _ _ h; cases h) (by intro _ _ h; cases h)
    · rw [if_neg hj]
      exact quiet_same _ _ _ _ (by intro _ _ _ _ h; cases h) (by intro _ _ h; cases h)
  | raiseStream j newMax =>
    left
    simp only [step, ite_self]
    by_cases hj : j ∈ c.ids ∧ newMax ≥ (c.get j).maxdataLocal
    · rw [if_pos hj]
      by_cases h : id = j
      · subst h
        rw [sOf_set_eq p c id _ hj.1]
        have hg : c.get id = sOf p c id := by unfold sOf; rw [if_pos hj.1]
        rw [hg] at hj ⊢
        generalize sOf p c id = s at *
        exact ⟨rfl, newMax, s.stopSending, s.discarded, s.isClosed, s.sendClosed, s.sendAcked, s.deleted,
          rfl, hj.2, Or.inl rfl, Or.inl rfl, fun h => by
            rcases h with h | h
            · exact Or.inl h
            · exact Or.inr (Or.inl h), fun _ => ⟨(by intro _ _ _ h; cases h), (by intro _ h; cases h)⟩, fun h => h, Or.inr rfl, fun _ => ⟨rfl, rfl, rfl⟩⟩
      · rw [sOf_set_ne p c id j _ h]
        exact quiet_same _ _ _ _ (by intro _ _ _ _ h; cases h) (by intro _ _ h; cases h)
    · rw [if_neg hj]
      exact quiet_same _ _ _ _ (by intro _ _ _ _ h; cases h) (by intro _ _ h; cases h)
  | raiseConn inc =>
    left
    simp only [step, ite_self]
    exact quiet_same _ _ _ _ (by intro _ _ _ _ h; cases h) (by intro _ _ h; cases h)
  | sendSide j cl ac =>
    left
    simp only [step, ite_self]
    by_cases hj : j ∈ c.ids
    · rw [if_pos hj]
      by_cases h : id = j
      · subst h
        rw [sOf_set_eq p c id _ hj]
        have hg : c.get id = sOf p c id := by unfold sOf; rw [if_pos hj]
        rw [hg]
        generalize sOf p c id = s
        refine ⟨rfl, s.maxdataLocal, s.stopSending, s.discarded, _, _, _, _,
          rfl, Nat.le_refl _, Or.inl rfl, Or.inl rfl, ?_, fun _ => ⟨(by intro _ _ _ h; cases h), (by intro _ h; cases h)⟩, ?_, Or.inl rfl,
          fun h => absurd rfl (h cl ac)⟩
        · simp only [Bool.or_eq_true, Bool.and_eq_true]
          rintro ((h | ⟨_, h | h⟩) | h | ⟨h | ⟨_, h | h⟩, _⟩)
          · exact Or.inl h
          · exact Or.inr (Or.inr (Or.inl h.2))
          · exact Or.inr (Or.inr (Or.inr h.1))
          · exact Or.inr (Or.inl h)
          · exact Or.inl h
          · exact Or.inr (Or.inr (Or.inl h.2))
          · exact Or.inr (Or.inr (Or.inr h.1))
        · intro h
          simp only [h, Bool.true_or]
      · rw [sOf_set_ne p c id j _ h]
        exact quiet_same _ _ _ _ (by intro _ _ _ _ h; cases h) (by intro _ _ h; cases h)
    · rw [if_neg hj]
      exact quiet_same _ _ _ _ (by intro _ _ _ _ h; cases h) (by intro _ _ h; cases h)

theorem sOf_lim {p : Params} {c : Conn} (id : Nat) (hI : CInv c) :
    (sOf p c id).finOffset ≤ (sOf p c id).maxdataLocal := by
  unfold sOf
  split
  · rename_i h; exact hI.lim id h
  · simp

/-! ## Any peer -/

/-- The events of a stream `s` so far. -/
structure Gen (A : Nat → UInt8 → Prop) (s : Stream) (ev : List Event) : Prop where
  inv : ∃ R, Inv A R s
  acc : ∃ n d, Accept A 0 false ev n d ∧ n ≤ s.consumed ∧ (d = true → s.finSignalled = true) ∧
    (s.muted = false → n = s.consumed ∧ d = s.finSignalled)

/-- The invariant depends on the delivery state only. -/
theorem Inv.congr {A : Nat → UInt8 → Prop} {R : Nat → Prop} {s s' : Stream} (h : Inv A R s)
    (h1 : s'.consumed = s.consumed) (h2 : s'.finOffset = s.finOffset) (h3 : s'.finReceived = s.finReceived)
    (h4 : s'.finSignalled = s.finSignalled) (h5 : s'.tree = s.tree) : Inv A R s' where
  base := ⟨by rw [h1, h2]; exact h.base.le, by rw [h1, h2, h3, h4]; exact h.base.sig⟩
  ord := by rw [h5]; exact h.ord
  stop := by rw [h5, h2]; exact h.stop
  ahead := by rw [h5, h1]; exact h.ahead
  cov := by rw [h5, h1]; exact h.cov

theorem Inv.accepted {A : Nat → UInt8 → Prop} {R : Nat → Prop} {s : Stream} (h : Inv A R s) (fin : Bool)
    (newFin : Nat) (hfin : s.finReceived = true → newFin ≤ s.finOffset) : Inv A R (accepted s fin newFin) where
  base := ⟨by have := h.base.le; simp only [StreamInput.accepted]; omega, by
    intro h1
    simp only [StreamInput.accepted] at h1 ⊢
    have h2 := h.base.sig h1
    have h3 := hfin h2.1
    exact ⟨by simp [h2.1], by omega⟩⟩
  ord := h.ord
  stop := fun c hc => by have := h.stop c hc; simp only [StreamInput.accepted]; omega
  ahead := h.ahead
  cov := h.cov

theorem finish_inv {A : Nat → UInt8 → Prop} {R : Nat → Prop} {s : Stream} (h : Inv A R s) :
    Inv A R (finish s) := by
  unfold finish
  split
  · exact h.congr rfl rfl rfl rfl rfl
  · exact h

theorem finish_fields (s : Stream) : ∃ cl de, finish s = { s with isClosed := cl, deleted := de } ∧
    ((cl = true ∨ de = true) → s.isClosed = true ∨ s.deleted = true ∨ s.finSignalled = true) := by
  unfold finish
  split
  · rename_i h
    exact ⟨_, _, rfl, fun _ => Or.inr (Or.inr h)⟩
  · exact ⟨s.isClosed, s.deleted, rfl, fun h => by
      rcases h with h | h
      · exact Or.inl h
      · exact Or.inr (Or.inl h)⟩

theorem gen_step {A : Nat → UInt8 → Prop} {c : Conn} {op : Op} {id : Nat} {s s' : Stream}
    {ev ev' : List Event} {err' : Option Nat} (hE : Eff c op id s s' ev' err')
    (hlim : s.finOffset ≤ s.maxdataLocal)
    (hA : ∀ offset fin bytes, op = .frame id offset fin bytes → Agree A offset bytes)
    (hG : Gen A s ev) : Gen A s' (ev ++ ev') := by
  obtain ⟨⟨R, hR⟩, n, d, hacc, hn, hd, hm⟩ := hG
  rcases hE with ⟨he, m, st, di, cl, sc, sa, de, hs, _, h1, h2, _⟩ |
    ⟨offset, fin, bytes, hop, _, _, hev, hs, _⟩ | ⟨final, hop, _, _, hev, hs, _⟩
  · rw [he, List.append_nil, hs]
    refine ⟨⟨R, hR.congr rfl rfl rfl rfl rfl⟩, n, d, hacc, hn, hd, ?_⟩
    intro hmu
    apply hm
    simp only [Stream.muted, Bool.or_eq_false_iff] at hmu ⊢
    refine ⟨?_, ?_⟩
    · rcases h1 with h1 | h1
      · rw [← h1]; exact hmu.1
      · rw [h1.1] at hmu; simp at hmu
    · rcases h2 with h2 | h2
      · rw [← h2]; exact hmu.2
      · rw [h2.1] at hmu; simp at hmu
  · have hc := streamNetworkInput_cases c.maxdataLocal c.dataReceived s offset fin bytes hlim
    simp only at hc
    rcases hc with ⟨_, e2, e3, _⟩ | ⟨_, e2, e3, _⟩ | ⟨_, _, e3, _, e5, notify, _, e6, e7⟩
    · rw [hev, hs, e2, e3, List.append_nil]
      exact ⟨⟨R, hR⟩, n, d, hacc, hn, hd, hm⟩
    · rw [hev, hs, e2, e3, List.append_nil]
      refine ⟨⟨R, ?_⟩, n, d, hacc, hn, hd, hm⟩
      refine ⟨⟨hR.base.le, ?_⟩, hR.ord, hR.stop, hR.ahead, hR.cov⟩
      intro h
      have := hR.base.sig h
      exact ⟨by simp [this.1], this.2⟩
    · have hIa := hR.accepted fin (offset + bytes.length) (fun h => (e5 h).1)
      obtain ⟨m1, m2, _⟩ := deliver_spec A R (accepted s fin (offset + bytes.length)) offset bytes notify hIa
        (hA offset fin bytes hop) (by simp only [accepted]; omega)
      rw [hev, hs, e6, e7]
      generalize hr : deliver (accepted s fin (offset + bytes.length)) offset bytes notify = r at *
      obtain ⟨cl, de, hfin, _⟩ := finish_fields r.1
      refine ⟨⟨_, finish_inv m2⟩, ?_⟩
      rw [hfin]
      have hmut : ({ r.1 with isClosed := cl, deleted := de } : Stream).muted = s.muted := by
        have := m1.same.muted
        exact this
      cases hmu : s.muted with
      | false =>
        obtain ⟨h1, h2⟩ := hm hmu
        subst h1 h2
        have := m1.acc hmu
        exact ⟨_, _, accept_append hacc this, Nat.le_refl _, fun h => h, fun _ => ⟨rfl, rfl⟩⟩
      | true =>
        have h0 := m1.mute hmu
        rw [h0, List.append_nil]
        refine ⟨n, d, hacc, Nat.le_trans hn m1.mono, fun h => m1.sigMono (hd h), ?_⟩
        intro h
        rw [hmut, hmu] at h
        cases h
  · have hc := streamReset_cases c.maxdataLocal c.dataReceived s final hlim
    simp only at hc
    rcases hc with ⟨_, e2, e3, _⟩ | ⟨_, e2, e3, _⟩ | ⟨_, _, e3, _, e5, e6, sig, cl, de, e7⟩
    · rw [hev, hs, e2, e3, List.append_nil]
      exact ⟨⟨R, hR⟩, n, d, hacc, hn, hd, hm⟩
    · rw [hev, hs, e2, e3, List.append_nil]
      exact ⟨⟨R, hR⟩, n, d, hacc, hn, hd, hm⟩
    · rw [hev, hs, e7]
      refine ⟨⟨R, ⟨?_, ?_⟩, hR.ord, ?_, hR.ahead, hR.cov⟩, n, d, ?_, hn, hd, hm⟩
      · have := hR.base.le; simp only; omega
      · intro h
        have h2 := hR.base.sig h
        have := e5 (Or.inl h2.1)
        exact ⟨h2.1, by simp only; omega⟩
      · intro x hx; have := hR.stop x hx; simp only; omega
      · rcases e6 with e6 | e6
        · rw [e6, List.append_nil]; exact hacc
        · rw [e6]; exact accept_append hacc ⟨rfl, rfl⟩

theorem run_gen (A : Nat → UInt8 → Prop) (p : Params) (max0 id : Nat) (ops : List Op)
    (hA : ∀ offset fin bytes, Op.frame id offset fin bytes ∈ ops → Agree A offset bytes) :
    Gen A (sOf p (run p (initial max0) ops).1 id) (eventsOn id (run p (initial max0) ops).2) := by
  induction ops using snoc_induction with
  | h0 =>
    refine ⟨⟨fun _ => False, ⟨by simp [run, initial, sOf], by simp [run, initial, sOf]⟩, ?_, ?_, ?_, ?_⟩, 0, false,
      ⟨rfl, rfl⟩, by simp, by simp, by simp [run, initial, sOf]⟩
    · simp [run, initial, sOf, Ordered]
    · simp [run, initial, sOf]
    · simp [run, initial, sOf]
    · simp [run, initial, sOf, InChunks]
  | h1 l a ih =>
    have ih := ih (fun o f b h => hA o f b (by simp [h]))
    have hI := run_cinv p max0 l
    rw [run_snoc, eventsOn_append, eventsOn_map]
    exact gen_step (step_eff p _ a id hI) (sOf_lim id hI)
      (fun o f b h => hA o f b (by simp [h])) ih

/-! ## A correct peer -/

/-- What holds of stream `s` after `ops` of a correct sender. -/
structure Hon (A : Nat → UInt8 → Prop) (F : Option Nat) (ops : List Op) (id : Nat) (s : Stream)
    (ev : List Event) : Prop where
  inv : Inv A (Received ops id) s
  tight : Tight s
  fin : s.finReceived = true ↔ FinReceived ops id
  finEq : s.finReceived = true → F = some s.finOffset
  finLe : ∀ f, F = some f → s.finOffset ≤ f
  noReset : s.resetReceived = false
  closed : (s.isClosed = true ∨ s.deleted = true) → s.finSignalled = true
  read : Reading ops id → s.muted = false ∧ Accept A 0 false ev s.consumed s.finSignalled

theorem received_snoc (ops : List Op) (op : Op) (id i : Nat) :
    Received (ops ++ [op]) id i ↔ Received ops id i ∨
      ∃ o f b, op = .frame id o f b ∧ o ≤ i ∧ i < o + b.length := by
  unfold Received
  constructor
  · rintro ⟨o, f, b, h, h1⟩
    simp only [List.mem_append, List.mem_cons, List.not_mem_nil, or_false] at h
    rcases h with h | h
    · exact Or.inl ⟨o, f, b, h, h1⟩
    · exact Or.inr ⟨o, f, b, h.symm, h1⟩
  · rintro (⟨o, f, b, h, h1⟩ | ⟨o, f, b, h, h1⟩)
    · exact ⟨o, f, b, by simp [h], h1⟩
    · exact ⟨o, f, b, by simp [h], h1⟩

theorem finReceived_snoc (ops : List Op) (op : Op) (id : Nat) :
    FinReceived (ops ++ [op]) id ↔ FinReceived ops id ∨ ∃ o b, op = .frame id o true b := by
  unfold FinReceived
  constructor
  · rintro ⟨o, b, h⟩
    simp only [List.mem_append, List.mem_cons, List.not_mem_nil, or_false] at h
    rcases h with h | h
    · exact Or.inl ⟨o, b, h⟩
    · exact Or.inr ⟨o, b, h.symm⟩
  · rintro (⟨o, b, h⟩ | ⟨o, b, h⟩)
    · exact ⟨o, b, by simp [h]⟩
    · exact ⟨o, b, by simp [h]⟩

theorem Inv.congrR {A : Nat → UInt8 → Prop} {R R' : Nat → Prop} {s : Stream} (h : Inv A R s)
    (hR : ∀ i, R i ↔ R' i) : Inv A R' s :=
  ⟨h.base, h.ord, h.stop, h.ahead, fun i => (h.cov i).trans (hR i)⟩

theorem hon_step {A : Nat → UInt8 → Prop} {F : Option Nat} {ops : List Op} {c : Conn} {op : Op} {id : Nat}
    {s s' : Stream} {ev ev' : List Event} (hE : Eff c op id s s' ev' none)
    (hlim : s.finOffset ≤ s.maxdataLocal)
    (hop : ∀ offset fin bytes, op = .frame id offset fin bytes → Agree A offset bytes ∧
      (∀ f, F = some f → offset + bytes.length ≤ f) ∧ (fin = true → F = some (offset + bytes.length)))
    (hnr : ∀ f, op ≠ .reset id f)
    (hH : Hon A F ops id s ev) : Hon A F (ops ++ [op]) id s' (ev ++ ev') := by
  rcases hE with ⟨he, m, st, di, cl, sc, sa, de, hs, _, h1, h2, h3, h4, _⟩ |
    ⟨offset, fin, bytes, rfl, hdel, _, hev, hs, herr⟩ | ⟨final, hop', _⟩
  · have h4' := (h4 rfl).1
    -- a frame that is ignored brings nothing new
    have hrec : ∀ i, Received ops id i ↔ Received (ops ++ [op]) id i := by
      intro i
      rw [received_snoc]
      constructor
      · exact Or.inl
      · rintro (h | ⟨o, f, b, h, h5, h6⟩)
        · exact h
        · have hd := h4' o f b h
          have hsig := hH.closed (Or.inr hd)
          have hfin := hH.inv.base.sig hsig
          have hF := hH.finEq hfin.1
          have hle := (hop o f b h).2.1 _ hF
          exact (hH.inv.cov i).1 (Or.inl (by omega))
    have hfr : FinReceived ops id ↔ FinReceived (ops ++ [op]) id := by
      rw [finReceived_snoc]
      constructor
      · exact Or.inl
      · rintro (h | ⟨o, b, h⟩)
        · exact h
        · have hd := h4' o true b h
          exact hH.fin.1 (hH.inv.base.sig (hH.closed (Or.inr hd))).1
    rw [he, List.append_nil, hs]
    refine ⟨(hH.inv.congrR hrec).congr rfl rfl rfl rfl rfl, hH.tight, hH.fin.trans hfr, hH.finEq, hH.finLe,
      hH.noReset, ?_, ?_⟩
    · intro h
      rcases h3 h with h | h | h | h
      · exact hH.closed (Or.inl h)
      · exact hH.closed (Or.inr h)
      · exact h
      · rw [hH.noReset] at h; cases h
    · intro hrd
      have h1' : st = s.stopSending := by
        rcases h1 with h | h
        · exact h
        · exact absurd (by simp [h.2]) hrd.1
      have h2' : di = s.discarded := by
        rcases h2 with h | h
        · exact h
        · exact absurd (by simp [h.2]) hrd.2
      have hr := hH.read ⟨fun h => hrd.1 (by simp [h]), fun h => hrd.2 (by simp [h])⟩
      exact ⟨by simp only [Stream.muted, h1', h2']; exact hr.1, hr.2⟩
  · obtain ⟨p1, p2, p3⟩ := hop offset fin bytes rfl
    have hc := streamNetworkInput_cases c.maxdataLocal c.dataReceived s offset fin bytes hlim
    simp only at hc
    rcases hc with ⟨e1, _⟩ | ⟨e1, _⟩ | ⟨_, _, e3, _, e5, notify, hnot, e6, e7⟩
    · rw [← herr] at e1; cases e1
    · rw [← herr] at e1; cases e1
    · have hIa := hH.inv.accepted fin (offset + bytes.length) (fun h => (e5 h).1)
      obtain ⟨m1, m2, m3⟩ := deliver_spec A (Received ops id) (accepted s fin (offset + bytes.length)) offset bytes
        notify hIa p1 (by simp only [accepted]; omega)
      rw [hev, hs, e6, e7]
      -- the end is signalled as soon as possible
      have ht : Tight (accepted s fin (offset + bytes.length)) ∨ (notify = true ∧
          (accepted s fin (offset + bytes.length)).consumed ≤ offset + bytes.length) := by
        cases hf : s.finReceived with
        | true =>
          left
          intro _ h2
          simp only [accepted] at h2 ⊢
          have := (e5 hf).1
          exact hH.tight hf (by omega)
        | false =>
          cases hfin : fin with
          | true =>
            right
            refine ⟨by rw [hnot, hf, hfin]; rfl, ?_⟩
            have h1 := hH.finLe _ (p3 hfin)
            have h2 := hH.inv.base.le
            simp only [accepted]
            omega
          | false =>
            left
            intro h1 _
            simp [accepted, hf] at h1
      have ht' := m3 ht
      generalize hr : deliver (accepted s fin (offset + bytes.length)) offset bytes notify = r at *
      obtain ⟨cl, de, hfin, hcl⟩ := finish_fields r.1
      have hinv : Inv A (Received (ops ++ [.frame id offset fin bytes]) id) r.1 := by
        refine m2.congrR ?_
        intro i
        rw [received_snoc]
        constructor
        · rintro (h | h)
          · exact Or.inl h
          · exact Or.inr ⟨offset, fin, bytes, rfl, h⟩
        · rintro (h | ⟨o, f, b, h, h1⟩)
          · exact Or.inl h
          · cases h; exact Or.inr h1
      have hrF : r.1.finOffset = max s.finOffset (offset + bytes.length) := m1.same.finOffset
      have hrR : r.1.finReceived = (s.finReceived || fin) := m1.same.finReceived
      have hre : r.1.resetReceived = s.resetReceived := by rw [m1.same]; rfl
      have hrc : r.1.isClosed = s.isClosed := by rw [m1.same]; rfl
      have hrd : r.1.deleted = s.deleted := by rw [m1.same]; rfl
      rw [hfin]
      refine ⟨hinv.congr rfl rfl rfl rfl rfl, ht', ?_, ?_, ?_, ?_, ?_, ?_⟩
      · simp only
        rw [hrR, finReceived_snoc, ← hH.fin, Bool.or_eq_true]
        constructor
        · rintro (h | h)
          · exact Or.inl h
          · exact Or.inr ⟨offset, bytes, by rw [h]⟩
        · rintro (h | ⟨o, b, h⟩)
          · exact Or.inl h
          · cases h; exact Or.inr rfl
      · simp only
        rw [hrR, hrF, Bool.or_eq_true]
        rintro (h | h)
        · have := (e5 h).1
          rw [hH.finEq h, Nat.max_eq_left this]
        · have := hH.finLe _ (p3 h)
          rw [p3 h, Nat.max_eq_right this]
      · intro f hf
        simp only
        rw [hrF]
        have := hH.finLe f hf
        have := p2 f hf
        omega
      · simp only; rw [hre]; exact hH.noReset
      · intro h
        simp only
        rcases hcl h with h | h | h
        · rw [hrc] at h; exact m1.sigMono (hH.closed (Or.inl h))
        · rw [hrd] at h; exact m1.sigMono (hH.closed (Or.inr h))
        · exact h
      · intro hrd
        have hr := hH.read ⟨fun h => hrd.1 (by simp [h]), fun h => hrd.2 (by simp [h])⟩
        exact ⟨m1.same.muted.trans hr.1, accept_append hr.2 (m1.acc hr.1)⟩
  · exact absurd hop' (hnr final)

theorem step_error (p : Params) (c : Conn) (op : Op) (h : (step p c op).1.error = none) : c.error = none := by
  cases hc : c.error with
  | none => rfl
  | some e =>
    exfalso
    cases op with
    | frame | reset => simp [step, hc] at h
    | stopSending | discard | raiseStream | sendSide =>
      simp only [step] at h
      split at h
      · simp only [Conn.set, hc] at h; cases h
      · rw [hc] at h; cases h
    | raiseConn => simp only [step, hc] at h; cases h

theorem run_hon (A : Nat → UInt8 → Prop) (F : Option Nat) (p : Params) (max0 id : Nat) (ops : List Op)
    (hop : ∀ offset fin bytes, Op.frame id offset fin bytes ∈ ops → Agree A offset bytes ∧
      (∀ f, F = some f → offset + bytes.length ≤ f) ∧ (fin = true → F = some (offset + bytes.length)))
    (hnr : ∀ f, Op.reset id f ∉ ops)
    (herr : (run p (initial max0) ops).1.error = none) :
    Hon A F ops id (sOf p (run p (initial max0) ops).1 id) (eventsOn id (run p (initial max0) ops).2) := by
  induction ops using snoc_induction with
  | h0 =>
    refine ⟨⟨⟨by simp [run, initial, sOf], by simp [run, initial, sOf]⟩, ?_, ?_, ?_, ?_⟩, ?_, ?_, ?_, ?_, ?_, ?_,
      fun _ => ⟨by simp [run, initial, sOf, Stream.muted], rfl, rfl⟩⟩
    · simp [run, initial, sOf, Ordered]
    · simp [run, initial, sOf]
    · simp [run, initial, sOf]
    · simp [run, initial, sOf, InChunks, Received]
    · simp [run, initial, sOf, Tight]
    · simp [run, initial, sOf, FinReceived]
    · simp [run, initial, sOf]
    · simp [run, initial, sOf]
    · simp [run, initial, sOf]
    · simp [run, initial, sOf]
  | h1 l a ih =>
    rw [run_snoc] at herr ⊢
    simp only at herr
    have he := step_error _ _ _ herr
    have ih := ih (fun o f b h => hop o f b (by simp [h])) (fun f h => hnr f (by simp [h])) he
    have hI := run_cinv p max0 l
    rw [eventsOn_append, eventsOn_map]
    have hE := step_eff p _ a id hI
    rw [herr] at hE
    exact hon_step hE (sOf_lim id hI) (fun o f b h => hop o f b (by simp [h]))
      (fun f h => hnr f (by simp [h])) ih

/-! ## The highest offset -/

theorem foldl_max_snoc (l : List Nat) (x : Nat) : (l ++ [x]).foldl max 0 = max (l.foldl max 0) x := by
  simp [List.foldl_append]

theorem highest_snoc (ops : List Op) (op : Op) (id : Nat) :
    highest (ops ++ [op]) id = max (highest ops id) (endOn id op) := by
  unfold highest
  rw [List.map_append, List.map_cons, List.map_nil, foldl_max_snoc]

/-- What the stream remembers of the operations on it. -/
structure Hist (ops : List Op) (id : Nat) (s : Stream) : Prop where
  le : s.finOffset ≤ highest ops id
  eq : s.deleted = false → s.finOffset = highest ops id ∧ (s.finReceived = true ↔ FinReceived ops id) ∧
    (s.resetReceived = true ↔ ∃ f, Op.reset id f ∈ ops)

theorem hist_step {ops : List Op} {c : Conn} {op : Op} {id : Nat}
    {s s' : Stream} {ev' : List Event} (hE : Eff c op id s s' ev' none)
    (hlim : s.finOffset ≤ s.maxdataLocal) (hH : Hist ops id s) : Hist (ops ++ [op]) id s' := by
  rcases hE with ⟨he, m, st, di, cl, sc, sa, de, hs, _, h1, h2, h3, h4, h5, _⟩ |
    ⟨offset, fin, bytes, rfl, hdel, _, hev, hs, herr⟩ | ⟨final, rfl, hdel, _, hev, hs, herr⟩
  · rw [hs]
    refine ⟨?_, ?_⟩
    · rw [highest_snoc]; have := hH.le; simp only; omega
    · intro hd
      simp only at hd ⊢
      have hd' : s.deleted = false := by
        cases h : s.deleted with
        | false => rfl
        | true => rw [h5 h] at hd; cases hd
      obtain ⟨k1, k2⟩ := h4 rfl
      have k1' : ∀ o f b, op ≠ .frame id o f b := by
        intro o f b h; have := k1 o f b h; rw [hd'] at this; cases this
      have k2' : ∀ f, op ≠ .reset id f := by
        intro f h; have := k2 f h; rw [hd'] at this; cases this
      have hend : endOn id op = 0 := by
        cases op with
        | frame j o f b =>
          simp only [endOn]; rw [if_neg]; intro h; subst h; exact k1' o f b rfl
        | reset j f =>
          simp only [endOn]; rw [if_neg]; intro h; subst h; exact k2' f rfl
        | _ => rfl
      obtain ⟨a1, a2, a3⟩ := hH.eq hd'
      refine ⟨?_, ?_, ?_⟩
      · rw [highest_snoc, hend, a1]; omega
      · rw [a2, finReceived_snoc]
        constructor
        · exact Or.inl
        · rintro (h | ⟨o, b, h⟩)
          · exact h
          · exact absurd h (k1' o true b)
      · rw [a3]
        constructor
        · rintro ⟨f, h⟩; exact ⟨f, by simp [h]⟩
        · rintro ⟨f, h⟩
          simp only [List.mem_append, List.mem_cons, List.not_mem_nil, or_false] at h
          rcases h with h | h
          · exact ⟨f, h⟩
          · exact absurd h.symm (k2' f)
  · obtain ⟨a1, a2, a3⟩ := hH.eq hdel
    have hc := streamNetworkInput_cases c.maxdataLocal c.dataReceived s offset fin bytes hlim
    simp only at hc
    rcases hc with ⟨e1, _⟩ | ⟨e1, _⟩ | ⟨_, _, e3, _, e5, notify, hnot, e6, e7⟩
    · rw [← herr] at e1; cases e1
    · rw [← herr] at e1; cases e1
    · have hsame := deliver_same (accepted s fin (offset + bytes.length)) offset bytes notify
      generalize deliver (accepted s fin (offset + bytes.length)) offset bytes notify = r at *
      obtain ⟨cl, de, hfin, hcl⟩ := finish_fields r.1
      have g1 : s'.finOffset = max s.finOffset (offset + bytes.length) := by
        rw [hs, e6, hfin]; exact hsame.finOffset
      have g2 : s'.finReceived = (s.finReceived || fin) := by
        rw [hs, e6, hfin]; exact hsame.finReceived
      have g3 : s'.resetReceived = s.resetReceived := by
        rw [hs, e6, hfin]; simp only; rw [hsame]; rfl
      have hh : highest (ops ++ [.frame id offset fin bytes]) id = max s.finOffset (offset + bytes.length) := by
        rw [highest_snoc, a1]; simp [endOn]
      refine ⟨by rw [g1, hh]; exact Nat.le_refl _, fun _ => ⟨by rw [g1, hh], ?_, ?_⟩⟩
      · rw [g2, finReceived_snoc, ← a2, Bool.or_eq_true]
        constructor
        · rintro (h | h)
          · exact Or.inl h
          · exact Or.inr ⟨offset, bytes, by rw [h]⟩
        · rintro (h | ⟨o, b, h⟩)
          · exact Or.inl h
          · cases h; exact Or.inr rfl
      · rw [g3, a3]
        simp
  · obtain ⟨a1, a2, a3⟩ := hH.eq hdel
    have hc := streamReset_cases c.maxdataLocal c.dataReceived s final hlim
    simp only at hc
    rcases hc with ⟨e1, _⟩ | ⟨e1, _⟩ | ⟨_, _, e3, _, e5, e6, sig, cl, de, e7⟩
    · rw [← herr] at e1; cases e1
    · rw [← herr] at e1; cases e1
    · have hh : highest (ops ++ [.reset id final]) id = max s.finOffset final := by
        rw [highest_snoc, a1]; simp [endOn]
      rw [hs, e7]
      refine ⟨by rw [hh]; exact Nat.le_refl _, fun _ => ⟨by rw [hh], ?_, ?_⟩⟩
      · simp only
        rw [a2, finReceived_snoc]
        simp
      · simp only [true_iff]
        exact ⟨final, by simp⟩

theorem run_hist (p : Params) (max0 id : Nat) (ops : List Op)
    (herr : (run p (initial max0) ops).1.error = none) :
    Hist ops id (sOf p (run p (initial max0) ops).1 id) := by
  induction ops using snoc_induction with
  | h0 =>
    refine ⟨by simp [run, initial, sOf], fun _ => ⟨?_, ?_, ?_⟩⟩
    · simp [run, initial, sOf, highest]
    · simp [run, initial, sOf, FinReceived]
    · simp [run, initial, sOf]
  | h1 l a ih =>
    rw [run_snoc] at herr ⊢
    simp only at herr
    have he := step_error _ _ _ herr
    have hI := run_cinv p max0 l
    have hE := step_eff p _ a id hI
    rw [herr] at hE
    exact hist_step hE (sOf_lim id hI) (ih he)

/-- The connection limit is the initial one plus the announced increases. -/
theorem run_maxdata (p : Params) (max0 : Nat) (ops : List Op) :
    (run p (initial max0) ops).1.maxdataLocal = connLimit max0 ops := by
  induction ops using snoc_induction with
  | h0 => rfl
  | h1 l a ih =>
    rw [run_snoc]
    unfold connLimit at *
    rw [List.map_append, List.sum_append]
    simp only [List.map_cons, List.map_nil, List.sum_cons, List.sum_nil, Nat.add_zero]
    generalize (run p (initial max0) l).1 = c at *
    have hon : ∀ j f, (onFrame p c j f).1.maxdataLocal = c.maxdataLocal := by
      intro j f
      unfold onFrame
      cases h : findOrCreate p c j with
      | none => rfl
      | some c' =>
        have hm : c'.maxdataLocal = c.maxdataLocal := by
          unfold findOrCreate at h
          split at h
          · simp only [Option.some.injEq] at h; rw [← h]
          · split at h
            · simp only [Option.some.injEq] at h; rw [← h]; rfl
            · cases h
        simp only
        split
        · exact hm
        · exact hm
    cases a with
    | frame | reset =>
      simp only [step, increaseOf, Nat.add_zero]
      split
      · exact ih
      · rw [hon]; exact ih
    | stopSending | discard | raiseStream | sendSide =>
      simp only [step, increaseOf, Nat.add_zero]
      split
      · exact ih
      · exact ih
    | raiseConn inc =>
      simp only [step, increaseOf]
      omega

end Picoquic.StreamInput
