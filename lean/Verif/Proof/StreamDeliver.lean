import Verif.Proof.StreamInput
/-!
# Proofs about stream delivery
-/

namespace Picoquic.StreamInput
open Picoquic Picoquic.Spec

/-! ## Fields that delivery leaves alone -/

/-- `s'` differs from `s` by the delivery state only. -/
def SameButDelivery (s s' : Stream) : Prop :=
  s' = { s with consumed := s'.consumed, finSignalled := s'.finSignalled, tree := s'.tree }

theorem SameButDelivery.refl (s : Stream) : SameButDelivery s s := rfl

theorem SameButDelivery.trans {a b c : Stream} (h : SameButDelivery a b) (h' : SameButDelivery b c) :
    SameButDelivery a c := by
  unfold SameButDelivery at *
  rw [h] at h'
  exact h'

theorem chunkCallback_same (s : Stream) (data : Bytes) : SameButDelivery s (chunkCallback s data).1 := by
  unfold chunkCallback SameButDelivery
  simp only
  split <;> rfl

theorem dataCallbackLoop_same (s : Stream) (cs : List Chunk) :
    SameButDelivery s (dataCallbackLoop s cs).1 := by
  induction cs generalizing s with
  | nil => rfl
  | cons c cs ih =>
    simp only [dataCallbackLoop]
    split
    · split
      · exact (chunkCallback_same s _).trans (ih _)
      · exact ih s
    · rfl

theorem dataCallback_same (s : Stream) : SameButDelivery s (dataCallback s).1 :=
  (dataCallbackLoop_same s _).trans (chunkCallback_same _ _)

theorem deliver_same (s : Stream) (offset : Nat) (bytes : Bytes) (notify : Bool) :
    SameButDelivery s (deliver s offset bytes notify).1 := by
  unfold deliver
  split
  · split
    · exact (chunkCallback_same s _).trans (dataCallback_same _)
    · rfl
  · simp only
    split
    · have h : SameButDelivery s { s with tree := (queueNetworkInput s.tree s.consumed offset bytes).1 } := rfl
      exact h.trans (dataCallback_same _)
    · rfl

/-! ## Delivery -/

/-- The callback is not called: the application asked to stop, or discarded the stream. -/
def Stream.muted (s : Stream) : Bool := s.stopSending || s.discarded

/-- From `s` to `s'`, with callbacks `ev`. -/
structure Moved (A : Nat → UInt8 → Prop) (s s' : Stream) (ev : List Event) : Prop where
  same : SameButDelivery s s'
  mono : s.consumed ≤ s'.consumed
  le : s'.consumed ≤ s.finOffset
  sigMono : s.finSignalled = true → s'.finSignalled = true
  sig : s'.finSignalled = true → s.finReceived = true ∧ s'.consumed = s.finOffset
  acc : s.muted = false → Accept A s.consumed s.finSignalled ev s'.consumed s'.finSignalled
  mute : s.muted = true → ev = []

theorem SameButDelivery.finOffset {s s' : Stream} (h : SameButDelivery s s') : s'.finOffset = s.finOffset := by
  rw [h]
theorem SameButDelivery.finReceived {s s' : Stream} (h : SameButDelivery s s') :
    s'.finReceived = s.finReceived := by rw [h]
theorem SameButDelivery.muted {s s' : Stream} (h : SameButDelivery s s') : s'.muted = s.muted := by
  unfold Stream.muted; rw [h]

theorem Moved.trans {A : Nat → UInt8 → Prop} {a b c : Stream} {e f : List Event} (h : Moved A a b e)
    (h' : Moved A b c f) : Moved A a c (e ++ f) where
  same := h.same.trans h'.same
  mono := Nat.le_trans h.mono h'.mono
  le := by have := h'.le; rwa [h.same.finOffset] at this
  sigMono := fun x => h'.sigMono (h.sigMono x)
  sig := fun x => by
    have := h'.sig x
    rwa [h.same.finReceived, h.same.finOffset] at this
  acc := fun x => accept_append (h.acc x) (h'.acc (by rw [h.same.muted]; exact x))
  mute := fun x => by rw [h.mute x, h'.mute (by rw [h.same.muted]; exact x)]; rfl

/-- What holds of a stream between frames, apart from the chunks. -/
structure Base (s : Stream) : Prop where
  le : s.consumed ≤ s.finOffset
  sig : s.finSignalled = true → s.finReceived = true ∧ s.consumed = s.finOffset

theorem Moved.base {A : Nat → UInt8 → Prop} {s s' : Stream} {ev : List Event} (h : Moved A s s' ev) :
    Base s' where
  le := by rw [h.same.finOffset]; exact h.le
  sig := fun x => by rw [h.same.finReceived, h.same.finOffset]; exact h.sig x

theorem Moved.refl (A : Nat → UInt8 → Prop) (s : Stream) (h : Base s) : Moved A s s [] where
  same := rfl
  mono := Nat.le_refl _
  le := h.le
  sigMono := id
  sig := h.sig
  acc := fun _ => ⟨rfl, rfl⟩
  mute := fun _ => rfl

theorem chunkCallback_spec (A : Nat → UInt8 → Prop) (s : Stream) (data : Bytes) (hB : Base s)
    (hA : Agree A s.consumed data) (hle : s.consumed + data.length ≤ s.finOffset) :
    Moved A s (chunkCallback s data).1 (chunkCallback s data).2 ∧
    (chunkCallback s data).1.consumed = s.consumed + data.length ∧
    (chunkCallback s data).1.tree = s.tree ∧
    (s.finReceived = true → s.consumed + data.length = s.finOffset →
      (chunkCallback s data).1.finSignalled = true) := by
  have hnil : s.finSignalled = true → data = [] := by
    intro h
    have := (hB.sig h).2
    exact List.length_eq_zero_iff.1 (by omega)
  unfold chunkCallback
  simp only
  by_cases hc : s.consumed + data.length ≥ s.finOffset ∧ s.finReceived = true ∧ ¬ s.finSignalled = true
  · rw [if_pos hc]
    refine ⟨⟨rfl, by simp, hle, fun _ => rfl, fun _ => ⟨hc.2.1, by simp only; omega⟩, ?_, ?_⟩, rfl, rfl,
      fun _ _ => rfl⟩
    · intro hm
      unfold Stream.muted at hm
      simp only [hm, Bool.false_eq_true, if_false]
      exact ⟨by simpa using hc.2.2, hA, rfl, rfl⟩
    · intro hm
      unfold Stream.muted at hm
      simp [hm]
  · rw [if_neg hc]
    refine ⟨⟨rfl, by simp, hle, id, ?_, ?_, ?_⟩, rfl, rfl, ?_⟩
    · intro h
      have h1 := hB.sig h
      have h2 := hnil h
      subst h2
      exact ⟨h1.1, by simpa using h1.2⟩
    · intro hm
      unfold Stream.muted at hm
      simp only [hm, Bool.false_eq_true, not_false_eq_true, and_true]
      by_cases hd : data.length > 0
      · rw [if_pos hd]
        refine ⟨?_, ?_, hA, rfl, rfl⟩
        · cases hs : s.finSignalled with
          | false => rfl
          | true => have := hnil hs; subst this; simp at hd
        · intro h0; subst h0; simp at hd
      · rw [if_neg hd]
        exact ⟨by omega, rfl⟩
    · intro hm
      unfold Stream.muted at hm
      simp [hm]
    · intro h1 h2
      simp only
      cases hs : s.finSignalled with
      | true => rfl
      | false => exact absurd ⟨by omega, h1, by simp [hs]⟩ hc

theorem dataCallbackLoop_spec (A : Nat → UInt8 → Prop) (cs : List Chunk) (s : Stream) (hB : Base s)
    (hord : Ordered A cs) (hst : ∀ c ∈ cs, c.stop ≤ s.finOffset) :
    Moved A s (dataCallbackLoop s cs).1 (dataCallbackLoop s cs).2 ∧
    Ordered A (dataCallbackLoop s cs).1.tree ∧
    (∀ c ∈ (dataCallbackLoop s cs).1.tree, c ∈ cs ∧ (dataCallbackLoop s cs).1.consumed < c.offset) ∧
    (∀ i, (i < (dataCallbackLoop s cs).1.consumed ∨ InChunks (dataCallbackLoop s cs).1.tree i) ↔
      (i < s.consumed ∨ InChunks cs i)) := by
  induction cs generalizing s with
  | nil =>
    simp only [dataCallbackLoop]
    refine ⟨?_, hord, by simp, by simp⟩
    have := Moved.refl A s hB
    exact ⟨rfl, this.mono, this.le, this.sigMono, this.sig, this.acc, this.mute⟩
  | cons c cs ih =>
    have hcs := (List.pairwise_cons.1 hord.1).1
    have hcstop := stop_gt hord c (by simp)
    simp only [dataCallbackLoop]
    by_cases h1 : c.offset ≤ s.consumed
    · rw [if_pos h1]
      by_cases h2 : c.bytes.length ≥ s.consumed - c.offset
      · rw [if_pos h2]
        simp only
        have hstc := hst c (by simp)
        have hA : Agree A s.consumed (c.bytes.drop (s.consumed - c.offset)) := by
          have := agree_drop (hord.2 c (by simp)).2 (s.consumed - c.offset)
          rwa [show c.offset + (s.consumed - c.offset) = s.consumed by omega] at this
        have hlen : s.consumed + (c.bytes.drop (s.consumed - c.offset)).length = c.stop := by
          simp only [List.length_drop, Chunk.stop]; omega
        obtain ⟨m, e1, e2, -⟩ := chunkCallback_spec A s _ hB hA (by omega)
        rw [hlen] at e1
        generalize chunkCallback s (c.bytes.drop (s.consumed - c.offset)) = r at *
        obtain ⟨i1, i2, i3, i4⟩ := ih r.1 m.base hord.tail (by
          intro d hd; rw [m.same.finOffset]; exact hst d (by simp [hd]))
        refine ⟨m.trans i1, i2, fun d hd => ⟨by simp [(i3 d hd).1], (i3 d hd).2⟩, ?_⟩
        intro i
        rw [i4 i, inChunks_cons, e1]
        constructor
        · rintro (h | h)
          · by_cases h5 : i < s.consumed
            · exact Or.inl h5
            · exact Or.inr (Or.inl ⟨by omega, h⟩)
          · exact Or.inr (Or.inr h)
        · rintro (h | h | h)
          · left
            simp only [Chunk.stop] at *
            omega
          · exact Or.inl h.2
          · exact Or.inr h
      · rw [if_neg h2]
        obtain ⟨i1, i2, i3, i4⟩ := ih s hB hord.tail (fun d hd => hst d (by simp [hd]))
        refine ⟨i1, i2, fun d hd => ⟨by simp [(i3 d hd).1], (i3 d hd).2⟩, ?_⟩
        intro i
        rw [i4 i, inChunks_cons]
        constructor
        · rintro (h | h)
          · exact Or.inl h
          · exact Or.inr (Or.inr h)
        · rintro (h | h | h)
          · exact Or.inl h
          · left; simp only [Chunk.stop] at *; omega
          · exact Or.inr h
    · rw [if_neg h1]
      refine ⟨?_, hord, ?_, fun i => Iff.rfl⟩
      · have := Moved.refl A s hB
        exact ⟨rfl, this.mono, this.le, this.sigMono, this.sig, this.acc, this.mute⟩
      · intro d hd
        refine ⟨hd, ?_⟩
        simp only [List.mem_cons] at hd
        rcases hd with rfl | hd
        · simp only; omega
        · have := hcs d hd
          simp only; omega

/-- The end of stream was signalled if it could be. -/
def Tight (s : Stream) : Prop := s.finReceived = true → s.consumed = s.finOffset → s.finSignalled = true

theorem dataCallback_spec (A : Nat → UInt8 → Prop) (s : Stream) (hB : Base s)
    (hord : Ordered A s.tree) (hst : ∀ c ∈ s.tree, c.stop ≤ s.finOffset) :
    Moved A s (dataCallback s).1 (dataCallback s).2 ∧
    Ordered A (dataCallback s).1.tree ∧
    (∀ c ∈ (dataCallback s).1.tree, c ∈ s.tree ∧ (dataCallback s).1.consumed < c.offset) ∧
    (∀ i, (i < (dataCallback s).1.consumed ∨ InChunks (dataCallback s).1.tree i) ↔
      (i < s.consumed ∨ InChunks s.tree i)) ∧
    Tight (dataCallback s).1 := by
  unfold dataCallback
  simp only
  obtain ⟨i1, i2, i3, i4⟩ := dataCallbackLoop_spec A s.tree s hB hord hst
  generalize dataCallbackLoop s s.tree = r at *
  have hb := i1.base
  obtain ⟨m, e1, e2, e3⟩ := chunkCallback_spec A r.1 [] hb (agree_nil _ _) (by simpa using hb.le)
  have hs := m.same
  generalize chunkCallback r.1 [] = q at *
  simp only [List.length_nil, Nat.add_zero] at e1 e3
  refine ⟨i1.trans m, by rw [e2]; exact i2, ?_, ?_, ?_⟩
  · intro c hc; rw [e2] at hc; rw [e1]; exact i3 c hc
  · intro i; rw [e1, e2]; exact i4 i
  · intro h1 h2
    rw [hs.finReceived] at h1
    rw [hs.finOffset, e1] at h2
    exact e3 h1 h2

/-- What holds of a stream between frames; `R` is the set of received positions. -/
structure Inv (A : Nat → UInt8 → Prop) (R : Nat → Prop) (s : Stream) : Prop where
  base : Base s
  ord : Ordered A s.tree
  stop : ∀ c ∈ s.tree, c.stop ≤ s.finOffset
  ahead : ∀ c ∈ s.tree, s.consumed < c.offset
  cov : ∀ i, (i < s.consumed ∨ InChunks s.tree i) ↔ R i

theorem deliver_spec (A : Nat → UInt8 → Prop) (R : Nat → Prop) (s : Stream) (offset : Nat) (bytes : Bytes)
    (notify : Bool) (hI : Inv A R s) (hA : Agree A offset bytes)
    (hle : offset + bytes.length ≤ s.finOffset) :
    Moved A s (deliver s offset bytes notify).1 (deliver s offset bytes notify).2 ∧
    Inv A (fun i => R i ∨ (offset ≤ i ∧ i < offset + bytes.length)) (deliver s offset bytes notify).1 ∧
    ((Tight s ∨ (notify = true ∧ s.consumed ≤ offset + bytes.length)) →
      Tight (deliver s offset bytes notify).1) := by
  have hR : ∀ i, i < s.consumed → R i := fun i h => (hI.cov i).1 (Or.inl h)
  unfold deliver
  by_cases h1 : s.consumed ≥ offset
  · rw [if_pos h1]
    by_cases h2 : offset + bytes.length ≥ s.consumed
    · rw [if_pos h2]
      simp only
      have hA' : Agree A s.consumed (bytes.drop (s.consumed - offset)) := by
        have := agree_drop hA (s.consumed - offset)
        rwa [show offset + (s.consumed - offset) = s.consumed by omega] at this
      have hlen : s.consumed + (bytes.drop (s.consumed - offset)).length = offset + bytes.length := by
        simp only [List.length_drop]; omega
      obtain ⟨m, e1, e2, e3⟩ := chunkCallback_spec A s _ hI.base hA' (by omega)
      rw [hlen] at e1
      generalize chunkCallback s (bytes.drop (s.consumed - offset)) = r at *
      obtain ⟨i1, i2, i3, i4, i5⟩ := dataCallback_spec A r.1 m.base (by rw [e2]; exact hI.ord) (by
        rw [e2, m.same.finOffset]; exact hI.stop)
      refine ⟨m.trans i1, ⟨i1.base, i2, ?_, fun c hc => (i3 c hc).2, ?_⟩, fun _ => i5⟩
      · intro c hc
        rw [i1.same.finOffset, m.same.finOffset]
        have := (i3 c hc).1
        rw [e2] at this
        exact hI.stop c this
      · intro i
        rw [i4 i, e1, e2, ← hI.cov i]
        constructor
        · rintro (h | h)
          · by_cases h5 : i < s.consumed
            · exact Or.inl (Or.inl h5)
            · right; omega
          · exact Or.inl (Or.inr h)
        · rintro ((h | h) | h)
          · left; omega
          · exact Or.inr h
          · left; omega
    · rw [if_neg h2]
      simp only
      refine ⟨Moved.refl A s hI.base, ⟨hI.base, hI.ord, hI.stop, hI.ahead, ?_⟩, ?_⟩
      · intro i
        rw [hI.cov i]
        constructor
        · exact Or.inl
        · rintro (h | h)
          · exact h
          · exact hR i (by omega)
      · rintro (h | h)
        · exact h
        · omega
  · rw [if_neg h1]
    simp only
    obtain ⟨q1, q2, q3, q4⟩ := queueNetworkInput_spec A s.tree s.consumed offset bytes hA hI.ord
    rw [show max offset s.consumed = offset by omega] at q2 q4
    generalize queueNetworkInput s.tree s.consumed offset bytes = q at *
    by_cases h3 : (notify || q.2) = true
    · rw [if_pos h3]
      have m0 : Moved A s { s with tree := q.1 } [] := by
        have := Moved.refl A s hI.base
        exact ⟨rfl, this.mono, this.le, this.sigMono, this.sig, this.acc, this.mute⟩
      obtain ⟨i1, i2, i3, i4, i5⟩ := dataCallback_spec A { s with tree := q.1 } m0.base q1 (by
        intro c hc
        simp only at hc ⊢
        rcases q4 c hc with h | h
        · exact hI.stop c h
        · omega)
      refine ⟨m0.trans i1, ⟨i1.base, i2, ?_, fun c hc => (i3 c hc).2, ?_⟩, fun _ => i5⟩
      · intro c hc
        rw [i1.same.finOffset]
        simp only
        rcases q4 c (i3 c hc).1 with h | h
        · exact hI.stop c h
        · omega
      · intro i
        rw [i4 i]
        simp only
        rw [q2 i, ← hI.cov i]
        constructor
        · rintro (h | h | h)
          · exact Or.inl (Or.inl h)
          · exact Or.inl (Or.inr h)
          · exact Or.inr h
        · rintro ((h | h) | h)
          · exact Or.inl h
          · exact Or.inr (Or.inl h)
          · exact Or.inr (Or.inr h)
    · rw [if_neg h3]
      simp only [Bool.or_eq_true, not_or, Bool.not_eq_true] at h3
      have hq := q3 h3.2
      have hsame : { s with tree := q.1 } = s := by rw [hq]
      rw [hsame]
      refine ⟨Moved.refl A s hI.base, ⟨hI.base, hI.ord, hI.stop, hI.ahead, ?_⟩, ?_⟩
      · intro i
        rw [← hI.cov i]
        constructor
        · exact Or.inl
        · rintro (h | h)
          · exact h
          · right
            have := (q2 i).2 (Or.inr h)
            rwa [hq] at this
      · rintro (h | h)
        · exact h
        · rw [h3.1] at h; simp at h

end Picoquic.StreamInput
