import Verif.Model.TlsStream
import Verif.Proof.StreamInput
import Verif.Proof.FrameFormat

/-! # Lemmas on the CRYPTO streams -/

namespace Picoquic.TlsStream
open Picoquic.Spec Picoquic.StreamInput

variable {σ : Type}

theorem upd_same {α : Type} (f : Nat → α) (e : Nat) (v : α) : upd f e v e = v := if_pos rfl

theorem upd_other {α : Type} (f : Nat → α) {e i : Nat} (v : α) (h : i ≠ e) : upd f e v i = f i := if_neg h

theorem atLevel_append (e : Nat) (l1 l2 : List (Nat × Bytes)) :
    atLevel e (l1 ++ l2) = atLevel e l1 ++ atLevel e l2 := by
  induction l1 with
  | nil => rfl
  | cons p l ih =>
    rw [List.cons_append, atLevel, atLevel]
    by_cases h : p.1 = e
    · rw [if_pos h, if_pos h, ih, List.append_assoc]
    · rw [if_neg h, if_neg h, ih]

theorem atLevel_one_same (e : Nat) (b : Bytes) : atLevel e [(e, b)] = b := by
  rw [atLevel, if_pos rfl, atLevel, List.append_nil]

theorem atLevel_one_other {e i : Nat} (b : Bytes) (h : e ≠ i) : atLevel i [(e, b)] = [] := by
  rw [atLevel, if_neg h, atLevel]

/-! ## Receiving -/

/-- What TLS was given is what the frames allow, in order; the data kept are in order, and not yet given. -/
structure RInv (A : Nat → Nat → UInt8 → Prop) (c : Cnx σ) : Prop where
  ord : ∀ e, Ordered (A e) (c.tree e)
  low : ∀ e, ∀ d ∈ c.tree e, c.consumed e ≤ d.offset
  fedA : ∀ e, Agree (A e) 0 (atLevel e c.fed)
  len : ∀ e, (atLevel e c.fed).length = c.consumed e

/-- The parts of the state that receiving uses are the same. -/
structure SameIn (c c' : Cnx σ) : Prop where
  tls : c'.tls = c.tls
  tree : c'.tree = c.tree
  consumed : c'.consumed = c.consumed
  fed : c'.fed = c.fed
  error : c'.error = c.error

theorem sameIn_refl (c : Cnx σ) : SameIn c c := ⟨rfl, rfl, rfl, rfl, rfl⟩

theorem sameIn_trans {a b c : Cnx σ} (h : SameIn a b) (k : SameIn b c) : SameIn a c :=
  ⟨k.tls.trans h.tls, k.tree.trans h.tree, k.consumed.trans h.consumed, k.fed.trans h.fed,
    k.error.trans h.error⟩

theorem sameIn_add (c : Cnx σ) (e : Nat) (b : Bytes) : SameIn c (addToTlsStream c e b) := by
  unfold addToTlsStream
  by_cases h : b.length > 0
  · rw [if_pos h]; exact ⟨rfl, rfl, rfl, rfl, rfl⟩
  · rw [if_neg h]; exact sameIn_refl c

theorem sameIn_addAll (l : List (Nat × Bytes)) : ∀ c : Cnx σ, SameIn c (addAll c l) := by
  induction l with
  | nil => exact sameIn_refl
  | cons p l ih => exact fun c => sameIn_trans (sameIn_add c p.1 p.2) (ih _)

theorem rinv_same {A : Nat → Nat → UInt8 → Prop} {c c' : Cnx σ} (h : RInv A c) (s : SameIn c c') :
    RInv A c' where
  ord := by rw [s.tree]; exact h.ord
  low := by rw [s.tree, s.consumed]; exact h.low
  fedA := by rw [s.fed]; exact h.fedA
  len := by rw [s.fed, s.consumed]; exact h.len

/-- Position `i` of level `e` was received. -/
def Have (c : Cnx σ) (e i : Nat) : Prop := i < c.consumed e ∨ InChunks (c.tree e) i

theorem have_same {c c' : Cnx σ} (s : SameIn c c') {e i : Nat} (h : Have c e i) : Have c' e i := by
  unfold Have
  rw [s.tree, s.consumed]
  exact h

/-- The data of level `e` go to TLS. -/
theorem rinv_give {A : Nat → Nat → UInt8 → Prop} {c : Cnx σ} (h : RInv A c) {e : Nat} {d : Chunk}
    {ds : List Chunk} (ht : c.tree e = d :: ds) (hd : d.offset = c.consumed e) (t : σ) :
    RInv A { c with
      tls := t
      fed := c.fed ++ [(e, d.bytes)]
      consumed := upd c.consumed e (c.consumed e + d.bytes.length)
      tree := upd c.tree e ds } where
  ord := by
    intro i
    by_cases hi : i = e
    · subst hi
      simp only [upd_same]
      have := h.ord i
      rw [ht] at this
      exact this.tail
    · simp only [upd_other _ _ hi]
      exact h.ord i
  low := by
    intro i
    by_cases hi : i = e
    · subst hi
      simp only [upd_same]
      have := h.ord i
      rw [ht] at this
      intro x hx
      have := (List.pairwise_cons.1 this.1).1 x hx
      unfold Chunk.stop at this
      omega
    · simp only [upd_other _ _ hi]
      exact h.low i
  fedA := by
    intro i
    rw [atLevel_append]
    by_cases hi : i = e
    · subst hi
      rw [atLevel_one_same]
      have ho := h.ord i
      rw [ht] at ho
      refine agree_append (h.fedA i) ?_
      rw [h.len i, Nat.zero_add, ← hd]
      exact (ho.2 d List.mem_cons_self).2
    · rw [atLevel_one_other _ (fun e' => hi e'.symm), List.append_nil]
      exact h.fedA i
  len := by
    intro i
    rw [atLevel_append]
    by_cases hi : i = e
    · subst hi
      simp only [atLevel_one_same, upd_same, List.length_append, h.len i]
    · simp only [upd_other _ _ hi]
      rw [atLevel_one_other _ (fun e' => hi e'.symm), List.append_nil]
      exact h.len i

/-- What the loop on a level does. -/
theorem feed_spec {A : Nat → Nat → UInt8 → Prop} (T : TlsMachine σ) (e : Nat) (l : List Chunk) :
    ∀ c : Cnx σ, RInv A c → c.tree e = l → ∃ c' f, feed T c e l = some (c', f) ∧ RInv A c' ∧
      c'.error = c.error ∧ (∀ i, i ≠ e → c'.tree i = c.tree i ∧ c'.consumed i = c.consumed i) ∧
      (f = false → ∀ d ∈ c'.tree e, c'.consumed e < d.offset) ∧
      (∀ i, Have c e i → Have c' e i) ∧ c.consumed e ≤ c'.consumed e ∧
      (∀ d ∈ c'.tree e, d ∈ l) := by
  induction l with
  | nil =>
    intro c h ht
    have hc : ({ c with tree := upd c.tree e [] } : Cnx σ) = c := by
      have : upd c.tree e [] = c.tree := by
        funext i
        by_cases hi : i = e
        · subst hi; rw [upd_same, ht]
        · rw [upd_other _ _ hi]
      rw [this]
    refine ⟨c, false, by rw [feed, hc], h, rfl, fun i _ => ⟨rfl, rfl⟩, ?_, fun i hi => hi, Nat.le_refl _, ?_⟩
    · intro _ d hd; rw [ht] at hd; exact absurd hd List.not_mem_nil
    · intro d hd; rw [ht] at hd; exact hd
  | cons d ds ih =>
    intro c h ht
    rw [feed]
    by_cases hle : d.offset ≤ c.consumed e
    · have hd : d.offset = c.consumed e := by
        have := h.low e d (by rw [ht]; exact List.mem_cons_self)
        omega
      rw [if_pos hle, if_neg (by omega)]
      have hz : c.consumed e - d.offset = 0 := by omega
      simp only [hz, List.drop_zero]
      have hg := rinv_give h ht hd (T.handle c.tls e d.bytes).1
      have hhave : ∀ i, Have c e i → Have ({ c with
          tls := (T.handle c.tls e d.bytes).1
          fed := c.fed ++ [(e, d.bytes)]
          consumed := upd c.consumed e (c.consumed e + d.bytes.length)
          tree := upd c.tree e ds } : Cnx σ) e i := by
        intro i hi
        unfold Have at hi ⊢
        simp only [upd_same]
        rcases hi with hi | hi
        · exact Or.inl (by omega)
        · rw [ht, inChunks_cons] at hi
          rcases hi with hi | hi
          · unfold Chunk.stop at hi
            exact Or.inl (by omega)
          · exact Or.inr hi
      by_cases hf : (T.handle c.tls e d.bytes).2.1 = true
      · rw [if_pos hf]
        refine ⟨_, true, rfl, hg, rfl, ?_, (fun hh => nomatch hh), hhave, ?_, ?_⟩
        · intro i hi
          exact ⟨upd_other _ _ hi, upd_other _ _ hi⟩
        · simp only [upd_same]; omega
        · intro x hx
          simp only [upd_same] at hx
          exact List.mem_cons_of_mem _ hx
      · rw [if_neg hf]
        have hs := sameIn_addAll (T.handle c.tls e d.bytes).2.2 ({ c with
          tls := (T.handle c.tls e d.bytes).1
          fed := c.fed ++ [(e, d.bytes)]
          consumed := upd c.consumed e (c.consumed e + d.bytes.length)
          tree := upd c.tree e ds } : Cnx σ)
        obtain ⟨c', f, h1, h2, h3, h4, h5, h6, h7, h8⟩ := ih _ (rinv_same hg hs)
          (by rw [hs.tree]; exact upd_same _ _ _)
        refine ⟨c', f, h1, h2, h3.trans hs.error, ?_, h5, fun i hi => h6 i (have_same hs (hhave i hi)), ?_, ?_⟩
        · intro i hi
          obtain ⟨a, b⟩ := h4 i hi
          rw [hs.tree] at a
          rw [hs.consumed] at b
          exact ⟨a.trans (upd_other _ _ hi), b.trans (upd_other _ _ hi)⟩
        · rw [hs.consumed] at h7
          simp only [upd_same] at h7
          omega
        · exact fun x hx => List.mem_cons_of_mem _ (h8 x hx)
    · rw [if_neg hle]
      have hc : ({ c with tree := upd c.tree e (d :: ds) } : Cnx σ) = c := by
        have : upd c.tree e (d :: ds) = c.tree := by
          funext i
          by_cases hi : i = e
          · subst hi; rw [upd_same, ht]
          · rw [upd_other _ _ hi]
        rw [this]
      rw [hc]
      refine ⟨c, false, rfl, h, rfl, fun i _ => ⟨rfl, rfl⟩, ?_, fun i hi => hi, Nat.le_refl _, ?_⟩
      · intro _ x hx
        have ho := h.ord e
        rw [ht] at hx ho
        rcases List.mem_cons.1 hx with hx | hx
        · subst hx; omega
        · have := (List.pairwise_cons.1 ho.1).1 x hx
          have := stop_gt ho d List.mem_cons_self
          omega
      · intro x hx; rw [ht] at hx; exact hx

/-- TLS does not go back in the loop. -/
theorem feed_reads {T : TlsMachine σ} (hT : T.Forward) (e : Nat) (l : List Chunk) : ∀ {c c' : Cnx σ} {f : Bool},
    feed T c e l = some (c', f) → T.reads c.tls ≤ T.reads c'.tls := by
  induction l with
  | nil =>
    intro c c' f h
    rw [feed] at h
    injection h with h
    injection h with h _
    subst h
    exact Nat.le_refl _
  | cons d ds ih =>
    intro c c' f h
    rw [feed] at h
    by_cases hle : d.offset ≤ c.consumed e
    · rw [if_pos hle] at h
      by_cases hl : d.bytes.length < c.consumed e - d.offset
      · rw [if_pos hl] at h; exact nomatch h
      · rw [if_neg hl] at h
        simp only at h
        have hstep := hT c.tls e (d.bytes.drop (c.consumed e - d.offset))
        split at h
        · injection h with h
          injection h with h _
          subst h
          exact hstep
        · have := ih h
          rw [(sameIn_addAll _ _).tls] at this
          exact Nat.le_trans hstep this
    · rw [if_neg hle] at h
      injection h with h
      injection h with h _
      subst h
      exact Nat.le_refl _

/-- The loop on the levels. -/
theorem levels_spec {A : Nat → Nat → UInt8 → Prop} (T : TlsMachine σ) (es : List Nat) : ∀ c : Cnx σ, RInv A c →
    ∃ c', processLevels T c es = some c' ∧ RInv A c' ∧ (c.error ≠ none → c'.error ≠ none) ∧
      (∀ i, i ∉ es → c'.tree i = c.tree i ∧ c'.consumed i = c.consumed i) ∧
      (∀ e i, Have c e i → Have c' e i) ∧ (∀ e, c.consumed e ≤ c'.consumed e) ∧
      (∀ e, ∀ d ∈ c'.tree e, d ∈ c.tree e) := by
  induction es with
  | nil =>
    intro c h
    exact ⟨c, rfl, h, fun a => a, fun i _ => ⟨rfl, rfl⟩, fun _ _ a => a, fun _ => Nat.le_refl _, fun _ _ a => a⟩
  | cons e es ih =>
    intro c h
    rw [processLevels]
    by_cases h1 : e > T.reads c.tls
    · rw [if_pos h1]
      exact ⟨c, rfl, h, fun a => a, fun i _ => ⟨rfl, rfl⟩, fun _ _ a => a, fun _ => Nat.le_refl _,
        fun _ _ a => a⟩
    · rw [if_neg h1]
      by_cases h2 : e < T.reads c.tls
      · rw [if_pos h2]
        by_cases h3 : hasGap (c.consumed e) (c.tree e) = true
        · rw [if_pos h3]
          exact ⟨_, rfl, ⟨h.ord, h.low, h.fedA, h.len⟩, (fun _ a => nomatch a), fun i _ => ⟨rfl, rfl⟩,
            fun _ _ a => a, fun _ => Nat.le_refl _, fun _ _ a => a⟩
        · rw [if_neg h3]
          obtain ⟨c', g1, g2, g3, g4, g5, g6, g7⟩ := ih c h
          exact ⟨c', g1, g2, g3, fun i hi => g4 i (fun hm => hi (List.mem_cons_of_mem _ hm)), g5, g6, g7⟩
      · rw [if_neg h2]
        obtain ⟨c1, f, f1, f2, f3, f4, f5, f6, f7, f8⟩ := feed_spec T e (c.tree e) c h rfl
        rw [f1]
        simp only
        have hc1 : RInv A (if f = true then { c1 with error := some TLS_FAILED } else c1) := by
          split
          · exact ⟨f2.ord, f2.low, f2.fedA, f2.len⟩
          · exact f2
        obtain ⟨c', g1, g2, g3, g4, g5, g6, g7⟩ := ih _ hc1
        have ht : (if f = true then { c1 with error := some TLS_FAILED } else c1).tree = c1.tree := by
          split <;> rfl
        have hk : (if f = true then { c1 with error := some TLS_FAILED } else c1).consumed = c1.consumed := by
          split <;> rfl
        refine ⟨c', g1, g2, ?_, ?_, ?_, ?_, ?_⟩
        · intro hne
          apply g3
          split
          · exact fun a => nomatch a
          · rw [f3]; exact hne
        · intro i hi
          obtain ⟨a, b⟩ := g4 i (fun hm => hi (List.mem_cons_of_mem _ hm))
          obtain ⟨a', b'⟩ := f4 i (fun he => hi (he ▸ List.mem_cons_self))
          rw [ht] at a
          rw [hk] at b
          exact ⟨a.trans a', b.trans b'⟩
        · intro x i hx
          apply g5
          unfold Have
          rw [ht, hk]
          by_cases he : x = e
          · subst he; exact f6 i hx
          · obtain ⟨a', b'⟩ := f4 x he
            rw [a', b']
            exact hx
        · intro x
          have := g6 x
          rw [hk] at this
          by_cases he : x = e
          · subst he; omega
          · rw [(f4 x he).2] at this; exact this
        · intro x d hd
          have := g7 x d hd
          rw [ht] at this
          by_cases he : x = e
          · subst he; exact f8 d this
          · rw [(f4 x he).1] at this; exact this

/-- If nothing fails, the level that TLS reads in the end has nothing left that could be given to it. -/
theorem levels_drained {A : Nat → Nat → UInt8 → Prop} {T : TlsMachine σ} (hT : T.Forward) (es : List Nat) :
    ∀ {c c' : Cnx σ}, RInv A c → es.Pairwise (· < ·) → processLevels T c es = some c' → c'.error = none →
      T.reads c'.tls ∈ es → ∀ d ∈ c'.tree (T.reads c'.tls), c'.consumed (T.reads c'.tls) < d.offset := by
  have hmono : ∀ (es : List Nat) {c c' : Cnx σ}, processLevels T c es = some c' →
      T.reads c.tls ≤ T.reads c'.tls := by
    intro es
    induction es with
    | nil =>
      intro c c' h
      injection h with h
      subst h
      exact Nat.le_refl _
    | cons e es ih =>
      intro c c' h
      rw [processLevels] at h
      split at h
      · injection h with h; subst h; exact Nat.le_refl _
      · split at h
        · split at h
          · injection h with h; subst h; exact Nat.le_refl _
          · exact ih h
        · split at h
          · exact nomatch h
          · rename_i c1 f hf
            have h1 := feed_reads hT e _ hf
            have h2 := ih h
            have : (if f = true then { c1 with error := some TLS_FAILED } else c1).tls = c1.tls := by
              split <;> rfl
            rw [this] at h2
            exact Nat.le_trans h1 h2
  induction es with
  | nil => intro c c' _ _ _ _ hm; exact absurd hm List.not_mem_nil
  | cons e es ih =>
    intro c c' h hp hr hn hm
    obtain ⟨hp1, hp2⟩ := List.pairwise_cons.1 hp
    rw [processLevels] at hr
    by_cases h1 : e > T.reads c.tls
    · rw [if_pos h1] at hr
      injection hr with hr
      subst hr
      rcases List.mem_cons.1 hm with hm | hm
      · omega
      · have := hp1 _ hm; omega
    · rw [if_neg h1] at hr
      by_cases h2 : e < T.reads c.tls
      · rw [if_pos h2] at hr
        by_cases h3 : hasGap (c.consumed e) (c.tree e) = true
        · rw [if_pos h3] at hr
          injection hr with hr
          subst hr
          exact nomatch hn
        · rw [if_neg h3] at hr
          have := hmono es hr
          rcases List.mem_cons.1 hm with hm | hm
          · omega
          · exact ih h hp2 hr hn hm
      · rw [if_neg h2] at hr
        obtain ⟨c1, f, f1, f2, f3, f4, f5, f6, f7, f8⟩ := feed_spec T e (c.tree e) c h rfl
        rw [f1] at hr
        simp only at hr
        cases f with
        | true =>
          rw [if_pos rfl] at hr
          obtain ⟨c2, g1, _, g3, _⟩ := levels_spec (A := A) T es { c1 with error := some TLS_FAILED }
            ⟨f2.ord, f2.low, f2.fedA, f2.len⟩
          rw [g1] at hr
          injection hr with hr
          subst hr
          exact absurd hn (g3 (fun a => nomatch a))
        | false =>
          rw [if_neg (fun a => nomatch a)] at hr
          by_cases he : T.reads c'.tls = e
          · obtain ⟨c2, g1, _, _, g4, _⟩ := levels_spec (A := A) T es c1 f2
            rw [g1] at hr
            injection hr with hr
            subst hr
            have hne : e ∉ es := fun hm => by have := hp1 e hm; omega
            obtain ⟨a, b⟩ := g4 e hne
            rw [he, a, b]
            exact f5 rfl
          · exact ih f2 hp2 hr hn ((List.mem_cons.1 hm).resolve_left he)

theorem have_decode {A : Nat → Nat → UInt8 → Prop} {c : Cnx σ} (h : RInv A c) {e o : Nat} {b : Bytes}
    (hb : Agree (A e) o b) : RInv A (decodeCrypto c e o b) ∧
      (∀ x i, Have c x i → Have (decodeCrypto c e o b) x i) ∧
      ((decodeCrypto c e o b).error = none → ∀ i, o ≤ i → i < o + b.length →
        Have (decodeCrypto c e o b) e i) ∧
      (decodeCrypto c e o b).consumed = c.consumed ∧ (decodeCrypto c e o b).tls = c.tls := by
  unfold decodeCrypto
  by_cases hg : c.consumed e < o ∧ c.consumed e + GAP < o + b.length
  · rw [if_pos hg]
    exact ⟨⟨h.ord, h.low, h.fedA, h.len⟩, fun _ _ a => a, (fun a => nomatch a), rfl, rfl⟩
  · rw [if_neg hg]
    obtain ⟨q1, q2, _, q4⟩ := queueNetworkInput_spec (A e) (c.tree e) (c.consumed e) o b hb (h.ord e)
    refine ⟨⟨?_, ?_, h.fedA, h.len⟩, ?_, ?_, rfl, rfl⟩
    · intro i
      by_cases hi : i = e
      · subst hi; simp only [upd_same]; exact q1
      · simp only [upd_other _ _ hi]; exact h.ord i
    · intro i
      by_cases hi : i = e
      · subst hi
        simp only [upd_same]
        intro d hd
        rcases q4 d hd with hd | hd
        · exact h.low i d hd
        · omega
      · simp only [upd_other _ _ hi]; exact h.low i
    · intro x i hx
      unfold Have at hx ⊢
      by_cases hxe : x = e
      · subst hxe
        simp only [upd_same]
        rcases hx with hx | hx
        · exact Or.inl hx
        · exact Or.inr ((q2 i).2 (Or.inl hx))
      · simp only [upd_other _ _ hxe]; exact hx
    · intro _ i h1 h2
      unfold Have
      simp only [upd_same]
      by_cases hi : i < c.consumed e
      · exact Or.inl hi
      · exact Or.inr ((q2 i).2 (Or.inr ⟨by omega, h2⟩))

theorem sameIn_send (c : Cnx σ) (e room : Nat) : SameIn c (sendCrypto c e room).1 := by
  unfold sendCrypto
  split
  · exact sameIn_refl c
  · simp only
    split
    · exact ⟨rfl, rfl, rfl, rfl, rfl⟩
    · exact sameIn_refl c

/-- The history allows the byte. -/
def Allowed (A : Nat → Nat → UInt8 → Prop) (ops : List CryptoOp) : Prop :=
  ∀ e o b, .crypto e o b ∈ ops → Agree (A e) o b

theorem step_in {A : Nat → Nat → UInt8 → Prop} (T : TlsMachine σ) {c : Cnx σ} {op : CryptoOp} (h : RInv A c)
    (ha : Allowed A [op]) : ∃ c', step T c op = some c' ∧ RInv A c' ∧
      (∀ e i, Have c e i → Have c' e i) ∧ (c.error ≠ none → c'.error ≠ none) ∧
      (∀ e, c.consumed e ≤ c'.consumed e) ∧
      (c'.error = none → ∀ e o b, op = .crypto e o b → ∀ i, o ≤ i → i < o + b.length → Have c' e i) := by
  unfold step
  by_cases he : c.error ≠ none
  · rw [if_pos he]
    exact ⟨c, rfl, h, fun _ _ a => a, fun a => a, fun _ => Nat.le_refl _, fun a => absurd a he⟩
  · rw [if_neg he]
    cases op with
    | crypto e o b =>
      obtain ⟨h1, h2, h3, h4, _⟩ := have_decode h (ha e o b List.mem_cons_self)
      refine ⟨_, rfl, h1, h2, fun a => absurd a he, fun x => by rw [h4]; exact Nat.le_refl _, ?_⟩
      intro hn x o' b' heq
      injection heq with e1 e2 e3
      subst e1 e2 e3
      exact h3 hn
    | process =>
      obtain ⟨c', g1, g2, g3, _, g5, g6, _⟩ := levels_spec (A := A) T [0, 1, 2, 3] c h
      exact ⟨c', g1, g2, g5, g3, g6, fun _ _ _ _ a => nomatch a⟩
    | send e room =>
      have hs := sameIn_send c e room
      refine ⟨_, rfl, rinv_same h hs, fun _ _ a => have_same hs a, fun a => absurd a he,
        fun x => by rw [hs.consumed]; exact Nat.le_refl _, fun _ _ _ _ a => nomatch a⟩

theorem run_in {A : Nat → Nat → UInt8 → Prop} (T : TlsMachine σ) (ops : List CryptoOp) : ∀ {c : Cnx σ}, RInv A c →
    Allowed A ops → ∃ c', run T c ops = some c' ∧ RInv A c' ∧ (∀ e i, Have c e i → Have c' e i) ∧
      (c.error ≠ none → c'.error ≠ none) ∧
      (c'.error = none → ∀ e o b, .crypto e o b ∈ ops → ∀ i, o ≤ i → i < o + b.length → Have c' e i) := by
  induction ops with
  | nil =>
    intro c h _
    exact ⟨c, rfl, h, fun _ _ a => a, fun a => a, fun _ _ _ _ a => absurd a List.not_mem_nil⟩
  | cons op ops ih =>
    intro c h ha
    obtain ⟨c1, s1, s2, s3, s4, _, s6⟩ := step_in T h
      (fun e o b hm => ha e o b (by rw [List.mem_singleton] at hm; rw [hm]; exact List.mem_cons_self))
    obtain ⟨c', r1, r2, r3, r4, r5⟩ := ih s2 (fun e o b hm => ha e o b (List.mem_cons_of_mem _ hm))
    refine ⟨c', by rw [run, s1]; exact r1, r2, fun e i a => r3 e i (s3 e i a), fun a => r4 (s4 a), ?_⟩
    intro hn e o b hm i h1 h2
    rcases List.mem_cons.1 hm with hm | hm
    · have hn1 : c1.error = none := by
        cases hc : c1.error with
        | none => rfl
        | some x => exact absurd hn (r4 (by rw [hc]; exact fun a => nomatch a))
      exact r3 e i (s6 hn1 e o b hm.symm i h1 h2)
    · exact r5 hn e o b hm i h1 h2

theorem rinv_init (A : Nat → Nat → UInt8 → Prop) (t : σ) (hello : Bytes) : RInv A (init t hello) :=
  rinv_same (c := { tls := t }) ⟨fun _ => ⟨List.Pairwise.nil, fun _ h => absurd h List.not_mem_nil⟩,
    fun _ _ h => absurd h List.not_mem_nil, fun _ => agree_nil _ _, fun _ => rfl⟩ (sameIn_add _ 0 hello)

theorem init_error (t : σ) (hello : Bytes) : (init t hello).error = none := (sameIn_add _ 0 hello).error

/-! ## Memory -/

/-- The number of bytes kept. -/
def kept : List Chunk → Nat
  | [] => 0
  | d :: ds => d.bytes.length + kept ds

theorem kept_le {A : Nat → UInt8 → Prop} {l : List Chunk} : ∀ {lo hi : Nat}, Ordered A l →
    (∀ d ∈ l, lo ≤ d.offset) → (∀ d ∈ l, d.stop ≤ hi) → lo ≤ hi → kept l ≤ hi - lo := by
  induction l with
  | nil => intro lo hi _ _ _ _; exact Nat.zero_le _
  | cons d ds ih =>
    intro lo hi ho h1 h2 hl
    have a := h1 d List.mem_cons_self
    have b := h2 d List.mem_cons_self
    have := ih (lo := d.stop) (hi := hi) ho.tail (fun x hx => (List.pairwise_cons.1 ho.1).1 x hx)
      (fun x hx => h2 x (List.mem_cons_of_mem _ hx)) b
    rw [kept]
    unfold Chunk.stop at *
    omega

/-- The data kept are not far ahead. -/
def Near (M : Nat) (c : Cnx σ) : Prop := ∀ e, ∀ d ∈ c.tree e, d.stop ≤ c.consumed e + GAP + M

theorem near_step {A : Nat → Nat → UInt8 → Prop} (T : TlsMachine σ) {M : Nat} {c c' : Cnx σ} {op : CryptoOp}
    (h : RInv A c) (hm : Near M c) (ha : Allowed A [op])
    (hl : ∀ e o b, op = .crypto e o b → b.length ≤ M) (hs : step T c op = some c') : Near M c' := by
  unfold step at hs
  by_cases he : c.error ≠ none
  · rw [if_pos he] at hs
    injection hs with hs
    exact hs ▸ hm
  · rw [if_neg he] at hs
    cases op with
    | crypto e o b =>
      injection hs with hs
      subst hs
      unfold decodeCrypto
      by_cases hg : c.consumed e < o ∧ c.consumed e + GAP < o + b.length
      · rw [if_pos hg]; exact hm
      · rw [if_neg hg]
        obtain ⟨_, _, _, q4⟩ := queueNetworkInput_spec (A e) (c.tree e) (c.consumed e) o b
          (ha e o b List.mem_cons_self) (h.ord e)
        have hbl := hl e o b rfl
        intro x
        by_cases hx : x = e
        · subst hx
          simp only [upd_same]
          intro d hd
          rcases q4 d hd with hd | hd
          · exact hm x d hd
          · omega
        · simp only [upd_other _ _ hx]; exact hm x
    | process =>
      obtain ⟨c2, g1, _, _, _, _, g6, g7⟩ := levels_spec (A := A) T [0, 1, 2, 3] c h
      have : some c2 = some c' := g1.symm.trans hs
      injection this with this
      subst this
      intro x d hd
      have := hm x d (g7 x d hd)
      have := g6 x
      omega
    | send e room =>
      injection hs with hs
      subst hs
      have s := sameIn_send c e room
      unfold Near
      rw [s.tree, s.consumed]
      exact hm

/-! ## Sending -/

/-- What TLS wrote is what was sent and what is in the queue. -/
structure SInv (c : Cnx σ) : Prop where
  all : ∀ e, atLevel e c.wrote = atLevel e (c.sent.map (fun s => (s.1, s.2.2))) ++ (c.queue e).flatten
  off : ∀ e, c.sentOffset e = (atLevel e (c.sent.map (fun s => (s.1, s.2.2)))).length
  frames : ∀ s ∈ c.sent, ∃ pre post, atLevel s.1 c.wrote = pre ++ (s.2.2 ++ post) ∧ pre.length = s.2.1
  ne : ∀ e, ∀ q ∈ c.queue e, q ≠ []

theorem sinv_add {c : Cnx σ} (h : SInv c) (e : Nat) (b : Bytes) : SInv (addToTlsStream c e b) := by
  unfold addToTlsStream
  by_cases hb : b.length > 0
  · rw [if_pos hb]
    refine ⟨?_, h.off, ?_, ?_⟩
    · intro i
      rw [atLevel_append, h.all i]
      by_cases hi : i = e
      · subst hi
        simp only [upd_same, atLevel_one_same, List.flatten_append, List.flatten_cons, List.flatten_nil,
          List.append_nil, List.append_assoc]
      · simp only [upd_other _ _ hi]
        rw [atLevel_one_other _ (fun a => hi a.symm), List.append_nil]
    · intro s hs
      obtain ⟨pre, post, e1, e2⟩ := h.frames s hs
      refine ⟨pre, post ++ atLevel s.1 [(e, b)], ?_, e2⟩
      rw [atLevel_append, e1, List.append_assoc, List.append_assoc]
    · intro i
      by_cases hi : i = e
      · subst hi
        simp only [upd_same]
        intro q hq
        rcases List.mem_append.1 hq with hq | hq
        · exact h.ne i q hq
        · rw [List.mem_singleton] at hq
          subst hq
          exact List.ne_nil_of_length_pos hb
      · simp only [upd_other _ _ hi]; exact h.ne i
  · rw [if_neg hb]; exact h

theorem sinv_addAll (l : List (Nat × Bytes)) : ∀ {c : Cnx σ}, SInv c → SInv (addAll c l) := by
  induction l with
  | nil => exact fun h => h
  | cons p l ih => exact fun h => ih (sinv_add h p.1 p.2)

theorem sinv_feed (T : TlsMachine σ) (e : Nat) (l : List Chunk) : ∀ {c c' : Cnx σ} {f : Bool}, SInv c →
    feed T c e l = some (c', f) → SInv c' := by
  induction l with
  | nil =>
    intro c c' f h hr
    rw [feed] at hr
    injection hr with hr
    injection hr with hr _
    subst hr
    exact ⟨h.all, h.off, h.frames, h.ne⟩
  | cons d ds ih =>
    intro c c' f h hr
    rw [feed] at hr
    split at hr
    · split at hr
      · exact nomatch hr
      · simp only at hr
        split at hr
        · injection hr with hr
          injection hr with hr _
          subst hr
          exact ⟨h.all, h.off, h.frames, h.ne⟩
        · exact ih (sinv_addAll _ (by exact ⟨h.all, h.off, h.frames, h.ne⟩)) hr
    · injection hr with hr
      injection hr with hr _
      subst hr
      exact ⟨h.all, h.off, h.frames, h.ne⟩

theorem sinv_levels (T : TlsMachine σ) (es : List Nat) : ∀ {c c' : Cnx σ}, SInv c →
    processLevels T c es = some c' → SInv c' := by
  induction es with
  | nil => intro c c' h hr; injection hr with hr; exact hr ▸ h
  | cons e es ih =>
    intro c c' h hr
    rw [processLevels] at hr
    split at hr
    · injection hr with hr; exact hr ▸ h
    · split at hr
      · split at hr
        · injection hr with hr; subst hr; exact ⟨h.all, h.off, h.frames, h.ne⟩
        · exact ih h hr
      · split at hr
        · exact nomatch hr
        · rename_i c1 f hf
          have h1 := sinv_feed T e _ h hf
          refine ih ?_ hr
          split
          · exact ⟨h1.all, h1.off, h1.frames, h1.ne⟩
          · exact h1

theorem formatCrypto_le (offset room : Nat) (q : Bytes) : (Frames.formatCrypto offset q room).2 ≤ q.length := by
  unfold Frames.formatCrypto
  split
  · exact Nat.zero_le _
  · split
    · exact Nat.zero_le _
    · simp only
      split
      · exact Nat.zero_le _
      · split
        · exact Nat.zero_le _
        · simp only
          split <;> omega

theorem sinv_send {c : Cnx σ} (h : SInv c) (e room : Nat) : SInv (sendCrypto c e room).1 := by
  unfold sendCrypto
  cases hq : c.queue e with
  | nil => exact h
  | cons q qs =>
    simp only
    by_cases hn : (Frames.formatCrypto (c.sentOffset e) q room).2 > 0
    · rw [if_pos hn]
      have hle := formatCrypto_le (c.sentOffset e) room q
      generalize (Frames.formatCrypto (c.sentOffset e) q room).2 = n at *
      have hfl : (if n < q.length then q.drop n :: qs else qs).flatten = q.drop n ++ qs.flatten := by
        by_cases hlt : n < q.length
        · rw [if_pos hlt]; rfl
        · rw [if_neg hlt, List.drop_of_length_le (by omega), List.nil_append]
      have hall : ∀ i, atLevel i c.wrote =
          atLevel i ((c.sent ++ [(e, c.sentOffset e, q.take n)]).map (fun s => (s.1, s.2.2))) ++
            (upd c.queue e (if n < q.length then q.drop n :: qs else qs) i).flatten := by
        intro i
        rw [List.map_append, atLevel_append, h.all i]
        by_cases hi : i = e
        · subst hi
          rw [upd_same, hfl, hq]
          simp only [List.map_cons, List.map_nil, atLevel_one_same, List.flatten_cons, List.append_assoc]
          rw [← List.append_assoc (List.take n q), List.take_append_drop]
        · rw [upd_other _ _ hi]
          simp only [List.map_cons, List.map_nil]
          rw [atLevel_one_other _ (fun a => hi a.symm), List.append_nil]
      refine ⟨hall, ?_, ?_, ?_⟩
      · intro i
        simp only [List.map_append, atLevel_append, List.length_append, List.map_cons, List.map_nil]
        by_cases hi : i = e
        · subst hi
          rw [upd_same, atLevel_one_same, ← h.off i, List.length_take]
          omega
        · rw [upd_other _ _ hi, atLevel_one_other _ (fun a => hi a.symm), h.off i]
          rfl
      · intro s hs
        rcases List.mem_append.1 hs with hs | hs
        · exact h.frames s hs
        · rw [List.mem_singleton] at hs
          subst hs
          refine ⟨atLevel e (c.sent.map (fun s => (s.1, s.2.2))), q.drop n ++ qs.flatten, ?_, (h.off e).symm⟩
          show atLevel e c.wrote = _ ++ (q.take n ++ _)
          rw [h.all e, hq, ← List.append_assoc (List.take n q), List.take_append_drop]
          rfl
      · intro i
        by_cases hi : i = e
        · subst hi
          simp only [upd_same]
          have hne := h.ne i
          rw [hq] at hne
          intro x hx
          by_cases hlt : n < q.length
          · rw [if_pos hlt] at hx
            rcases List.mem_cons.1 hx with hx | hx
            · subst hx
              intro hnil
              have := congrArg List.length hnil
              rw [List.length_drop, List.length_nil] at this
              omega
            · exact hne x (List.mem_cons_of_mem _ hx)
          · rw [if_neg hlt] at hx
            exact hne x (List.mem_cons_of_mem _ hx)
        · simp only [upd_other _ _ hi]; exact h.ne i
    · rw [if_neg hn]; exact h

theorem sinv_step (T : TlsMachine σ) {c c' : Cnx σ} {op : CryptoOp} (h : SInv c) (hs : step T c op = some c') :
    SInv c' := by
  unfold step at hs
  split at hs
  · injection hs with hs; exact hs ▸ h
  · cases op with
    | crypto e o b =>
      injection hs with hs
      subst hs
      unfold decodeCrypto
      split
      · exact ⟨h.all, h.off, h.frames, h.ne⟩
      · exact ⟨h.all, h.off, h.frames, h.ne⟩
    | process => exact sinv_levels T _ h hs
    | send e room =>
      injection hs with hs
      subst hs
      exact sinv_send h e room

theorem sinv_run (T : TlsMachine σ) (ops : List CryptoOp) : ∀ {c c' : Cnx σ}, SInv c → run T c ops = some c' →
    SInv c' := by
  induction ops with
  | nil => intro c c' h hr; injection hr with hr; exact hr ▸ h
  | cons op ops ih =>
    intro c c' h hr
    rw [run] at hr
    cases hs : step T c op with
    | none => rw [hs] at hr; exact nomatch hr
    | some c1 => rw [hs] at hr; exact ih (sinv_step T h hs) hr

theorem sinv_init (t : σ) (hello : Bytes) : SInv (init t hello) := by
  refine sinv_add ⟨fun _ => rfl, fun _ => rfl, fun _ h => absurd h List.not_mem_nil,
    fun _ _ h => absurd h List.not_mem_nil⟩ 0 hello

/-! ## Peers that keep to the protocol -/

/-- The counters of TLS and ours agree, and the data are within the length of the level. -/
structure HInv (T : TlsMachine σ) (N : Nat → Nat) (count : σ → Nat → Nat) (c : Cnx σ) : Prop where
  cnt : ∀ e, count c.tls e = c.consumed e
  within : ∀ e, ∀ d ∈ c.tree e, d.stop ≤ N e
  err : c.error = none ∨ (c.error = some TLS_FAILED ∧ ∃ s e b, (T.handle s e b).2.1 = true)

theorem hinv_same {T : TlsMachine σ} {N : Nat → Nat} {count : σ → Nat → Nat} {c c' : Cnx σ} (h : HInv T N count c)
    (s : SameIn c c') : HInv T N count c' where
  cnt := by rw [s.tls, s.consumed]; exact h.cnt
  within := by rw [s.tree]; exact h.within
  err := by rw [s.error]; exact h.err

theorem hinv_feed {T : TlsMachine σ} {N : Nat → Nat} {count : σ → Nat → Nat} (hT : T.Counts N count) (e : Nat)
    (l : List Chunk) : ∀ {c c' : Cnx σ} {f : Bool}, HInv T N count c → c.tree e = l → feed T c e l = some (c', f) →
    HInv T N count c' := by
  induction l with
  | nil =>
    intro c c' f h ht hr
    rw [feed] at hr
    injection hr with hr
    injection hr with hr _
    subst hr
    refine ⟨h.cnt, ?_, h.err⟩
    intro i
    by_cases hi : i = e
    · subst hi; simp only [upd_same]; exact fun _ a => absurd a List.not_mem_nil
    · simp only [upd_other _ _ hi]; exact h.within i
  | cons d ds ih =>
    intro c c' f h ht hr
    rw [feed] at hr
    have hw : ∀ i, ∀ x ∈ upd c.tree e ds i, x.stop ≤ N i := by
      intro i
      by_cases hi : i = e
      · subst hi
        rw [upd_same]
        intro x hx
        exact h.within i x (by rw [ht]; exact List.mem_cons_of_mem _ hx)
      · rw [upd_other _ _ hi]; exact h.within i
    have hc : ∀ (b : Bytes) i, count (T.handle c.tls e b).1 i = upd c.consumed e (c.consumed e + b.length) i := by
      intro b i
      rw [hT.add]
      by_cases hi : i = e
      · subst hi; rw [if_pos rfl, upd_same, h.cnt]
      · rw [if_neg hi, upd_other _ _ hi, h.cnt]
    split at hr
    · split at hr
      · exact nomatch hr
      · simp only at hr
        split at hr
        · injection hr with hr
          injection hr with hr _
          subst hr
          exact ⟨hc _, hw, h.err⟩
        · have hs := sameIn_addAll (T.handle c.tls e (d.bytes.drop (c.consumed e - d.offset))).2.2 ({ c with
            tls := (T.handle c.tls e (d.bytes.drop (c.consumed e - d.offset))).1
            fed := c.fed ++ [(e, d.bytes.drop (c.consumed e - d.offset))]
            consumed := upd c.consumed e (c.consumed e + (d.bytes.drop (c.consumed e - d.offset)).length)
            tree := upd c.tree e ds } : Cnx σ)
          have h1 : HInv T N count ({ c with
            tls := (T.handle c.tls e (d.bytes.drop (c.consumed e - d.offset))).1
            fed := c.fed ++ [(e, d.bytes.drop (c.consumed e - d.offset))]
            consumed := upd c.consumed e (c.consumed e + (d.bytes.drop (c.consumed e - d.offset)).length)
            tree := upd c.tree e ds } : Cnx σ) := ⟨hc _, hw, h.err⟩
          exact ih (hinv_same h1 hs) (by rw [hs.tree]; exact upd_same _ _ _) hr
    · injection hr with hr
      injection hr with hr _
      subst hr
      refine ⟨h.cnt, ?_, h.err⟩
      intro i
      by_cases hi : i = e
      · subst hi; simp only [upd_same]; rw [← ht]; exact h.within i
      · simp only [upd_other _ _ hi]; exact h.within i

theorem feed_failed (T : TlsMachine σ) (e : Nat) (l : List Chunk) : ∀ {c c' : Cnx σ}, feed T c e l = some (c', true) →
    ∃ s e b, (T.handle s e b).2.1 = true := by
  induction l with
  | nil =>
    intro c c' hr
    rw [feed] at hr
    injection hr with hr
    injection hr with _ hr
    exact nomatch hr
  | cons d ds ih =>
    intro c c' hr
    rw [feed] at hr
    split at hr
    · split at hr
      · exact nomatch hr
      · simp only at hr
        split at hr
        · rename_i hf
          exact ⟨_, _, _, hf⟩
        · exact ih hr
    · injection hr with hr
      injection hr with _ hr
      exact nomatch hr

theorem hinv_levels {A : Nat → Nat → UInt8 → Prop} {T : TlsMachine σ} {N : Nat → Nat} {count : σ → Nat → Nat}
    (hT : T.Counts N count) (es : List Nat) : ∀ {c c' : Cnx σ}, RInv A c → HInv T N count c →
    processLevels T c es = some c' → HInv T N count c' := by
  induction es with
  | nil => intro c c' _ h hr; injection hr with hr; exact hr ▸ h
  | cons e es ih =>
    intro c c' hi h hr
    rw [processLevels] at hr
    by_cases h1 : e > T.reads c.tls
    · rw [if_pos h1] at hr; injection hr with hr; exact hr ▸ h
    · rw [if_neg h1] at hr
      by_cases h2 : e < T.reads c.tls
      · rw [if_pos h2] at hr
        have hg : hasGap (c.consumed e) (c.tree e) = false := by
          cases ht : c.tree e with
          | nil => rfl
          | cons d ds =>
            have hN := hT.leaves c.tls e h2
            rw [h.cnt e] at hN
            have hd : d ∈ c.tree e := by rw [ht]; exact List.mem_cons_self
            have := h.within e d hd
            have := stop_gt (hi.ord e) d hd
            simp only [hasGap, decide_eq_false_iff_not]
            omega
        rw [hg, if_neg (fun a => nomatch a)] at hr
        exact ih hi h hr
      · rw [if_neg h2] at hr
        obtain ⟨c1, f, f1, f2, _⟩ := feed_spec (A := A) T e (c.tree e) c hi rfl
        rw [f1] at hr
        simp only at hr
        have hh := hinv_feed hT e (c.tree e) h rfl f1
        cases f with
        | true =>
          rw [if_pos rfl] at hr
          exact ih (c := { c1 with error := some TLS_FAILED }) ⟨f2.ord, f2.low, f2.fedA, f2.len⟩
            ⟨hh.cnt, hh.within, Or.inr ⟨rfl, feed_failed T e _ f1⟩⟩ hr
        | false =>
          rw [if_neg (fun a => nomatch a)] at hr
          exact ih f2 hh hr

theorem hinv_step {A : Nat → Nat → UInt8 → Prop} {T : TlsMachine σ} {N : Nat → Nat} {count : σ → Nat → Nat}
    (hT : T.Counts N count) (hN : ∀ e, N e ≤ GAP) {c c' : Cnx σ} {op : CryptoOp} (hi : RInv A c)
    (h : HInv T N count c) (ha : Allowed A [op]) (hl : ∀ e o b, op = .crypto e o b → o + b.length ≤ N e)
    (hs : step T c op = some c') : HInv T N count c' := by
  unfold step at hs
  split at hs
  · injection hs with hs; exact hs ▸ h
  · cases op with
    | crypto e o b =>
      injection hs with hs
      subst hs
      have hlen := hl e o b rfl
      have := hN e
      unfold decodeCrypto
      rw [if_neg (by omega)]
      obtain ⟨_, _, _, q4⟩ := queueNetworkInput_spec (A e) (c.tree e) (c.consumed e) o b
        (ha e o b List.mem_cons_self) (hi.ord e)
      refine ⟨h.cnt, ?_, h.err⟩
      intro x
      by_cases hx : x = e
      · subst hx
        simp only [upd_same]
        intro d hd
        rcases q4 d hd with hd | hd
        · exact h.within x d hd
        · omega
      · simp only [upd_other _ _ hx]; exact h.within x
    | process => exact hinv_levels hT _ hi h hs
    | send e room =>
      injection hs with hs
      subst hs
      exact hinv_same h (sameIn_send c e room)

theorem hinv_run {A : Nat → Nat → UInt8 → Prop} {T : TlsMachine σ} {N : Nat → Nat} {count : σ → Nat → Nat}
    (hT : T.Counts N count) (hN : ∀ e, N e ≤ GAP) (ops : List CryptoOp) : ∀ {c c' : Cnx σ}, RInv A c →
    HInv T N count c → Allowed A ops → (∀ e o b, .crypto e o b ∈ ops → o + b.length ≤ N e) →
    run T c ops = some c' → HInv T N count c' := by
  induction ops with
  | nil => intro c c' _ h _ _ hr; injection hr with hr; exact hr ▸ h
  | cons op ops ih =>
    intro c c' hi h ha hl hr
    have ha1 : Allowed A [op] :=
      fun e o b hm => ha e o b (by rw [List.mem_singleton] at hm; rw [hm]; exact List.mem_cons_self)
    obtain ⟨c1, s1, s2, _⟩ := step_in T hi ha1
    rw [run, s1] at hr
    exact ih s2 (hinv_step hT hN hi h ha1 (fun e o b he => hl e o b (he ▸ List.mem_cons_self)) s1)
      (fun e o b hm => ha e o b (List.mem_cons_of_mem _ hm))
      (fun e o b hm => hl e o b (List.mem_cons_of_mem _ hm)) hr

theorem near_run {A : Nat → Nat → UInt8 → Prop} (T : TlsMachine σ) {M : Nat} (ops : List CryptoOp) :
    ∀ {c c' : Cnx σ}, RInv A c → Near M c → Allowed A ops → (∀ e o b, .crypto e o b ∈ ops → b.length ≤ M) →
    run T c ops = some c' → Near M c' := by
  induction ops with
  | nil => intro c c' _ h _ _ hr; injection hr with hr; exact hr ▸ h
  | cons op ops ih =>
    intro c c' hi h ha hl hr
    have ha1 : Allowed A [op] :=
      fun e o b hm => ha e o b (by rw [List.mem_singleton] at hm; rw [hm]; exact List.mem_cons_self)
    obtain ⟨c1, s1, s2, _⟩ := step_in T hi ha1
    rw [run, s1] at hr
    exact ih s2 (near_step T hi h ha1 (fun e o b he => hl e o b (he ▸ List.mem_cons_self)) s1)
      (fun e o b hm => ha e o b (List.mem_cons_of_mem _ hm))
      (fun e o b hm => hl e o b (List.mem_cons_of_mem _ hm)) hr

theorem kept_eq (l : List Chunk) : (l.map (fun d => d.bytes.length)).sum = kept l := by
  induction l with
  | nil => rfl
  | cons d ds ih => rw [List.map_cons, List.sum_cons, ih, kept]

theorem allowed_arrived (ops : List CryptoOp) : Allowed (ArrivedByte ops) ops :=
  fun _ o b hm i _ hx => ⟨o, b, i, hm, hx, rfl⟩

theorem run_append (T : TlsMachine σ) (ops1 ops2 : List CryptoOp) : ∀ {c : Cnx σ},
    run T c (ops1 ++ ops2) = (run T c ops1).bind (fun c1 => run T c1 ops2) := by
  induction ops1 with
  | nil => intro c; rfl
  | cons op ops ih =>
    intro c
    rw [List.cons_append, run, run]
    cases step T c op with
    | none => rfl
    | some c1 => exact ih

end Picoquic.TlsStream
