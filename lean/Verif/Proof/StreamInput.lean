import Verif.Spec.ByteStream
/-!
# Proofs about stream reassembly
-/

namespace Picoquic.StreamInput
open Picoquic Picoquic.Spec

/-! ## Agreement -/

theorem agree_nil (A : Nat → UInt8 → Prop) (o : Nat) : Agree A o [] := by intro i x h; simp at h

theorem agree_append {A : Nat → UInt8 → Prop} {o : Nat} {a b : Bytes} (ha : Agree A o a)
    (hb : Agree A (o + a.length) b) : Agree A o (a ++ b) := by
  intro i x h
  rw [List.getElem?_append] at h
  split at h
  · exact ha i x h
  · have := hb _ x h
    rwa [show o + a.length + (i - a.length) = o + i by omega] at this

theorem agree_drop {A : Nat → UInt8 → Prop} {o : Nat} {b : Bytes} (h : Agree A o b) (k : Nat) :
    Agree A (o + k) (b.drop k) := by
  intro i x hx
  rw [List.getElem?_drop] at hx
  have := h _ x hx
  rwa [show o + (k + i) = o + k + i by omega] at this

theorem agree_take {A : Nat → UInt8 → Prop} {o : Nat} {b : Bytes} (h : Agree A o b) (k : Nat) :
    Agree A o (b.take k) := by
  intro i x hx
  rw [List.getElem?_take] at hx
  split at hx
  · exact h i x hx
  · cases hx

theorem agree_mono {A B : Nat → UInt8 → Prop} {o : Nat} {b : Bytes} (h : Agree A o b)
    (hab : ∀ i x, A i x → B i x) : Agree B o b := fun i x hx => hab _ _ (h i x hx)

/-- Bytes that agree with a stream are a slice of it. -/
theorem agree_eq_slice {S : Nat → UInt8} {o : Nat} {b : Bytes} (h : Agree (fun i x => x = S i) o b) :
    b = slice S o b.length := by
  apply List.ext_getElem?
  intro i
  by_cases hi : i < b.length
  · have := h i _ (List.getElem?_eq_getElem hi)
    rw [List.getElem?_eq_getElem hi, this]
    simp [slice, hi]
  · rw [List.getElem?_eq_none (by omega), List.getElem?_eq_none (by simp [slice]; omega)]

theorem slice_agree (S : Nat → UInt8) (o n : Nat) : Agree (fun i x => x = S i) o (slice S o n) := by
  intro i x h
  simp only [slice, List.getElem?_map, Option.map_eq_some_iff, List.getElem?_range'] at h
  obtain ⟨a, ha, rfl⟩ := h
  rw [List.getElem?_eq_some_iff] at ha
  obtain ⟨h1, h2⟩ := ha
  simp at h2
  rw [h2]

/-! ## The automaton of acceptable events -/

/-- Process events from position `n` to `n'`; `d` tells whether the end was signalled before, `d'`
after. -/
def Accept (A : Nat → UInt8 → Prop) : Nat → Bool → List Event → Nat → Bool → Prop
  | n, d, [], n', d' => n' = n ∧ d' = d
  | n, d, .data b :: es, n', d' =>
    d = false ∧ b ≠ [] ∧ Agree A n b ∧ Accept A (n + b.length) d es n' d'
  | n, d, .fin b :: es, n', d' =>
    d = false ∧ Agree A n b ∧ Accept A (n + b.length) true es n' d'
  | n, d, .reset :: es, n', d' => Accept A n d es n' d'

theorem accept_append {A : Nat → UInt8 → Prop} {es fs : List Event} {n n' n'' : Nat} {d d' d'' : Bool}
    (h : Accept A n d es n' d') (h' : Accept A n' d' fs n'' d'') : Accept A n d (es ++ fs) n'' d'' := by
  induction es generalizing n d with
  | nil => obtain ⟨rfl, rfl⟩ := h; exact h'
  | cons e es ih =>
    cases e with
    | data b => exact ⟨h.1, h.2.1, h.2.2.1, ih h.2.2.2⟩
    | fin b => exact ⟨h.1, h.2.1, ih h.2.2⟩
    | reset => exact ih h

theorem accept_mono {A B : Nat → UInt8 → Prop} {es : List Event} {n n' : Nat} {d d' : Bool}
    (h : Accept A n d es n' d') (hab : ∀ i x, A i x → B i x) : Accept B n d es n' d' := by
  induction es generalizing n d with
  | nil => exact h
  | cons e es ih =>
    cases e with
    | data b => exact ⟨h.1, h.2.1, agree_mono h.2.2.1 hab, ih h.2.2.2⟩
    | fin b => exact ⟨h.1, agree_mono h.2.1 hab, ih h.2.2⟩
    | reset => exact ih h

/-- What acceptance means. -/
theorem accept_spec {A : Nat → UInt8 → Prop} {es : List Event} {n : Nat} {d : Bool} {n' : Nat} {d' : Bool}
    (h : Accept A n d es n' d') :
    n' = n + (dataOf es).length ∧ Agree A n (dataOf es) ∧
    finCount es + (if d then 1 else 0) = (if d' then 1 else 0) := by
  induction es generalizing n d with
  | nil =>
    obtain ⟨rfl, rfl⟩ := h
    simp [dataOf, finCount, agree_nil]
  | cons e es ih =>
    cases e with
    | data b =>
      obtain ⟨h1, h2, h3⟩ := ih h.2.2.2
      refine ⟨?_, agree_append h.2.2.1 h2, ?_⟩
      · simp only [dataOf, List.length_append]; omega
      · simpa [finCount] using h3
    | fin b =>
      obtain ⟨h1, h2, h3⟩ := ih h.2.2
      have hd' : d' = true := by
        cases d' with
        | true => rfl
        | false => simp at h3
      refine ⟨?_, agree_append h.2.1 h2, ?_⟩
      · simp only [dataOf, List.length_append]; omega
      · rw [hd'] at h3 ⊢
        simp only [h.1, finCount, if_true] at h3 ⊢
        simpa using h3
    | reset =>
      obtain ⟨h1, h2, h3⟩ := ih h
      exact ⟨by simpa [dataOf] using h1, by simpa [dataOf] using h2, by simpa [finCount] using h3⟩

/-- After the end, only resets. -/
theorem accept_after_end {A : Nat → UInt8 → Prop} {es : List Event} {n n' : Nat} {d' : Bool}
    (h : Accept A n true es n' d') : ∀ e ∈ es, e = .reset := by
  induction es generalizing n with
  | nil => simp
  | cons e es ih =>
    cases e with
    | data b => simp [Accept] at h
    | fin b => simp [Accept] at h
    | reset =>
      intro e he
      simp only [List.mem_cons] at he
      rcases he with rfl | he
      · rfl
      · exact ih h e he

/-! ## Chunks -/

/-- Position `i` is in one of the chunks. -/
def InChunks (cs : List Chunk) (i : Nat) : Prop := ∃ c ∈ cs, c.offset ≤ i ∧ i < c.stop

theorem inChunks_cons (c : Chunk) (cs : List Chunk) (i : Nat) :
    InChunks (c :: cs) i ↔ (c.offset ≤ i ∧ i < c.stop) ∨ InChunks cs i := by
  simp [InChunks]

theorem inChunks_append (cs ds : List Chunk) (i : Nat) :
    InChunks (cs ++ ds) i ↔ InChunks cs i ∨ InChunks ds i := by
  simp only [InChunks, List.mem_append]
  constructor
  · rintro ⟨c, h | h, hc⟩
    · exact Or.inl ⟨c, h, hc⟩
    · exact Or.inr ⟨c, h, hc⟩
  · rintro (⟨c, h, hc⟩ | ⟨c, h, hc⟩)
    · exact ⟨c, Or.inl h, hc⟩
    · exact ⟨c, Or.inr h, hc⟩

/-- Chunks in order, without overlap, non-empty, with the bytes of the stream. -/
def Ordered (A : Nat → UInt8 → Prop) (cs : List Chunk) : Prop :=
  cs.Pairwise (fun a b => a.stop ≤ b.offset) ∧
    ∀ c ∈ cs, c.bytes ≠ [] ∧ Agree A c.offset c.bytes

theorem Ordered.tail {A : Nat → UInt8 → Prop} {c : Chunk} {cs : List Chunk} (h : Ordered A (c :: cs)) :
    Ordered A cs := ⟨(List.pairwise_cons.1 h.1).2, fun d hd => h.2 d (by simp [hd])⟩

theorem stop_gt {A : Nat → UInt8 → Prop} {cs : List Chunk} (h : Ordered A cs) (c : Chunk) (hc : c ∈ cs) :
    c.offset < c.stop := by
  have := (h.2 c hc).1
  have : 0 < c.bytes.length := List.length_pos_iff.2 this
  unfold Chunk.stop; omega

/-- Insertion at its place. -/
theorem insertChunk_middle (c : Chunk) (pre post : List Chunk)
    (h1 : ∀ d ∈ pre, d.offset ≤ c.offset) (h2 : ∀ d ∈ post, c.offset < d.offset) :
    insertChunk c (pre ++ post) = pre ++ c :: post := by
  induction pre with
  | nil =>
    cases post with
    | nil => rfl
    | cons d ds => simp [insertChunk, h2 d (by simp)]
  | cons d ds ih =>
    have := h1 d (by simp)
    simp only [List.cons_append, insertChunk, if_neg (show ¬ c.offset < d.offset by omega)]
    rw [ih (fun e he => h1 e (by simp [he]))]

theorem splitAt_spec (off : Nat) (cs : List Chunk) :
    (∃ pre, cs = pre ++ (splitAt off cs).2 ∧ (splitAt off cs).1 = pre.getLast? ∧
      ∀ d ∈ pre, d.offset ≤ off) ∧
    (∀ d ds, (splitAt off cs).2 = d :: ds → off < d.offset) := by
  induction cs with
  | nil => exact ⟨⟨[], rfl, rfl, by simp⟩, by simp [splitAt]⟩
  | cons c cs ih =>
    obtain ⟨⟨pre, h1, h2, h3⟩, h4⟩ := ih
    simp only [splitAt]
    by_cases hc : c.offset ≤ off
    · rw [if_pos hc]
      cases hs : splitAt off cs with
      | mk p rest =>
        rw [hs] at h1 h2 h4
        simp only at h1 h2 h4
        cases p with
        | none =>
          simp only
          have : pre = [] := by
            cases pre with
            | nil => rfl
            | cons a l => simp [List.getLast?_cons] at h2
          subst this
          refine ⟨⟨[c], ?_, rfl, by simpa using hc⟩, h4⟩
          simpa using h1
        | some d =>
          simp only
          refine ⟨⟨c :: pre, ?_, ?_, ?_⟩, h4⟩
          · rw [List.cons_append, ← h1]
          · cases pre with
            | nil => simp at h2
            | cons a l => rw [h2]; simp [List.getLast?_cons]
          · intro d hd
            simp only [List.mem_cons] at hd
            rcases hd with rfl | hd
            · exact hc
            · exact h3 d hd
    · rw [if_neg hc]
      refine ⟨⟨[], rfl, rfl, by simp⟩, ?_⟩
      intro d ds hd
      simp only [List.cons.injEq] at hd
      rw [← hd.1]; omega

/-- The loop: the frame covers `[begin_, stop)`; everything before `fdo` is in place. -/
theorem queueLoop_spec (A : Nat → UInt8 → Prop) (begin_ stop : Nat) (bytes : Bytes)
    (hb : Agree A begin_ bytes) (hstop : stop = begin_ + bytes.length)
    (next : List Chunk) (pre : List Chunk) (fdo : Nat) (added : Bool)
    (hfb : begin_ ≤ fdo) (hord : Ordered A (pre ++ next)) (hpre : ∀ d ∈ pre, d.stop ≤ fdo)
    (hnext : ∀ d ∈ next, fdo ≤ d.offset) (hlo : Nat)
    (hcov : ∀ i, hlo ≤ i → i < fdo → i < stop → InChunks pre i) (hlofdo : hlo ≤ fdo) :
    ∃ pre' next' fdo' added', queueLoop begin_ stop bytes (pre ++ next) fdo added next =
        (pre' ++ next', fdo', added') ∧
      Ordered A (pre' ++ next') ∧ fdo ≤ fdo' ∧
      (∀ d ∈ pre', d.stop ≤ fdo') ∧ (∀ d ∈ next', fdo' ≤ d.offset) ∧
      (fdo' < stop → ∀ d ∈ next', stop ≤ d.offset) ∧
      (∀ i, hlo ≤ i → i < fdo' → i < stop → InChunks pre' i) ∧
      (∀ i, InChunks (pre' ++ next') i ↔ InChunks (pre ++ next) i ∨
        (fdo ≤ i ∧ i < fdo' ∧ i < stop)) ∧
      (added' = true ∨ (added' = added ∧ pre' ++ next' = pre ++ next)) ∧
      (∀ d ∈ pre' ++ next', d ∈ pre ++ next ∨ (fdo ≤ d.offset ∧ d.stop ≤ stop)) := by
  induction next generalizing pre fdo added with
  | nil =>
    refine ⟨pre, [], fdo, added, rfl, hord, Nat.le_refl _, hpre, by simp, by simp, hcov, ?_,
      Or.inr ⟨rfl, rfl⟩, fun d hd => Or.inl hd⟩
    intro i
    constructor
    · exact Or.inl
    · rintro (h | ⟨h1, h2, _⟩)
      · exact h
      · omega
  | cons n ns ih =>
    simp only [queueLoop]
    have hn1 := hnext n (by simp)
    have hnstop := stop_gt hord n (by simp)
    have hns : ∀ d ∈ ns, n.stop ≤ d.offset := by
      have := (List.pairwise_append.1 hord.1).2.1
      exact (List.pairwise_cons.1 this).1
    by_cases hc : fdo < stop ∧ n.offset < stop
    · rw [if_pos hc]
      by_cases hg : n.offset > fdo
      · rw [if_pos hg]
        -- a chunk fills the gap
        have hins : addChunkNode (pre ++ n :: ns) fdo (n.offset - fdo) begin_ bytes =
            (pre ++ [⟨fdo, (bytes.drop (fdo - begin_)).take (n.offset - fdo)⟩]) ++ n :: ns := by
          unfold addChunkNode
          rw [insertChunk_middle]
          · simp
          · intro d hd
            have := hpre d hd
            have := stop_gt hord d (by simp [hd])
            simp only; omega
          · intro d hd
            simp only [List.mem_cons] at hd
            rcases hd with rfl | hd
            · exact hg
            · have := hns d hd
              simp only; omega
        have hbytes : Agree A fdo ((bytes.drop (fdo - begin_)).take (n.offset - fdo)) := by
          have := agree_take (agree_drop hb (fdo - begin_)) (n.offset - fdo)
          rwa [show begin_ + (fdo - begin_) = fdo by omega] at this
        have hlen : ((bytes.drop (fdo - begin_)).take (n.offset - fdo)).length = n.offset - fdo := by
          simp only [List.length_take, List.length_drop]; omega
        rw [hins]
        generalize hbs : (bytes.drop (fdo - begin_)).take (n.offset - fdo) = bs at hbytes hlen ⊢
        generalize hg' : (⟨fdo, bs⟩ : Chunk) = g
        have hgo : g.offset = fdo := by rw [← hg']
        have hgs : g.stop = n.offset := by
          rw [← hg']; simp only [Chunk.stop, hlen]; omega
        have hgb : Agree A g.offset g.bytes ∧ g.bytes ≠ [] := by
          rw [← hg']
          refine ⟨hbytes, ?_⟩
          intro h0
          have := congrArg List.length h0
          simp only [hlen, List.length_nil] at this
          omega
        have hsplit : pre ++ [g] ++ n :: ns = (pre ++ [g, n]) ++ ns := by simp
        rw [hsplit]
        have hord' : Ordered A ((pre ++ [g, n]) ++ ns) := by
          constructor
          · have hp := hord.1
            rw [← hsplit]
            simp only [List.append_assoc, List.singleton_append]
            rw [List.pairwise_append] at hp ⊢
            refine ⟨hp.1, List.pairwise_cons.2 ⟨?_, hp.2.1⟩, ?_⟩
            · intro d hd
              simp only [List.mem_cons] at hd
              rcases hd with rfl | hd
              · omega
              · have := hns d hd; omega
            · intro a ha b hb'
              simp only [List.mem_cons] at hb'
              rcases hb' with rfl | hb'
              · have := hpre a ha; omega
              · exact hp.2.2 a ha b (by simpa using hb')
          · intro c hc'
            rw [← hsplit] at hc'
            simp only [List.append_assoc, List.singleton_append, List.mem_append, List.mem_cons] at hc'
            rcases hc' with hc' | rfl | rfl | hc'
            · exact hord.2 c (by simp [hc'])
            · exact ⟨hgb.2, hgb.1⟩
            · exact hord.2 c (by simp)
            · exact hord.2 c (by simp [hc'])
        obtain ⟨pre', next', fdo', added', r1, r2, r3, r4, r5, r6, r7, r8, r9, r10⟩ :=
          ih (pre ++ [g, n]) n.stop true (by omega) hord' (by
            intro d hd
            simp only [List.mem_append, List.mem_cons, List.not_mem_nil, or_false] at hd
            rcases hd with hd | rfl | rfl
            · have := hpre d hd; omega
            · omega
            · omega) hns (by
            intro i h1 h2 h3
            rw [inChunks_append]
            by_cases hi : i < fdo
            · exact Or.inl (hcov i h1 hi h3)
            · right
              by_cases hi2 : i < n.offset
              · exact ⟨g, by simp, by omega, by omega⟩
              · exact ⟨n, by simp, by omega, by omega⟩) (by omega)
        refine ⟨pre', next', fdo', added', r1, r2, by omega, r4, r5, r6, r7, ?_, ?_, ?_⟩
        · intro i
          rw [r8 i]
          rw [← hsplit]
          simp only [inChunks_append, inChunks_cons, hgo, hgs]
          have hnil : ¬ InChunks [] i := by simp [InChunks]
          constructor
          · rintro ((((h | (h | h)) | h | h)) | h)
            · exact Or.inl (Or.inl h)
            · right; omega
            · exact absurd h hnil
            · exact Or.inl (Or.inr (Or.inl h))
            · exact Or.inl (Or.inr (Or.inr h))
            · right; omega
          · rintro ((h | h | h) | h)
            · exact Or.inl (Or.inl (Or.inl h))
            · exact Or.inl (Or.inr (Or.inl h))
            · exact Or.inl (Or.inr (Or.inr h))
            · by_cases hi : i < n.offset
              · exact Or.inl (Or.inl (Or.inr (Or.inl ⟨h.1, hi⟩)))
              · by_cases hi2 : i < n.stop
                · exact Or.inl (Or.inr (Or.inl ⟨by omega, hi2⟩))
                · right; omega
        · rcases r9 with h | ⟨h, _⟩
          · exact Or.inl h
          · exact Or.inl h
        · intro d hd
          rcases r10 d hd with h | h
          · rw [← hsplit] at h
            simp only [List.append_assoc, List.singleton_append, List.mem_append, List.mem_cons] at h
            rcases h with h | rfl | rfl | h
            · left; simp [h]
            · right; omega
            · left; simp
            · left; simp [h]
          · right; omega
      · rw [if_neg hg]
        have heq : n.offset = fdo := by omega
        have hsplit : pre ++ n :: ns = (pre ++ [n]) ++ ns := by simp
        rw [hsplit] at hord ⊢
        obtain ⟨pre', next', fdo', added', r1, r2, r3, r4, r5, r6, r7, r8, r9, r10⟩ :=
          ih (pre ++ [n]) n.stop added (by omega) hord (by
            intro d hd
            simp only [List.mem_append, List.mem_cons, List.not_mem_nil, or_false] at hd
            rcases hd with hd | rfl
            · have := hpre d hd; omega
            · omega) hns (by
            intro i h1 h2 h3
            rw [inChunks_append]
            by_cases hi : i < fdo
            · exact Or.inl (hcov i h1 hi h3)
            · right
              exact ⟨n, by simp, by omega, by omega⟩) (by omega)
        refine ⟨pre', next', fdo', added', r1, r2, by omega, r4, r5, r6, r7, ?_, r9, ?_⟩
        · intro i
          rw [r8 i]
          constructor
          · rintro (h | h)
            · exact Or.inl h
            · right; omega
          · rintro (h | h)
            · exact Or.inl h
            · by_cases hi2 : i < n.stop
              · left
                rw [inChunks_append, inChunks_append]
                exact Or.inl (Or.inr ⟨n, by simp, by omega, by omega⟩)
              · right; omega
        · intro d hd
          rcases r10 d hd with h | h
          · exact Or.inl h
          · right; omega
    · rw [if_neg hc]
      refine ⟨pre, n :: ns, fdo, added, rfl, hord, Nat.le_refl _, hpre, hnext, ?_, hcov, ?_,
        Or.inr ⟨rfl, rfl⟩, fun d hd => Or.inl hd⟩
      · intro hlt d hd
        simp only [List.mem_cons] at hd
        rcases hd with rfl | hd
        · omega
        · have := hns d hd; omega
      · intro i
        constructor
        · exact Or.inl
        · rintro (h | ⟨h1, h2, _⟩)
          · exact h
          · omega

/-- The queueing of a frame: the chunks stay ordered and the frame is added to what they cover. -/
theorem queueNetworkInput_spec (A : Nat → UInt8 → Prop) (tree : List Chunk) (consumed offset : Nat)
    (bytes : Bytes) (hb : Agree A offset bytes) (hord : Ordered A tree) :
    Ordered A (queueNetworkInput tree consumed offset bytes).1 ∧
    (∀ i, InChunks (queueNetworkInput tree consumed offset bytes).1 i ↔ InChunks tree i ∨
      (max offset consumed ≤ i ∧ i < offset + bytes.length)) ∧
    ((queueNetworkInput tree consumed offset bytes).2 = false →
      (queueNetworkInput tree consumed offset bytes).1 = tree) ∧
    (∀ d ∈ (queueNetworkInput tree consumed offset bytes).1, d ∈ tree ∨
      (max offset consumed ≤ d.offset ∧ d.stop ≤ offset + bytes.length)) := by
  unfold queueNetworkInput
  simp only
  have hm : (if offset < consumed then consumed else offset) = max offset consumed := by
    split <;> omega
  rw [hm]
  generalize hlo : max offset consumed = lo at *
  by_cases hlt : lo < offset + bytes.length
  · rw [if_pos hlt]
    obtain ⟨⟨pre, h1, h2, h3⟩, h4⟩ := splitAt_spec lo tree
    generalize hsp : splitAt lo tree = sp at *
    obtain ⟨prev, nexts⟩ := sp
    simp only at h1 h2 h4 ⊢
    -- where to start
    have hfdo : ∃ fdo, startAfter lo prev = fdo ∧ lo ≤ fdo ∧
        (∀ d ∈ pre, d.stop ≤ fdo) ∧ (∀ d ∈ nexts, fdo ≤ d.offset) ∧
        (∀ i, lo ≤ i → i < fdo → i < offset + bytes.length → InChunks pre i) := by
      refine ⟨_, rfl, ?_⟩
      rw [h1] at hord
      have hpw := List.pairwise_append.1 hord.1
      have hnx : ∀ d ∈ nexts, lo < d.offset := by
        cases hn : nexts with
        | nil => simp
        | cons n ns =>
          have hlt0 := h4 n ns hn
          intro d hd
          simp only [List.mem_cons] at hd
          rcases hd with rfl | hd
          · exact hlt0
          · have hp2 := hpw.2.1
            rw [hn] at hp2
            have := (List.pairwise_cons.1 hp2).1 d hd
            have := stop_gt hord n (by simp [hn])
            omega
      cases prev with
      | none =>
        have hpn : pre = [] := by
          cases pre with
          | nil => rfl
          | cons a l => simp [List.getLast?_cons] at h2
        subst hpn
        simp only [startAfter]
        refine ⟨Nat.le_refl _, by simp, fun d hd => by have := hnx d hd; omega, ?_⟩
        intro i ha hb' _
        omega
      | some p =>
        simp only [startAfter]
        obtain ⟨ini, hini⟩ : ∃ ini, pre = ini ++ [p] := by
          exact List.getLast?_eq_some_iff.1 h2.symm
        have hpmem : p ∈ pre := by rw [hini]; simp
        have hpst := stop_gt hord p (by simp [hpmem])
        have hall : ∀ d ∈ pre, d.stop ≤ p.stop := by
          intro d hd
          rw [hini] at hd
          simp only [List.mem_append, List.mem_cons, List.not_mem_nil, or_false] at hd
          rcases hd with hd | rfl
          · have hp1 := hpw.1
            rw [hini] at hp1
            have := (List.pairwise_append.1 hp1).2.2 d hd p (by simp)
            omega
          · omega
        have hnx2 : ∀ d ∈ nexts, p.stop ≤ d.offset := fun d hd => hpw.2.2 p hpmem d hd
        split
        · refine ⟨by omega, fun d hd => by have := hall d hd; omega,
            fun d hd => by have := hnx d hd; omega, ?_⟩
          intro i ha hb' _
          omega
        · refine ⟨by omega, hall, hnx2, ?_⟩
          intro i ha hb' _
          exact ⟨p, hpmem, by have := h3 p hpmem; omega, hb'⟩
    obtain ⟨fdo, hf, hf1, hf2, hf3, hf4⟩ := hfdo
    rw [hf]
    subst h1
    obtain ⟨pre', next', fdo', added', r1, r2, r3, r4, r5, r6, r7, r8, r9, r10⟩ :=
      queueLoop_spec A offset (offset + bytes.length) bytes hb rfl nexts pre fdo false (by omega) hord
        hf2 hf3 lo hf4 hf1
    rw [r1]
    simp only
    have hcov0 : ∀ i, lo ≤ i → i < fdo → i < offset + bytes.length → InChunks (pre ++ nexts) i :=
      fun i a b c => (inChunks_append _ _ _).2 (Or.inl (hf4 i a b c))
    by_cases hend : fdo' < offset + bytes.length
    · rw [if_pos hend]
      simp only
      have hn' := r6 hend
      have hbytes : Agree A fdo' ((bytes.drop (fdo' - offset)).take (offset + bytes.length - fdo')) := by
        have := agree_take (agree_drop hb (fdo' - offset)) (offset + bytes.length - fdo')
        rwa [show offset + (fdo' - offset) = fdo' by omega] at this
      have hlen : ((bytes.drop (fdo' - offset)).take (offset + bytes.length - fdo')).length =
          offset + bytes.length - fdo' := by
        simp only [List.length_take, List.length_drop]; omega
      have hins : addChunkNode (pre' ++ next') fdo' (offset + bytes.length - fdo') offset bytes =
          pre' ++ ⟨fdo', (bytes.drop (fdo' - offset)).take (offset + bytes.length - fdo')⟩ :: next' := by
        unfold addChunkNode
        rw [insertChunk_middle]
        · intro d hd
          have := r4 d hd
          have := stop_gt r2 d (by simp [hd])
          simp only; omega
        · intro d hd
          have := hn' d hd
          simp only; omega
      rw [hins]
      generalize hbs : (bytes.drop (fdo' - offset)).take (offset + bytes.length - fdo') = bs at hbytes hlen ⊢
      generalize hg' : (⟨fdo', bs⟩ : Chunk) = g
      have hgo : g.offset = fdo' := by rw [← hg']
      have hgs : g.stop = offset + bytes.length := by
        rw [← hg']; simp only [Chunk.stop, hlen]; omega
      have hgb : Agree A g.offset g.bytes ∧ g.bytes ≠ [] := by
        rw [← hg']
        refine ⟨hbytes, ?_⟩
        intro h0
        have := congrArg List.length h0
        simp only [hlen, List.length_nil] at this
        omega
      refine ⟨⟨?_, ?_⟩, ?_, by simp, ?_⟩
      · have hp := List.pairwise_append.1 r2.1
        rw [List.pairwise_append]
        refine ⟨hp.1, List.pairwise_cons.2 ⟨?_, hp.2.1⟩, ?_⟩
        · intro d hd; have := hn' d hd; omega
        · intro a ha b hb'
          simp only [List.mem_cons] at hb'
          rcases hb' with rfl | hb'
          · have := r4 a ha; omega
          · exact hp.2.2 a ha b hb'
      · intro c hc
        simp only [List.mem_append, List.mem_cons] at hc
        rcases hc with hc | rfl | hc
        · exact r2.2 c (by simp [hc])
        · exact ⟨hgb.2, hgb.1⟩
        · exact r2.2 c (by simp [hc])
      · intro i
        have : InChunks (pre' ++ g :: next') i ↔ InChunks (pre' ++ next') i ∨
            (fdo' ≤ i ∧ i < offset + bytes.length) := by
          simp only [inChunks_append, inChunks_cons, hgo, hgs]
          constructor
          · rintro (h | h | h)
            · exact Or.inl (Or.inl h)
            · exact Or.inr h
            · exact Or.inl (Or.inr h)
          · rintro ((h | h) | h)
            · exact Or.inl h
            · exact Or.inr (Or.inr h)
            · exact Or.inr (Or.inl h)
        rw [this, r8 i]
        constructor
        · rintro ((h | h) | h)
          · exact Or.inl h
          · right; omega
          · right; omega
        · rintro (h | h)
          · exact Or.inl (Or.inl h)
          · by_cases h5 : i < fdo
            · exact Or.inl (Or.inl (hcov0 i h.1 h5 h.2))
            · by_cases h6 : i < fdo'
              · left; right; omega
              · right; omega
      · intro d hd
        simp only [List.mem_append, List.mem_cons] at hd
        rcases hd with hd | rfl | hd
        · rcases r10 d (by simp [hd]) with h | h
          · exact Or.inl h
          · right; omega
        · right; omega
        · rcases r10 d (by simp [hd]) with h | h
          · exact Or.inl h
          · right; omega
    · rw [if_neg hend]
      simp only
      refine ⟨r2, ?_, ?_, ?_⟩
      · intro i
        rw [r8 i]
        constructor
        · rintro (h | h)
          · exact Or.inl h
          · right; omega
        · rintro (h | h)
          · exact Or.inl h
          · by_cases h5 : i < fdo
            · exact Or.inl (hcov0 i h.1 h5 h.2)
            · right; omega
      · intro h
        rcases r9 with h' | ⟨_, h'⟩
        · rw [h] at h'; cases h'
        · exact h'
      · intro d hd
        rcases r10 d hd with h | h
        · exact Or.inl h
        · right; omega
  · rw [if_neg hlt]
    refine ⟨hord, ?_, fun _ => rfl, fun d hd => Or.inl hd⟩
    intro i
    constructor
    · exact Or.inl
    · rintro (h | h)
      · exact h
      · omega

end Picoquic.StreamInput
