import Verif.Proof.PathValidation
/-!
# Proofs about the validation of paths: what is produced, the first tuple and the answers
-/

namespace Picoquic.Paths
open Picoquic Picoquic.Frames Picoquic.Spec

/-! ## What is produced -/

theorem getD_mem : ∀ {l : List Nat} {i : Nat}, i < l.length → l.getD i 0 ∈ l
  | [], _, h => absurd h (Nat.not_lt_zero _)
  | _ :: _, 0, _ => List.mem_cons_self
  | _ :: l, i + 1, h => List.mem_cons_of_mem _ (getD_mem (l := l) (Nat.lt_of_succ_lt_succ h))

theorem step_validated {peer loc : Addr} {p : Path} {hist : List (Event × List Note)} (i : PInv peer loc p hist)
    {ev : Event} {q l : Addr} (h : .validated q l ∈ (step p ev).2) :
    ∃ data v rest vals, ev = .response data ∧ framesUint64Decode data = some (v, rest) ∧
      .drew q l vals ∈ produced hist ∧ v ∈ vals := by
  cases ev with
  | packet src dst now a b c cid =>
    unfold step at h
    dsimp only at h
    split at h
    · cases h
    · split at h
      · simp at h
      · cases h
  | probe q l now a b c cid =>
    unfold step at h
    dsimp only at h
    split at h
    · simp at h
    · cases h
  | challenge src dst data =>
    unfold step at h
    dsimp only at h
    split at h
    · simp at h
    · cases h
  | response data =>
    unfold step decodeResponse at h
    dsimp only at h
    cases hd : framesUint64Decode data with
    | none => rw [hd] at h; simp at h
    | some r =>
      obtain ⟨v, rest⟩ := r
      rw [hd] at h
      dsimp only at h
      cases hf : findChallenge v p.tuples with
      | none => rw [hf] at h; cases h
      | some r =>
        obtain ⟨pre, t, post⟩ := r
        rw [hf] at h
        dsimp only at h
        obtain ⟨h1, h2⟩ := findChallenge_spec hf
        by_cases hv : t.verified = true
        · rw [if_pos hv] at h; cases h
        · rw [if_neg hv] at h
          have := List.mem_singleton.mp h
          injection this with e1 e2
          subst e1 e2
          exact ⟨data, v, rest, t.chal, rfl, hd,
            (i t (by rw [h1]; exact List.mem_append_right _ List.mem_cons_self)).drawn (by simpa using hv), h2⟩
  | prepare now room rto d =>
    replace h : .validated q l ∈ (prepare p now room rto d).2 := h
    cases hs : select p now rto with
    | none => unfold prepare at h; rw [hs] at h; cases h
    | some r =>
      obtain ⟨pre, t, post⟩ := r
      rcases prepare_notes hs h with ⟨h, _⟩ | ⟨h, _⟩ | ⟨h, _⟩ <;> cases h
  | unreachable q' l' now a b c =>
    unfold step unreachable rechallenge at h
    dsimp only at h
    (repeat' split at h) <;> simp at h
  | cleanup now => cases h

theorem step_sent {peer loc : Addr} {p : Path} {hist : List (Event × List Note)} (i : PInv peer loc p hist)
    {ev : Event} {q l : Addr} {f : Bytes} (h : .sent q l f ∈ (step p ev).2) :
    (∃ v vals, f = challengeFrame (picoformat64 v) ∧ v < 2 ^ 64 ∧ v ∈ vals ∧ .drew q l vals ∈ produced hist) ∨
    (∃ d src dst rest, f = responseFrame d ∧ d.length = 8 ∧ .challenge src dst (d ++ rest) ∈ hist.map Prod.fst ∧
      SameTuple src dst q l) := by
  cases ev with
  | packet src dst now a b c cid =>
    unfold step at h
    dsimp only at h
    split at h
    · cases h
    · split at h
      · simp at h
      · cases h
  | probe q l now a b c cid =>
    unfold step at h
    dsimp only at h
    split at h
    · simp at h
    · cases h
  | challenge src dst data =>
    unfold step at h
    dsimp only at h
    split at h
    · simp at h
    · cases h
  | response data =>
    unfold step decodeResponse at h
    dsimp only at h
    (repeat' split at h) <;> simp at h
  | prepare now room rto d =>
    replace h : .sent q l f ∈ (prepare p now room rto d).2 := h
    cases hs : select p now rto with
    | none => unfold prepare at h; rw [hs] at h; cases h
    | some r =>
      obtain ⟨pre, t, post⟩ := r
      have it := i t (by rw [select_spec hs]; exact List.mem_append_right _ List.mem_cons_self)
      obtain ⟨c1, c2, c3, c4, c5, c6, c7, _⟩ := prepareChallenge_spec t now room rto
      obtain ⟨_, _, _, _, _, _, _, r8, _⟩ := prepareResponse_spec (prepareChallenge t now room rto).1
        (room - (prepareChallenge t now room rto).2.1.length)
      rcases prepare_notes hs h with ⟨h, hn⟩ | ⟨h, hn⟩ | ⟨h, _⟩
      · injection h with e1 e2 e3
        subst e1 e2
        left
        rcases c7 with c7 | ⟨v1, v2, v3⟩
        · exact absurd c7 hn
        · have h3 := it.three
          have hm : t.chal.getD t.count 0 ∈ t.chal := getD_mem (by omega)
          exact ⟨_, t.chal, e3.trans v3, it.small _ hm, hm, it.drawn v1⟩
      · injection h with e1 e2 e3
        subst e1 e2
        right
        rcases r8 with r8 | ⟨v1, _, v3⟩
        · exact absurd r8.1 hn
        · rw [c5] at v1
          rw [c6] at v3
          obtain ⟨src, dst, data, rest, m1, m2, m3⟩ := it.resp v1
          obtain ⟨f1, f2⟩ := format_decode m2
          exact ⟨picoformat64 t.response, src, dst, rest, e3.trans v3, f2, by rw [← f1]; exact m1, m3⟩
      · cases h
  | unreachable q' l' now a b c =>
    unfold step unreachable rechallenge at h
    dsimp only at h
    (repeat' split at h) <;> simp at h
  | cleanup now => cases h

/-! ## Without notifications of unreachable addresses -/

/-- The path is not demoted and its first tuple is verified. -/
def HeadOk (p : Path) : Prop := p.demoted = false ∧ ∃ t rest, p.tuples = t :: rest ∧ t.verified = true

theorem prepare_demoted (p : Path) (now room rto : Nat) (d : Bool) :
    (prepare p now room rto d).1.demoted = p.demoted := by
  unfold prepare
  split <;> rfl

theorem step_head {p : Path} (h : HeadOk p) {ev : Event} (hu : ¬ IsUnreachable ev) : HeadOk (step p ev).1 := by
  obtain ⟨hd, t, rest, ht, hv⟩ := h
  have hsame : HeadOk p := ⟨hd, t, rest, ht, hv⟩
  cases ev with
  | packet src dst now a b c cid =>
    unfold step
    dsimp only
    split
    · exact hsame
    · split
      · exact ⟨hd, t, rest ++ [newTuple src dst now a b c], (by show p.tuples ++ _ = _; rw [ht]; rfl), hv⟩
      · exact hsame
  | probe q l now a b c cid =>
    unfold step
    dsimp only
    split
    · exact ⟨hd, t, rest ++ [newTuple q l now a b c], (by show p.tuples ++ _ = _; rw [ht]; rfl), hv⟩
    · exact hsame
  | challenge src dst data =>
    unfold step
    dsimp only
    split
    · exact hsame
    · rename_i v r hv'
      refine ⟨hd, ?_⟩
      show ∃ x r, recordChallenge src dst v p.tuples = x :: r ∧ _
      rw [ht]
      unfold recordChallenge
      split
      · exact ⟨_, _, rfl, hv⟩
      · exact ⟨_, _, rfl, hv⟩
  | response data =>
    unfold step decodeResponse
    dsimp only
    split
    · exact hsame
    · split
      · exact hsame
      · split
        · exact hsame
        · exact ⟨hd, _, _, rfl, rfl⟩
  | prepare now room rto d =>
    refine ⟨(prepare_demoted p now room rto d).trans hd, ?_⟩
    show ∃ x r, (prepare p now room rto d).1.tuples = x :: r ∧ x.verified = true
    cases hs : select p now rto with
    | none => unfold prepare; rw [hs]; exact ⟨t, rest, ht, hv⟩
    | some r =>
      obtain ⟨pre, x, post⟩ := r
      have h1 := select_spec hs
      rw [prepare_tuples hs]
      cases pre with
      | nil =>
        rw [ht] at h1
        obtain ⟨e1, e2⟩ := List.cons.inj h1
        subst e1 e2
        obtain ⟨c1, c2, c3, c4, c5, c6, c7, c8⟩ := prepareChallenge_spec t now room rto
        obtain ⟨_, _, _, r4, _⟩ := prepareResponse_spec (prepareChallenge t now room rto).1
          (room - (prepareChallenge t now room rto).2.1.length)
        rw [if_neg (by intro h; rw [(c8 h).1] at hv; cases hv)]
        refine ⟨after t now room rto, rest, rfl, ?_⟩
        unfold after
        rw [r4, c4]
        exact hv
      | cons y pre =>
        rw [ht] at h1
        obtain ⟨e1, e2⟩ := List.cons.inj h1
        subst e1
        split
        · exact ⟨t, _, rfl, hv⟩
        · exact ⟨t, _, rfl, hv⟩
  | unreachable q l now a b c => exact absurd trivial hu
  | cleanup now =>
    show HeadOk (cleanup p now)
    unfold cleanup
    rw [if_neg (by rw [hd]; intro h; cases h), ht]
    exact ⟨hd, t, _, rfl, hv⟩

theorem run_head (evs : List Event) : ∀ {p : Path}, HeadOk p →
    (∀ x ∈ (run p evs).2, ¬ IsUnreachable x.1) → HeadOk (run p evs).1 := by
  induction evs with
  | nil => intro p h _; exact h
  | cons ev rest ih =>
    intro p h hu
    exact ih (step_head h (hu (ev, (step p ev).2) List.mem_cons_self)) (fun x hx => hu x (List.mem_cons_of_mem _ hx))

theorem head_of_reached {peer loc : Addr} {p : Path} {hist : List (Event × List Note)}
    (h : PathReached peer loc p hist) (hu : ∀ x ∈ hist, ¬ IsUnreachable x.1) : HeadOk p := by
  obtain ⟨a, b, c, evs, h⟩ := h
  have := run_head evs (p := init peer loc a b c) ⟨rfl, _, _, rfl, rfl⟩ (by rw [h]; exact hu)
  rw [h] at this
  exact this

theorem step_suspended {p : Path} {ev : Event} {q l : Addr} (h : .suspended q l ∈ (step p ev).2) : IsUnreachable ev := by
  cases ev with
  | packet src dst now a b c cid =>
    unfold step at h
    dsimp only at h
    (repeat' split at h) <;> simp at h
  | probe q l now a b c cid =>
    unfold step at h
    dsimp only at h
    (repeat' split at h) <;> simp at h
  | challenge src dst data =>
    unfold step at h
    dsimp only at h
    (repeat' split at h) <;> simp at h
  | response data =>
    unfold step decodeResponse at h
    dsimp only at h
    (repeat' split at h) <;> simp at h
  | prepare now room rto d =>
    replace h : .suspended q l ∈ (prepare p now room rto d).2 := h
    cases hs : select p now rto with
    | none => unfold prepare at h; rw [hs] at h; cases h
    | some r =>
      obtain ⟨pre, t, post⟩ := r
      rcases prepare_notes hs h with ⟨h, _⟩ | ⟨h, _⟩ | ⟨h, _⟩ <;> cases h
  | unreachable q' l' now a b c => trivial
  | cleanup now => cases h

theorem run_notes_suspended (evs : List Event) : ∀ {p : Path}, (∀ x ∈ (run p evs).2, ¬ IsUnreachable x.1) →
    ∀ q l, .suspended q l ∉ produced (run p evs).2 := by
  induction evs with
  | nil => intro p _ q l h; cases h
  | cons ev rest ih =>
    intro p hu q l h
    replace h : Note.suspended q l ∈ (step p ev).2 ++ produced (run (step p ev).1 rest).2 := h
    rcases List.mem_append.mp h with h | h
    · exact hu (ev, (step p ev).2) List.mem_cons_self (step_suspended h)
    · exact ih (fun x hx => hu x (List.mem_cons_of_mem _ hx)) q l h

theorem fold_keep (notes : List Note) : ∀ {s : List (Addr × Addr)} {x : Addr × Addr}, x ∈ s →
    (∀ q l, .suspended q l ∉ notes) → x ∈ notes.foldl validStep s := by
  induction notes with
  | nil => intro s x h _; exact h
  | cons n rest ih =>
    intro s x h hn
    refine ih ?_ (fun q l hm => hn q l (List.mem_cons_of_mem _ hm))
    cases n with
    | validated q l => exact List.mem_cons_of_mem _ h
    | suspended q l => exact absurd List.mem_cons_self (hn q l)
    | _ => exact h

theorem fold_valid (notes : List Note) : ∀ {s : List (Addr × Addr)} {q l : Addr}, .validated q l ∈ notes →
    (∀ q l, .suspended q l ∉ notes) → (q, l) ∈ notes.foldl validStep s := by
  induction notes with
  | nil => intro s q l h _; cases h
  | cons n rest ih =>
    intro s q l h hn
    rcases List.mem_cons.mp h with h | h
    · subst h
      exact fold_keep rest List.mem_cons_self (fun q l hm => hn q l (List.mem_cons_of_mem _ hm))
    · exact ih h (fun q l hm => hn q l (List.mem_cons_of_mem _ hm))

theorem step_data {p : Path} {ev : Event} {q l : Addr} (hh : HeadOk p) (h : .data q l ∈ (step p ev).2) :
    ∃ t rest, p.tuples = t :: rest ∧ t.verified = true ∧ t.peer = q ∧ t.loc = l := by
  obtain ⟨_, t0, rest0, ht0, hv0⟩ := hh
  cases ev with
  | packet src dst now a b c cid =>
    unfold step at h
    dsimp only at h
    (repeat' split at h) <;> simp at h
  | probe q l now a b c cid =>
    unfold step at h
    dsimp only at h
    (repeat' split at h) <;> simp at h
  | challenge src dst data =>
    unfold step at h
    dsimp only at h
    (repeat' split at h) <;> simp at h
  | response data =>
    unfold step decodeResponse at h
    dsimp only at h
    (repeat' split at h) <;> simp at h
  | prepare now room rto d =>
    replace h : .data q l ∈ (prepare p now room rto d).2 := h
    cases hs : select p now rto with
    | none => unfold prepare at h; rw [hs] at h; cases h
    | some r =>
      obtain ⟨pre, t, post⟩ := r
      rcases prepare_notes hs h with ⟨h, _⟩ | ⟨h, _⟩ | ⟨h, hp, _⟩
      · cases h
      · cases h
      · injection h with e1 e2
        have h1 := select_spec hs
        rw [hp, ht0] at h1
        obtain ⟨e3, e4⟩ := List.cons.inj h1
        exact ⟨t0, rest0, ht0, hv0, by rw [e1, e3], by rw [e2, e3]⟩
  | unreachable q' l' now a b c =>
    unfold step unreachable rechallenge at h
    dsimp only at h
    (repeat' split at h) <;> simp at h
  | cleanup now => cases h

/-! ## Answers -/

/-- How many more times the tuple can be selected. -/
def weight (t : Tuple) : Nat :=
  if t.failed = true then 0
  else (if t.needsResponse = true then 1 else 0) + (if t.verified = true then 0 else max 1 (4 - t.count))

def total (list : List Tuple) : Nat := (list.map weight).sum

theorem weight_le (t : Tuple) : weight t ≤ 5 := by
  unfold weight
  (repeat' split) <;> omega

theorem total_le (list : List Tuple) : total list ≤ 5 * list.length := by
  induction list with
  | nil => exact Nat.le_refl _
  | cons t rest ih =>
    show weight t + total rest ≤ 5 * (rest.length + 1)
    have := weight_le t
    omega

theorem total_append (a b : List Tuple) : total (a ++ b) = total a + total b := by
  unfold total
  rw [List.map_append, List.sum_append]

/-- A tuple which was selected because it needs control has less weight after. -/
theorem after_weight {t : Tuple} {now room rto : Nat} (hr : 18 ≤ room) (h : needsControl now rto t = true) :
    weight (after t now room rto) < weight t := by
  unfold needsControl at h
  have hf : t.failed = false := by
    cases ht : t.failed with
    | false => rfl
    | true => rw [ht] at h; cases h
  rw [if_neg (by rw [hf]; intro h; cases h)] at h
  have hresp : ∀ (x : Tuple) (n : Nat), 9 ≤ n → (prepareResponse x n).1.needsResponse = false := by
    intro x n hn
    obtain ⟨_, _, _, _, _, _, _, r8, r9⟩ := prepareResponse_spec x n
    cases hx : x.needsResponse with
    | true => exact (r9 hn hx).2
    | false =>
      rcases r8 with r8 | r8
      · rw [r8.2]; exact hx
      · exact r8.2.1
  unfold after
  by_cases hv : t.verified = true
  · have hnr : t.needsResponse = true := by
      cases hn : t.needsResponse with
      | true => rfl
      | false => rw [hn, hv] at h; simp at h
    have hc : prepareChallenge t now room rto = (t, [], false) := by
      unfold prepareChallenge
      rw [if_neg (by rw [hv]; intro h; cases h.1)]
    rw [hc]
    dsimp only
    obtain ⟨_, _, _, r4, r5, _⟩ := prepareResponse_spec t (room - ([] : Bytes).length)
    have := hresp t (room - ([] : Bytes).length) (by show 9 ≤ room - 0; omega)
    unfold weight
    rw [r4, r5, this, hf, hv, hnr]
    simp
  · have hvf : t.verified = false := by simpa using hv
    unfold prepareChallenge
    rw [if_pos ⟨hvf, hf⟩]
    by_cases h2 : challengeTime t now rto > now
    · rw [if_pos h2]
      dsimp only
      have hnr : t.needsResponse = true := by
        cases hn : t.needsResponse with
        | true => rfl
        | false =>
          rw [hn] at h
          simp at h
          omega
      obtain ⟨_, _, _, r4, r5, r6, _⟩ := prepareResponse_spec t (room - ([] : Bytes).length)
      have := hresp t (room - ([] : Bytes).length) (by show 9 ≤ room - 0; omega)
      unfold weight
      rw [r4, r5, r6, this, hf, hvf, hnr]
      simp
    · rw [if_neg h2]
      by_cases h3 : t.count < 3
      · rw [if_pos h3, formatPathChallenge_eq, if_pos (by omega)]
        dsimp only
        generalize hx : ({ t with time := now, count := t.count + 1 } : Tuple) = x
        obtain ⟨_, _, _, r4, r5, r6, _⟩ := prepareResponse_spec x
          (room - (0x1a :: picoformat64 (t.chal.getD t.count 0)).length)
        have := hresp x (room - (0x1a :: picoformat64 (t.chal.getD t.count 0)).length) (by show 9 ≤ room - 9; omega)
        unfold weight
        rw [r4, r5, r6, this, ← hx]
        show (if t.failed = true then 0
          else (if false = true then 1 else 0) + (if t.verified = true then 0 else max 1 (4 - (t.count + 1)))) < _
        rw [hf, hvf]
        simp only [Bool.false_eq_true, if_false]
        split <;> omega
      · rw [if_neg h3]
        dsimp only
        generalize hx : ({ t with failed := true, demotion := now + rto * 2 ^ 3 } : Tuple) = x
        obtain ⟨_, _, _, _, r5, _⟩ := prepareResponse_spec x (room - ([] : Bytes).length)
        unfold weight
        rw [r5, ← hx]
        show 0 < (if t.failed = true then 0
          else (if t.needsResponse = true then 1 else 0) + (if t.verified = true then 0 else max 1 (4 - t.count)))
        rw [hf, hvf]
        simp only [Bool.false_eq_true, if_false]
        split <;> omega

/-- A response is due to this address. -/
def Due (q l : Addr) (v : Nat) (t : Tuple) : Prop :=
  t.peer = q ∧ t.loc = l ∧ t.failed = false ∧ t.needsResponse = true ∧ t.response = v

theorem due_weight {q l : Addr} {v : Nat} {list : List Tuple} (h : ∃ t ∈ list, Due q l v t) : 0 < total list := by
  obtain ⟨t, ht, h1, h2, h3, h4, h5⟩ := h
  obtain ⟨a, b, rfl⟩ := List.append_of_mem ht
  rw [total_append]
  show 0 < total a + (weight t + total b)
  have : 0 < weight t := by
    unfold weight
    rw [h3, h4]
    simp only [Bool.false_eq_true, if_false, if_true]
    omega
  omega

theorem findControl_some {now rto : Nat} {list : List Tuple} (h : ∃ t ∈ list, needsControl now rto t = true) :
    ∃ r, findControl now rto list = some r := by
  cases hf : findControl now rto list with
  | some r => exact ⟨r, rfl⟩
  | none =>
    obtain ⟨t, h1, h2⟩ := h
    rw [findControl_none hf t h1] at h2
    cases h2

/-- One preparation answers, or makes progress. -/
theorem prepare_due {p : Path} {q l : Addr} {v now room rto : Nat} {d : Bool} (hd : p.demoted = false)
    (h : ∃ t ∈ p.tuples, Due q l v t) (hr : 18 ≤ room) :
    .sent q l (responseFrame (picoformat64 v)) ∈ (prepare p now room rto d).2 ∨
    (∃ t ∈ (prepare p now room rto d).1.tuples, Due q l v t) ∧
      total (prepare p now room rto d).1.tuples < total p.tuples := by
  obtain ⟨t0, ht0, hdue⟩ := h
  obtain ⟨⟨pre, t, post⟩, hf⟩ := findControl_some (now := now) (rto := rto) (list := p.tuples)
    ⟨t0, ht0, by unfold needsControl; rw [hdue.2.2.1, hdue.2.2.2.1]; rfl⟩
  have hs : select p now rto = some (pre, t, post) := by
    unfold select
    dsimp only
    rw [if_neg (by rw [hd]; intro h; cases h), hf]
  obtain ⟨h1, h2⟩ := findControl_spec hf
  have hw := after_weight hr h2
  rw [h1] at ht0
  by_cases he : t0 = t
  · subst he
    left
    obtain ⟨c1, c2, _, _, c5, c6, c7, _⟩ := prepareChallenge_spec t0 now room rto
    obtain ⟨_, _, _, _, _, _, _, _, r9⟩ := prepareResponse_spec (prepareChallenge t0 now room rto).1
      (room - (prepareChallenge t0 now room rto).2.1.length)
    have hl : (prepareChallenge t0 now room rto).2.1.length ≤ 9 := by
      rcases c7 with c7 | c7
      · rw [c7]; exact Nat.zero_le _
      · rw [c7.2.2]; exact Nat.le_refl _
    have hsent := (r9 (by omega) (by rw [c5]; exact hdue.2.2.2.1)).1
    unfold prepare
    rw [hs]
    dsimp only
    rw [List.mem_append, List.mem_append]
    left; right
    rw [hsent, c6, hdue.2.2.2.2]
    unfold noteFrame
    rw [if_neg (by intro h; cases h), hdue.1, hdue.2.1]
    exact List.mem_cons_self
  · right
    rw [prepare_tuples hs]
    have hmem : t0 ∈ pre ∨ t0 ∈ post := by
      rcases List.mem_append.mp ht0 with h | h
      · exact Or.inl h
      · rcases List.mem_cons.mp h with h | h
        · exact absurd h he
        · exact Or.inr h
    have ht : total p.tuples = total pre + (weight t + total post) := by rw [h1, total_append]; rfl
    split
    · constructor
      · exact ⟨t0, List.mem_append_left _ (List.mem_append.mpr hmem), hdue⟩
      · rw [total_append, total_append, ht]
        show total pre + total post + (weight _ + 0) < _
        omega
    · constructor
      · refine ⟨t0, ?_, hdue⟩
        rcases hmem with h | h
        · exact List.mem_append_left _ h
        · exact List.mem_append_right _ (List.mem_cons_of_mem _ h)
      · rw [total_append, ht]
        show total pre + (weight _ + total post) < _
        omega

theorem run_due {q l : Addr} {v : Nat} (evs : List Event) : ∀ {p : Path}, p.demoted = false →
    (∃ t ∈ p.tuples, Due q l v t) → (∀ ev ∈ evs, IsPreparation ev) → total p.tuples ≤ evs.length →
    .sent q l (responseFrame (picoformat64 v)) ∈ produced (run p evs).2 := by
  induction evs with
  | nil =>
    intro p _ h _ hl
    have := due_weight h
    exact absurd hl (by simp; omega)
  | cons ev rest ih =>
    intro p hd h he hl
    obtain ⟨now, room, rto, d, rfl, hr⟩ := he ev List.mem_cons_self
    show _ ∈ (prepare p now room rto d).2 ++ produced (run (prepare p now room rto d).1 rest).2
    rcases prepare_due (now := now) (rto := rto) (d := d) hd h hr with hs | ⟨h1, h2⟩
    · exact List.mem_append_left _ hs
    · refine List.mem_append_right _ (ih ((prepare_demoted p now room rto d).trans hd) h1
        (fun ev hev => he ev (List.mem_cons_of_mem _ hev)) ?_)
      rw [List.length_cons] at hl
      omega

theorem recordChallenge_due {src dst : Addr} {v : Nat} {t : Tuple} (hm : SameTuple src dst t.peer t.loc) (pre post : List Tuple)
    (hpre : ∀ x ∈ pre, ¬ SameTuple src dst x.peer x.loc) :
    recordChallenge src dst v (pre ++ t :: post) = pre ++ { t with response := v, needsResponse := true } :: post := by
  induction pre with
  | nil =>
    show recordChallenge src dst v (t :: post) = _
    unfold recordChallenge
    rw [if_pos (matches_spec.mpr hm)]
    rfl
  | cons x pre ih =>
    show recordChallenge src dst v (x :: (pre ++ t :: post)) = _
    unfold recordChallenge
    rw [if_neg (by intro h; exact hpre x List.mem_cons_self (matches_spec.mp h)),
      ih (fun y hy => hpre y (List.mem_cons_of_mem _ hy))]
    rfl

/-! ## Challenges -/

/-- The first challenge is due to this address. -/
def Fresh (q l : Addr) (v : Nat) (t : Tuple) : Prop :=
  t.peer = q ∧ t.loc = l ∧ t.failed = false ∧ t.verified = false ∧ t.required = true ∧ t.count = 0 ∧ t.chal.getD 0 0 = v

theorem fresh_weight {q l : Addr} {v : Nat} {list : List Tuple} (h : ∃ t ∈ list, Fresh q l v t) : 0 < total list := by
  obtain ⟨t, ht, h1, h2, h3, h4, h5⟩ := h
  obtain ⟨a, b, rfl⟩ := List.append_of_mem ht
  rw [total_append]
  show 0 < total a + (weight t + total b)
  have : 0 < weight t := by
    unfold weight
    rw [h3, h4]
    simp only [Bool.false_eq_true, if_false]
    omega
  omega

theorem fresh_sent {q l : Addr} {v now room rto : Nat} {t : Tuple} (h : Fresh q l v t) (hr : 9 ≤ room) :
    (prepareChallenge t now room rto).2.1 = challengeFrame (picoformat64 v) := by
  obtain ⟨_, _, h3, h4, _, h6, h7⟩ := h
  unfold prepareChallenge challengeTime
  rw [if_pos ⟨h4, h3⟩, if_pos h6, if_neg (by omega), if_pos (by omega), formatPathChallenge_eq, if_pos hr, h6, h7]
  rfl

theorem prepare_sent {p : Path} {q l : Addr} {v now room rto : Nat} {d : Bool} {pre post : List Tuple} {t : Tuple}
    (hs : select p now rto = some (pre, t, post)) (h : Fresh q l v t) (hr : 9 ≤ room) :
    .sent q l (challengeFrame (picoformat64 v)) ∈ (prepare p now room rto d).2 := by
  unfold prepare
  rw [hs]
  dsimp only
  rw [List.mem_append, List.mem_append]
  left; left
  rw [fresh_sent h hr]
  unfold noteFrame
  rw [if_neg (by intro h; cases h), h.1, h.2.1]
  exact List.mem_cons_self

theorem prepare_fresh {p : Path} {q l : Addr} {v now room rto : Nat} {d : Bool} (hd : p.demoted = false)
    (h : ∃ t ∈ p.tuples, Fresh q l v t) (hr : 18 ≤ room) :
    .sent q l (challengeFrame (picoformat64 v)) ∈ (prepare p now room rto d).2 ∨
    (∃ t ∈ (prepare p now room rto d).1.tuples, Fresh q l v t) ∧
      total (prepare p now room rto d).1.tuples < total p.tuples := by
  obtain ⟨t0, ht0, hdue⟩ := h
  obtain ⟨⟨pre, t, post⟩, hf⟩ := findControl_some (now := now) (rto := rto) (list := p.tuples)
    ⟨t0, ht0, by
      obtain ⟨_, _, h3, h4, h5, h6, _⟩ := hdue
      unfold needsControl challengeTime
      rw [h3, h4, h5, if_pos h6]
      simp⟩
  have hs : select p now rto = some (pre, t, post) := by
    unfold select
    dsimp only
    rw [if_neg (by rw [hd]; intro h; cases h), hf]
  obtain ⟨h1, h2⟩ := findControl_spec hf
  have hw := after_weight hr h2
  rw [h1] at ht0
  by_cases he : t0 = t
  · subst he
    exact Or.inl (prepare_sent hs hdue (by omega))
  · right
    rw [prepare_tuples hs]
    have hmem : t0 ∈ pre ∨ t0 ∈ post := by
      rcases List.mem_append.mp ht0 with h | h
      · exact Or.inl h
      · rcases List.mem_cons.mp h with h | h
        · exact absurd h he
        · exact Or.inr h
    have ht : total p.tuples = total pre + (weight t + total post) := by rw [h1, total_append]; rfl
    split
    · constructor
      · exact ⟨t0, List.mem_append_left _ (List.mem_append.mpr hmem), hdue⟩
      · rw [total_append, total_append, ht]
        show total pre + total post + (weight _ + 0) < _
        omega
    · constructor
      · refine ⟨t0, ?_, hdue⟩
        rcases hmem with h | h
        · exact List.mem_append_left _ h
        · exact List.mem_append_right _ (List.mem_cons_of_mem _ h)
      · rw [total_append, ht]
        show total pre + (weight _ + total post) < _
        omega

theorem run_fresh {q l : Addr} {v : Nat} (evs : List Event) : ∀ {p : Path}, p.demoted = false →
    (∃ t ∈ p.tuples, Fresh q l v t) → (∀ ev ∈ evs, IsPreparation ev) → total p.tuples ≤ evs.length →
    .sent q l (challengeFrame (picoformat64 v)) ∈ produced (run p evs).2 := by
  induction evs with
  | nil =>
    intro p _ h _ hl
    have := fresh_weight h
    exact absurd hl (by simp; omega)
  | cons ev rest ih =>
    intro p hd h he hl
    obtain ⟨now, room, rto, d, rfl, hr⟩ := he ev List.mem_cons_self
    show _ ∈ (prepare p now room rto d).2 ++ produced (run (prepare p now room rto d).1 rest).2
    rcases prepare_fresh (now := now) (rto := rto) (d := d) hd h hr with hs | ⟨h1, h2⟩
    · exact List.mem_append_left _ hs
    · refine List.mem_append_right _ (ih ((prepare_demoted p now room rto d).trans hd) h1
        (fun ev hev => he ev (List.mem_cons_of_mem _ hev)) ?_)
      rw [List.length_cons] at hl
      omega

theorem suspended_fresh {p : Path} {q l q' l' : Addr} {now a b c : Nat}
    (h : .suspended q l ∈ (unreachable p q' l' now a b c).2) (hf : ∀ t ∈ p.tuples, t.failed = false) :
    (unreachable p q' l' now a b c).1.demoted = true ∧
    ∃ t rest, (unreachable p q' l' now a b c).1.tuples = t :: rest ∧ Fresh q l (a % 2 ^ 64) t := by
  unfold unreachable at h ⊢
  cases ht : p.tuples with
  | nil => rw [ht] at h; cases h
  | cons t rest =>
    rw [ht] at h
    dsimp only at h ⊢
    by_cases h1 : q' = t.peer ∧ l' = t.loc
    · rw [if_pos h1] at h ⊢
      by_cases h2 : p.demoted = true
      · rw [if_pos h2] at h ⊢
        unfold rechallenge at h ⊢
        by_cases h3 : t.required = false ∨ t.verified = true
        · rw [if_pos h3] at h ⊢
          dsimp only at h ⊢
          refine ⟨h2, _, rest, rfl, ?_⟩
          rcases List.mem_cons.mp h with h | h
          · cases h
          · split at h
            · have := List.mem_singleton.mp h
              injection this with e1 e2
              exact ⟨e1.symm, e2.symm, hf t (by rw [ht]; exact List.mem_cons_self), rfl, rfl, rfl, rfl⟩
            · cases h
        · rw [if_neg h3] at h; cases h
      · rw [if_neg h2] at h; cases h
    · rw [if_neg h1] at h; cases h

/-! ## Addresses which get no answer -/

/-- The first tuple is verified and is another one, and the tuples with this address will not be selected. -/
def Stuck (q l : Addr) (p : Path) : Prop :=
  ∃ t rest, p.tuples = t :: rest ∧ t.verified = true ∧ (t.peer, t.loc) ≠ (q, l) ∧
    (p.demoted = true ∨ ∀ x ∈ rest, (x.peer, x.loc) = (q, l) → x.failed = true)

theorem prepare_stuck {q l : Addr} {p : Path} (h : Stuck q l p) (now room rto : Nat) (d : Bool) :
    Stuck q l (prepare p now room rto d).1 ∧ ∀ f, .sent q l f ∉ (prepare p now room rto d).2 := by
  obtain ⟨t, rest, ht, hv, hne, hx⟩ := h
  obtain ⟨pre, x, post, hs, hcase⟩ : ∃ pre x post, select p now rto = some (pre, x, post) ∧
      (pre = [] ∨ p.demoted = false ∧ needsControl now rto x = true) := by
    unfold select
    dsimp only
    rw [ht]
    dsimp only
    by_cases hd : p.demoted = true
    · rw [if_pos hd]; exact ⟨[], t, rest, rfl, Or.inl rfl⟩
    · rw [if_neg hd]
      cases hf : findControl now rto (t :: rest) with
      | none => exact ⟨[], t, rest, rfl, Or.inl rfl⟩
      | some r => exact ⟨r.1, r.2.1, r.2.2, rfl, Or.inr ⟨by simpa using hd, (findControl_spec (post := r.2.2) hf).2⟩⟩
  have h1 := select_spec hs
  rw [ht] at h1
  obtain ⟨c1, c2, c3, c4, c5, c6, c7, c8⟩ := prepareChallenge_spec x now room rto
  obtain ⟨r1, r2, _, r4, r5, _⟩ := prepareResponse_spec (prepareChallenge x now room rto).1
    (room - (prepareChallenge x now room rto).2.1.length)
  have hnot : (x.peer, x.loc) ≠ (q, l) := by
    cases pre with
    | nil => obtain ⟨e1, _⟩ := List.cons.inj h1; rw [← e1]; exact hne
    | cons y pre =>
      obtain ⟨_, e2⟩ := List.cons.inj h1
      rcases hcase with hc | ⟨hc1, hc2⟩
      · cases hc
      · rcases hx with hx | hx
        · rw [hx] at hc1; cases hc1
        · intro he
          have := hx x (by rw [e2]; exact List.mem_append_right _ List.mem_cons_self) he
          unfold needsControl at hc2
          rw [this] at hc2
          cases hc2
  constructor
  · have ha : ((after x now room rto).peer, (after x now room rto).loc) ≠ (q, l) := by
      unfold after
      rw [r1, r2, c1, c2]
      exact hnot
    cases pre with
    | nil =>
      obtain ⟨e1, e2⟩ := List.cons.inj h1
      subst e1 e2
      refine ⟨after t now room rto, rest, ?_, ?_, ha, ?_⟩
      · rw [prepare_tuples hs, if_neg (by intro h; rw [(c8 h).1] at hv; cases hv)]
        rfl
      · unfold after; rw [r4, c4]; exact hv
      · rw [prepare_demoted]; exact hx
    | cons y pre =>
      obtain ⟨e1, e2⟩ := List.cons.inj h1
      subst e1
      by_cases hc : (prepareChallenge x now room rto).2.2 = true
      · refine ⟨t, pre ++ post ++ [after x now room rto], ?_, hv, hne, ?_⟩
        · rw [prepare_tuples hs, if_pos hc]; rfl
        · rw [prepare_demoted]
          rcases hx with hx | hx
          · exact Or.inl hx
          · right
            intro z hz he
            rw [List.mem_append, List.mem_append, List.mem_singleton] at hz
            rcases hz with (hz | hz) | hz
            · exact hx z (by rw [e2]; exact List.mem_append_left _ hz) he
            · exact hx z (by rw [e2]; exact List.mem_append_right _ (List.mem_cons_of_mem _ hz)) he
            · rw [hz] at he; exact absurd he ha
      · refine ⟨t, pre ++ after x now room rto :: post, ?_, hv, hne, ?_⟩
        · rw [prepare_tuples hs, if_neg hc]; rfl
        · rw [prepare_demoted]
          rcases hx with hx | hx
          · exact Or.inl hx
          · right
            intro z hz he
            rw [List.mem_append, List.mem_cons] at hz
            rcases hz with hz | hz | hz
            · exact hx z (by rw [e2]; exact List.mem_append_left _ hz) he
            · rw [hz] at he; exact absurd he ha
            · exact hx z (by rw [e2]; exact List.mem_append_right _ (List.mem_cons_of_mem _ hz)) he
  · intro f hf
    rcases prepare_notes hs hf with ⟨h, _⟩ | ⟨h, _⟩ | ⟨h, _⟩
    · injection h with e1 e2
      exact hnot (by rw [e1, e2])
    · injection h with e1 e2
      exact hnot (by rw [e1, e2])
    · cases h

theorem run_stuck {q l : Addr} (evs : List Event) : ∀ {p : Path}, Stuck q l p → (∀ ev ∈ evs, IsPrepare ev) →
    ∀ f, .sent q l f ∉ produced (run p evs).2 := by
  induction evs with
  | nil => intro p _ _ f h; cases h
  | cons ev rest ih =>
    intro p hp he f h
    have hev := he ev List.mem_cons_self
    cases ev with
    | prepare now room rto d =>
      replace h : Note.sent q l f ∈ (prepare p now room rto d).2 ++ produced (run (prepare p now room rto d).1 rest).2 := h
      obtain ⟨h1, h2⟩ := prepare_stuck hp now room rto d
      rcases List.mem_append.mp h with h | h
      · exact h2 f h
      · exact ih h1 (fun ev hev => he ev (List.mem_cons_of_mem _ hev)) f h
    | _ => exact absurd hev id

/-- No tuple holds this value to answer. -/
def NoPend (d : Bytes) (p : Path) : Prop := ∀ t ∈ p.tuples, t.needsResponse = true → picoformat64 t.response ≠ d

theorem step_noPend {v : Bytes} {p : Path} (h : NoPend v p) {ev : Event} (he : ¬ CarriesChallenge v ev) : NoPend v (step p ev).1 := by
  cases ev with
  | packet src dst now a b c cid =>
    unfold step
    dsimp only
    split
    · exact h
    · split
      · intro t ht
        rcases List.mem_append.mp ht with ht | ht
        · exact h t ht
        · rw [List.mem_singleton.mp ht]; intro hn; cases hn
      · exact h
  | probe q l now a b c cid =>
    unfold step
    dsimp only
    split
    · intro t ht
      rcases List.mem_append.mp ht with ht | ht
      · exact h t ht
      · rw [List.mem_singleton.mp ht]; intro hn; cases hn
    · exact h
  | challenge src dst data =>
    unfold step
    dsimp only
    cases hd : framesUint64Decode data with
    | none => exact h
    | some r =>
      obtain ⟨u, rest⟩ := r
      intro x hx
      rcases mem_recordChallenge hx with hx | ⟨t, ht, _, rfl⟩
      · exact h x hx
      · intro _ hu
        replace hu : picoformat64 u = v := hu
        subst hu
        exact he ⟨rest, (format_decode hd).1⟩
  | response data =>
    unfold step decodeResponse
    dsimp only
    split
    · exact h
    · cases hf : findChallenge _ p.tuples with
      | none => exact h
      | some r =>
        obtain ⟨pre, t, post⟩ := r
        dsimp only
        obtain ⟨h1, _⟩ := findChallenge_spec hf
        split
        · exact h
        · intro x hx
          rcases List.mem_cons.mp hx with rfl | hx
          · exact h t (by rw [h1]; exact List.mem_append_right _ List.mem_cons_self)
          · refine h x ?_
            rw [h1]
            rcases List.mem_append.mp hx with hx | hx
            · exact List.mem_append_left _ hx
            · exact List.mem_append_right _ (List.mem_cons_of_mem _ hx)
  | prepare now room rto d =>
    show NoPend v (prepare p now room rto d).1
    cases hs : select p now rto with
    | none => unfold prepare; rw [hs]; exact h
    | some r =>
      obtain ⟨pre, t, post⟩ := r
      have h1 := select_spec hs
      have ha : (after t now room rto).needsResponse = true → picoformat64 (after t now room rto).response ≠ v := by
        obtain ⟨_, _, _, _, c5, c6, _⟩ := prepareChallenge_spec t now room rto
        obtain ⟨_, _, _, _, _, _, r7, r8, _⟩ := prepareResponse_spec (prepareChallenge t now room rto).1
          (room - (prepareChallenge t now room rto).2.1.length)
        unfold after
        rw [r7, c6]
        intro hn
        rcases r8 with r8 | r8
        · rw [r8.2, c5] at hn
          exact h t (by rw [h1]; exact List.mem_append_right _ List.mem_cons_self) hn
        · rw [r8.2.1] at hn; cases hn
      have hmem : ∀ x, x ∈ pre ∨ x = after t now room rto ∨ x ∈ post → x.needsResponse = true → picoformat64 x.response ≠ v := by
        intro x hx
        rcases hx with hx | rfl | hx
        · exact h x (by rw [h1]; exact List.mem_append_left _ hx)
        · exact ha
        · exact h x (by rw [h1]; exact List.mem_append_right _ (List.mem_cons_of_mem _ hx))
      intro x hx
      rw [prepare_tuples hs] at hx
      apply hmem
      split at hx
      · rw [List.mem_append, List.mem_append, List.mem_singleton] at hx
        rcases hx with (hx | hx) | hx
        · exact Or.inl hx
        · exact Or.inr (Or.inr hx)
        · exact Or.inr (Or.inl hx)
      · rw [List.mem_append, List.mem_cons] at hx
        exact hx
  | unreachable q l now a b c =>
    unfold step unreachable
    dsimp only
    cases ht : p.tuples with
    | nil => exact h
    | cons t rest =>
      dsimp only
      have h' : ∀ x ∈ t :: rest, x.needsResponse = true → picoformat64 x.response ≠ v := by rw [← ht]; exact h
      split
      · split
        · unfold rechallenge
          split
          · intro x hx
            rcases List.mem_cons.mp hx with rfl | hx
            · exact h' t List.mem_cons_self
            · exact h' x (List.mem_cons_of_mem _ hx)
          · exact h'
        · exact h'
      · exact h
  | cleanup now =>
    intro x hx
    refine h x ?_
    replace hx : x ∈ (cleanup p now).tuples := hx
    unfold cleanup at hx
    by_cases h1 : p.demoted = true
    · rw [if_pos h1] at hx; exact hx
    · rw [if_neg h1] at hx
      cases ht : p.tuples with
      | nil => rw [ht] at hx; dsimp only at hx; rw [ht] at hx; exact hx
      | cons t rest =>
        rw [ht] at hx
        rcases List.mem_cons.mp hx with rfl | hx
        · exact List.mem_cons_self
        · exact List.mem_cons_of_mem _ (List.mem_filter.mp hx).1

theorem step_response_of {p : Path} {ev : Event} {q l : Addr} {d : Bytes} (h : .sent q l (responseFrame d) ∈ (step p ev).2) :
    ∃ t ∈ p.tuples, t.needsResponse = true ∧ d = picoformat64 t.response := by
  cases ev with
  | packet src dst now a b c cid =>
    unfold step at h
    dsimp only at h
    (repeat' split at h) <;> simp at h
  | probe q l now a b c cid =>
    unfold step at h
    dsimp only at h
    (repeat' split at h) <;> simp at h
  | challenge src dst data =>
    unfold step at h
    dsimp only at h
    (repeat' split at h) <;> simp at h
  | response data =>
    unfold step decodeResponse at h
    dsimp only at h
    (repeat' split at h) <;> simp at h
  | prepare now room rto d =>
    replace h : .sent q l _ ∈ (prepare p now room rto d).2 := h
    cases hs : select p now rto with
    | none => unfold prepare at h; rw [hs] at h; cases h
    | some r =>
      obtain ⟨pre, t, post⟩ := r
      obtain ⟨c1, c2, c3, c4, c5, c6, c7, _⟩ := prepareChallenge_spec t now room rto
      obtain ⟨_, _, _, _, _, _, _, r8, _⟩ := prepareResponse_spec (prepareChallenge t now room rto).1
        (room - (prepareChallenge t now room rto).2.1.length)
      rcases prepare_notes hs h with ⟨h, hn⟩ | ⟨h, hn⟩ | ⟨h, _⟩
      · injection h with e1 e2 e3
        rcases c7 with c7 | ⟨v1, v2, v3⟩
        · exact absurd c7 hn
        · rw [v3] at e3
          cases (List.cons.inj e3).1
      · injection h with e1 e2 e3
        rcases r8 with r8 | ⟨v1, _, v3⟩
        · exact absurd r8.1 hn
        · rw [c5] at v1
          rw [c6] at v3
          refine ⟨t, by rw [select_spec hs]; exact List.mem_append_right _ List.mem_cons_self, v1, ?_⟩
          rw [v3] at e3
          exact (List.cons.inj e3).2
      · cases h
  | unreachable q' l' now a b c =>
    unfold step unreachable rechallenge at h
    dsimp only at h
    (repeat' split at h) <;> simp at h
  | cleanup now => cases h

theorem run_noPend {d : Bytes} (evs : List Event) : ∀ {p : Path}, NoPend d p → (∀ ev ∈ evs, ¬ CarriesChallenge d ev) →
    ∀ q l, .sent q l (responseFrame d) ∉ produced (run p evs).2 := by
  induction evs with
  | nil => intro p _ _ q l h; cases h
  | cons ev rest ih =>
    intro p hp he q l h
    replace h : Note.sent q l (responseFrame d) ∈ (step p ev).2 ++ produced (run (step p ev).1 rest).2 := h
    rcases List.mem_append.mp h with h | h
    · obtain ⟨t, h1, h2, h3⟩ := step_response_of h
      exact hp t h1 h2 h3.symm
    · exact ih (step_noPend hp (he ev List.mem_cons_self)) (fun e hev => he e (List.mem_cons_of_mem _ hev)) q l h

end Picoquic.Paths
