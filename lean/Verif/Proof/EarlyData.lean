import Verif.Spec.EarlyData

/-! Lemmas about early data. -/

namespace Picoquic.EarlyData

open Picoquic.Spec

/-- The client knows no more than what is allowed, and keeps to it. -/
structure Inv (c : Client) (a : Allowed) : Prop where
  data : c.maxData ≤ a.data
  sent : c.dataSent ≤ a.data
  initial : ∀ k, c.initial ≤ a.stream k
  count : c.count ≤ a.count
  stream : ∀ k s, c.stream k = some s → s.max ≤ a.stream k ∧ s.sent ≤ s.max
  early : ∀ f ∈ c.early, Keeps a f

theorem keeps_raised {a : Allowed} {f : Sent} (h : Keeps a f) (o : Op) : Keeps (raised a o) f := by
  unfold Keeps raised at *
  cases o <;> grind

theorem step_inv (c : Client) (a : Allowed) (o : Op) (h : Inv c a) :
    Inv (step c o).1 (raised a o) ∧ ∀ f ∈ (step c o).2, Keeps (raised a o) f := by
  obtain ⟨h1, h2, h3, h4, h5, h6⟩ := h
  cases o with
  | write k n =>
    refine ⟨⟨h1, h2, h3, h4, ?_, h6⟩, by simp [step]⟩
    intro j s hs
    simp only [step, write, raised] at hs ⊢
    split at hs
    · rename_i hj
      subst hj
      simp only [Option.some.injEq] at hs
      subst hs
      cases he : c.stream j with
      | none => exact ⟨h3 j, by simp⟩
      | some t => exact h5 j t he
    · exact h5 j s hs
  | send k room =>
    simp only [step, send, raised]
    split
    · exact ⟨⟨h1, h2, h3, h4, h5, h6⟩, by simp⟩
    · rename_i s hs
      split
      · rename_i hc
        simp only [Bool.and_eq_true, decide_eq_true_eq] at hc
        obtain ⟨⟨⟨⟨⟨_, hd⟩, hm⟩, _⟩, hk⟩, _⟩ := hc
        have hs5 := h5 k s hs
        have hK : Keeps a (Sent.mk (!c.ready) false k s.sent
            (min (min s.queued room) (min (s.max - s.sent) (c.maxData - c.dataSent)))) := by
          unfold Keeps
          simp only
          omega
        refine ⟨⟨h1, by simp only; omega, h3, h4, ?_, ?_⟩, ?_⟩
        · intro j t ht
          simp only at ht
          split at ht
          · rename_i hj
            subst hj
            simp only [Option.some.injEq] at ht
            subst ht
            simp only
            omega
          · exact h5 j t ht
        · intro f hf
          simp only at hf
          split at hf
          · exact h6 f hf
          · rcases List.mem_append.mp hf with hf | hf
            · exact h6 f hf
            · rw [List.mem_singleton.mp hf]
              exact hK
        · intro f hf
          rw [List.mem_singleton.mp hf]
          exact hK
      · exact ⟨⟨h1, h2, h3, h4, h5, h6⟩, by simp⟩
  | repeatEarly =>
    simp only [step, repeatEarly, raised]
    split
    · split
      · exact ⟨⟨h1, h2, h3, h4, h5, h6⟩, by simp⟩
      · rename_i f l hl
        refine ⟨⟨h1, h2, h3, h4, h5, fun g hg => h6 g (by rw [hl]; simp [hg])⟩, ?_⟩
        intro g hg
        rw [List.mem_singleton.mp hg]
        exact h6 f (by rw [hl]; simp)
    · exact ⟨⟨h1, h2, h3, h4, h5, h6⟩, by simp⟩
  | maxData n =>
    refine ⟨⟨?_, ?_, h3, h4, h5, h6⟩, by simp [step]⟩
    · simp only [step, raised]; split <;> omega
    · simp only [step, raised]; omega
  | maxStreamData k n =>
    refine ⟨⟨h1, h2, ?_, h4, ?_, fun f hf => keeps_raised (h6 f hf) _⟩, by simp [step]⟩
    · intro j
      have := h3 j
      simp only [step, raised]
      split <;> omega
    · intro j s hs
      simp only [step, raised] at hs ⊢
      split at hs
      · rename_i hj
        subst hj
        rw [if_pos rfl]
        cases he : c.stream j with
        | none => rw [he] at hs; simp at hs
        | some t =>
          rw [he] at hs
          simp only [Option.map_some, Option.some.injEq] at hs
          subst hs
          have := h5 j t he
          simp only
          split <;> omega
      · rename_i hj
        rw [if_neg hj]
        exact h5 j s hs
  | maxStreams n =>
    refine ⟨⟨h1, h2, h3, ?_, h5, fun f hf => keeps_raised (h6 f hf) _⟩, by simp [step]⟩
    simp only [step, raised]; split <;> omega

theorem run_inv (ops : List Op) : ∀ (c : Client) (a : Allowed), Inv c a → Inv (run c ops).1 (allowedAfter a ops) := by
  induction ops with
  | nil => intro c a h; exact h
  | cons o ops ih => intro c a h; exact ih _ _ (step_inv c a o h).1

theorem start_inv (r : Limits) (hr : 0 < r.count) : Inv (start {} (some r)) (allowedBy r) := by
  refine ⟨Nat.le_refl _, Nat.zero_le _, fun _ => Nat.le_refl _, ?_, ?_, ?_⟩
  · simp only [start, allowedBy]
    rw [if_neg (by omega)]
    exact Nat.le_refl _
  · intro k s hs; simp [start] at hs
  · intro f hf; simp [start] at hf

theorem params_inv {c : Client} {r p : Limits} {a : Allowed} (ha : a.data = r.data ∧ (∀ k, a.stream k = r.stream) ∧
    a.count = r.count) (h : Inv c a) (hn : NotLower r p) (hp : 0 < p.count) (acc : Bool) :
    Inv (params c p acc) (allowedBy p) := by
  obtain ⟨h1, h2, h3, h4, h5, h6⟩ := h
  obtain ⟨n1, n2, n3⟩ := hn
  refine ⟨Nat.le_refl _, by simp only [params, allowedBy]; omega, fun _ => Nat.le_refl _, ?_, ?_, ?_⟩
  · simp only [params, allowedBy]
    rw [if_neg (by omega)]
    exact Nat.le_refl _
  · intro k s hs
    simp only [params] at hs
    cases he : c.stream k with
    | none => rw [he] at hs; simp at hs
    | some t =>
      rw [he] at hs
      simp only [Option.map_some, Option.some.injEq] at hs
      subst hs
      have := h5 k t he
      have := ha.2.1 k
      simp only [allowedBy]
      split <;> omega
  · intro f hf
    have := h6 f hf
    have := ha.2.1 f.rank
    unfold Keeps allowedBy at *
    simp only
    omega

theorem allowed_client (ops : List Op) : ∀ (a : Allowed), (∀ o ∈ ops, OfClient o = true) → allowedAfter a ops = a := by
  induction ops with
  | nil => intro a _; rfl
  | cons o ops ih =>
    intro a h
    have ho := h o (by simp)
    have : raised a o = a := by cases o <;> first | rfl | simp [OfClient] at ho
    simp only [allowedAfter, List.foldl_cons, this]
    exact ih a (fun x hx => h x (by simp [hx]))

theorem newBytes_append (l m : List Sent) : newBytes (l ++ m) = newBytes l + newBytes m := by
  simp [newBytes, List.sum_append]

theorem step_sent (c : Client) (o : Op) : (step c o).1.dataSent = c.dataSent + newBytes (step c o).2 := by
  cases o <;> simp only [step, write, send, repeatEarly] <;> (repeat' split) <;> simp [newBytes]

theorem run_sent (ops : List Op) : ∀ c : Client, (run c ops).1.dataSent = c.dataSent + newBytes (run c ops).2 := by
  induction ops with
  | nil => intro c; simp [run, newBytes]
  | cons o ops ih =>
    intro c
    simp only [run]
    rw [ih, step_sent, newBytes_append]
    omega

theorem run_append (l m : List Op) : ∀ c : Client,
    run c (l ++ m) = ((run (run c l).1 m).1, (run c l).2 ++ (run (run c l).1 m).2) := by
  induction l with
  | nil => intro c; simp [run]
  | cons o l ih => intro c; simp [run, ih]

/-- Before the parameters nothing changes whether the connection is ready, and what is sent is early and recorded. -/
theorem step_early (c : Client) (o : Op) (ho : OfClient o = true) (h : c.ready = false) :
    (step c o).1.ready = false ∧ (∀ f ∈ (step c o).2, f.early = true ∧ f.again = false) ∧
    (step c o).1.early = c.early ++ (step c o).2 ∧ (step c o).1.keys = c.keys := by
  cases o <;> simp only [OfClient, Bool.false_eq_true] at ho <;> simp only [step, write, send] <;>
    (repeat' split) <;> simp_all

theorem run_early (ops : List Op) : ∀ c : Client, (∀ o ∈ ops, OfClient o = true) → c.ready = false →
    (run c ops).1.ready = false ∧ (∀ f ∈ (run c ops).2, f.early = true ∧ f.again = false) ∧
    (run c ops).1.early = c.early ++ (run c ops).2 ∧ (run c ops).1.keys = c.keys := by
  induction ops with
  | nil => intro c _ h; simp [run, h]
  | cons o ops ih =>
    intro c ho h
    obtain ⟨a1, a2, a3, a4⟩ := step_early c o (ho o (by simp)) h
    obtain ⟨b1, b2, b3, b4⟩ := ih (step c o).1 (fun x hx => ho x (by simp [hx])) a1
    refine ⟨b1, ?_, ?_, by simp only [run]; rw [b4, a4]⟩
    · intro f hf
      simp only [run, List.mem_append] at hf
      exact hf.elim (a2 f) (b2 f)
    · simp only [run]
      rw [b3, a3, List.append_assoc]

/-- After the parameters, what was sent early and is not repeated yet stays in the list, in order. -/
theorem step_late (c : Client) (o : Op) (h : c.ready = true) :
    (step c o).1.ready = true ∧ (step c o).1.accepted = c.accepted ∧ (∀ f ∈ (step c o).2, f.early = false) ∧
    ((step c o).2.filter (·.again)) ++ ((step c o).1.early.map (fun f => { f with early := false, again := true })) =
      (c.early.map (fun f => { f with early := false, again := true })) ∧
    (c.accepted = true → ∀ f ∈ (step c o).2, f.again = false) := by
  cases o <;> simp only [step, write, send, repeatEarly] <;> (repeat' split) <;> simp_all

theorem run_late (ops : List Op) : ∀ c : Client, c.ready = true →
    (run c ops).1.ready = true ∧ (run c ops).1.accepted = c.accepted ∧ (∀ f ∈ (run c ops).2, f.early = false) ∧
    ((run c ops).2.filter (·.again)) ++ ((run c ops).1.early.map (fun f => { f with early := false, again := true })) =
      (c.early.map (fun f => { f with early := false, again := true })) ∧
    (c.accepted = true → ∀ f ∈ (run c ops).2, f.again = false) := by
  induction ops with
  | nil => intro c h; simp [run, h]
  | cons o ops ih =>
    intro c h
    obtain ⟨a1, a2, a3, a4, a5⟩ := step_late c o h
    obtain ⟨b1, b2, b3, b4, b5⟩ := ih (step c o).1 a1
    refine ⟨b1, by simp only [run]; rw [b2, a2], ?_, ?_, ?_⟩
    · intro f hf
      simp only [run, List.mem_append] at hf
      exact hf.elim (a3 f) (b3 f)
    · simp only [run, List.filter_append, List.append_assoc]
      rw [b4, a4]
    · intro hacc f hf
      simp only [run, List.mem_append] at hf
      exact hf.elim (a5 hacc f) (b5 (a2.trans hacc) f)

/-- The bytes of the streams are those written (`W`) and those sent (`N`). -/
def Bytes (c : Client) (W N : Nat → Nat) : Prop :=
  ∀ k, (c.stream k = none → W k = 0 ∧ N k = 0) ∧
    ∀ s, c.stream k = some s → s.sent = N k ∧ s.sent + s.queued = W k

theorem step_bytes (c : Client) (W N : Nat → Nat) (o : Op) (h : Bytes c W N) :
    Bytes (step c o).1 (fun k => W k + writtenOn k [o]) (fun k => N k + newBytesOn k (step c o).2) ∧
    ∀ f ∈ (step c o).2, f.again = false → f.offset = N f.rank ∧ f.offset + f.length ≤ W f.rank := by
  cases o with
  | write k n =>
    refine ⟨?_, by simp [step]⟩
    intro j
    have hj := h j
    simp only [step, write, writtenOn, newBytesOn, List.map_cons, List.map_nil, List.sum_cons, List.sum_nil]
    by_cases hk : j = k
    · subst hk
      cases hs : c.stream j with
      | none => have := hj.1 hs; simp; omega
      | some s => have := hj.2 s hs; simp; omega
    · simp only [hk, if_false, show ¬ k = j from fun e => hk e.symm]
      exact hj
  | send k room =>
    have hk := h k
    simp only [step, send]
    split
    · exact ⟨by simpa [writtenOn, newBytesOn, Bytes] using h, by simp⟩
    · rename_i s hs
      split
      · have := hk.2 s hs
        refine ⟨?_, ?_⟩
        · intro j
          have hj := h j
          simp only [writtenOn, newBytesOn, List.map_cons, List.map_nil, List.sum_cons, List.sum_nil]
          by_cases e : j = k
          · subst e
            simp only [if_true, true_and]
            refine ⟨fun e => by simp at e, ?_⟩
            intro t ht
            simp only [Option.some.injEq] at ht
            subst ht
            simp only
            omega
          · simp only [e, if_false, show ¬ k = j from fun x => e x.symm, and_false]
            exact hj
        · intro f hf _
          rw [List.mem_singleton.mp hf]
          simp only
          omega
      · exact ⟨by simpa [writtenOn, newBytesOn, Bytes] using h, by simp⟩
  | repeatEarly =>
    simp only [step, repeatEarly]
    (repeat' split) <;> refine ⟨by simpa [writtenOn, newBytesOn, Bytes] using h, by simp⟩
  | maxData n => exact ⟨by simpa [writtenOn, newBytesOn, Bytes, step] using h, by simp [step]⟩
  | maxStreams n => exact ⟨by simpa [writtenOn, newBytesOn, Bytes, step] using h, by simp [step]⟩
  | maxStreamData k n =>
    refine ⟨?_, by simp [step]⟩
    intro j
    have hj := h j
    simp only [step, writtenOn, newBytesOn, List.map_cons, List.map_nil, List.sum_cons, List.sum_nil, Nat.add_zero]
    by_cases e : j = k
    · subst e
      simp only [if_true]
      cases hs : c.stream j with
      | none => have := hj.1 hs; simpa using this
      | some s => have := hj.2 s hs; simpa using this
    · simp only [e, if_false]
      exact hj

theorem newBytesOn_append (k : Nat) (l m : List Sent) : newBytesOn k (l ++ m) = newBytesOn k l + newBytesOn k m := by
  simp [newBytesOn, List.sum_append]

theorem writtenOn_append (k : Nat) (l m : List Op) : writtenOn k (l ++ m) = writtenOn k l + writtenOn k m := by
  simp [writtenOn, List.sum_append]

theorem run_bytes (ops : List Op) : ∀ (c : Client) (W N : Nat → Nat), Bytes c W N →
    Bytes (run c ops).1 (fun k => W k + writtenOn k ops) (fun k => N k + newBytesOn k (run c ops).2) := by
  induction ops with
  | nil => intro c W N h; simpa [run, writtenOn, newBytesOn, Bytes] using h
  | cons o ops ih =>
    intro c W N h
    have := ih _ _ _ (step_bytes c W N o h).1
    have e1 : ∀ k, writtenOn k (o :: ops) = writtenOn k [o] + writtenOn k ops := fun k => writtenOn_append k [o] ops
    simp only [run, newBytesOn_append, e1]
    simpa only [Nat.add_assoc] using this

theorem params_bytes {c : Client} {W N : Nat → Nat} (h : Bytes c W N) (p : Limits) (acc : Bool) :
    Bytes (params c p acc) W N := by
  intro k
  have hk := h k
  simp only [params]
  cases hs : c.stream k with
  | none => have := hk.1 hs; simpa using this
  | some s => have := hk.2 s hs; simpa using this

/-- The client knows what the server allows. -/
structure Knows (c : Client) (a : Allowed) (n : Nat) : Prop where
  data : c.maxData = a.data
  count : c.count = a.count
  initial : n ≤ c.initial
  stream : ∀ k s, c.stream k = some s → n ≤ s.max

theorem step_knows (c : Client) (a : Allowed) (n : Nat) (o : Op) (h : Knows c a n) :
    Knows (step c o).1 (raised a o) n := by
  obtain ⟨h1, h2, h3, h4⟩ := h
  cases o <;> simp only [step, write, send, repeatEarly, raised] <;> (repeat' split) <;> constructor <;>
    grind [Option.map_eq_some_iff]

theorem run_knows (ops : List Op) : ∀ (c : Client) (a : Allowed) (n : Nat), Knows c a n →
    Knows (run c ops).1 (allowedAfter a ops) n := by
  induction ops with
  | nil => intro c a n h; exact h
  | cons o ops ih => intro c a n h; exact ih _ _ n (step_knows c a n o h)

theorem params_knows (c : Client) (p : Limits) (acc : Bool) (hp : 0 < p.count) :
    Knows (params c p acc) (allowedBy p) p.stream := by
  refine ⟨rfl, if_neg (by omega), Nat.le_refl _, ?_⟩
  intro k s hs
  simp only [params] at hs
  cases he : c.stream k with
  | none => rw [he] at hs; simp at hs
  | some t =>
    rw [he] at hs
    simp only [Option.map_some, Option.some.injEq] at hs
    subst hs
    simp only
    split <;> omega

end Picoquic.EarlyData
