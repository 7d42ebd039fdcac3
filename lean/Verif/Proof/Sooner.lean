import Verif.Model.Sooner

namespace Picoquic.Proof.Sooner
open Picoquic.Spec Picoquic.Sooner

/-- The kinds of packets that are stored. -/
def Storable (client : Bool) (p : Sealed) : Prop :=
  (p.need = .handshake ∧ client = true) ∨ p.need = .oneRtt

/-- What never goes back. -/
structure Le (c c' : Cnx) : Prop where
  client : c'.client = c.client
  hs : c.handshakeKey = true → c'.handshakeKey = true
  app : c.oneRttKey = true → c'.oneRttKey = true
  ready : c.ready = true → c'.ready = true
  done : ∀ x ∈ c.done, x ∈ c'.done

theorem Le.refl (c : Cnx) : Le c c := ⟨rfl, id, id, id, fun _ h => h⟩

theorem Le.trans {a b c : Cnx} (h : Le a b) (g : Le b c) : Le a c :=
  ⟨g.client.trans h.client, fun x => g.hs (h.hs x), fun x => g.app (h.app x),
    fun x => g.ready (h.ready x), fun x y => g.done x (h.done x y)⟩

theorem Le.hasKey {c c' : Cnx} (h : Le c c') (n : NeedKey) (k : hasKey c n = true) :
    hasKey c' n = true := by
  cases n
  · rfl
  · exact h.hs k
  · exact h.app k

/-- A packet at which the processing of a datagram stops. -/
def Blocked (c : Cnx) (p : Sealed) : Prop :=
  hasKey c p.need = true ∧ p.forged = false ∧ p.num ∈ c.done

theorem Le.blocked {c c' : Cnx} (h : Le c c') (p : Sealed) (k : Blocked c p) : Blocked c' p :=
  ⟨h.hasKey _ k.1, k.2.1, h.done _ k.2.2⟩

theorem le_notDecrypted (c : Cnx) (p : Sealed) (r : List Sealed) : Le c (notDecrypted c p r) := by
  unfold notDecrypted
  by_cases h : c.ready = true
  · rw [if_pos h]; exact Le.refl c
  · rw [if_neg h]
    by_cases g : (p.need = .handshake ∧ c.client = true) ∨ p.need = .oneRtt
    · rw [if_pos g]; exact ⟨rfl, id, id, id, fun _ h => h⟩
    · rw [if_neg g]; exact Le.refl c

theorem le_processed (c : Cnx) (p : Sealed) : Le c (processed c p) := by
  refine ⟨rfl, ?_, ?_, ?_, ?_⟩
  · intro h; simp [processed, h]
  · intro h; simp [processed, h]
  · intro h; simp [processed, h]
  · intro x h; exact List.mem_append_left _ h

theorem segment_cases (c : Cnx) (p : Sealed) (r : List Sealed) :
    (hasKey c p.need = false ∧ segment c p r = (notDecrypted c p r, true)) ∨
    (hasKey c p.need = true ∧ p.forged = true ∧ segment c p r = (c, true)) ∨
    (Blocked c p ∧ segment c p r = (c, false)) ∨
    (hasKey c p.need = true ∧ p.forged = false ∧ p.num ∉ c.done ∧
      segment c p r = (processed c p, true)) := by
  unfold segment
  by_cases h : hasKey c p.need = true
  · rw [if_pos h]
    by_cases g : p.forged = true
    · rw [if_pos g]; exact Or.inr (Or.inl ⟨h, g, rfl⟩)
    · rw [if_neg g]
      have g' : p.forged = false := by simpa using g
      by_cases k : p.num ∈ c.done
      · rw [if_pos k]; exact Or.inr (Or.inr (Or.inl ⟨⟨h, g', k⟩, rfl⟩))
      · rw [if_neg k]; exact Or.inr (Or.inr (Or.inr ⟨h, g', k, rfl⟩))
  · rw [if_neg h]; exact Or.inl ⟨by simpa using h, rfl⟩

theorem le_segment (c : Cnx) (p : Sealed) (r : List Sealed) : Le c (segment c p r).1 := by
  rcases segment_cases c p r with h | h | h | h
  · rw [h.2]; exact le_notDecrypted c p r
  · rw [h.2.2]; exact Le.refl c
  · rw [h.2]; exact Le.refl c
  · rw [h.2.2.2]; exact le_processed c p

theorem datagram_cons (c : Cnx) (p : Sealed) (r : List Sealed) :
    datagram c (p :: r) =
      if (segment c p r).2 = true then datagram (segment c p r).1 r else (segment c p r).1 := rfl

/-- A property kept by each packet is kept by a datagram. -/
theorem datagram_ind {P : Cnx → Prop} (hs : ∀ c p r, P c → P (segment c p r).1) :
    ∀ (d : List Sealed) (c : Cnx), P c → P (datagram c d) := by
  intro d
  induction d with
  | nil => intro c h; exact h
  | cons p r ih =>
    intro c h
    rw [datagram_cons]
    by_cases g : (segment c p r).2 = true
    · rw [if_pos g]; exact ih _ (hs c p r h)
    · rw [if_neg g]; exact hs c p r h

theorem le_datagram (c : Cnx) (d : List Sealed) : Le c (datagram c d) :=
  datagram_ind (P := fun x => Le c x) (fun x p r h => h.trans (le_segment x p r)) d c (Le.refl c)

theorem le_loop : ∀ (todo kept : List (List Sealed)) (c : Cnx), Le c (soonerLoop c kept todo) := by
  intro todo
  induction todo with
  | nil => intro kept c; exact ⟨rfl, id, id, id, fun _ h => h⟩
  | cons d todo ih =>
    intro kept c
    unfold soonerLoop
    by_cases h : couldTry c d = true
    · rw [if_pos h]
      by_cases k : kept = []
      · simp only [if_pos k]
        have := ih kept { datagram c d with stash := [] }
        exact (le_datagram c d).trans ⟨this.client, this.hs, this.app, this.ready, this.done⟩
      · simp only [if_neg k]
        exact (le_datagram c d).trans (ih kept _)
    · rw [if_neg h]; exact ih _ c

theorem le_step (c : Cnx) (op : ArriveOp) : Le c (step c op) := by
  cases op with
  | datagram d => exact le_datagram c d
  | prepare =>
    simp only [step]
    by_cases h : c.recycle = true
    · rw [if_pos h]
      have := le_loop c.stash [] { c with recycle := false, stash := [] }
      exact ⟨this.client, this.hs, this.app, this.ready, this.done⟩
    · rw [if_neg h]; exact Le.refl c

/-- A property kept by each step is kept by a history. -/
theorem run_ind {P : Cnx → Prop} (hs : ∀ c op, P c → P (step c op)) :
    ∀ (ops : List ArriveOp) (c : Cnx), P c → P (run c ops) := by
  intro ops
  induction ops with
  | nil => intro c h; exact h
  | cons op ops ih => intro c h; exact ih _ (hs c op h)

theorem le_run (ops : List ArriveOp) (c : Cnx) : Le c (run c ops) :=
  run_ind (P := fun x => Le c x) (fun x op h => h.trans (le_step x op)) ops c (Le.refl c)

theorem run_append (c : Cnx) (a b : List ArriveOp) : run c (a ++ b) = run (run c a) b := by
  unfold run; rw [List.foldl_append]

/-! ## What a datagram adds to the list -/

/-- The part `e` of the datagram `d` is met with its first packet not decrypted. -/
def Meets (c : Cnx) (d e : List Sealed) : Prop :=
  ∃ u q r, d = u ++ e ∧ e = q :: r ∧ (∀ x ∈ u, ¬ Blocked c x) ∧ hasKey c q.need = false ∧
    Storable c.client q

theorem Meets.mono {c c' : Cnx} (h : Le c c') {d e : List Sealed} (m : Meets c' d e) :
    Meets c d e := by
  obtain ⟨u, q, r, h1, h2, h3, h4, h5⟩ := m
  refine ⟨u, q, r, h1, h2, fun x hx b => h3 x hx (h.blocked x b), ?_, ?_⟩
  · cases k : hasKey c q.need with
    | false => rfl
    | true => rw [h.hasKey _ k] at h4; exact nomatch h4
  · rw [h.client] at h5; exact h5

theorem Meets.cons {c : Cnx} {p : Sealed} {d e : List Sealed} (hb : ¬ Blocked c p)
    (m : Meets c d e) : Meets c (p :: d) e := by
  obtain ⟨u, q, r, h1, h2, h3, h4, h5⟩ := m
  refine ⟨p :: u, q, r, by rw [h1]; rfl, h2, ?_, h4, h5⟩
  intro x hx
  rcases List.mem_cons.1 hx with rfl | hx
  · exact hb
  · exact h3 x hx

theorem notDecrypted_stash (c : Cnx) (p : Sealed) (r : List Sealed) :
    (notDecrypted c p r).stash = c.stash ∧ (c.ready = true ∨ ¬ Storable c.client p) ∨
    (notDecrypted c p r).stash = (p :: r) :: c.stash ∧ c.ready = false ∧ Storable c.client p := by
  unfold notDecrypted
  by_cases h : c.ready = true
  · rw [if_pos h]; exact Or.inl ⟨rfl, Or.inl h⟩
  · rw [if_neg h]
    by_cases g : (p.need = .handshake ∧ c.client = true) ∨ p.need = .oneRtt
    · rw [if_pos g]; exact Or.inr ⟨rfl, by simpa using h, g⟩
    · rw [if_neg g]; exact Or.inl ⟨rfl, Or.inr g⟩

/-- What is added was met. -/
theorem datagram_stash : ∀ (d : List Sealed) (c : Cnx),
    ∃ new, (datagram c d).stash = new ++ c.stash ∧ ∀ e ∈ new, Meets c d e := by
  intro d
  induction d with
  | nil => intro c; exact ⟨[], rfl, fun e h => absurd h List.not_mem_nil⟩
  | cons p r ih =>
    intro c
    rw [datagram_cons]
    rcases segment_cases c p r with h | h | h | h
    · rw [h.2]
      have nb : ¬ Blocked c p := fun b => nomatch h.1.symm.trans b.1
      obtain ⟨new, e1, e2⟩ := ih (notDecrypted c p r)
      simp only [if_true]
      have hm : ∀ e ∈ new, Meets c (p :: r) e := fun e he =>
        ((e2 e he).mono (le_notDecrypted c p r)).cons nb
      rcases notDecrypted_stash c p r with k | k
      · exact ⟨new, by rw [e1, k.1], hm⟩
      · refine ⟨new ++ [p :: r], by rw [e1, k.1]; simp, ?_⟩
        intro e he
        rcases List.mem_append.1 he with he | he
        · exact hm e he
        · rw [List.mem_singleton] at he
          subst he
          exact ⟨[], p, r, rfl, rfl, fun x hx => absurd hx List.not_mem_nil, h.1, k.2.2⟩
    · rw [h.2.2]
      simp only [if_true]
      obtain ⟨new, e1, e2⟩ := ih c
      refine ⟨new, e1, fun e he => (e2 e he).cons (fun b => ?_)⟩
      exact nomatch h.2.1.symm.trans b.2.1
    · rw [h.2]
      exact ⟨[], rfl, fun e h => absurd h List.not_mem_nil⟩
    · rw [h.2.2.2]
      simp only [if_true]
      obtain ⟨new, e1, e2⟩ := ih (processed c p)
      refine ⟨new, e1, fun e he => ((e2 e he).mono (le_processed c p)).cons (fun b => ?_)⟩
      exact h.2.2.1 b.2.2

/-! ## The invariant -/

/-- Each part of a stored datagram that would be stored again is stored before it. -/
def Closed (c : Cnx) (l : List (List Sealed)) : Prop :=
  ∀ pre d post, l = pre ++ d :: post → ∀ e, e ≠ d → Meets c d e → e ∈ pre

theorem Closed.mono {c c' : Cnx} (h : Le c c') {l : List (List Sealed)} (k : Closed c l) :
    Closed c' l := fun pre d post e f g m => k pre d post e f g (m.mono h)

theorem Closed.tail {c : Cnx} {l : List (List Sealed)} (k : Closed c l) {d : List Sealed}
    (h : ∀ e, e ≠ d → Meets c d e → e ∈ l) {m : List (List Sealed)} (km : Closed c (l ++ m)) :
    Closed c (l ++ d :: m) := by
  intro pre x post hx e ne me
  rcases List.append_eq_append_iff.1 hx with ⟨a, h1, h2⟩ | ⟨a, h1, h2⟩
  · cases a with
    | nil =>
      rw [List.append_nil] at h1
      simp only [List.nil_append, List.cons.injEq] at h2
      obtain ⟨rfl, rfl⟩ := h2
      rw [h1]
      exact h e ne me
    | cons y a =>
      simp only [List.cons_append, List.cons.injEq] at h2
      obtain ⟨rfl, rfl⟩ := h2
      have := km (l ++ a) x post (by simp) e ne me
      rw [h1]
      rcases List.mem_append.1 this with t | t
      · exact List.mem_append_left _ t
      · exact List.mem_append_right _ (List.mem_cons_of_mem _ t)
  · cases a with
    | nil =>
      rw [List.append_nil] at h1
      simp only [List.nil_append, List.cons.injEq] at h2
      obtain ⟨rfl, rfl⟩ := h2
      rw [← h1]
      exact h e ne me
    | cons y a =>
      simp only [List.cons_append, List.cons.injEq] at h2
      obtain ⟨rfl, rfl⟩ := h2
      exact k pre x a h1 e ne me

theorem Closed.append {c : Cnx} {l m : List (List Sealed)} (k : Closed c l) (km : Closed c m) :
    Closed c (l ++ m) := by
  intro pre x post hx e ne me
  rcases List.append_eq_append_iff.1 hx with ⟨a, h1, h2⟩ | ⟨a, h1, h2⟩
  · rw [h1]
    exact List.mem_append_right _ (km a x post h2 e ne me)
  · cases a with
    | nil =>
      rw [List.append_nil] at h1
      have := km [] x post h2.symm e ne me
      exact absurd this List.not_mem_nil
    | cons y a =>
      simp only [List.cons_append, List.cons.injEq] at h2
      obtain ⟨rfl, rfl⟩ := h2
      exact k pre x a h1 e ne me

/-- The keys are there when the connection is ready. -/
def KeysReady (c : Cnx) : Prop :=
  c.ready = true → c.handshakeKey = true ∧ c.oneRttKey = true

theorem KeysReady.hasKey {c : Cnx} (h : KeysReady c) (r : c.ready = true) (n : NeedKey) :
    hasKey c n = true := by
  cases n
  · rfl
  · exact (h r).1
  · exact (h r).2

theorem keysReady_segment (c : Cnx) (p : Sealed) (r : List Sealed) (h : KeysReady c) :
    KeysReady (segment c p r).1 := by
  rcases segment_cases c p r with g | g | g | g
  · rw [g.2]
    unfold notDecrypted
    by_cases k : c.ready = true
    · rw [if_pos k]; exact h
    · rw [if_neg k]
      by_cases k2 : (p.need = .handshake ∧ c.client = true) ∨ p.need = .oneRtt
      · rw [if_pos k2]; exact h
      · rw [if_neg k2]; exact h
  · rw [g.2.2]; exact h
  · rw [g.2]; exact h
  · rw [g.2.2.2]
    intro k
    simp only [processed, Bool.or_eq_true, Bool.and_eq_true] at k ⊢
    rcases k with k | k
    · exact ⟨Or.inl (h k).1, Or.inl (h k).2⟩
    · exact ⟨k.1.2, k.2⟩

theorem keysReady_datagram (c : Cnx) (d : List Sealed) (h : KeysReady c) :
    KeysReady (datagram c d) :=
  datagram_ind (P := KeysReady) keysReady_segment d c h

/-- What a datagram adds is all that is met, and it is added in the right order. -/
theorem datagram_adds : ∀ (d : List Sealed) (c : Cnx), KeysReady c →
    ∃ new, (datagram c d).stash = new ++ c.stash ∧ (∀ e ∈ new, Meets c d e) ∧
      (∀ e, Meets (datagram c d) d e → e ∈ new) ∧ Closed (datagram c d) new := by
  intro d
  induction d with
  | nil =>
    intro c _
    refine ⟨[], rfl, fun e h => absurd h List.not_mem_nil, ?_, ?_⟩
    · rintro e ⟨u, q, r, h1, h2, _⟩
      rw [h2] at h1
      simp at h1
    · intro pre x post hx
      simp at hx
  | cons p r ih =>
    intro c hk
    have hcons := datagram_cons c p r
    rcases segment_cases c p r with h | h | h | h
    · rw [h.2] at hcons
      simp only [if_true] at hcons
      have nb : ¬ Blocked c p := fun b => nomatch h.1.symm.trans b.1
      have hk' : KeysReady (notDecrypted c p r) := by
        have := keysReady_segment c p r hk; rw [h.2] at this; exact this
      obtain ⟨new, e1, e2, e3, e4⟩ := ih (notDecrypted c p r) hk'
      rw [hcons]
      have hm : ∀ e ∈ new, Meets c (p :: r) e := fun e he =>
        ((e2 e he).mono (le_notDecrypted c p r)).cons nb
      have hle : Le c (datagram (notDecrypted c p r) r) :=
        (le_notDecrypted c p r).trans (le_datagram _ r)
      -- what is met after the first packet is met in the rest
      have hrest : ∀ e, e ≠ p :: r → Meets (datagram (notDecrypted c p r) r) (p :: r) e →
          e ∈ new := by
        rintro e ne ⟨u, q, r', h1, h2, h3, h4, h5⟩
        cases u with
        | nil => exact absurd h1.symm ne
        | cons x u =>
          simp only [List.cons_append, List.cons.injEq] at h1
          obtain ⟨rfl, h1⟩ := h1
          exact e3 e ⟨u, q, r', h1, h2, fun y hy => h3 y (List.mem_cons_of_mem _ hy), h4, h5⟩
      rcases notDecrypted_stash c p r with k | k
      · refine ⟨new, by rw [e1, k.1], hm, ?_, e4⟩
        intro e me
        by_cases ne : e = p :: r
        · subst ne
          obtain ⟨u, q, r', h1, h2, h3, h4, h5⟩ := me.mono hle
          rw [h2] at h1
          obtain ⟨rfl, rfl⟩ : q = p ∧ r' = r := by
            simp only [List.cons.injEq] at h2; exact ⟨h2.1.symm, h2.2.symm⟩
          rcases k.2 with k2 | k2
          · have := hk.hasKey k2 q.need
            rw [this] at h4; exact nomatch h4
          · exact absurd h5 k2
        · exact hrest e ne me
      · refine ⟨new ++ [p :: r], by rw [e1, k.1]; simp, ?_, ?_, ?_⟩
        · intro e he
          rcases List.mem_append.1 he with he | he
          · exact hm e he
          · rw [List.mem_singleton] at he
            subst he
            exact ⟨[], p, r, rfl, rfl, fun x hx => absurd hx List.not_mem_nil, h.1, k.2.2⟩
        · intro e me
          by_cases ne : e = p :: r
          · exact List.mem_append_right _ (by rw [ne]; exact List.mem_singleton.2 rfl)
          · exact List.mem_append_left _ (hrest e ne me)
        · exact e4.tail hrest (by rw [List.append_nil]; exact e4)
    · rw [h.2.2] at hcons
      simp only [if_true] at hcons
      rw [hcons]
      obtain ⟨new, e1, e2, e3, e4⟩ := ih c hk
      refine ⟨new, e1, fun e he => (e2 e he).cons (fun b => ?_), ?_, e4⟩
      · exact nomatch h.2.1.symm.trans b.2.1
      · rintro e ⟨u, q, r', h1, h2, h3, h4, h5⟩
        cases u with
        | nil =>
          rw [h2] at h1
          simp only [List.nil_append, List.cons.injEq] at h1
          obtain ⟨rfl, rfl⟩ := h1
          have := (le_datagram c r).hasKey _ h.1
          rw [this] at h4; exact nomatch h4
        | cons x u =>
          simp only [List.cons_append, List.cons.injEq] at h1
          obtain ⟨rfl, h1⟩ := h1
          exact e3 e ⟨u, q, r', h1, h2, fun y hy => h3 y (List.mem_cons_of_mem _ hy), h4, h5⟩
    · rw [h.2] at hcons
      rw [hcons, if_neg (by simp)]
      refine ⟨[], rfl, fun e h => absurd h List.not_mem_nil, ?_, ?_⟩
      · rintro e ⟨u, q, r', h1, h2, h3, h4, h5⟩
        cases u with
        | nil =>
          rw [h2] at h1
          simp only [List.nil_append, List.cons.injEq] at h1
          obtain ⟨rfl, rfl⟩ := h1
          rw [h.1.1] at h4; exact nomatch h4
        | cons x u =>
          simp only [List.cons_append, List.cons.injEq] at h1
          obtain ⟨rfl, h1⟩ := h1
          exact absurd h.1 (h3 p (List.mem_cons_self ..))
      · intro pre x post hx
        simp at hx
    · rw [h.2.2.2] at hcons
      simp only [if_true] at hcons
      rw [hcons]
      have hk' : KeysReady (processed c p) := by
        have := keysReady_segment c p r hk; rw [h.2.2.2] at this; exact this
      obtain ⟨new, e1, e2, e3, e4⟩ := ih (processed c p) hk'
      refine ⟨new, e1, fun e he => ((e2 e he).mono (le_processed c p)).cons (fun b => ?_), ?_, e4⟩
      · exact h.2.2.1 b.2.2
      · rintro e ⟨u, q, r', h1, h2, h3, h4, h5⟩
        cases u with
        | nil =>
          rw [h2] at h1
          simp only [List.nil_append, List.cons.injEq] at h1
          obtain ⟨rfl, rfl⟩ := h1
          have := ((le_processed c p).trans (le_datagram _ r)).hasKey _ h.1
          rw [this] at h4; exact nomatch h4
        | cons x u =>
          simp only [List.cons_append, List.cons.injEq] at h1
          obtain ⟨rfl, h1⟩ := h1
          exact e3 e ⟨u, q, r', h1, h2, fun y hy => h3 y (List.mem_cons_of_mem _ hy), h4, h5⟩

/-! ## The flag -/

/-- Keys that have come set the flag. -/
structure Gain (c c' : Cnx) : Prop where
  flag : c.recycle = true → c'.recycle = true
  key : ∀ n, hasKey c' n = true → hasKey c n = true ∨ c'.recycle = true

theorem Gain.refl (c : Cnx) : Gain c c := ⟨id, fun _ h => Or.inl h⟩

theorem Gain.trans {a b c : Cnx} (h : Gain a b) (g : Gain b c) : Gain a c :=
  ⟨fun x => g.flag (h.flag x), fun n x => by
    rcases g.key n x with k | k
    · rcases h.key n k with k' | k'
      · exact Or.inl k'
      · exact Or.inr (g.flag k')
    · exact Or.inr k⟩

theorem gain_segment (c : Cnx) (p : Sealed) (r : List Sealed) (hk : KeysReady c) :
    Gain c (segment c p r).1 := by
  rcases segment_cases c p r with g | g | g | g
  · rw [g.2]
    unfold notDecrypted
    by_cases k : c.ready = true
    · rw [if_pos k]; exact Gain.refl c
    · rw [if_neg k]
      by_cases k2 : (p.need = .handshake ∧ c.client = true) ∨ p.need = .oneRtt
      · rw [if_pos k2]
        refine ⟨id, fun n h => Or.inl ?_⟩
        cases n <;> exact h
      · rw [if_neg k2]; exact Gain.refl c
  · rw [g.2.2]; exact Gain.refl c
  · rw [g.2]; exact Gain.refl c
  · rw [g.2.2.2]
    refine ⟨fun h => by simp [processed, h], fun n h => ?_⟩
    by_cases k : c.ready = true
    · exact Or.inl (hk.hasKey k n)
    · have k' : c.ready = false := by simpa using k
      cases n with
      | early => exact Or.inl rfl
      | handshake =>
        simp only [hasKey, processed, Bool.or_eq_true] at h ⊢
        rcases h with h | h
        · exact Or.inl h
        · exact Or.inr (Or.inr (by simp [h, k']))
      | oneRtt =>
        simp only [hasKey, processed, Bool.or_eq_true] at h ⊢
        rcases h with h | h
        · exact Or.inl h
        · exact Or.inr (Or.inr (by simp [h, k']))

theorem gain_datagram (c : Cnx) (d : List Sealed) (hk : KeysReady c) : Gain c (datagram c d) :=
  (datagram_ind (P := fun x => KeysReady x ∧ Gain c x)
    (fun x p r h => ⟨keysReady_segment x p r h.1, h.2.trans (gain_segment x p r h.1)⟩)
    d c ⟨hk, Gain.refl c⟩).2

/-- The flag is set if a datagram of the list can be tried. -/
def Flag (c : Cnx) (l : List (List Sealed)) : Prop :=
  ∀ d ∈ l, couldTry c d = true → c.recycle = true

theorem couldTry_cons (c : Cnx) (p : Sealed) (r : List Sealed) :
    couldTry c (p :: r) = true ↔ p.need ≠ .early ∧ hasKey c p.need = true := by
  cases h : p.need <;> simp [couldTry, hasKey, h]

theorem Gain.couldTry {c c' : Cnx} (g : Gain c c') (d : List Sealed)
    (h : couldTry c' d = true) : couldTry c d = true ∨ c'.recycle = true := by
  cases d with
  | nil => exact Or.inl h
  | cons p r =>
    rw [couldTry_cons] at h ⊢
    rcases g.key _ h.2 with k | k
    · exact Or.inl ⟨h.1, k⟩
    · exact Or.inr k

theorem Flag.gain {c c' : Cnx} (g : Gain c c') {l : List (List Sealed)} (h : Flag c l) :
    Flag c' l := by
  intro d hd k
  rcases g.couldTry d k with k' | k'
  · exact g.flag (h d hd k')
  · exact k'

theorem Le.couldTry {c c' : Cnx} (h : Le c c') (d : List Sealed) (k : couldTry c d = true) :
    couldTry c' d = true := by
  cases d with
  | nil => exact k
  | cons p r =>
    rw [couldTry_cons] at k ⊢
    exact ⟨k.1, h.hasKey _ k.2⟩

/-! ## The loop -/

/-- The first packet of a stored datagram has been processed, or is forged. -/
def HeadDone (c : Cnx) (d : List Sealed) : Prop :=
  ∃ p r, d = p :: r ∧ (p.num ∈ c.done ∨ p.forged = true)

theorem HeadDone.mono {c c' : Cnx} (h : Le c c') {d : List Sealed} (k : HeadDone c d) :
    HeadDone c' d := by
  obtain ⟨p, r, e, h1⟩ := k
  exact ⟨p, r, e, h1.imp (h.done _) id⟩

theorem headDone_datagram (c : Cnx) (p : Sealed) (r : List Sealed)
    (h : hasKey c p.need = true) : HeadDone (datagram c (p :: r)) (p :: r) := by
  refine ⟨p, r, rfl, ?_⟩
  rw [datagram_cons]
  rcases segment_cases c p r with g | g | g | g
  · rw [h] at g; exact nomatch g.1
  · exact Or.inr g.2.1
  · rw [g.2, if_neg (by simp)]; exact Or.inl g.1.2.2
  · rw [g.2.2.2]
    simp only [if_true]
    exact Or.inl ((le_datagram _ r).done _ (by simp [processed]))

theorem headDone_couldTry (c : Cnx) (d : List Sealed) (h : couldTry c d = true) :
    HeadDone (datagram c d) d := by
  cases d with
  | nil => exact nomatch h
  | cons p r => exact headDone_datagram c p r ((couldTry_cons c p r).1 h).2

/-- The list without a datagram that can be tried. -/
theorem Closed.remove {c : Cnx} {l m : List (List Sealed)} {d : List Sealed}
    (h : Closed c (l ++ d :: m)) (k : couldTry c d = true) : Closed c (l ++ m) := by
  intro pre x post hx e ne me
  have hne : e ≠ d := by
    rintro rfl
    obtain ⟨u, q, r, h1, h2, h3, h4, h5⟩ := me
    rw [h2] at k
    rw [((couldTry_cons c q r).1 k).2] at h4
    exact nomatch h4
  rcases List.append_eq_append_iff.1 hx with ⟨a, h1, h2⟩ | ⟨a, h1, h2⟩
  · have := h (l ++ d :: a) x post (by rw [h2]; simp) e ne me
    rw [h1]
    rcases List.mem_append.1 this with t | t
    · exact List.mem_append_left _ t
    · rcases List.mem_cons.1 t with t | t
      · exact absurd t hne
      · exact List.mem_append_right _ t
  · cases a with
    | nil =>
      rw [List.append_nil] at h1
      have := h (l ++ [d]) x post (by rw [h2]; simp) e ne me
      rw [← h1]
      rcases List.mem_append.1 this with t | t
      · exact t
      · exact absurd (List.mem_singleton.1 t) hne
    | cons y a =>
      simp only [List.cons_append, List.cons.injEq] at h2
      obtain ⟨rfl, rfl⟩ := h2
      exact h pre x (a ++ d :: m) (by rw [h1]; simp) e ne me

/-- What the loop keeps and does. -/
theorem loop_spec : ∀ (todo kept : List (List Sealed)) (c : Cnx), KeysReady c →
    Closed c (c.stash ++ (kept ++ todo)) → (kept = [] → c.stash = []) →
    Flag c (c.stash ++ kept) →
    let c' := soonerLoop c kept todo
    KeysReady c' ∧ Closed c' c'.stash ∧ Flag c' c'.stash ∧
    (∀ d ∈ c.stash ++ kept, d ∈ c'.stash) ∧
    (∀ d ∈ todo, d ∈ c'.stash ∨ HeadDone c' d) ∧
    (∀ d ∈ todo, couldTry c d = true → HeadDone c' d) := by
  intro todo
  induction todo with
  | nil =>
    intro kept c hk hc _ hf
    rw [List.append_nil] at hc
    exact ⟨hk, hc.mono ⟨rfl, id, id, id, fun _ h => h⟩, hf, fun d h => h,
      fun d h => absurd h List.not_mem_nil, fun d h => absurd h List.not_mem_nil⟩
  | cons d todo ih =>
    intro kept c hk hc hn hf
    unfold soonerLoop
    by_cases h : couldTry c d = true
    · rw [if_pos h]
      have hle := le_datagram c d
      have hk' := keysReady_datagram c d hk
      obtain ⟨new, e1, e2, e3, e4⟩ := datagram_adds d c hk
      have hc1 : Closed (datagram c d) ((datagram c d).stash ++ (kept ++ todo)) := by
        rw [e1, List.append_assoc]
        refine e4.append ?_
        have hc2 := hc.mono hle
        rw [← List.append_assoc] at hc2 ⊢
        exact hc2.remove (hle.couldTry d h)
      have hf1 : Flag (datagram c d) ((datagram c d).stash ++ kept) := by
        intro x hx kx
        rw [e1, List.append_assoc] at hx
        rcases List.mem_append.1 hx with hx | hx
        · rcases (gain_datagram c d hk).couldTry x kx with k | k
          · obtain ⟨u, q, r, h1, h2, h3, h4, h5⟩ := e2 x hx
            rw [h2] at k
            rw [((couldTry_cons c q r).1 k).2] at h4
            exact nomatch h4
          · exact k
        · exact (hf.gain (gain_datagram c d hk)) x hx kx
      by_cases k : kept = []
      · -- nothing is put first in the list here
        simp only [if_pos k]
        have hs : (datagram c d).stash = [] := by
          rw [e1, hn k, List.append_nil]
          cases new with
          | nil => rfl
          | cons e new =>
            have me := e2 e (List.mem_cons_self ..)
            have ne : e ≠ d := by
              rintro rfl
              obtain ⟨u, q, r, h1, h2, h3, h4, h5⟩ := me
              rw [h2] at h
              rw [((couldTry_cons c q r).1 h).2] at h4
              exact nomatch h4
            have := hc [] d todo (by rw [hn k, k]; rfl) e ne me
            exact absurd this List.not_mem_nil
        have heq : ({ datagram c d with stash := [] } : Cnx) = datagram c d := by
          conv => rhs; rw [show datagram c d = { datagram c d with stash := (datagram c d).stash } from rfl, hs]
        rw [heq]
        obtain ⟨a1, a2, a3, a4, a5, a6⟩ := ih kept (datagram c d) hk' hc1 (fun _ => hs) hf1
        have hle2 := le_loop todo kept (datagram c d)
        refine ⟨a1, a2, a3, ?_, ?_, ?_⟩
        · intro x hx
          rw [hn k, k] at hx
          exact absurd hx List.not_mem_nil
        · intro x hx
          rcases List.mem_cons.1 hx with rfl | hx
          · exact Or.inr ((headDone_couldTry c x h).mono hle2)
          · exact a5 x hx
        · intro x hx kx
          rcases List.mem_cons.1 hx with rfl | hx
          · exact (headDone_couldTry c x h).mono hle2
          · exact a6 x hx (hle.couldTry x kx)
      · simp only [if_neg k]
        obtain ⟨a1, a2, a3, a4, a5, a6⟩ := ih kept (datagram c d) hk' hc1
          (fun t => absurd t k) hf1
        have hle2 := le_loop todo kept (datagram c d)
        refine ⟨a1, a2, a3, ?_, ?_, ?_⟩
        · intro x hx
          refine a4 x ?_
          rw [e1, List.append_assoc]
          exact List.mem_append_right _ hx
        · intro x hx
          rcases List.mem_cons.1 hx with rfl | hx
          · exact Or.inr ((headDone_couldTry c x h).mono hle2)
          · exact a5 x hx
        · intro x hx kx
          rcases List.mem_cons.1 hx with rfl | hx
          · exact (headDone_couldTry c x h).mono hle2
          · exact a6 x hx (hle.couldTry x kx)
    · rw [if_neg h]
      have hc1 : Closed c (c.stash ++ ((kept ++ [d]) ++ todo)) := by
        have : kept ++ [d] ++ todo = kept ++ d :: todo := by simp
        rw [this]; exact hc
      have hs : kept ++ [d] = [] → c.stash = [] := fun t => by simp at t
      have hf1 : Flag c (c.stash ++ (kept ++ [d])) := by
        intro x hx kx
        rw [← List.append_assoc] at hx
        rcases List.mem_append.1 hx with hx | hx
        · exact hf x hx kx
        · rw [List.mem_singleton] at hx
          subst hx
          exact absurd kx h
      obtain ⟨a1, a2, a3, a4, a5, a6⟩ := ih (kept ++ [d]) c hk hc1 hs hf1
      refine ⟨a1, a2, a3, ?_, ?_, ?_⟩
      · intro x hx
        refine a4 x ?_
        rw [← List.append_assoc]
        exact List.mem_append_left _ hx
      · intro x hx
        rcases List.mem_cons.1 hx with rfl | hx
        · exact Or.inl (a4 x (List.mem_append_right _ (List.mem_append_right _
            (List.mem_singleton.2 rfl))))
        · exact a5 x hx
      · intro x hx kx
        rcases List.mem_cons.1 hx with rfl | hx
        · exact absurd kx h
        · exact a6 x hx kx

/-- The invariant of the list. -/
structure Inv (c : Cnx) : Prop where
  keys : KeysReady c
  closed : Closed c c.stash
  flag : Flag c c.stash

theorem inv_datagram (c : Cnx) (d : List Sealed) (h : Inv c) : Inv (datagram c d) := by
  obtain ⟨new, e1, e2, e3, e4⟩ := datagram_adds d c h.keys
  refine ⟨keysReady_datagram c d h.keys, ?_, ?_⟩
  · rw [e1]
    exact e4.append (h.closed.mono (le_datagram c d))
  · intro x hx kx
    rw [e1] at hx
    rcases List.mem_append.1 hx with hx | hx
    · rcases (gain_datagram c d h.keys).couldTry x kx with k | k
      · obtain ⟨u, q, r, h1, h2, h3, h4, h5⟩ := e2 x hx
        rw [h2] at k
        rw [((couldTry_cons c q r).1 k).2] at h4
        exact nomatch h4
      · exact k
    · exact (h.flag.gain (gain_datagram c d h.keys)) x hx kx

theorem processSooner_spec (c : Cnx) (h : Inv c) :
    Inv (processSooner c) ∧ (∀ d ∈ c.stash, d ∈ (processSooner c).stash ∨ HeadDone (processSooner c) d) ∧
    (∀ d ∈ c.stash, couldTry c d = true → HeadDone (processSooner c) d) := by
  have hle : Le c { c with recycle := false, stash := [] } := ⟨rfl, id, id, id, fun _ h => h⟩
  have := loop_spec c.stash [] { c with recycle := false, stash := [] } h.keys
    (by exact h.closed.mono hle) (fun _ => rfl) (fun d hd => absurd hd List.not_mem_nil)
  obtain ⟨a1, a2, a3, _, a5, a6⟩ := this
  refine ⟨⟨a1, a2, a3⟩, a5, fun d hd k => a6 d hd (hle.couldTry d k)⟩

theorem inv_step (c : Cnx) (op : ArriveOp) (h : Inv c) : Inv (step c op) := by
  cases op with
  | datagram d => exact inv_datagram c d h
  | prepare =>
    simp only [step]
    by_cases k : c.recycle = true
    · rw [if_pos k]; exact (processSooner_spec c h).1
    · rw [if_neg k]; exact h

theorem inv_run (ops : List ArriveOp) (c : Cnx) (h : Inv c) : Inv (run c ops) :=
  run_ind inv_step ops c h

theorem inv_init (client : Bool) : Inv { client } :=
  ⟨(fun h => nomatch h), (fun pre d post h => by simp at h), fun d hd => absurd hd List.not_mem_nil⟩

/-! ## A packet that waits -/

/-- A packet is stored, or it has been processed, or it is forged. -/
def Waits (p : Sealed) (c : Cnx) : Prop :=
  (∃ r, p :: r ∈ c.stash) ∨ p.num ∈ c.done ∨ p.forged = true

theorem waits_datagram (p : Sealed) (c : Cnx) (d : List Sealed) (h : Waits p c) :
    Waits p (datagram c d) := by
  rcases h with ⟨r, h⟩ | h | h
  · obtain ⟨new, e1, _⟩ := datagram_stash d c
    exact Or.inl ⟨r, by rw [e1]; exact List.mem_append_right _ h⟩
  · exact Or.inr (Or.inl ((le_datagram c d).done _ h))
  · exact Or.inr (Or.inr h)

theorem HeadDone.waits {p : Sealed} {r : List Sealed} {c : Cnx} (h : HeadDone c (p :: r)) :
    p.num ∈ c.done ∨ p.forged = true := by
  obtain ⟨q, r', e, k⟩ := h
  simp only [List.cons.injEq] at e
  obtain ⟨rfl, rfl⟩ := e
  exact k

theorem waits_step (p : Sealed) (c : Cnx) (op : ArriveOp) (hi : Inv c) (h : Waits p c) :
    Waits p (step c op) := by
  cases op with
  | datagram d => exact waits_datagram p c d h
  | prepare =>
    simp only [step]
    by_cases k : c.recycle = true
    · rw [if_pos k]
      rcases h with ⟨r, h⟩ | h | h
      · rcases (processSooner_spec c hi).2.1 _ h with g | g
        · exact Or.inl ⟨r, g⟩
        · exact Or.inr g.waits
      · have := (le_step c .prepare).done _ h
        simp only [step, if_pos k] at this
        exact Or.inr (Or.inl this)
      · exact Or.inr (Or.inr h)
    · rw [if_neg k]; exact h

theorem waits_run (p : Sealed) (ops : List ArriveOp) (c : Cnx) (hi : Inv c) (h : Waits p c) :
    Waits p (run c ops) :=
  (run_ind (P := fun x => Inv x ∧ Waits p x)
    (fun x op k => ⟨inv_step x op k.1, waits_step p x op k.1 k.2⟩) ops c ⟨hi, h⟩).2

theorem done_prepare (p : Sealed) (c : Cnx) (hi : Inv c) (h : Waits p c) (hn : p.need ≠ .early)
    (hk : hasKey c p.need = true) : p.num ∈ (step c .prepare).done ∨ p.forged = true := by
  rcases h with ⟨r, h⟩ | h | h
  · have ht := (couldTry_cons c p r).2 ⟨hn, hk⟩
    have hr := hi.flag _ h ht
    simp only [step, if_pos hr]
    exact ((processSooner_spec c hi).2.2 _ h ht).waits
  · exact Or.inl ((le_step c .prepare).done _ h)
  · exact Or.inr h

theorem waits_arrival (p : Sealed) (r : List Sealed) : ∀ (u : List Sealed) (c : Cnx),
    KeysReady c → Storable c.client p → (∀ x ∈ u, x.num ∉ c.done) → (u.map (·.num)).Nodup →
    Waits p (datagram c (u ++ p :: r)) := by
  intro u
  induction u with
  | nil =>
    intro c hk hs _ _
    rw [List.nil_append]
    by_cases h : hasKey c p.need = true
    · exact Or.inr (headDone_datagram c p r h).waits
    · have h' : hasKey c p.need = false := by simpa using h
      rw [datagram_cons]
      rcases segment_cases c p r with g | g | g | g
      · rw [g.2]
        simp only [if_true]
        refine waits_datagram p _ r (Or.inl ⟨r, ?_⟩)
        rcases notDecrypted_stash c p r with k | k
        · rcases k.2 with k2 | k2
          · rw [hk.hasKey k2] at h'; exact nomatch h'
          · exact absurd hs k2
        · rw [k.1]; exact List.mem_cons_self ..
      · rw [h'] at g; exact nomatch g.1
      · exact absurd g.1.1 h
      · exact absurd g.1 h
  | cons x u ih =>
    intro c hk hs hf hn
    rw [List.cons_append, datagram_cons]
    have hle := le_segment c x (u ++ p :: r)
    have hk' := keysReady_segment c x (u ++ p :: r) hk
    have hx : x.num ∉ c.done := hf x (List.mem_cons_self ..)
    simp only [List.map_cons, List.nodup_cons] at hn
    rcases segment_cases c x (u ++ p :: r) with g | g | g | g
    · rw [g.2] at hle hk' ⊢
      simp only [if_true]
      refine ih _ hk' (by rw [hle.client]; exact hs) ?_ hn.2
      intro y hy
      have : (notDecrypted c x (u ++ p :: r)).done = c.done := by
        unfold notDecrypted
        split
        · rfl
        · split <;> rfl
      rw [this]
      exact hf y (List.mem_cons_of_mem _ hy)
    · rw [g.2.2]
      simp only [if_true]
      exact ih c hk hs (fun y hy => hf y (List.mem_cons_of_mem _ hy)) hn.2
    · exact absurd g.1.2.2 hx
    · rw [g.2.2.2] at hle hk' ⊢
      simp only [if_true]
      refine ih _ hk' (by rw [hle.client]; exact hs) ?_ hn.2
      intro y hy k
      rcases List.mem_append.1 k with k | k
      · exact hf y (List.mem_cons_of_mem _ hy) k
      · rw [List.mem_singleton] at k
        exact hn.1 (List.mem_map.2 ⟨y, hy, k⟩)

/-! ## Each packet once, and only authentic packets -/

/-- Everything comes from packets with a property. -/
structure From (A : Sealed → Prop) (c : Cnx) : Prop where
  once : c.done.Nodup
  auth : ∀ n ∈ c.done, ∃ p, A p ∧ p.num = n ∧ p.forged = false ∧ hasKey c p.need = true
  stored : ∀ d ∈ c.stash, ∀ p ∈ d, A p

theorem from_datagram {A : Sealed → Prop} : ∀ (d : List Sealed) (c : Cnx), From A c →
    (∀ p ∈ d, A p) → From A (datagram c d) := by
  intro d
  induction d with
  | nil => intro c h _; exact h
  | cons p r ih =>
    intro c h ha
    have hp := ha p (List.mem_cons_self ..)
    have hr : ∀ q ∈ r, A q := fun q hq => ha q (List.mem_cons_of_mem _ hq)
    rw [datagram_cons]
    rcases segment_cases c p r with g | g | g | g
    · rw [g.2]
      simp only [if_true]
      refine ih _ ?_ hr
      unfold notDecrypted
      split
      · exact h
      · split
        · refine ⟨h.once, fun n hn => ?_, ?_⟩
          · obtain ⟨p, a1, a2, a3, a4⟩ := h.auth n hn
            exact ⟨p, a1, a2, a3, Le.hasKey ⟨rfl, id, id, id, fun _ h => h⟩ _ a4⟩
          intro d hd
          rcases List.mem_cons.1 hd with rfl | hd
          · exact ha
          · exact h.stored d hd
        · exact h
    · rw [g.2.2]
      simp only [if_true]
      exact ih _ h hr
    · rw [g.2, if_neg (by simp)]
      exact h
    · rw [g.2.2.2]
      simp only [if_true]
      refine ih _ ⟨?_, ?_, h.stored⟩ hr
      · show (c.done ++ [p.num]).Nodup
        rw [List.nodup_append]
        refine ⟨h.once, by simp, ?_⟩
        intro a ha' b hb
        rw [List.mem_singleton] at hb
        subst hb
        rintro rfl
        exact g.2.2.1 ha'
      · intro n hn
        rcases List.mem_append.1 hn with hn | hn
        · obtain ⟨p', a1, a2, a3, a4⟩ := h.auth n hn
          exact ⟨p', a1, a2, a3, (le_processed c p).hasKey _ a4⟩
        · rw [List.mem_singleton] at hn
          exact ⟨p, hp, hn.symm, g.2.1, (le_processed c p).hasKey _ g.1⟩

theorem from_loop {A : Sealed → Prop} : ∀ (todo kept : List (List Sealed)) (c : Cnx), From A c →
    (∀ d ∈ kept ++ todo, ∀ p ∈ d, A p) → From A (soonerLoop c kept todo) := by
  intro todo
  induction todo with
  | nil =>
    intro kept c h hk
    refine ⟨h.once, fun n hn => ?_, ?_⟩
    · obtain ⟨p, a1, a2, a3, a4⟩ := h.auth n hn
      exact ⟨p, a1, a2, a3, Le.hasKey ⟨rfl, id, id, id, fun _ h => h⟩ _ a4⟩
    intro d hd
    rcases List.mem_append.1 hd with hd | hd
    · exact h.stored d hd
    · exact hk d (List.mem_append_left _ hd)
  | cons d todo ih =>
    intro kept c h hk
    unfold soonerLoop
    have hd : ∀ p ∈ d, A p := hk d (List.mem_append_right _ (List.mem_cons_self ..))
    have hk' : ∀ x ∈ kept ++ todo, ∀ p ∈ x, A p := by
      intro x hx
      rcases List.mem_append.1 hx with hx | hx
      · exact hk x (List.mem_append_left _ hx)
      · exact hk x (List.mem_append_right _ (List.mem_cons_of_mem _ hx))
    split
    · have hf := from_datagram d c h hd
      dsimp only
      split
      · refine ih kept _ ⟨hf.once, fun n hn => ?_, fun x hx => absurd hx List.not_mem_nil⟩ hk'
        obtain ⟨p, a1, a2, a3, a4⟩ := hf.auth n hn
        exact ⟨p, a1, a2, a3, Le.hasKey ⟨rfl, id, id, id, fun _ h => h⟩ _ a4⟩
      · exact ih kept _ hf hk'
    · exact ih _ c h (by simpa using hk)

theorem from_step {A : Sealed → Prop} (c : Cnx) (op : ArriveOp) (h : From A c)
    (ha : ∀ d, op = .datagram d → ∀ p ∈ d, A p) : From A (step c op) := by
  cases op with
  | datagram d => exact from_datagram d c h (ha d rfl)
  | prepare =>
    simp only [step]
    split
    · refine from_loop c.stash [] _ ⟨h.once, fun n hn => ?_,
        fun x hx => absurd hx List.not_mem_nil⟩ h.stored
      obtain ⟨p, a1, a2, a3, a4⟩ := h.auth n hn
      exact ⟨p, a1, a2, a3, Le.hasKey ⟨rfl, id, id, id, fun _ h => h⟩ _ a4⟩
    · exact h

theorem from_run {A : Sealed → Prop} : ∀ (ops : List ArriveOp) (c : Cnx), From A c →
    (∀ d, .datagram d ∈ ops → ∀ p ∈ d, A p) → From A (run c ops) := by
  intro ops
  induction ops with
  | nil => intro c h _; exact h
  | cons op ops ih =>
    intro c h ha
    exact ih _ (from_step c op h (fun d e => ha d (by rw [e]; exact List.mem_cons_self ..)))
      (fun d hd => ha d (List.mem_cons_of_mem _ hd))

/-! ## Many packets before the keys -/

/-- Datagrams of one packet each are put in the list in reverse order. -/
theorem run_singles : ∀ (l : List Sealed) (c : Cnx), c.ready = false → c.oneRttKey = false →
    (∀ p ∈ l, p.need = .oneRtt) →
    run c (l.map (fun p => .datagram [p])) =
      { c with stash := (l.map (fun p => [p])).reverse ++ c.stash } := by
  intro l
  induction l with
  | nil => intro c _ _ _; rfl
  | cons p l ih =>
    intro c h1 h2 h3
    have hp := h3 p (List.mem_cons_self ..)
    have hd : step c (.datagram [p]) = { c with stash := [p] :: c.stash } := by
      simp [step, datagram, segment, hasKey, notDecrypted, hp, h1, h2]
    have := ih { c with stash := [p] :: c.stash } h1 h2
      (fun q hq => h3 q (List.mem_cons_of_mem _ hq))
    show run (step c (.datagram [p])) _ = _
    rw [hd, this]
    simp

/-- The replay of datagrams of one packet each. -/
theorem loop_singles : ∀ (l : List Sealed) (c : Cnx), c.stash = [] → c.oneRttKey = true →
    (∀ p ∈ l, p.need = .oneRtt ∧ p.forged = false ∧ p.num ∉ c.done) → (l.map (·.num)).Nodup →
    (soonerLoop c [] (l.map (fun p => [p]))).done = c.done ++ l.map (·.num) ∧
    (soonerLoop c [] (l.map (fun p => [p]))).stash = [] := by
  intro l
  induction l with
  | nil => intro c h _ _ _; simp [soonerLoop, h]
  | cons p l ih =>
    intro c h1 h2 h3 h4
    obtain ⟨a, b, e⟩ := h3 p (List.mem_cons_self ..)
    have hd : datagram c [p] = processed c p := by
      simp [datagram, segment, hasKey, a, b, e, h2]
    have ht : couldTry c [p] = true := by simp [couldTry, a, h2]
    simp only [List.map_cons, List.nodup_cons] at h4
    rw [List.map_cons]
    unfold soonerLoop
    rw [if_pos ht]
    simp only [if_true, hd]
    have := ih { processed c p with stash := [] } rfl (by simp [processed, h2]) (by
      intro q hq
      obtain ⟨a', b', e'⟩ := h3 q (List.mem_cons_of_mem _ hq)
      refine ⟨a', b', ?_⟩
      show q.num ∉ c.done ++ [p.num]
      intro k
      rcases List.mem_append.1 k with k | k
      · exact e' k
      · rw [List.mem_singleton] at k
        exact h4.1 (List.mem_map.2 ⟨q, hq, k⟩)) h4.2
    refine ⟨?_, this.2⟩
    rw [this.1]
    simp [processed]

/-- One datagram of handshake packets, at a client without the keys. -/
theorem datagram_copies : ∀ (d : List Sealed) (c : Cnx), c.client = true → c.ready = false →
    c.handshakeKey = false → (∀ p ∈ d, p.need = .handshake) →
    ∃ new, (datagram c d).stash = new ++ c.stash ∧ new.length = d.length ∧
      2 * new.flatten.length = d.length * (d.length + 1) := by
  intro d
  induction d with
  | nil => intro c _ _ _ _; exact ⟨[], rfl, rfl, rfl⟩
  | cons p r ih =>
    intro c h1 h2 h3 h4
    have hp := h4 p (List.mem_cons_self ..)
    have hs : segment c p r = ({ c with stash := (p :: r) :: c.stash }, true) := by
      simp [segment, hasKey, notDecrypted, hp, h1, h2, h3]
    obtain ⟨new, e1, e2, e3⟩ := ih { c with stash := (p :: r) :: c.stash } h1 h2 h3
      (fun q hq => h4 q (List.mem_cons_of_mem _ hq))
    rw [datagram_cons, hs]
    simp only [if_true]
    refine ⟨new ++ [p :: r], by rw [e1]; simp, by simp [e2], ?_⟩
    rw [List.flatten_append, List.length_append, Nat.mul_add, e3]
    simp only [List.flatten_cons, List.flatten_nil, List.append_nil, List.length_cons]
    have a1 : (r.length + 1) * (r.length + 1 + 1) = r.length * (r.length + 1 + 1) + (r.length + 1 + 1) :=
      Nat.succ_mul _ _
    have a2 : r.length * (r.length + 1 + 1) = r.length * (r.length + 1) + r.length :=
      Nat.mul_succ _ _
    omega

end Picoquic.Proof.Sooner
