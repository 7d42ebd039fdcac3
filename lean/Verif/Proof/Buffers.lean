import Verif.Model.Buffers

/-! # Lemmas on the buffers of received data -/

namespace Picoquic.Buffers
open Picoquic.Spec

theorem upd_same {α : Type} (f : Nat → α) (e : Nat) (v : α) : upd f e v e = v := if_pos rfl

theorem upd_other {α : Type} (f : Nat → α) {e i : Nat} (v : α) (h : i ≠ e) : upd f e v i = f i := if_neg h

/-- The buffers in use: those of `own`, of the pool and of the waiting data. -/
def used (m : Mem) (own : List Nat) : List Nat := own ++ (m.pool ++ m.held.map Held.id)

/-- Each buffer is in one place; the waiting data are those that arrived. -/
structure Inv (m : Mem) (own : List Nat) : Prop where
  nodup : (used m own).Nodup
  lt : ∀ x ∈ used m own, x < m.fresh
  nf : ∀ x ∈ used m own, x ∉ m.freed
  flt : ∀ x ∈ m.freed, x < m.fresh
  cnt : (used m own).length + m.freed.length = m.fresh
  good : ∀ h ∈ m.held, ∃ p, m.ptr h.id = some p ∧ part (m.data h.id) p = h.expect
  logs : ∀ r ∈ m.log, r.1 = r.2

theorem inv_perm {m m' : Mem} {own own' : List Nat} (h : Inv m own) (hp : (used m own).Perm (used m' own'))
    (hf : m'.fresh = m.fresh) (hr : m'.freed = m.freed)
    (hg : ∀ h ∈ m'.held, ∃ p, m'.ptr h.id = some p ∧ part (m'.data h.id) p = h.expect)
    (hl : ∀ r ∈ m'.log, r.1 = r.2) : Inv m' own' where
  nodup := hp.nodup_iff.1 h.nodup
  lt := fun x hx => by rw [hf]; exact h.lt x (hp.mem_iff.2 hx)
  nf := fun x hx => by rw [hr]; exact h.nf x (hp.mem_iff.2 hx)
  flt := by rw [hf, hr]; exact h.flt
  cnt := by rw [hf, hr, ← hp.length_eq]; exact h.cnt
  good := hg
  logs := hl

theorem own_not_held {m : Mem} {a : Nat} {own : List Nat} (h : Inv m (a :: own)) :
    ∀ x ∈ m.held, x.id ≠ a := by
  intro x hx he
  have := h.nodup
  unfold used at this
  rw [List.cons_append, List.nodup_cons] at this
  exact this.1 (List.mem_append_right _ (List.mem_append_right _ (he ▸ List.mem_map_of_mem hx)))

theorem perm_eraseIdx {α : Type} : ∀ (l : List α) (i : Nat) (h : i < l.length), l.Perm (l[i] :: l.eraseIdx i)
  | [], _, h => absurd h (Nat.not_lt_zero _)
  | _ :: _, 0, _ => List.Perm.refl _
  | a :: l, i + 1, h =>
    List.Perm.trans ((perm_eraseIdx l i (Nat.lt_of_succ_lt_succ h)).cons a) (List.Perm.swap _ _ _)

theorem alloc_nil {m : Mem} (h : m.pool = []) :
    alloc m = ({ m with fresh := m.fresh + 1, ptr := upd m.ptr m.fresh none }, m.fresh) := by
  unfold alloc; rw [h]

theorem alloc_cons {m : Mem} {a : Nat} {p : List Nat} (h : m.pool = a :: p) :
    alloc m = ({ m with pool := p, ptr := upd m.ptr a none }, a) := by
  unfold alloc; rw [h]

/-- What `alloc` gives. -/
theorem alloc_spec {m : Mem} {own : List Nat} (h : Inv m own) :
    Inv (alloc m).1 ((alloc m).2 :: own) ∧ (alloc m).1.ptr = upd m.ptr (alloc m).2 none ∧
      (alloc m).1.data = m.data ∧ (alloc m).1.held = m.held ∧ (alloc m).1.log = m.log ∧
      (alloc m).1.freed = m.freed ∧ (alloc m).2 ∉ own ∧ (∀ x ∈ m.held, x.id ≠ (alloc m).2) ∧
      ((alloc m).1.fresh = m.fresh ∨ (m.pool = [] ∧ (alloc m).1.fresh = m.fresh + 1)) := by
  cases hp : m.pool with
  | nil =>
    rw [alloc_nil hp]
    dsimp only
    have hu : used m own = own ++ ([] ++ m.held.map Held.id) := by unfold used; rw [hp]
    have hn : m.fresh ∉ used m own := fun hx => Nat.lt_irrefl _ (h.lt _ hx)
    have hnh : ∀ x ∈ m.held, x.id ≠ m.fresh := by
      intro x hx he
      apply hn
      rw [hu]
      exact List.mem_append_right _ (List.mem_append_right _ (he ▸ List.mem_map_of_mem hx))
    refine ⟨⟨?_, ?_, ?_, ?_, ?_, ?_, h.logs⟩, rfl, rfl, rfl, rfl, rfl, ?_, hnh, Or.inr ⟨rfl, rfl⟩⟩
    · show (m.fresh :: (own ++ (m.pool ++ m.held.map Held.id))).Nodup
      exact List.nodup_cons.2 ⟨hn, h.nodup⟩
    · intro x hx
      show x < m.fresh + 1
      rcases List.mem_cons.1 (show x ∈ m.fresh :: used m own from hx) with hx | hx
      · omega
      · have := h.lt x hx; omega
    · intro x hx
      rcases List.mem_cons.1 (show x ∈ m.fresh :: used m own from hx) with hx | hx
      · subst hx
        exact fun hf => Nat.lt_irrefl _ (h.flt _ hf)
      · exact h.nf x hx
    · intro x hx
      have := h.flt x hx
      show x < m.fresh + 1
      omega
    · show (m.fresh :: used m own).length + m.freed.length = m.fresh + 1
      have := h.cnt
      rw [List.length_cons]
      omega
    · intro x hx
      simp only
      rw [upd_other _ _ (hnh x hx)]
      exact h.good x hx
    · exact fun hx => hn (List.mem_append_left _ hx)
  | cons a p =>
    rw [alloc_cons hp]
    dsimp only
    have hu : used m own = own ++ (a :: (p ++ m.held.map Held.id)) := by unfold used; rw [hp]; rfl
    have hperm : (used m own).Perm (a :: (own ++ (p ++ m.held.map Held.id))) := by
      rw [hu]; exact List.perm_middle
    have hnd := hperm.nodup_iff.1 h.nodup
    rw [List.nodup_cons] at hnd
    have hnh : ∀ x ∈ m.held, x.id ≠ a := by
      intro x hx he
      exact hnd.1 (List.mem_append_right _ (List.mem_append_right _ (he ▸ List.mem_map_of_mem hx)))
    refine ⟨inv_perm h hperm rfl rfl ?_ h.logs, rfl, rfl, rfl, rfl, rfl, fun hx => hnd.1 (List.mem_append_left _ hx),
      hnh, Or.inl rfl⟩
    intro x hx
    simp only
    rw [upd_other _ _ (hnh x hx)]
    exact h.good x hx

/-- The content of a buffer that nobody else uses is written. -/
theorem inv_write {m : Mem} {a : Nat} {own : List Nat} (h : Inv m (a :: own)) (v : Option (Nat × Nat)) (w : Bytes) :
    Inv { m with ptr := upd m.ptr a v, data := upd m.data a w } (a :: own) := by
  refine ⟨h.nodup, h.lt, h.nf, h.flt, h.cnt, ?_, h.logs⟩
  intro x hx
  simp only
  rw [upd_other _ _ (own_not_held h x hx), upd_other _ _ (own_not_held h x hx)]
  exact h.good x hx

/-- A buffer goes to a tree. -/
theorem inv_hold {m : Mem} {a : Nat} {own : List Nat} (h : Inv m (a :: own)) (k : Bool) {e : Bytes}
    {p : Nat × Nat} (hp : m.ptr a = some p) (he : part (m.data a) p = e) :
    Inv { m with held := m.held ++ [⟨k, a, e⟩] } own := by
  refine inv_perm h ?_ rfl rfl ?_ h.logs
  · unfold used
    simp only [List.map_append, List.map_cons, List.map_nil, List.cons_append]
    rw [← List.append_assoc m.pool, ← List.append_assoc own (m.pool ++ _)]
    exact (List.perm_append_singleton _ _).symm
  · intro x hx
    rcases List.mem_append.1 hx with hx | hx
    · exact h.good x hx
    · rw [List.mem_singleton] at hx
      subst hx
      exact ⟨p, hp, he⟩

theorem inv_recycle {m : Mem} {a : Nat} {own : List Nat} (limit : Nat) (h : Inv m (a :: own)) :
    Inv (recycle limit m a) own := by
  unfold recycle
  split
  · refine inv_perm h ?_ rfl rfl h.good h.logs
    unfold used
    exact List.perm_middle.symm
  · have hnd : a ∉ used m own := by
      have := h.nodup
      unfold used at this ⊢
      rw [List.cons_append, List.nodup_cons] at this
      exact this.1
    have hsub : ∀ x ∈ used m own, x ∈ used m (a :: own) := fun x hx => List.mem_cons_of_mem _ hx
    refine ⟨?_, fun x hx => h.lt x (hsub x hx), ?_, ?_, ?_, h.good, h.logs⟩
    · have := h.nodup
      unfold used at this
      rw [List.cons_append, List.nodup_cons] at this
      exact this.2
    · intro x hx hf
      rcases List.mem_cons.1 hf with hf | hf
      · subst hf; exact hnd hx
      · exact h.nf x (hsub x hx) hf
    · intro x hx
      rcases List.mem_cons.1 hx with hx | hx
      · subst hx; exact h.lt _ List.mem_cons_self
      · exact h.flt x hx
    · have := h.cnt
      unfold used at this ⊢
      simp only [List.length_append, List.length_cons] at this ⊢
      omega

theorem recycle_ptr (limit : Nat) (m : Mem) (a : Nat) : (recycle limit m a).ptr = m.ptr := by
  unfold recycle; split <;> rfl

theorem recycle_data (limit : Nat) (m : Mem) (a : Nat) : (recycle limit m a).data = m.data := by
  unfold recycle; split <;> rfl

theorem recycle_held (limit : Nat) (m : Mem) (a : Nat) : (recycle limit m a).held = m.held := by
  unfold recycle; split <;> rfl

theorem recycle_fresh (limit : Nat) (m : Mem) (a : Nat) : (recycle limit m a).fresh = m.fresh := by
  unfold recycle; split <;> rfl

/-- Nothing is freed while there are not more buffers than the pool can take. -/
theorem recycle_freed {limit : Nat} {m : Mem} {a : Nat} {own : List Nat} (h : Inv m (a :: own))
    (hl : m.fresh ≤ limit) : (recycle limit m a).freed = m.freed := by
  unfold recycle
  have := h.cnt
  unfold used at this
  simp only [List.length_append, List.length_cons] at this
  rw [if_pos (by omega)]

/-- Data leave: never an access to freed memory. -/
theorem leave_spec {m : Mem} {own : List Nat} (limit : Nat) (h : Inv m own) (i : Nat) :
    ∃ m', leave limit m i = some m' ∧ Inv m' own ∧ m'.ptr = m.ptr ∧ m'.data = m.data ∧ m'.fresh = m.fresh ∧
      m'.held = m.held.eraseIdx i ∧ (m.fresh ≤ limit → m'.freed = m.freed) := by
  unfold leave
  cases hi : m.held[i]? with
  | none =>
    refine ⟨m, rfl, h, rfl, rfl, rfl, ?_, fun _ => rfl⟩
    rw [List.eraseIdx_of_length_le (by rw [List.getElem?_eq_none_iff] at hi; exact hi)]
  | some x =>
    obtain ⟨hlt, hx⟩ := List.getElem?_eq_some_iff.1 hi
    have hmem : x ∈ m.held := hx ▸ List.getElem_mem hlt
    have hu : x.id ∈ used m own :=
      List.mem_append_right _ (List.mem_append_right _ (List.mem_map_of_mem hmem))
    simp only
    rw [if_neg (h.nf _ hu)]
    obtain ⟨p, hp, hpe⟩ := h.good x hmem
    rw [hp]
    simp only
    have h1 : Inv { m with held := m.held.eraseIdx i, log := m.log ++ [(part (m.data x.id) p, x.expect)] }
        (x.id :: own) := by
      refine inv_perm h ?_ rfl rfl ?_ ?_
      · have hperm : (m.held.map Held.id).Perm (x.id :: (m.held.eraseIdx i).map Held.id) := by
          have := (perm_eraseIdx m.held i hlt).map Held.id
          rw [hx] at this
          exact this
        unfold used
        rw [List.cons_append]
        refine List.Perm.trans ((hperm.append_left m.pool).append_left own) ?_
        refine List.Perm.trans ((List.perm_middle).append_left own) ?_
        exact List.perm_middle
      · intro y hy
        exact h.good y (List.mem_of_mem_eraseIdx hy)
      · intro r hr
        rcases List.mem_append.1 hr with hr | hr
        · exact h.logs r hr
        · rw [List.mem_singleton] at hr
          subst hr
          exact hpe
    refine ⟨_, rfl, inv_recycle limit h1, recycle_ptr _ _ _, recycle_data _ _ _, recycle_fresh _ _ _,
      recycle_held _ _ _, fun hl => recycle_freed h1 hl⟩

/-! ## The frames of a packet -/

/-- The buffer of the packet, while there are frames to come: it has the text of the packet, and it is either not in a
tree, or in a tree (of a CRYPTO stream if `strict`). -/
structure Cur (text : Bytes) (cur : Nat) (strict : Bool) (m : Mem) : Prop where
  data : m.data cur = text
  place : (Inv m [cur] ∧ m.ptr cur = none) ∨ (Inv m [] ∧ m.ptr cur ≠ none ∧
    ∃ h ∈ m.held, h.id = cur ∧ (strict = true → h.crypto = true))

/-- At the end of the packet. -/
def Done (cur : Nat) (m : Mem) : Prop :=
  (Inv m [cur] ∧ m.ptr cur = none) ∨ (Inv m [] ∧ m.ptr cur ≠ none)

theorem cur_done {text : Bytes} {cur : Nat} {k : Bool} {m : Mem} (h : Cur text cur k m) : Done cur m := by
  rcases h.place with h | ⟨h1, h2, _⟩
  · exact Or.inl h
  · exact Or.inr ⟨h1, h2⟩

theorem cur_weaken {text : Bytes} {cur : Nat} {k : Bool} {m : Mem} (h : Cur text cur k m) : Cur text cur false m :=
  ⟨h.data, h.place.imp id (fun ⟨a, b, x, c, d, _⟩ => ⟨a, b, x, c, d, (fun e => nomatch e)⟩)⟩

theorem cur_not_freed {text : Bytes} {cur : Nat} {k : Bool} {m : Mem} (h : Cur text cur k m) : cur ∉ m.freed := by
  rcases h.place with ⟨h, _⟩ | ⟨h, _, x, hx, he, _⟩
  · exact h.nf cur List.mem_cons_self
  · exact h.nf cur (List.mem_append_right _ (List.mem_append_right _ (he ▸ List.mem_map_of_mem hx)))

/-- A bound on the number of buffers: of a packet, `n` pieces are to come. -/
def Room (limit n : Nat) (m : Mem) : Prop := m.fresh ≤ limit ∧ m.held.length + n + 1 ≤ limit ∧ m.freed = []

theorem alloc_copy {text : Bytes} {cur : Nat} {own : List Nat} {m : Mem} (h : Inv m own) (hd : m.data cur = text)
    (k : Bool) (p : Nat × Nat) :
    Inv { (alloc m).1 with
        data := upd (alloc m).1.data (alloc m).2 (part ((alloc m).1.data cur) p)
        ptr := upd (alloc m).1.ptr (alloc m).2 (some (0, p.2))
        held := (alloc m).1.held ++ [⟨k, (alloc m).2, part text p⟩] } own := by
  obtain ⟨h1, h2, h3, h4, h5, h6, h7, h8, h9⟩ := alloc_spec h
  have hw := inv_write h1 (some (0, p.2)) (part ((alloc m).1.data cur) p)
  refine inv_hold hw k (e := part text p) (upd_same _ _ _) ?_
  simp only [upd_same]
  rw [h3, hd]
  unfold part
  rw [List.drop_zero, List.take_take, Nat.min_self]

theorem addChunk_spec {text : Bytes} {cur : Nat} {strict crypto last : Bool} {m : Mem} (h : Cur text cur strict m)
    (hk : strict = true → last = true → crypto = true) (p : Nat × Nat) :
    ∃ m', addChunk text cur crypto last m p = some m' ∧ Cur text cur strict m' ∧
      ∀ limit n, Room limit (n + 1) m → Room limit n m' := by
  unfold addChunk
  rw [if_neg (cur_not_freed h)]
  have hcopy : ∀ own, Inv m own → cur ≠ (alloc m).2 → (own = [] ∨ own = [cur]) →
      ∀ limit n, Room limit (n + 1) m → Room limit n { (alloc m).1 with
        data := upd (alloc m).1.data (alloc m).2 (part ((alloc m).1.data cur) p)
        ptr := upd (alloc m).1.ptr (alloc m).2 (some (0, p.2))
        held := (alloc m).1.held ++ [⟨crypto, (alloc m).2, part text p⟩] } := by
    intro own hi _ ho limit n ⟨r1, r2, r3⟩
    obtain ⟨_, _, _, h4, _, h6, _, _, h9⟩ := alloc_spec hi
    refine ⟨?_, ?_, h6.trans r3⟩
    · rcases h9 with h9 | ⟨hp, h9⟩
      · show (alloc m).1.fresh ≤ limit
        omega
      · show (alloc m).1.fresh ≤ limit
        have hc := hi.cnt
        unfold used at hc
        rw [hp, r3] at hc
        simp only [List.length_append, List.length_map, List.length_nil] at hc
        have : own.length ≤ 1 := by rcases ho with ho | ho <;> rw [ho] <;> simp
        omega
    · show ((alloc m).1.held ++ _).length + n + 1 ≤ limit
      rw [h4, List.length_append, List.length_singleton]
      omega
  by_cases hc : m.ptr cur ≠ none ∨ last = false
  · rw [if_pos hc]
    refine ⟨_, rfl, ?_⟩
    rcases h.place with ⟨hi, hp⟩ | ⟨hi, hp, x, hx, he, hs⟩
    · obtain ⟨_, h2, h3, h4, _, _, h7, _⟩ := alloc_spec hi
      have hne : cur ≠ (alloc m).2 := fun e => h7 (e ▸ List.mem_cons_self)
      refine ⟨⟨?_, Or.inl ⟨alloc_copy hi h.data crypto p, ?_⟩⟩, hcopy _ hi hne (Or.inr rfl)⟩
      · show upd (alloc m).1.data _ _ cur = text
        rw [upd_other _ _ hne, h3]
        exact h.data
      · show upd (alloc m).1.ptr _ _ cur = none
        rw [upd_other _ _ hne, h2, upd_other _ _ hne]
        exact hp
    · obtain ⟨_, h2, h3, h4, _, _, _, h8, _⟩ := alloc_spec hi
      have hne : cur ≠ (alloc m).2 := fun e => h8 x hx (he.trans e)
      refine ⟨⟨?_, Or.inr ⟨alloc_copy hi h.data crypto p, ?_, x, ?_, he, hs⟩⟩, hcopy _ hi hne (Or.inl rfl)⟩
      · show upd (alloc m).1.data _ _ cur = text
        rw [upd_other _ _ hne, h3]
        exact h.data
      · show upd (alloc m).1.ptr _ _ cur ≠ none
        rw [upd_other _ _ hne, h2, upd_other _ _ hne]
        exact hp
      · show x ∈ (alloc m).1.held ++ _
        rw [h4]
        exact List.mem_append_left _ hx
  · rw [if_neg hc]
    have hp : m.ptr cur = none := by
      cases hx : m.ptr cur with
      | none => rfl
      | some v => exact absurd (Or.inl (by rw [hx]; exact (fun a => nomatch a))) hc
    have hl : last = true := by
      cases last with
      | true => rfl
      | false => exact absurd (Or.inr rfl) hc
    rcases h.place with ⟨hi, _⟩ | ⟨_, hp', _⟩
    · refine ⟨_, rfl, ⟨h.data, Or.inr ⟨?_, ?_, ⟨crypto, cur, part text p⟩, ?_, rfl, fun hs => hk hs hl⟩⟩, ?_⟩
      · have hw : Inv { m with ptr := upd m.ptr cur (some p) } [cur] := by
          refine ⟨hi.nodup, hi.lt, hi.nf, hi.flt, hi.cnt, ?_, hi.logs⟩
          intro x hx
          simp only
          rw [upd_other _ _ (own_not_held hi x hx)]
          exact hi.good x hx
        exact inv_hold hw crypto (p := p) (upd_same _ _ _) (by simp only; rw [h.data])
      · show upd m.ptr cur _ cur ≠ none
        rw [upd_same]
        exact fun a => nomatch a
      · exact List.mem_append_right _ List.mem_cons_self
      · intro limit n ⟨r1, r2, r3⟩
        refine ⟨r1, ?_, r3⟩
        show (m.held ++ _).length + n + 1 ≤ limit
        rw [List.length_append, List.length_singleton]
        omega
    · exact absurd hp hp'

theorem addChunks_spec {text : Bytes} {cur : Nat} {strict crypto last : Bool} (ps : List (Nat × Nat)) :
    ∀ {m : Mem}, Cur text cur strict m → (strict = true → last = true → crypto = true) →
    ∃ m', addChunks text cur crypto last m ps = some m' ∧ Cur text cur strict m' ∧
      ∀ limit n, Room limit (n + ps.length) m → Room limit n m' := by
  induction ps with
  | nil => intro m h _; exact ⟨m, rfl, h, fun _ _ r => r⟩
  | cons p ps ih =>
    intro m h hk
    obtain ⟨m1, e1, c1, r1⟩ := addChunk_spec h hk p
    obtain ⟨m2, e2, c2, r2⟩ := ih c1 hk
    exact ⟨m2, by rw [addChunks, e1]; exact e2, c2, fun limit n r => r2 limit n (r1 limit _ r)⟩

theorem room_leave {limit n : Nat} {m m' : Mem} {i : Nat} (r : Room limit n m) (hf : m'.fresh = m.fresh)
    (hh : m'.held = m.held.eraseIdx i) (hr : m.fresh ≤ limit → m'.freed = m.freed) : Room limit n m' := by
  obtain ⟨r1, r2, r3⟩ := r
  refine ⟨by omega, ?_, (hr r1).trans r3⟩
  rw [hh]
  have : (m.held.eraseIdx i).length ≤ m.held.length := (List.eraseIdx_sublist m.held i).length_le
  omega

theorem done_leave {cur : Nat} {m : Mem} (limit : Nat) (h : Done cur m) (i : Nat) :
    ∃ m', leave limit m i = some m' ∧ Done cur m' ∧ ∀ n, Room limit n m → Room limit n m' := by
  rcases h with ⟨h, hp⟩ | ⟨h, hp⟩
  · obtain ⟨m', e, a, b, _, f, g, k⟩ := leave_spec limit h i
    exact ⟨m', e, Or.inl ⟨a, by rw [b]; exact hp⟩, fun n r => room_leave r f g k⟩
  · obtain ⟨m', e, a, b, _, f, g, k⟩ := leave_spec limit h i
    exact ⟨m', e, Or.inr ⟨a, by rw [b]; exact hp⟩, fun n r => room_leave r f g k⟩

theorem done_leaveAll {cur : Nat} (limit : Nat) (l : List Nat) : ∀ {m : Mem}, Done cur m →
    ∃ m', leaveAll limit m l = some m' ∧ Done cur m' ∧ ∀ n, Room limit n m → Room limit n m' := by
  induction l with
  | nil => intro m h; exact ⟨m, rfl, h, fun _ r => r⟩
  | cons i l ih =>
    intro m h
    obtain ⟨m1, e1, c1, r1⟩ := done_leave limit h i
    obtain ⟨m2, e2, c2, r2⟩ := ih c1
    exact ⟨m2, by rw [leaveAll, e1]; exact e2, c2, fun n r => r2 n (r1 n r)⟩

theorem done_leaveStreams {cur : Nat} (limit : Nat) (l : List Nat) : ∀ {m : Mem}, Done cur m →
    ∃ m', leaveStreams limit m l = some m' ∧ Done cur m' ∧ ∀ n, Room limit n m → Room limit n m' := by
  induction l with
  | nil => intro m h; exact ⟨m, rfl, h, fun _ r => r⟩
  | cons i l ih =>
    intro m h
    have : ∃ m', leaveStream limit m i = some m' ∧ Done cur m' ∧ ∀ n, Room limit n m → Room limit n m' := by
      unfold leaveStream
      cases hi : m.held[i]? with
      | none => exact ⟨m, rfl, h, fun _ r => r⟩
      | some x =>
        simp only
        split
        · exact ⟨m, rfl, h, fun _ r => r⟩
        · exact done_leave limit h i
    obtain ⟨m1, e1, c1, r1⟩ := this
    obtain ⟨m2, e2, c2, r2⟩ := ih c1
    exact ⟨m2, by rw [leaveStreams, e1]; exact e2, c2, fun n r => r2 n (r1 n r)⟩

theorem cur_leaveStreams {text : Bytes} {cur : Nat} (limit : Nat) (l : List Nat) : ∀ {m : Mem}, Cur text cur true m →
    ∃ m', leaveStreams limit m l = some m' ∧ Cur text cur true m' ∧ ∀ n, Room limit n m → Room limit n m' := by
  induction l with
  | nil => intro m h; exact ⟨m, rfl, h, fun _ r => r⟩
  | cons i l ih =>
    intro m h
    have : ∃ m', leaveStream limit m i = some m' ∧ Cur text cur true m' ∧
        ∀ n, Room limit n m → Room limit n m' := by
      unfold leaveStream
      cases hi : m.held[i]? with
      | none => exact ⟨m, rfl, h, fun _ r => r⟩
      | some x =>
        simp only
        by_cases hk : x.crypto = true
        · rw [if_pos hk]; exact ⟨m, rfl, h, fun _ r => r⟩
        · rw [if_neg hk]
          rcases h.place with ⟨hv, hp⟩ | ⟨hv, hp, y, hy, he, hs⟩
          · obtain ⟨m', e, a, b, d, f, g, k⟩ := leave_spec limit hv i
            exact ⟨m', e, ⟨by rw [d]; exact h.data, Or.inl ⟨a, by rw [b]; exact hp⟩⟩,
              fun n r => room_leave r f g k⟩
          · obtain ⟨m', e, a, b, d, f, g, k⟩ := leave_spec limit hv i
            refine ⟨m', e, ⟨by rw [d]; exact h.data, Or.inr ⟨a, by rw [b]; exact hp, y, ?_, he, hs⟩⟩,
              fun n r => room_leave r f g k⟩
            rw [g, List.mem_eraseIdx_iff_getElem?]
            obtain ⟨j, hj⟩ := List.mem_iff_getElem?.1 hy
            refine ⟨j, ?_, hj⟩
            intro hji
            rw [hji, hi] at hj
            injection hj with hj
            exact hk (hj ▸ hs rfl)
    obtain ⟨m1, e1, c1, r1⟩ := this
    obtain ⟨m2, e2, c2, r2⟩ := ih c1
    exact ⟨m2, by rw [leaveStreams, e1]; exact e2, c2, fun n r => r2 n (r1 n r)⟩

theorem frames_spec {text : Bytes} {cur : Nat} (limit : Nat) (l : List WaitFrame) : ∀ {m : Mem},
    Cur text cur true m → ∃ m', decodeFrames limit text cur m l = some m' ∧ Done cur m' ∧
      (Room limit (l.map (fun f => f.pieces.length)).sum m → Room limit 0 m') := by
  induction l with
  | nil => intro m h; exact ⟨m, rfl, cur_done h, fun r => r⟩
  | cons f l ih =>
    intro m h
    rw [decodeFrames]
    cases l with
    | nil =>
      obtain ⟨m1, e1, c1, r1⟩ := addChunks_spec (crypto := f.crypto)
        (last := f.last && (f.crypto || ([] : List WaitFrame).isEmpty)) f.pieces (cur_weaken h)
        (fun a => nomatch a)
      rw [e1]
      obtain ⟨m2, e2, c2, r2⟩ := done_leaveStreams limit f.drops (cur_done c1)
      simp only
      rw [e2]
      refine ⟨m2, rfl, c2, fun r => r2 0 (r1 limit 0 ?_)⟩
      rw [Nat.zero_add]
      simpa using r
    | cons g l =>
      obtain ⟨m1, e1, c1, r1⟩ := addChunks_spec (crypto := f.crypto)
        (last := f.last && (f.crypto || (g :: l).isEmpty)) f.pieces h (by
          intro _ hl
          rw [List.isEmpty_cons, Bool.or_false, Bool.and_eq_true] at hl
          exact hl.2)
      rw [e1]
      obtain ⟨m2, e2, c2, r2⟩ := cur_leaveStreams limit f.drops c1
      simp only
      rw [e2]
      obtain ⟨m3, e3, c3, r3⟩ := ih c2
      refine ⟨m3, e3, c3, fun r => r3 (r2 _ (r1 limit _ ?_))⟩
      rw [List.map_cons, List.sum_cons, Nat.add_comm] at r
      exact r

/-- The end of the packet. -/
theorem end_spec {cur limit : Nat} {m m' : Mem} (h : Done cur m) (he : endPacket limit cur m = some m') : Inv m' [] := by
  unfold endPacket at he
  split at he
  · exact nomatch he
  · split at he
    · rename_i hp
      injection he with he
      subst he
      rcases h with ⟨h, _⟩ | ⟨_, hn⟩
      · exact inv_recycle limit h
      · exact absurd hp hn
    · rename_i hp
      injection he with he
      subst he
      rcases h with ⟨_, hn⟩ | ⟨h, _⟩
      · exact absurd hn hp
      · exact h

theorem end_room {cur limit : Nat} {m : Mem} (h : Done cur m) (r : Room limit 0 m) :
    ∃ m', endPacket limit cur m = some m' ∧ m'.fresh ≤ limit ∧ m'.freed = [] := by
  unfold endPacket
  rw [r.2.2, if_neg List.not_mem_nil]
  split
  · rename_i hp
    rcases h with ⟨h, _⟩ | ⟨_, hn⟩
    · exact ⟨_, rfl, by rw [recycle_fresh]; exact r.1, (recycle_freed h r.1).trans r.2.2⟩
    · exact absurd hp hn
  · exact ⟨m, rfl, r.1, r.2.2⟩

theorem cur_start {m : Mem} (h : Inv m []) (text : Bytes) :
    Cur text (alloc m).2 true { (alloc m).1 with data := upd (alloc m).1.data (alloc m).2 text } := by
  obtain ⟨h1, h2, _⟩ := alloc_spec h
  refine ⟨upd_same _ _ _, Or.inl ⟨⟨h1.nodup, h1.lt, h1.nf, h1.flt, h1.cnt, ?_, h1.logs⟩, ?_⟩⟩
  · intro x hx
    simp only
    rw [upd_other _ _ (own_not_held h1 x hx)]
    exact h1.good x hx
  · show (alloc m).1.ptr (alloc m).2 = none
    rw [h2, upd_same]

theorem step_inv {limit : Nat} {m m' : Mem} {op : BufferOp} (h : Inv m []) (hs : step limit m op = some m') :
    Inv m' [] := by
  cases op with
  | drop i =>
    obtain ⟨m1, e, a, _⟩ := leave_spec limit h i
    have : some m1 = some m' := e.symm.trans hs
    injection this with this
    exact this ▸ a
  | packet text frames drops =>
    obtain ⟨m1, e1, d1, _⟩ := frames_spec limit frames (cur_start h text)
    obtain ⟨m2, e2, d2, _⟩ := done_leaveAll limit drops d1
    simp only [step, packet] at hs
    rw [e1] at hs
    simp only at hs
    rw [e2] at hs
    exact end_spec d2 hs

theorem step_room {limit : Nat} {m : Mem} {op : BufferOp} (h : Inv m []) (hf : m.fresh ≤ limit) (hr : m.freed = [])
    (hn : m.held.length + piecesOf op + 1 ≤ limit) :
    ∃ m', step limit m op = some m' ∧ m'.fresh ≤ limit ∧ m'.freed = [] := by
  cases op with
  | drop i =>
    obtain ⟨m1, e, _, _, _, f, _, k⟩ := leave_spec limit h i
    exact ⟨m1, e, by omega, (k hf).trans hr⟩
  | packet text frames drops =>
    obtain ⟨m1, e1, d1, r1⟩ := frames_spec limit frames (cur_start h text)
    obtain ⟨m2, e2, d2, r2⟩ := done_leaveAll limit drops d1
    simp only [step, packet]
    rw [e1]
    simp only
    rw [e2]
    refine end_room d2 (r2 0 (r1 ?_))
    obtain ⟨_, _, _, h4, _, h6, _, _, h9⟩ := alloc_spec h
    refine ⟨?_, ?_, h6.trans hr⟩
    · show (alloc m).1.fresh ≤ limit
      rcases h9 with h9 | ⟨hp, h9⟩
      · omega
      · have hc := h.cnt
        unfold used at hc
        rw [hp, hr] at hc
        simp only [List.length_append, List.length_map, List.length_nil] at hc
        omega
    · show (alloc m).1.held.length + _ + 1 ≤ limit
      rw [h4]
      exact hn

theorem inv_init : Inv {} [] :=
  ⟨List.nodup_nil, fun _ h => absurd h List.not_mem_nil, fun _ h => absurd h List.not_mem_nil,
    fun _ h => absurd h List.not_mem_nil, rfl, fun _ h => absurd h List.not_mem_nil,
    fun _ h => absurd h List.not_mem_nil⟩

theorem run_inv {limit : Nat} (ops : List BufferOp) : ∀ {m m' : Mem}, Inv m [] → run limit m ops = some m' →
    Inv m' [] := by
  induction ops with
  | nil => intro m m' h hr; injection hr with hr; exact hr ▸ h
  | cons op ops ih =>
    intro m m' h hr
    rw [run] at hr
    cases hs : step limit m op with
    | none => rw [hs] at hr; exact nomatch hr
    | some m1 => rw [hs] at hr; exact ih (step_inv h hs) hr

end Picoquic.Buffers
