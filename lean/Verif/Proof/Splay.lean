import Verif.Model.Splay
/-! Helper lemmas about splay trees. -/

namespace Picoquic.Splay
variable {α : Type}

/-- Elements before the subtree hung below the ancestors `up`. -/
def before : List (Anc α) → List α
  | [] => []
  | .left _ _ :: up => before up
  | .right l p :: up => before up ++ (l.toList ++ [p])

/-- Elements after it. -/
def after : List (Anc α) → List α
  | [] => []
  | .left p r :: up => p :: r.toList ++ after up
  | .right _ _ :: up => after up

theorem toList_foldl (up : List (Anc α)) (t : Tree α) :
    (up.foldl Anc.plug t).toList = before up ++ t.toList ++ after up := by
  induction up generalizing t with
  | nil => simp [before, after]
  | cons a up ih =>
    rw [List.foldl_cons, ih]
    cases a <;> simp [Anc.plug, before, after, Tree.toList]

/-- Elements strictly before a location. -/
def Loc.before (z : Loc α) : List α := Splay.before z.up ++ z.l.toList
/-- Elements strictly after a location. -/
def Loc.after (z : Loc α) : List α := z.r.toList ++ Splay.after z.up

theorem Loc.tree_toList (z : Loc α) : z.tree.toList = z.before ++ z.x :: z.after := by
  simp [Loc.tree, toList_foldl, Tree.toList, Loc.before, Loc.after]

/-- Rotations move neither the node nor its neighbours in key order. -/
theorem rotate_spec {z z' : Loc α} (h : rotate z = some z') :
    z'.x = z.x ∧ z'.before = z.before ∧ z'.after = z.after ∧ z'.up.length + 1 = z.up.length := by
  obtain ⟨l, x, r, up⟩ := z
  cases up with
  | nil => simp [rotate] at h
  | cons a up =>
    cases a <;> simp [rotate] at h <;> subst h <;>
      simp [Loc.before, Loc.after, before, after, Tree.toList]

theorem rotate_some (z : Loc α) (h : z.up ≠ []) : ∃ z', rotate z = some z' := by
  obtain ⟨l, x, r, up⟩ := z
  cases up with
  | nil => simp at h
  | cons a up => cases a <;> simp [rotate]

theorem splayStep_spec (z : Loc α) (h : z.up ≠ []) :
    ∃ z', splayStep z = some z' ∧ z'.x = z.x ∧ z'.before = z.before ∧ z'.after = z.after ∧
      z'.up.length < z.up.length := by
  obtain ⟨l, x, r, up⟩ := z
  match up with
  | [] => simp at h
  | [a] =>
    obtain ⟨z', hz⟩ := rotate_some (⟨l, x, r, [a]⟩ : Loc α) (by simp)
    obtain ⟨h1, h2, h3, h4⟩ := rotate_spec hz
    exact ⟨z', by cases a <;> simpa [splayStep] using hz, h1, h2, h3, by simp at h4 ⊢; omega⟩
  | .left p pr :: .left g gr :: up =>
    refine ⟨_, rfl, rfl, ?_, ?_, ?_⟩ <;>
      simp [Loc.before, Loc.after, before, after, Tree.toList]
    omega
  | .right pl p :: .right gl g :: up =>
    refine ⟨_, rfl, rfl, ?_, ?_, ?_⟩ <;>
      simp [Loc.before, Loc.after, before, after, Tree.toList]
    omega
  | .left p pr :: .right gl g :: up =>
    refine ⟨_, rfl, rfl, ?_, ?_, ?_⟩ <;>
      simp [Loc.before, Loc.after, before, after, Tree.toList]
    omega
  | .right pl p :: .left g gr :: up =>
    refine ⟨_, rfl, rfl, ?_, ?_, ?_⟩ <;>
      simp [Loc.before, Loc.after, before, after, Tree.toList]
    omega

theorem splayLoop_spec (n : Nat) (z : Loc α) (h : z.up.length ≤ n) :
    ∃ z', splayLoop n z = some z' ∧ z'.up = [] ∧ z'.x = z.x ∧ z'.before = z.before ∧
      z'.after = z.after := by
  induction n generalizing z with
  | zero =>
    have : z.up = [] := List.eq_nil_of_length_eq_zero (by omega)
    exact ⟨z, by simp [splayLoop, this], this, rfl, rfl, rfl⟩
  | succ n ih =>
    cases hu : z.up with
    | nil => exact ⟨z, by simp [splayLoop, hu], hu, rfl, rfl, rfl⟩
    | cons a up =>
      obtain ⟨z', h1, h2, h3, h4, h5⟩ := splayStep_spec z (by simp [hu])
      obtain ⟨z'', i1, i2, i3, i4, i5⟩ := ih z' (by omega)
      refine ⟨z'', ?_, i2, by rw [i3, h2], by rw [i4, h3], by rw [i5, h4]⟩
      simp only [splayLoop, hu, h1, i1]

/-- Splaying always succeeds, brings the node to the root and preserves the order. -/
theorem splay_spec (z : Loc α) :
    ∃ z', splay z = some z' ∧ z'.up = [] ∧ z'.x = z.x ∧ z'.before = z.before ∧
      z'.after = z.after :=
  splayLoop_spec _ z (Nat.le_refl _)

theorem before_nil (z : Loc α) (h : z.up = []) : z.before = z.l.toList := by
  simp [Loc.before, h, before]

theorem after_nil (z : Loc α) (h : z.up = []) : z.after = z.r.toList := by
  simp [Loc.after, h, after]

theorem subtree_toList (z : Loc α) : z.subtree.toList = z.l.toList ++ z.x :: z.r.toList := rfl

theorem takeLeftmost_spec (l : Tree α) (a : α) (r : Tree α) :
    l.toList ++ a :: r.toList = (takeLeftmost l a r).1 :: (takeLeftmost l a r).2.toList := by
  induction l generalizing a r with
  | nil => simp [takeLeftmost, Tree.toList]
  | node ll b lr ihl _ =>
    simp only [takeLeftmost, Tree.toList]
    rw [ihl b lr]
    simp

theorem deleteHint_spec (t : STree α) (z : Loc α) :
    ∃ t', deleteHint t z = some t' ∧ t'.root.toList = z.before ++ z.after ∧
      t'.size = t.size - 1 := by
  obtain ⟨z', h1, h2, h3, h4, h5⟩ := splay_spec z
  rw [← h4, ← h5, before_nil z' h2, after_nil z' h2]
  unfold deleteHint
  rw [h1]
  simp only
  obtain ⟨l, x, r, up⟩ := z'
  cases l with
  | nil => exact ⟨_, rfl, by simp [Tree.toList], rfl⟩
  | node ll lx lr =>
    cases r with
    | nil => exact ⟨_, rfl, by simp [Tree.toList], rfl⟩
    | node rl rx rr =>
      refine ⟨_, rfl, ?_, rfl⟩
      have := takeLeftmost_spec rl rx rr
      simp only [Tree.toList] at *
      rw [← this]

/-- The comparator is a total preorder, given as a three-way comparison. -/
structure IsCmp (cmp : α → α → Int) : Prop where
  anti : ∀ a b, cmp a b < 0 ↔ 0 < cmp b a
  zero : ∀ a b, cmp a b = 0 ↔ cmp b a = 0
  trans : ∀ a b c, cmp a b ≤ 0 → cmp b c ≤ 0 → cmp a c ≤ 0

theorem IsCmp.lt_of_lt_of_le {cmp : α → α → Int} (hc : IsCmp cmp) {a b c : α} (h1 : cmp a b < 0)
    (h2 : cmp b c ≤ 0) : cmp a c < 0 := by
  rcases Int.lt_trichotomy (cmp a c) 0 with h | h | h
  · exact h
  · exfalso
    have : cmp c a ≤ 0 := by rw [hc.zero] at h; omega
    have := hc.trans b c a h2 this
    have := (hc.anti a b).1 h1
    omega
  · have := hc.trans a b c (by omega) h2; omega

theorem IsCmp.lt_of_le_of_lt {cmp : α → α → Int} (hc : IsCmp cmp) {a b c : α} (h1 : cmp a b ≤ 0)
    (h2 : cmp b c < 0) : cmp a c < 0 := by
  rcases Int.lt_trichotomy (cmp a c) 0 with h | h | h
  · exact h
  · exfalso
    have : cmp c a ≤ 0 := by rw [hc.zero] at h; omega
    have := hc.trans c a b this h1
    have := (hc.anti b c).1 h2
    omega
  · have := hc.trans a b c h1 (by omega); omega

/-- Sorted in key order (equal keys allowed). -/
def Sorted (cmp : α → α → Int) (l : List α) : Prop := l.Pairwise (fun a b => cmp a b ≤ 0)

theorem insertPos_spec (cmp : α → α → Int) (hc : IsCmp cmp) (a : α) (t : Tree α)
    (up : List (Anc α)) (hs : Sorted cmp t.toList) :
    (insertPos cmp a t up).x = a ∧
    ∃ p s, t.toList = p ++ s ∧ (∀ b ∈ p, ¬ cmp a b < 0) ∧ (∀ b ∈ s, cmp a b < 0) ∧
      (insertPos cmp a t up).before = before up ++ p ∧
      (insertPos cmp a t up).after = s ++ after up := by
  induction t generalizing up with
  | nil =>
    refine ⟨rfl, [], [], rfl, by simp, by simp, ?_, ?_⟩ <;>
      simp [insertPos, Loc.before, Loc.after, Tree.toList]
  | node l b r ihl ihr =>
    simp only [Tree.toList, Sorted, List.pairwise_append, List.pairwise_cons, List.mem_cons] at hs
    obtain ⟨hl, ⟨hbr, hr⟩, hlr⟩ := hs
    unfold insertPos
    split
    · rename_i hlt
      obtain ⟨i0, p, s, i1, i2, i3, i4, i5⟩ := ihl (.left b r :: up) hl
      refine ⟨i0, p, s ++ b :: r.toList, by simp [Tree.toList, i1], i2, ?_, ?_, ?_⟩
      · intro c hm
        rcases List.mem_append.1 hm with hm | hm
        · exact i3 c hm
        · rcases List.mem_cons.1 hm with rfl | hm
          · exact hlt
          · exact hc.lt_of_lt_of_le hlt (hbr c hm)
      · rw [i4]; rfl
      · rw [i5]; simp [after]
    · rename_i hge
      obtain ⟨i0, p, s, i1, i2, i3, i4, i5⟩ := ihr (.right l b :: up) hr
      refine ⟨i0, l.toList ++ b :: p, s, by simp [Tree.toList, i1], ?_, i3, ?_, ?_⟩
      · intro c hm h'
        rcases List.mem_append.1 hm with hm | hm
        · exact hge (hc.lt_of_lt_of_le h' (hlr c hm b (.inl rfl)))
        · rcases List.mem_cons.1 hm with rfl | hm
          · exact hge h'
          · exact i2 c hm h'
      · rw [i4]; simp [before]
      · rw [i5]; rfl

theorem insert_spec (cmp : α → α → Int) (hc : IsCmp cmp) (t : STree α) (a : α)
    (hs : Sorted cmp t.root.toList) :
    ∃ t', insert cmp t a = some t' ∧ t'.size = t.size + 1 ∧
      ∃ p s, t.root.toList = p ++ s ∧ (∀ b ∈ p, ¬ cmp a b < 0) ∧ (∀ b ∈ s, cmp a b < 0) ∧
        t'.root.toList = p ++ a :: s := by
  obtain ⟨h0, p, s, h1, h2, h3, h4, h5⟩ := insertPos_spec cmp hc a t.root [] hs
  obtain ⟨z', z1, z2, z3, z4, z5⟩ := splay_spec (insertPos cmp a t.root [])
  refine ⟨⟨z'.subtree, t.size + 1⟩, by simp [insert, z1], rfl, p, s, h1, h2, h3, ?_⟩
  rw [subtree_toList, ← before_nil z' z2, ← after_nil z' z2, z3, z4, z5, h0, h4, h5]
  simp [before, after]

theorem sorted_insert (cmp : α → α → Int) (hc : IsCmp cmp) (a : α) (p s : List α)
    (hs : Sorted cmp (p ++ s)) (hp : ∀ b ∈ p, ¬ cmp a b < 0) (hss : ∀ b ∈ s, cmp a b < 0) :
    Sorted cmp (p ++ a :: s) := by
  simp only [Sorted, List.pairwise_append, List.pairwise_cons, List.mem_cons] at *
  obtain ⟨h1, h2, h3⟩ := hs
  refine ⟨h1, ⟨fun b hb => by have := hss b hb; omega, h2⟩, ?_⟩
  intro b hb c hcm
  rcases hcm with rfl | hcm
  · have := hp b hb
    rcases Int.lt_trichotomy (cmp b c) 0 with h | h | h
    · omega
    · omega
    · exact absurd ((hc.anti c b).2 h) this
  · exact h3 b hb c hcm

theorem findPos_spec (cmp : α → α → Int) (hc : IsCmp cmp) (a : α) (t : Tree α)
    (up : List (Anc α)) (hs : Sorted cmp t.toList) :
    (∀ z, findPos cmp a t up = some z → cmp a z.x = 0 ∧ z.tree = up.foldl Anc.plug t) ∧
    (findPos cmp a t up = none ↔ ∀ b ∈ t.toList, cmp a b ≠ 0) := by
  induction t generalizing up with
  | nil => simp [findPos, Tree.toList]
  | node l b r ihl ihr =>
    simp only [Tree.toList, Sorted, List.pairwise_append, List.pairwise_cons, List.mem_cons] at hs
    obtain ⟨hl, ⟨hbr, hr⟩, hlr⟩ := hs
    unfold findPos
    split
    · rename_i h0
      refine ⟨?_, ?_⟩
      · intro z hz
        simp at hz; subst hz
        exact ⟨h0, rfl⟩
      · simp only [reduceCtorEq, false_iff]
        intro h; exact h b (by simp [Tree.toList]) h0
    · rename_i h0
      split
      · rename_i hlt
        obtain ⟨i1, i2⟩ := ihl (.left b r :: up) hl
        refine ⟨?_, ?_⟩
        · intro z hz
          obtain ⟨j1, j2⟩ := i1 z hz
          exact ⟨j1, by rw [j2]; rfl⟩
        · rw [i2]
          constructor
          · intro h c hm
            simp only [Tree.toList, List.mem_append, List.mem_cons] at hm
            rcases hm with hm | rfl | hm
            · exact h c hm
            · exact h0
            · have := hc.lt_of_lt_of_le hlt (hbr c hm); omega
          · intro h c hm; exact h c (by simp [Tree.toList, hm])
      · rename_i hge
        obtain ⟨i1, i2⟩ := ihr (.right l b :: up) hr
        refine ⟨?_, ?_⟩
        · intro z hz
          obtain ⟨j1, j2⟩ := i1 z hz
          exact ⟨j1, by rw [j2]; rfl⟩
        · rw [i2]
          constructor
          · intro h c hm
            simp only [Tree.toList, List.mem_append, List.mem_cons] at hm
            rcases hm with hm | rfl | hm
            · intro h'
              have h1 := hlr c hm b (.inl rfl)
              have h2 : cmp a c ≤ 0 := by omega
              have := hc.trans a c b h2 h1
              omega
            · exact h0
            · exact h c hm
          · intro h c hm; exact h c (by simp [Tree.toList, hm])

theorem find_spec (cmp : α → α → Int) (hc : IsCmp cmp) (t : STree α) (a : α)
    (hs : Sorted cmp t.root.toList) :
    (∃ t' z, find cmp t a = some (t', some z) ∧ cmp a z.x = 0 ∧ z.tree = t'.root ∧
      t'.root.toList = t.root.toList ∧ t'.size = t.size) ∨
    (find cmp t a = some (t, none) ∧ ∀ b ∈ t.root.toList, cmp a b ≠ 0) := by
  obtain ⟨h1, h2⟩ := findPos_spec cmp hc a t.root [] hs
  unfold find
  cases hf : findPos cmp a t.root [] with
  | none => exact .inr ⟨rfl, h2.1 hf⟩
  | some z =>
    left
    obtain ⟨z', z1, z2, z3, z4, z5⟩ := splay_spec z
    obtain ⟨j1, j2⟩ := h1 z hf
    refine ⟨⟨z'.subtree, t.size⟩, z', by simp [z1], by rw [z3]; exact j1, ?_, ?_, rfl⟩
    · simp [Loc.tree, z2, Loc.subtree]
    · rw [subtree_toList, ← before_nil z' z2, ← after_nil z' z2, z3, z4, z5, ← Loc.tree_toList, j2]
      rfl

theorem findPrevLoop_spec (cmp : α → α → Int) (hc : IsCmp cmp) (a : α) (t : Tree α)
    (hs : Sorted cmp t.toList) (prev : Option α) :
    (findPrevLoop cmp a t prev = prev ∧ (∀ b ∈ t.toList, cmp a b < 0)) ∨
    (∃ b ∈ t.toList, findPrevLoop cmp a t prev = some b ∧ 0 ≤ cmp a b ∧
      ∀ c ∈ t.toList, 0 ≤ cmp a c → cmp c b ≤ 0) := by
  induction t generalizing prev with
  | nil => left; simp [findPrevLoop, Tree.toList]
  | node l b r ihl ihr =>
    simp only [Tree.toList, Sorted, List.pairwise_append, List.pairwise_cons, List.mem_cons] at hs
    obtain ⟨hl, ⟨hbr, hr⟩, hlr⟩ := hs
    unfold findPrevLoop
    split
    · rename_i h0
      right
      refine ⟨b, by simp [Tree.toList], rfl, by omega, ?_⟩
      intro c _ h2
      -- c ≤ a ≤ b
      have hca : cmp c a ≤ 0 := by
        rcases Int.lt_trichotomy (cmp c a) 0 with h | h | h
        · omega
        · omega
        · have := (hc.anti a c).2 h; omega
      exact hc.trans c a b hca (by omega)
    · rename_i h0
      split
      · rename_i hlt
        rcases ihl hl prev with ⟨i1, i2⟩ | ⟨b', i0, i1, i2, i3⟩
        · left
          refine ⟨i1, ?_⟩
          intro c hm
          simp only [Tree.toList, List.mem_append, List.mem_cons] at hm
          rcases hm with hm | rfl | hm
          · exact i2 c hm
          · exact hlt
          · exact hc.lt_of_lt_of_le hlt (hbr c hm)
        · right
          refine ⟨b', by simp [Tree.toList, i0], i1, i2, ?_⟩
          intro c hm h2
          simp only [Tree.toList, List.mem_append, List.mem_cons] at hm
          rcases hm with hm | rfl | hm
          · exact i3 c hm h2
          · omega
          · have := hc.lt_of_lt_of_le hlt (hbr c hm); omega
      · rename_i hge
        right
        rcases ihr hr (some b) with ⟨i1, i2⟩ | ⟨b', i0, i1, i2, i3⟩
        · refine ⟨b, by simp [Tree.toList], i1, by omega, ?_⟩
          intro c hm h2
          simp only [Tree.toList, List.mem_append, List.mem_cons] at hm
          rcases hm with hm | rfl | hm
          · exact hlr c hm b (.inl rfl)
          · rcases Int.lt_trichotomy (cmp c c) 0 with h | h | h
            · omega
            · omega
            · have := (hc.anti c c).2 h; omega
          · have := i2 c hm; omega
        · refine ⟨b', by simp [Tree.toList, i0], i1, i2, ?_⟩
          intro c hm h2
          simp only [Tree.toList, List.mem_append, List.mem_cons] at hm
          rcases hm with hm | rfl | hm
          · exact hc.trans c b b' (hlr c hm b (.inl rfl)) (hbr b' i0)
          · exact hbr b' i0
          · exact i3 c hm h2

theorem leftmostFrom_spec (l : Tree α) (a : α) (r : Tree α) (up : List (Anc α)) :
    (leftmostFrom l a r up).tree = up.foldl Anc.plug (.node l a r) ∧
    (leftmostFrom l a r up).before = before up := by
  induction l generalizing a r up with
  | nil => simp [leftmostFrom, Loc.tree, Loc.before, Tree.toList]
  | node ll b lr ihl _ =>
    obtain ⟨h1, h2⟩ := ihl b lr (.left a r :: up)
    simp only [leftmostFrom]
    exact ⟨by rw [h1]; rfl, by rw [h2]; rfl⟩

theorem rightmostFrom_spec (l : Tree α) (a : α) (r : Tree α) (up : List (Anc α)) :
    (rightmostFrom l a r up).tree = up.foldl Anc.plug (.node l a r) ∧
    (rightmostFrom l a r up).after = after up := by
  induction r generalizing l a up with
  | nil => simp [rightmostFrom, Loc.tree, Loc.after, Tree.toList]
  | node rl b rr _ ihr =>
    obtain ⟨h1, h2⟩ := ihr rl b (.right l a :: up)
    simp only [rightmostFrom]
    exact ⟨by rw [h1]; rfl, by rw [h2]; rfl⟩

theorem climbNext_spec (t : Tree α) (up : List (Anc α)) :
    (climbNext t up = none ∧ after up = []) ∨
    ∃ z, climbNext t up = some z ∧ z.tree = up.foldl Anc.plug t ∧
      z.before = before up ++ t.toList ∧ z.x :: z.after = after up := by
  induction up generalizing t with
  | nil => left; exact ⟨rfl, rfl⟩
  | cons a up ih =>
    cases a with
    | left p r =>
      right
      refine ⟨⟨t, p, r, up⟩, rfl, rfl, ?_, ?_⟩ <;> simp [Loc.before, Loc.after, before, after]
    | right l p =>
      rcases ih (.node l p t) with ⟨h1, h2⟩ | ⟨z, h1, h2, h3, h4⟩
      · left; exact ⟨h1, h2⟩
      · right
        refine ⟨z, h1, h2, ?_, h4⟩
        rw [h3]; simp [before, Tree.toList]

theorem next_spec (z : Loc α) :
    (next z = none ∧ z.after = []) ∨
    ∃ z', next z = some z' ∧ z'.tree = z.tree ∧ z'.before = z.before ++ [z.x] ∧
      z'.x :: z'.after = z.after := by
  obtain ⟨l, x, r, up⟩ := z
  cases r with
  | nil =>
    rcases climbNext_spec (.node l x .nil) up with ⟨h1, h2⟩ | ⟨z', h1, h2, h3, h4⟩
    · left; exact ⟨h1, by simp [Loc.after, Tree.toList, h2]⟩
    · right
      refine ⟨z', h1, h2, ?_, ?_⟩
      · rw [h3]; simp [Loc.before, Tree.toList]
      · rw [h4]; simp [Loc.after, Tree.toList]
  | node rl b rr =>
    right
    obtain ⟨h1, h2⟩ := leftmostFrom_spec rl b rr (.right l x :: up)
    refine ⟨_, rfl, by rw [h1]; rfl, by rw [h2]; simp [Loc.before, before], ?_⟩
    have ht := Loc.tree_toList (leftmostFrom rl b rr (.right l x :: up))
    rw [h1, h2, toList_foldl, List.append_assoc] at ht
    have := List.append_cancel_left ht
    rw [← this]
    simp [Loc.after, after]

theorem climbPrev_spec (t : Tree α) (up : List (Anc α)) :
    (climbPrev t up = none ∧ before up = []) ∨
    ∃ z, climbPrev t up = some z ∧ z.tree = up.foldl Anc.plug t ∧
      z.after = t.toList ++ after up ∧ z.before ++ [z.x] = before up := by
  induction up generalizing t with
  | nil => left; exact ⟨rfl, rfl⟩
  | cons a up ih =>
    cases a with
    | right l p =>
      right
      refine ⟨⟨l, p, t, up⟩, rfl, rfl, ?_, ?_⟩ <;> simp [Loc.before, Loc.after, before, after]
    | left p r =>
      rcases ih (.node t p r) with ⟨h1, h2⟩ | ⟨z, h1, h2, h3, h4⟩
      · left; exact ⟨h1, h2⟩
      · right
        refine ⟨z, h1, h2, ?_, h4⟩
        rw [h3]; simp [after, Tree.toList]

theorem previous_spec (z : Loc α) :
    (previous z = none ∧ z.before = []) ∨
    ∃ z', previous z = some z' ∧ z'.tree = z.tree ∧ z'.after = z.x :: z.after ∧
      z'.before ++ [z'.x] = z.before := by
  obtain ⟨l, x, r, up⟩ := z
  cases l with
  | nil =>
    rcases climbPrev_spec (.node .nil x r) up with ⟨h1, h2⟩ | ⟨z', h1, h2, h3, h4⟩
    · left; exact ⟨h1, by simp [Loc.before, Tree.toList, h2]⟩
    · right
      refine ⟨z', h1, h2, ?_, ?_⟩
      · rw [h3]; simp [Loc.after, Tree.toList]
      · rw [h4]; simp [Loc.before, Tree.toList]
  | node ll b lr =>
    right
    obtain ⟨h1, h2⟩ := rightmostFrom_spec ll b lr (.left x r :: up)
    refine ⟨_, rfl, by rw [h1]; rfl, by rw [h2]; simp [Loc.after, after], ?_⟩
    have ht := Loc.tree_toList (rightmostFrom ll b lr (.left x r :: up))
    rw [h1, h2, toList_foldl] at ht
    generalize rightmostFrom ll b lr (.left x r :: up) = w at *
    have ht' : before (.left x r :: up) ++ (Tree.node ll b lr).toList ++ after (.left x r :: up) =
        (w.before ++ [w.x]) ++ after (.left x r :: up) := by rw [ht]; simp
    rw [← List.append_cancel_right ht']
    simp [Loc.before, before]

end Picoquic.Splay
