import Verif.Model.Splay
import Verif.Proof.Splay
import Verif.Spec.Ordered
/-!
# C04: the splay tree is an ordered collection, for every history of operations
-/

namespace Picoquic.Props
open Picoquic.Splay Picoquic.Spec

variable {α : Type}

/-- Walks with `picosplay_next` from a node: `n` steps. -/
def walk : Nat → Option (Loc α) → Option (Loc α)
  | 0, z => z
  | n + 1, z => match z with
    | none => none
    | some z => walk n (next z)

/-- The pointer to the element of rank `i`, as a client finds it: `picosplay_first`, then
`picosplay_next`. -/
def locAt (t : STree α) (i : Nat) : Option (Loc α) := walk i (first t)

/-- One client operation on the model; `none`: an assertion fails or a pointer is misused. -/
def splayOp (cmp : α → α → Int) (t : STree α) : Ordered.Op α → Option (STree α × Option α)
  | .insert a => (insert cmp t a).map fun t' => (t', some a)
  | .find a => (find cmp t a).map fun r => (r.1, r.2.map (·.x))
  | .findPrevious a => some (t, findPrevious cmp t a)
  | .delete a => (delete cmp t a).map fun t' => (t', none)
  | .deleteAt i => match locAt t i with
    | none => some (t, none)
    | some z => (deleteHint t z).map fun t' => (t', none)
  | .first => some (t, (first t).map (·.x))
  | .last => some (t, (last t).map (·.x))
  | .next i => match locAt t i with
    | none => some (t, none)
    | some z => some (t, (next z).map (·.x))
  | .previous i => match locAt t i with
    | none => some (t, none)
    | some z => some (t, (previous z).map (·.x))

/-- A history of operations. -/
def splayRun (cmp : α → α → Int) (t : STree α) : List (Ordered.Op α) →
    Option (STree α × List (Option α))
  | [] => some (t, [])
  | op :: ops => match splayOp cmp t op with
    | none => none
    | some (t', out) => (splayRun cmp t' ops).map fun r => (r.1, out :: r.2)

/-- The contents, as a client enumerates them: `picosplay_first`, then `picosplay_next` until
`NULL`, at most `n` elements. -/
def enumerate : Nat → Option (Loc α) → List α
  | 0, _ => []
  | n + 1, z => match z with
    | none => []
    | some z => z.x :: enumerate n (next z)

theorem first_spec (t : STree α) :
    (first t = none ∧ t.root.toList = []) ∨
    ∃ z, first t = some z ∧ z.tree = t.root ∧ z.before = [] := by
  unfold first
  cases ht : t.root with
  | nil => left; exact ⟨rfl, rfl⟩
  | node l a r =>
    right
    obtain ⟨h1, h2⟩ := leftmostFrom_spec l a r []
    exact ⟨_, rfl, by rw [h1]; rfl, by rw [h2]; rfl⟩

theorem last_spec (t : STree α) :
    (last t = none ∧ t.root.toList = []) ∨
    ∃ z, last t = some z ∧ z.tree = t.root ∧ z.after = [] := by
  unfold last
  cases ht : t.root with
  | nil => left; exact ⟨rfl, rfl⟩
  | node l a r =>
    right
    obtain ⟨h1, h2⟩ := rightmostFrom_spec l a r []
    exact ⟨_, rfl, by rw [h1]; rfl, by rw [h2]; rfl⟩

theorem walk_spec (n : Nat) (z : Loc α) :
    (walk n (some z) = none ∧ z.after.length < n) ∨
    ∃ z', walk n (some z) = some z' ∧ z'.tree = z.tree ∧
      z'.before.length = z.before.length + n := by
  induction n generalizing z with
  | zero => right; exact ⟨z, rfl, rfl, rfl⟩
  | succ n ih =>
    simp only [walk]
    rcases next_spec z with ⟨h1, h2⟩ | ⟨z', h1, h2, h3, h4⟩
    · left
      rw [h1, h2]
      refine ⟨?_, by simp⟩
      cases n <;> rfl
    · rw [h1]
      rcases ih z' with ⟨i1, i2⟩ | ⟨z'', i1, i2, i3⟩
      · left; refine ⟨i1, ?_⟩; rw [← h4]; simpa using i2
      · right
        refine ⟨z'', i1, by rw [i2, h2], ?_⟩
        rw [i3, h3]; simp; omega

theorem locAt_spec (t : STree α) (i : Nat) :
    (locAt t i = none ∧ t.root.toList.length ≤ i) ∨
    ∃ z, locAt t i = some z ∧ z.tree = t.root ∧ z.before.length = i := by
  unfold locAt
  rcases first_spec t with ⟨h1, h2⟩ | ⟨z, h1, h2, h3⟩
  · left
    rw [h1, h2]
    refine ⟨?_, by simp⟩
    cases i <;> rfl
  · rw [h1]
    rcases walk_spec i z with ⟨i1, i2⟩ | ⟨z', i1, i2, i3⟩
    · left
      refine ⟨i1, ?_⟩
      rw [← h2, Loc.tree_toList, h3]; simp; omega
    · right
      exact ⟨z', i1, by rw [i2, h2], by rw [i3, h3]; simp⟩

theorem enumerate_spec (n : Nat) (z : Loc α) (h : z.after.length < n) :
    enumerate n (some z) = z.x :: z.after := by
  induction n generalizing z with
  | zero => omega
  | succ n ih =>
    simp only [enumerate]
    rcases next_spec z with ⟨h1, h2⟩ | ⟨z', h1, h2, h3, h4⟩
    · rw [h1, h2]; cases n <;> rfl
    · rw [h1, ih z' (by rw [← h4] at h; simp at h; omega), h4]

/-- Each operation of the tree is a step of the ordered collection; the size counter moves with the
number of elements. -/
theorem splayOp_step (cmp : α → α → Int) (hc : IsCmp cmp) (t : STree α) (op : Ordered.Op α)
    (hs : Sorted cmp t.root.toList) (hn : t.size = t.root.toList.length) :
    ∃ t' out, splayOp cmp t op = some (t', out) ∧
      Ordered.Step cmp t.root.toList op t'.root.toList out ∧
      Sorted cmp t'.root.toList ∧ t'.size = t'.root.toList.length := by
  cases op with
  | insert a =>
    obtain ⟨t', h1, h2, p, s, h3, h4, h5, h6⟩ := insert_spec cmp hc t a hs
    refine ⟨t', some a, by simp [splayOp, h1], ?_, ?_, ?_⟩
    · rw [h3, h6]
      exact .insert p s a (fun b hb => by have := h4 b hb; omega) h5
    · rw [h6]; exact sorted_insert cmp hc a p s (h3 ▸ hs) h4 h5
    · rw [h2, hn, h3, h6]; simp; omega
  | find a =>
    rcases find_spec cmp hc t a hs with ⟨t', z, h1, h2, h3, h4, h5⟩ | ⟨h1, h2⟩
    · refine ⟨t', some z.x, by simp [splayOp, h1], ?_, by rw [h4]; exact hs, by rw [h4, h5, hn]⟩
      rw [h4]
      refine .found _ a z.x ?_ h2
      rw [← h4, ← h3, Loc.tree_toList]; simp
    · exact ⟨t, none, by simp [splayOp, h1], .notFound _ a h2, hs, hn⟩
  | findPrevious a =>
    refine ⟨t, _, rfl, ?_, hs, hn⟩
    rcases findPrevLoop_spec cmp hc a t.root hs none with ⟨h1, h2⟩ | ⟨b, h1, h2, h3, h4⟩
    · unfold findPrevious; rw [h1]; exact .prevNone _ a h2
    · unfold findPrevious; rw [h2]; exact .prevFound _ a b h1 h3 h4
  | delete a =>
    rcases find_spec cmp hc t a hs with ⟨t', z, h1, h2, h3, h4, h5⟩ | ⟨h1, h2⟩
    · obtain ⟨t'', i1, i2, i3⟩ := deleteHint_spec t' z
      have hl : t.root.toList = z.before ++ z.x :: z.after := by rw [← h4, ← h3, Loc.tree_toList]
      refine ⟨t'', none, by simp [splayOp, delete, h1, i1], ?_, ?_, ?_⟩
      · rw [i2, hl]; exact .delete _ _ a z.x h2
      · rw [i2]
        rw [hl] at hs
        exact hs.sublist (by simp)
      · rw [i2, i3, h5, hn, hl]; simp; omega
    · exact ⟨t, none, by simp [splayOp, delete, h1], .deleteNone _ a h2, hs, hn⟩
  | deleteAt i =>
    rcases locAt_spec t i with ⟨h1, h2⟩ | ⟨z, h1, h2, h3⟩
    · refine ⟨t, none, by simp [splayOp, h1], ?_, hs, hn⟩
      have : t.root.toList = t.root.toList.eraseIdx i := by rw [List.eraseIdx_of_length_le h2]
      conv => arg 4; rw [this]
      exact .deleteAt _ i
    · obtain ⟨t'', i1, i2, i3⟩ := deleteHint_spec t z
      have hl : t.root.toList = z.before ++ z.x :: z.after := by rw [← h2, Loc.tree_toList]
      refine ⟨t'', none, by simp [splayOp, h1, i1], ?_, ?_, ?_⟩
      · have : z.before ++ z.after = t.root.toList.eraseIdx i := by
          rw [hl, ← h3, List.eraseIdx_append_of_length_le (Nat.le_refl _)]; simp
        rw [i2, this]; exact .deleteAt _ i
      · rw [i2]
        rw [hl] at hs
        exact hs.sublist (by simp)
      · rw [i2, i3, hn, hl]; simp; omega
  | first =>
    refine ⟨t, _, rfl, ?_, hs, hn⟩
    have : (first t).map (·.x) = t.root.toList[0]? := by
      rcases first_spec t with ⟨h1, h2⟩ | ⟨z, h1, h2, h3⟩
      · simp [h1, h2]
      · rw [h1, ← h2, Loc.tree_toList, h3]; simp
    rw [this]; exact .first _
  | last =>
    refine ⟨t, _, rfl, ?_, hs, hn⟩
    have : (last t).map (·.x) = t.root.toList[t.root.toList.length - 1]? := by
      rcases last_spec t with ⟨h1, h2⟩ | ⟨z, h1, h2, h3⟩
      · simp [h1, h2]
      · rw [h1, ← h2, Loc.tree_toList, h3]; simp
    rw [this]; exact .last _
  | next i =>
    rcases locAt_spec t i with ⟨h1, h2⟩ | ⟨z, h1, h2, h3⟩
    · exact ⟨t, none, by simp [splayOp, h1], .noNext _ i h2, hs, hn⟩
    · refine ⟨t, (next z).map (·.x), by simp [splayOp, h1], ?_, hs, hn⟩
      have hl : t.root.toList = z.before ++ z.x :: z.after := by rw [← h2, Loc.tree_toList]
      have : (next z).map (·.x) = t.root.toList[i + 1]? := by
        rw [hl, ← h3, List.getElem?_append_right (by omega)]
        rcases next_spec z with ⟨i1, i2⟩ | ⟨z', i1, i2, i3, i4⟩
        · simp [i1, i2]
        · rw [i1, ← i4]
          simp [show z.before.length + 1 - z.before.length = 1 by omega]
      rw [this]; refine .next _ i ?_
      rw [hl]; simp; omega
  | previous i =>
    rcases locAt_spec t i with ⟨h1, h2⟩ | ⟨z, h1, h2, h3⟩
    · exact ⟨t, none, by simp [splayOp, h1], .noPrevious _ i h2, hs, hn⟩
    · refine ⟨t, (previous z).map (·.x), by simp [splayOp, h1], ?_, hs, hn⟩
      have hl : t.root.toList = z.before ++ z.x :: z.after := by rw [← h2, Loc.tree_toList]
      have : (previous z).map (·.x) = if i = 0 then none else t.root.toList[i - 1]? := by
        rw [hl, ← h3]
        rcases previous_spec z with ⟨i1, i2⟩ | ⟨z', i1, i2, i3, i4⟩
        · simp [i1, i2]
        · rw [i1, ← i4]; simp
      rw [this]; refine .previous _ i ?_
      rw [hl]; simp; omega

theorem splayRun_spec (cmp : α → α → Int) (hc : IsCmp cmp) (ops : List (Ordered.Op α))
    (t : STree α) (hs : Sorted cmp t.root.toList) (hn : t.size = t.root.toList.length) :
    ∃ t' outs, splayRun cmp t ops = some (t', outs) ∧
      Ordered.Run cmp t.root.toList ops outs t'.root.toList ∧
      Sorted cmp t'.root.toList ∧ t'.size = t'.root.toList.length := by
  induction ops generalizing t with
  | nil => exact ⟨t, [], rfl, .nil _, hs, hn⟩
  | cons op ops ih =>
    obtain ⟨t1, out, h1, h2, h3, h4⟩ := splayOp_step cmp hc t op hs hn
    obtain ⟨t2, outs, i1, i2, i3, i4⟩ := ih t1 h3 h4
    exact ⟨t2, out :: outs, by simp [splayRun, h1, i1], .cons h2 i2, i3, i4⟩

/-- **C04.** For every comparator that is a total preorder and every history of operations on an
initially empty tree: no assertion fails; the outputs are those of the ordered collection; the
enumeration by `first`/`next` yields exactly the collection, sorted; and the size counter is the
number of elements. -/
theorem C04_splay_is_ordered_collection (cmp : α → α → Int) (hc : IsCmp cmp)
    (ops : List (Ordered.Op α)) :
    ∃ t outs l, splayRun cmp STree.empty ops = some (t, outs) ∧
      Ordered.Run cmp [] ops outs l ∧
      (∀ n, l.length ≤ n → enumerate n (first t) = l) ∧
      l.Pairwise (fun a b => cmp a b ≤ 0) ∧ t.size = l.length := by
  obtain ⟨t, outs, h1, h2, h3, h4⟩ := splayRun_spec cmp hc ops STree.empty
    (by simp [STree.empty, Tree.toList, Sorted]) (by simp [STree.empty, Tree.toList])
  refine ⟨t, outs, t.root.toList, h1, h2, ?_, h3, h4⟩
  intro n hn
  rcases first_spec t with ⟨i1, i2⟩ | ⟨z, i1, i2, i3⟩
  · rw [i1, i2]; cases n <;> rfl
  · have : t.root.toList = z.x :: z.after := by rw [← i2, Loc.tree_toList, i3]; rfl
    rw [i1, this, enumerate_spec n z]
    rw [this] at hn; simp at hn; omega

/-- **C04, deletion of everything.** `picosplay_empty_tree` ends after as many deletions as there
are elements, with an empty tree and a zero size. -/
theorem C04_empty_tree (cmp : α → α → Int) (hc : IsCmp cmp) (ops : List (Ordered.Op α))
    (t : STree α) (outs : List (Option α))
    (h : splayRun cmp STree.empty ops = some (t, outs)) (n : Nat) (hn : t.size ≤ n) :
    emptyTree n t = some STree.empty := by
  obtain ⟨t', outs', h1, -, -, h4⟩ := splayRun_spec cmp hc ops STree.empty
    (by simp [STree.empty, Tree.toList, Sorted]) (by simp [STree.empty, Tree.toList])
  rw [h] at h1
  obtain ⟨rfl, rfl⟩ := Prod.mk.inj (Option.some.inj h1)
  clear h h1
  induction n generalizing t with
  | zero =>
    obtain ⟨root, size⟩ := t
    cases root with
    | nil => simp [Tree.toList] at h4; simp [emptyTree, STree.empty, h4]
    | node l a r => simp [Tree.toList] at h4 hn; omega
  | succ n ih =>
    obtain ⟨root, size⟩ := t
    cases root with
    | nil => simp [Tree.toList] at h4; simp [emptyTree, STree.empty, h4]
    | node l a r =>
      obtain ⟨t', i1, i2, i3⟩ := deleteHint_spec ⟨.node l a r, size⟩ ⟨l, a, r, []⟩
      simp only [emptyTree, i1]
      simp only [Loc.before, Loc.after, Splay.before, Splay.after, List.nil_append,
        List.append_nil] at i2
      refine ih t' ?_ ?_
      · simp only at i3 hn; omega
      · rw [i3, i2]; simp [Tree.toList] at h4 ⊢; omega

/-- **C04, comparators.** The comparators of the code order their keys: the `int64_t` difference is
the mathematical difference for all keys below 2^63, in particular for all stream identifiers,
stream offsets and packet numbers, which are below 2^62. -/
theorem C04_diff_comparator (a b : Nat) (ha : a < 2 ^ 63) (hb : b < 2 ^ 63) :
    diffCompare a b = (a : Int) - b := by
  unfold diffCompare
  rw [BitVec.toInt_sub]
  rw [BitVec.toInt_ofNat', BitVec.toInt_ofNat']
  simp [Int.bmod_def]
  omega

theorem C04_wake_comparator : IsCmp wakeCompare :=
  ⟨fun a b => by unfold wakeCompare; grind, fun a b => by unfold wakeCompare; grind,
   fun a b c => by unfold wakeCompare; grind⟩

theorem C04_token_comparator : IsCmp tokenCompare :=
  ⟨fun a b => by unfold tokenCompare; grind, fun a b => by unfold tokenCompare; grind,
   fun a b c => by unfold tokenCompare; grind⟩

/-- Beyond 2^63 the difference comparator is not an order: the bound matters. -/
example : diffCompare (2 ^ 63 + 1) 0 < 0 := by decide

/-- The comparison of integers used throughout the code (`comp` returns the difference or its
sign). -/
def intCmp (a b : Int) : Int := a - b

theorem intCmp_isCmp : IsCmp intCmp :=
  ⟨fun a b => by unfold intCmp; omega, fun a b => by unfold intCmp; omega,
   fun a b c => by unfold intCmp; omega⟩

-- a non-trivial history: the hypotheses hold and all kinds of operations are exercised
example : (splayRun intCmp STree.empty
    [.insert 5, .insert 2, .insert 9, .insert 7, .findPrevious 8, .find 2, .next 1, .deleteAt 1,
     .delete 9, .first, .last, .previous 1, .find 5]).map
      (fun r => (r.1.root.toList, r.1.size, r.2)) =
    some ([2, 7], 2, [some 5, some 2, some 9, some 7, some 7, some 2, some 7, none, none, some 2,
      some 7, some 2, none]) := by decide +kernel

end Picoquic.Props
