/-!
# An ordered collection with duplicates, over plain lists

This is the specification the splay tree is compared with: a list kept in key order. Nothing here
mentions trees.
-/

namespace Picoquic.Spec.Ordered

/-- Operations of a client. `deleteAt`, `next` and `previous` take a pointer to an element obtained
earlier; the element is identified by its current rank in the collection. -/
inductive Op (α : Type) where
  | insert (a : α)
  | find (a : α)
  | findPrevious (a : α)
  | delete (a : α)
  | deleteAt (i : Nat)
  | first
  | last
  | next (i : Nat)
  | previous (i : Nat)

variable {α : Type}

/-- `Step cmp l op l' out`: on the collection `l`, `op` may leave `l'` and return `out`. -/
inductive Step (cmp : α → α → Int) : List α → Op α → List α → Option α → Prop where
  /-- insertion after the elements that are not greater, before those that are -/
  | insert (p s : List α) (a : α) : (∀ b ∈ p, 0 ≤ cmp a b) → (∀ b ∈ s, cmp a b < 0) →
      Step cmp (p ++ s) (.insert a) (p ++ a :: s) (some a)
  /-- `find` returns an element of equal key, and changes nothing -/
  | found (l : List α) (a b : α) : b ∈ l → cmp a b = 0 → Step cmp l (.find a) l (some b)
  /-- or nothing, if there is none -/
  | notFound (l : List α) (a : α) : (∀ b ∈ l, cmp a b ≠ 0) → Step cmp l (.find a) l none
  /-- `findPrevious` returns a greatest element among those not greater than the key -/
  | prevFound (l : List α) (a b : α) : b ∈ l → 0 ≤ cmp a b →
      (∀ c ∈ l, 0 ≤ cmp a c → cmp c b ≤ 0) → Step cmp l (.findPrevious a) l (some b)
  /-- or nothing, if all are greater -/
  | prevNone (l : List α) (a : α) : (∀ b ∈ l, cmp a b < 0) →
      Step cmp l (.findPrevious a) l none
  /-- `delete` removes one element of equal key -/
  | delete (p s : List α) (a b : α) : cmp a b = 0 →
      Step cmp (p ++ b :: s) (.delete a) (p ++ s) none
  /-- or nothing, if there is none -/
  | deleteNone (l : List α) (a : α) : (∀ b ∈ l, cmp a b ≠ 0) → Step cmp l (.delete a) l none
  | deleteAt (l : List α) (i : Nat) : Step cmp l (.deleteAt i) (l.eraseIdx i) none
  | first (l : List α) : Step cmp l .first l l[0]?
  | last (l : List α) : Step cmp l .last l l[l.length - 1]?
  | next (l : List α) (i : Nat) : i < l.length → Step cmp l (.next i) l l[i + 1]?
  | previous (l : List α) (i : Nat) : i < l.length →
      Step cmp l (.previous i) l (if i = 0 then none else l[i - 1]?)
  /-- there is no pointer to an element of a rank that does not exist -/
  | noNext (l : List α) (i : Nat) : l.length ≤ i → Step cmp l (.next i) l none
  | noPrevious (l : List α) (i : Nat) : l.length ≤ i → Step cmp l (.previous i) l none

/-- A history from `l` to `l'` with its outputs. -/
inductive Run (cmp : α → α → Int) : List α → List (Op α) → List (Option α) → List α → Prop where
  | nil (l : List α) : Run cmp l [] [] l
  | cons {l op l' out ops outs l''} : Step cmp l op l' out → Run cmp l' ops outs l'' →
      Run cmp l (op :: ops) (out :: outs) l''

end Picoquic.Spec.Ordered
