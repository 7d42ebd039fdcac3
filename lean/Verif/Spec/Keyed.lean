/-!
# A keyed collection, over plain lists

Specification of the hash table: the elements, most recently inserted first.
-/

namespace Picoquic.Spec.Keyed

/-- An element: its identity and its key. -/
structure Elem (κ : Type) where
  id : Nat
  key : κ
deriving DecidableEq, Repr

/-- Operations. `deleteItem` is given the identity of an element. -/
inductive Op (κ : Type) where
  | insert (id : Nat) (key : κ)
  | retrieve (key : κ)
  | deleteItem (id : Nat)
  | deleteKey (key : κ)

variable {κ : Type}

/-- Effect and result. -/
def step (eq : κ → κ → Bool) (l : List (Elem κ)) : Op κ → List (Elem κ) × Option (Elem κ)
  | .insert id key => (⟨id, key⟩ :: l, none)
  | .retrieve key => (l, l.find? (fun e => eq key e.key))
  | .deleteItem id => (l.eraseP (fun e => e.id == id), none)
  | .deleteKey key => (l.eraseP (fun e => eq key e.key), none)

/-- A history: the final contents and the results. -/
def run (eq : κ → κ → Bool) (l : List (Elem κ)) : List (Op κ) →
    List (Elem κ) × List (Option (Elem κ))
  | [] => (l, [])
  | op :: ops =>
    let s := step eq l op
    let r := run eq s.1 ops
    (r.1, s.2 :: r.2)

end Picoquic.Spec.Keyed
