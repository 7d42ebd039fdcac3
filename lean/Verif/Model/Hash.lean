import Verif.Model.Bytes
/-!
# Hash table

Model of `picoquic/picohash.c`. The chained items of each bin are lists, head first. An item is
identified by its address, `id`. Freed memory is not modelled: deleting an item just unlinks it.
-/

namespace Picoquic.Hash
open Picoquic

/-- `picohash_item`, picohash.h 36-40: the address of the item, the cached hash, the key. -/
structure Item (κ : Type) where
  id : Nat
  hash : Nat
  key : κ
deriving DecidableEq, Repr

/-- `picohash_table`, picohash.h 42-50. -/
structure Table (κ : Type) where
  bins : Nat → List (Item κ)
  nbBin : Nat
  count : Int

variable {κ : Type}

/-- `picohash_create_ex`, picohash.c 30-59 (allocation succeeds). -/
def create (nbBin : Nat) : Table κ := ⟨fun _ => [], nbBin, 0⟩

/-- `(uint32_t)(hash % hash_table->nb_bin)`. -/
def binOf (nbBin hash : Nat) : Nat := u32 (hash % nbBin)

/-- The loop of `picohash_retrieve`, picohash.c 74-80. `eq k k'` is `picohash_compare(k, k') == 0`. -/
def lookup (eq : κ → κ → Bool) (key : κ) : List (Item κ) → Option (Item κ)
  | [] => none
  | item :: rest => if eq key item.key then some item else lookup eq key rest

/-- `picohash_retrieve`, picohash.c 68-83. -/
def retrieve (hash : κ → Nat) (eq : κ → κ → Bool) (t : Table κ) (key : κ) : Option (Item κ) :=
  lookup eq key (t.bins (binOf t.nbBin (hash key)))

/-- Assignment of one bin. -/
def setBin (t : Table κ) (b : Nat) (l : List (Item κ)) : Nat → List (Item κ) :=
  fun i => if i = b then l else t.bins i

/-- `picohash_insert`, picohash.c 85-110, of an item at address `id`. -/
def insert (hash : κ → Nat) (t : Table κ) (id : Nat) (key : κ) : Table κ :=
  let h := hash key
  let bin := binOf t.nbBin h
  { t with bins := setBin t bin (⟨id, h, key⟩ :: t.bins bin), count := t.count + 1 }

/-- The walk of the bin in `picohash_delete_item`, picohash.c 115-132: the head is compared first,
then each `next_in_bin` pointer. Returns the new chain and whether the item was found. -/
def unlink (id : Nat) : List (Item κ) → List (Item κ) × Bool
  | [] => ([], false)
  | item :: rest =>
    if item.id = id then (rest, true)
    else
      let r := unlink id rest
      (item :: r.1, r.2)

/-- `picohash_delete_item`, picohash.c 112-143. -/
def deleteItem (t : Table κ) (item : Item κ) : Table κ :=
  let bin := binOf t.nbBin item.hash
  let r := unlink item.id (t.bins bin)
  { t with bins := setBin t bin r.1, count := if r.2 then t.count - 1 else t.count }

/-- `picohash_delete_key`, picohash.c 145-155. -/
def deleteKey (hash : κ → Nat) (eq : κ → κ → Bool) (t : Table κ) (key : κ) : Table κ :=
  match retrieve hash eq t key with
  | none => t
  | some item => deleteItem t item

end Picoquic.Hash
