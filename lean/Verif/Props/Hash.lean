import Verif.Model.Hash
import Verif.Spec.Keyed
/-!
# C22: the hash table is a keyed collection
-/

namespace Picoquic.Props
open Picoquic Picoquic.Hash Picoquic.Spec

variable {κ : Type}

/-- What the client sees of an item. -/
def elemOf (i : Item κ) : Keyed.Elem κ := ⟨i.id, i.key⟩

/-- Finds the item of a given identity, as a client who kept the pointer does. -/
def itemOf (hash : κ → Nat) (l : List (Keyed.Elem κ)) (id : Nat) : Option (Item κ) :=
  (l.find? (fun e => e.id == id)).map fun e => ⟨e.id, hash e.key, e.key⟩

/-- One operation on the table. The client keeps `l`, the elements it inserted and did not delete,
only to have the pointers to them. -/
def hashOp (hash : κ → Nat) (eq : κ → κ → Bool) (t : Table κ) (l : List (Keyed.Elem κ)) :
    Keyed.Op κ → Table κ × Option (Keyed.Elem κ)
  | .insert id key => (Hash.insert hash t id key, none)
  | .retrieve key => (t, (retrieve hash eq t key).map elemOf)
  | .deleteItem id => match itemOf hash l id with
    | none => (t, none)
    | some item => (deleteItem t item, none)
  | .deleteKey key => (deleteKey hash eq t key, none)

/-- A history. -/
def hashRun (hash : κ → Nat) (eq : κ → κ → Bool) (t : Table κ) (l : List (Keyed.Elem κ)) :
    List (Keyed.Op κ) → Table κ × List (Option (Keyed.Elem κ))
  | [] => (t, [])
  | op :: ops =>
    let s := hashOp hash eq t l op
    let r := hashRun hash eq s.1 (Keyed.step eq l op).1 ops
    (r.1, s.2 :: r.2)

/-- The table holds exactly the elements `l`: each bin has those whose hash falls in it, in order. -/
def Repr (hash : κ → Nat) (t : Table κ) (l : List (Keyed.Elem κ)) : Prop :=
  (∀ b, t.bins b = (l.filter (fun e => binOf t.nbBin (hash e.key) == b)).map
    (fun e => ⟨e.id, hash e.key, e.key⟩)) ∧
  t.count = l.length ∧ (l.map (·.id)).Nodup

theorem lookup_map (hash : κ → Nat) (eq : κ → κ → Bool) (key : κ) (l : List (Keyed.Elem κ)) :
    lookup eq key (l.map (fun e => ⟨e.id, hash e.key, e.key⟩)) =
      (l.find? (fun e => eq key e.key)).map (fun e => ⟨e.id, hash e.key, e.key⟩) := by
  induction l with
  | nil => rfl
  | cons e l ih =>
    simp only [List.map_cons, lookup, List.find?_cons]
    by_cases h : eq key e.key
    · simp [h]
    · simp [h, ih]

theorem find?_filter_of_imp {p q : Keyed.Elem κ → Bool} (h : ∀ e, p e = true → q e = true)
    (l : List (Keyed.Elem κ)) : (l.filter q).find? p = l.find? p := by
  induction l with
  | nil => rfl
  | cons e l ih =>
    by_cases hq : q e
    · simp [hq, List.find?_cons, ih]
    · have hp : p e = false := by
        cases hpe : p e with
        | false => rfl
        | true => exact absurd (h e hpe) hq
      simp [hq, hp, ih]

theorem unlink_map (hash : κ → Nat) (id : Nat) (l : List (Keyed.Elem κ)) :
    (unlink id (l.map (fun e => (⟨e.id, hash e.key, e.key⟩ : Item κ)))).1 =
      (l.eraseP (fun e => e.id == id)).map (fun e => ⟨e.id, hash e.key, e.key⟩) ∧
    ((unlink id (l.map (fun e => (⟨e.id, hash e.key, e.key⟩ : Item κ)))).2 =
      l.any (fun e => e.id == id)) := by
  induction l with
  | nil => exact ⟨rfl, rfl⟩
  | cons e l ih =>
    simp only [List.map_cons, unlink, List.eraseP_cons, List.any_cons]
    by_cases h : e.id = id
    · simp [h]
    · have hb : (e.id == id) = false := by simp [h]
      simp [h, hb, ih]

theorem eraseP_eq_of_nodup {l : List (Keyed.Elem κ)} (hn : (l.map (·.id)).Nodup)
    {e : Keyed.Elem κ} {p : Keyed.Elem κ → Bool} (hf : l.find? p = some e) :
    l.eraseP p = l.eraseP (fun x => x.id == e.id) := by
  induction l with
  | nil => simp at hf
  | cons a l ih =>
    simp only [List.map_cons, List.nodup_cons] at hn
    simp only [List.find?_cons] at hf
    by_cases hp : p a
    · simp [hp] at hf
      subst hf
      simp [hp]
    · simp [hp] at hf
      have hne : ¬ a.id = e.id := by
        intro he
        apply hn.1
        rw [he]
        exact List.mem_map.2 ⟨e, List.mem_of_find?_eq_some hf, rfl⟩
      simp [hp, hne, ih hn.2 hf]

theorem filter_eraseP_of_ne {l : List (Keyed.Elem κ)} (hn : (l.map (·.id)).Nodup)
    {e : Keyed.Elem κ} (he : e ∈ l) (q : Keyed.Elem κ → Bool) (hq : q e = false) :
    (l.eraseP (fun x => x.id == e.id)).filter q = l.filter q := by
  induction l with
  | nil => rfl
  | cons a l ih =>
    simp only [List.map_cons, List.nodup_cons] at hn
    by_cases ha : a.id = e.id
    · have : a = e := by
        rcases List.mem_cons.1 he with h | h
        · exact h.symm
        · exact absurd (List.mem_map.2 ⟨e, h, ha.symm⟩) hn.1
      subst this
      simp [hq]
    · have hm : e ∈ l := by
        rcases List.mem_cons.1 he with h | h
        · exact absurd (h ▸ rfl) ha
        · exact h
      have hab : (a.id == e.id) = false := by simp [ha]
      simp only [List.eraseP_cons, hab, cond_false, List.filter_cons, ih hn.2 hm]

theorem filter_eraseP_of_pos {l : List (Keyed.Elem κ)} (hn : (l.map (·.id)).Nodup)
    {e : Keyed.Elem κ} (he : e ∈ l) (q : Keyed.Elem κ → Bool) (hq : q e = true) :
    (l.eraseP (fun x => x.id == e.id)).filter q =
      (l.filter q).eraseP (fun x => x.id == e.id) := by
  induction l with
  | nil => rfl
  | cons a l ih =>
    simp only [List.map_cons, List.nodup_cons] at hn
    by_cases ha : a.id = e.id
    · have : a = e := by
        rcases List.mem_cons.1 he with h | h
        · exact h.symm
        · exact absurd (List.mem_map.2 ⟨e, h, ha.symm⟩) hn.1
      subst this
      simp [hq]
    · have hm : e ∈ l := by
        rcases List.mem_cons.1 he with h | h
        · exact absurd (h ▸ rfl) ha
        · exact h
      have hab : (a.id == e.id) = false := by simp [ha]
      simp only [List.eraseP_cons, hab, cond_false, List.filter_cons, ih hn.2 hm]
      split
      · simp only [List.eraseP_cons, hab, cond_false]
      · rfl

theorem deleteItem_repr (hash : κ → Nat) (t : Table κ) (l : List (Keyed.Elem κ))
    (hr : Repr hash t l) (e : Keyed.Elem κ) (he : e ∈ l) :
    Repr hash (deleteItem t ⟨e.id, hash e.key, e.key⟩) (l.eraseP (fun x => x.id == e.id)) := by
  obtain ⟨hb, hc, hn⟩ := hr
  have hlen : (l.eraseP (fun x => x.id == e.id)).length = l.length - 1 :=
    List.length_eraseP_of_mem he (by simp)
  have hpos : 0 < l.length := List.length_pos_of_mem he
  have hmem : (l.filter (fun x => binOf t.nbBin (hash x.key) == binOf t.nbBin (hash e.key))).any
      (fun x => x.id == e.id) = true := by
    rw [List.any_eq_true]
    exact ⟨e, List.mem_filter.2 ⟨he, by simp⟩, by simp⟩
  refine ⟨?_, ?_, ?_⟩
  · intro b
    simp only [deleteItem, setBin]
    rw [hb, (unlink_map hash e.id _).1]
    split
    · rename_i h; subst h
      rw [filter_eraseP_of_pos hn he _ (by simp)]
    · rename_i h
      rw [hb, filter_eraseP_of_ne hn he _ (by simp; exact fun h' => h h'.symm)]
  · simp only [deleteItem]
    rw [hb, (unlink_map hash e.id _).2, hmem, hlen, hc]
    simp only [if_true]
    omega
  · exact hn.sublist ((List.eraseP_sublist).map _)

/-- Operations whose inserted addresses are not already in the table (they come from `malloc`, or
from objects that are in the table only once). -/
def FreshIds (eq : κ → κ → Bool) : List (Keyed.Elem κ) → List (Keyed.Op κ) → Prop
  | _, [] => True
  | l, op :: ops => (match op with
      | .insert id _ => id ∉ l.map (·.id)
      | _ => True) ∧ FreshIds eq (Keyed.step eq l op).1 ops

theorem hashRun_spec (hash : κ → Nat) (eq : κ → κ → Bool)
    (hcompat : ∀ k k', eq k k' = true → hash k = hash k')
    (ops : List (Keyed.Op κ)) (t : Table κ) (l : List (Keyed.Elem κ)) (hr : Repr hash t l)
    (hf : FreshIds eq l ops) :
    (hashRun hash eq t l ops).2 = (Keyed.run eq l ops).2 ∧
    Repr hash (hashRun hash eq t l ops).1 (Keyed.run eq l ops).1 := by
  induction ops generalizing t l with
  | nil => exact ⟨rfl, hr⟩
  | cons op ops ih =>
    have hret : ∀ key, retrieve hash eq t key =
        (l.find? (fun e => eq key e.key)).map (fun e => ⟨e.id, hash e.key, e.key⟩) := by
      intro key
      unfold retrieve
      rw [hr.1, lookup_map, find?_filter_of_imp]
      intro e he
      rw [hcompat _ _ he]; simp
    have hstep : (hashOp hash eq t l op).2 = (Keyed.step eq l op).2 ∧
        Repr hash (hashOp hash eq t l op).1 (Keyed.step eq l op).1 := by
      cases op with
      | insert id key =>
        refine ⟨rfl, ?_, ?_, ?_⟩
        · intro b
          simp only [hashOp, Hash.insert, setBin, Keyed.step, List.filter_cons]
          by_cases hb : binOf t.nbBin (hash key) = b
          · subst hb; simp [hr.1]
          · have : ¬ b = binOf t.nbBin (hash key) := fun h => hb h.symm
            simp [hb, this, hr.1]
        · simp [hashOp, Hash.insert, Keyed.step, hr.2.1]
        · have := hf.1
          simp only at this
          simp only [Keyed.step, List.map_cons, List.nodup_cons]
          exact ⟨this, hr.2.2⟩
      | retrieve key =>
        refine ⟨?_, hr⟩
        simp only [hashOp, Keyed.step, hret]
        cases l.find? (fun e => eq key e.key) <;> rfl
      | deleteItem id =>
        cases hfi : l.find? (fun e => e.id == id) with
        | none =>
          have : l.eraseP (fun e => e.id == id) = l := List.eraseP_of_forall_not (by
            intro e he; exact List.find?_eq_none.1 hfi e he)
          simp only [hashOp, itemOf, hfi, Keyed.step, this, Option.map_none]
          exact ⟨trivial, hr⟩
        | some e =>
          have hid : e.id = id := by simpa using List.find?_some hfi
          have hmem := List.mem_of_find?_eq_some hfi
          simp only [hashOp, itemOf, hfi, Keyed.step, Option.map_some]
          refine ⟨trivial, ?_⟩
          rw [← hid]
          exact deleteItem_repr hash t l hr e hmem
      | deleteKey key =>
        simp only [hashOp, Keyed.step, deleteKey, hret]
        refine ⟨trivial, ?_⟩
        cases hfi : l.find? (fun e => eq key e.key) with
        | none =>
          have : l.eraseP (fun e => eq key e.key) = l := List.eraseP_of_forall_not (by
            intro e he; exact List.find?_eq_none.1 hfi e he)
          rw [this]; exact hr
        | some e =>
          rw [eraseP_eq_of_nodup hr.2.2 hfi]
          exact deleteItem_repr hash t l hr e (List.mem_of_find?_eq_some hfi)
    obtain ⟨i1, i2⟩ := ih (hashOp hash eq t l op).1 (Keyed.step eq l op).1 hstep.2 hf.2
    refine ⟨?_, i2⟩
    simp only [hashRun, Keyed.run]
    rw [hstep.1, i1]

/-- **C22.** For every hash function compatible with key equality (however bad), every number of
bins, and every history of insertions, lookups and deletions from an empty table: every lookup
returns the most recently inserted element of equal key that was not deleted, or nothing if there is
none, and the count is the number of elements. -/
theorem C22_hash_table_is_keyed_collection (hash : κ → Nat) (eq : κ → κ → Bool) (nbBin : Nat)
    (hcompat : ∀ k k', eq k k' = true → hash k = hash k')
    (ops : List (Keyed.Op κ)) (hf : FreshIds eq [] ops) :
    (hashRun hash eq (create nbBin) [] ops).2 = (Keyed.run eq [] ops).2 ∧
    (hashRun hash eq (create nbBin) [] ops).1.count = (Keyed.run eq [] ops).1.length ∧
    ∀ key, (retrieve hash eq (hashRun hash eq (create nbBin) [] ops).1 key).map elemOf =
      (Keyed.run eq [] ops).1.find? (fun e => eq key e.key) := by
  obtain ⟨h1, h2⟩ := hashRun_spec hash eq hcompat ops (create nbBin) []
    ⟨fun _ => rfl, rfl, List.nodup_nil⟩ hf
  refine ⟨h1, h2.2.1, ?_⟩
  intro key
  unfold retrieve
  rw [h2.1, lookup_map, find?_filter_of_imp]
  · generalize (Keyed.run eq [] ops).1.find? _ = o
    cases o <;> rfl
  · intro e he
    rw [hcompat _ _ he]; simp

/-- A history with collisions (all keys in the same bin, equal keys inserted twice). -/
example : let ops := [.insert 1 10, .insert 2 20, .insert 3 10, .retrieve 10, .deleteKey 10,
      .retrieve 10, .deleteItem 2, .retrieve 20]
    FreshIds (fun a b : Nat => a == b) [] ops ∧
    (hashRun (fun _ => 7) (fun a b => a == b) (create 3) [] ops).2 =
      [none, none, none, some ⟨3, 10⟩, none, some ⟨1, 10⟩, none, none] := by
  refine ⟨?_, by decide⟩
  simp [FreshIds, Keyed.step]

end Picoquic.Props
