import Verif.Spec.LocalCids
/-!
# Proofs about the connection IDs issued by this endpoint
-/

namespace Picoquic.LocalCids
open Picoquic Picoquic.Spec

theorem lookup_none {t : List (Bytes × Nat)} {cid : Bytes} : lookup t cid = none ↔ cid ∉ t.map Prod.fst := by
  induction t with
  | nil => simp [lookup]
  | cons p rest ih =>
    obtain ⟨k, v⟩ := p
    unfold lookup
    rw [List.map_cons, List.mem_cons]
    by_cases h : k = cid
    · rw [if_pos h]
      constructor
      · intro hh; cases hh
      · intro hh; exact absurd (Or.inl h.symm) hh
    · rw [if_neg h, ih]
      constructor
      · rintro hh (h1 | h1)
        · exact h h1.symm
        · exact hh h1
      · exact fun hh h1 => hh (Or.inr h1)

theorem lookup_some {t : List (Bytes × Nat)} (hn : (t.map Prod.fst).Nodup) {cid : Bytes} {n : Nat} :
    lookup t cid = some n ↔ (cid, n) ∈ t := by
  induction t with
  | nil => simp [lookup]
  | cons p rest ih =>
    obtain ⟨k, v⟩ := p
    rw [List.map_cons, List.nodup_cons] at hn
    unfold lookup
    rw [List.mem_cons]
    by_cases h : k = cid
    · subst h
      rw [if_pos rfl]
      constructor
      · intro hh; rw [Option.some.inj hh]; exact Or.inl rfl
      · rintro (hh | hh)
        · rw [(Prod.mk.inj hh).2]
        · exact absurd (List.mem_map_of_mem (f := Prod.fst) hh) hn.1
    · rw [if_neg h, ih hn.2]
      constructor
      · exact Or.inr
      · rintro (hh | hh)
        · exact absurd (Prod.mk.inj hh).1.symm h
        · exact hh

theorem choose_spec {t : List (Bytes × Nat)} {k : Nat} {ps : List Bytes} {cid : Bytes}
    (h : choose t k ps = some cid) : cid ∉ t.map Prod.fst ∧ cid ∈ ps := by
  induction k generalizing ps with
  | zero => unfold choose at h; cases h
  | succ k ih =>
    cases ps with
    | nil => unfold choose at h; cases h
    | cons c rest =>
      unfold choose at h
      cases hl : lookup t c with
      | none =>
        rw [hl] at h
        rw [← Option.some.inj h]
        exact ⟨lookup_none.mp hl, List.mem_cons_self⟩
      | some x =>
        rw [hl] at h
        exact ⟨(ih h).1, List.mem_cons_of_mem _ (ih h).2⟩

theorem create_spec {t t1 : List (Bytes × Nat)} {n now : Nat} {c c1 : Conn} {ps : List Bytes} {l : Local}
    (h : create t n c now ps = some (t1, c1, l)) :
    l.cid ∉ t.map Prod.fst ∧ l.seq = c.next ∧ t1 = (l.cid, n) :: t ∧
      c1 = { c with list := c.list ++ [l], next := c.next + 1, nb := c.nb + 1,
                    oldest := if c.next = 0 then now else c.oldest } := by
  unfold create at h
  cases hc : choose t 32 ps with
  | none => rw [hc] at h; cases h
  | some cid =>
    rw [hc] at h
    dsimp only at h
    obtain ⟨h1, h2⟩ := Prod.mk.inj (Option.some.inj h)
    obtain ⟨h2, h3⟩ := Prod.mk.inj h2
    have hn := (choose_spec hc).1
    rw [← h3]
    refine ⟨hn, rfl, ?_, ?_⟩
    · rw [← h1]
      unfold register
      rw [lookup_none.mpr hn]
    · rw [← h2]

/-- What is true of the connection IDs of a connection. -/
structure Good (c : Conn) : Prop where
  sorted : c.list.Pairwise (fun a b => a.seq < b.seq)
  below : ∀ l ∈ c.list, l.seq < c.next
  cids : c.list.Pairwise (fun a b => a.cid ≠ b.cid)
  nb : c.nb = c.list.length
  before : c.retireBefore ≤ c.next
  expired : c.nbExpired ≤ (c.list.filter (fun l => decide (l.seq < c.retireBefore))).length
  first : ∀ q, c.first = some q → q ∈ c.list.map Local.seq

/-- The connection IDs of a connection as the peer knows them. -/
def ofConn (n : Nat) : Option Conn → List Known
  | none => []
  | some c => c.list.map (fun l => ⟨n, l.seq, l.cid⟩)

/-- The state corresponds to what the peers know. -/
structure Inv (e : Endpoint) (notes : List Note) : Prop where
  keys : (e.table.map Prod.fst).Nodup
  tab : ∀ cid n, (cid, n) ∈ e.table ↔ ∃ c, e.conns n = some c ∧ ∃ l ∈ c.list, l.cid = cid
  good : ∀ n c, e.conns n = some c → Good c
  known : ∀ n, (known notes).filter (fun k => decide (k.conn = n)) = ofConn n (e.conns n)

theorem known_snoc (notes : List Note) (x : Note) : known (notes ++ [x]) = knownStep (known notes) x := by
  unfold Spec.known
  rw [List.foldl_append]
  rfl

/-- The endpoint with one connection and the table replaced. -/
def withConn (e : Endpoint) (n : Nat) (c : Option Conn) (t : List (Bytes × Nat)) : Endpoint :=
  { conns := setConn e n c, table := t }

theorem setConn_same (e : Endpoint) (n : Nat) (c : Option Conn) : setConn e n c n = c := if_pos rfl
theorem setConn_other (e : Endpoint) {n m : Nat} (h : m ≠ n) (c : Option Conn) : setConn e n c m = e.conns m :=
  if_neg h

theorem withConn_withConn (e : Endpoint) (n : Nat) (c c' : Option Conn) (t t' : List (Bytes × Nat)) :
    withConn (withConn e n c t) n c' t' = withConn e n c' t' := by
  unfold withConn setConn
  congr 1
  funext m
  by_cases h : m = n
  · rw [if_pos h, if_pos h]
  · rw [if_neg h, if_neg h]; exact if_neg h

theorem withConn_self {e : Endpoint} {n : Nat} {c : Option Conn} (h : e.conns n = c) : withConn e n c e.table = e := by
  unfold withConn setConn
  cases e with
  | mk conns table =>
    congr 1
    funext m
    by_cases hm : m = n
    · rw [if_pos hm, hm]; exact h.symm
    · rw [if_neg hm]

/-- Replacing a connection by one with the same connection IDs. -/
theorem Inv.replace {e : Endpoint} {notes : List Note} (i : Inv e notes) {n : Nat} {c c' : Conn}
    (hc : e.conns n = some c) (hl : c'.list = c.list) (g : Good c') :
    Inv (withConn e n (some c') e.table) notes := by
  refine ⟨i.keys, ?_, ?_, ?_⟩
  · intro cid m
    rw [show (withConn e n (some c') e.table).table = e.table from rfl, i.tab]
    show _ ↔ ∃ c, setConn e n (some c') m = some c ∧ _
    by_cases hm : m = n
    · rw [hm, setConn_same, hc]
      constructor
      · rintro ⟨x, hx, h⟩
        refine ⟨c', rfl, ?_⟩
        rw [hl, Option.some.inj hx]
        exact h
      · rintro ⟨x, hx, h⟩
        refine ⟨c, rfl, ?_⟩
        rw [← hl, Option.some.inj hx]
        exact h
    · rw [setConn_other e hm]
  · intro m x hx
    by_cases hm : m = n
    · rw [hm, show (withConn e n (some c') e.table).conns n = some c' from setConn_same e n (some c')] at hx
      rw [← Option.some.inj hx]
      exact g
    · exact i.good m x (by rw [← setConn_other e hm (some c')]; exact hx)
  · intro m
    rw [i.known]
    show _ = ofConn m (setConn e n (some c') m)
    by_cases hm : m = n
    · rw [hm, setConn_same, hc]
      unfold ofConn
      dsimp only
      rw [hl]
    · rw [setConn_other e hm]

theorem Good.create {c : Conn} (g : Good c) {l : Local} (hs : l.seq = c.next)
    (hcid : ∀ x ∈ c.list, x.cid ≠ l.cid) (oldest : Nat) :
    Good { c with list := c.list ++ [l], next := c.next + 1, nb := c.nb + 1, oldest := oldest } := by
  refine ⟨?_, ?_, ?_, ?_, ?_, ?_, ?_⟩
  · rw [List.pairwise_append]
    refine ⟨g.sorted, List.pairwise_singleton _ _, ?_⟩
    intro a ha b hb
    rw [List.mem_singleton] at hb
    rw [hb, hs]
    exact g.below a ha
  · intro x hx
    show x.seq < c.next + 1
    rcases List.mem_append.mp hx with hx | hx
    · exact Nat.lt_succ_of_lt (g.below x hx)
    · rw [List.mem_singleton] at hx
      rw [hx, hs]
      exact Nat.lt_succ_self _
  · rw [List.pairwise_append]
    refine ⟨g.cids, List.pairwise_singleton _ _, ?_⟩
    intro a ha b hb
    rw [List.mem_singleton] at hb
    rw [hb]
    exact hcid a ha
  · show c.nb + 1 = (c.list ++ [l]).length
    rw [List.length_append, List.length_singleton, g.nb]
  · exact Nat.le_succ_of_le g.before
  · show c.nbExpired ≤ ((c.list ++ [l]).filter _).length
    rw [List.filter_append, List.length_append]
    exact Nat.le_trans g.expired (Nat.le_add_right _ _)
  · intro q hq
    show q ∈ (c.list ++ [l]).map Local.seq
    rw [List.map_append]
    exact List.mem_append_left _ (g.first q hq)

theorem filter_known_append (s : List Known) (k : Known) (n : Nat) :
    (s ++ [k]).filter (fun k => decide (k.conn = n)) =
      s.filter (fun k => decide (k.conn = n)) ++ (if k.conn = n then [k] else []) := by
  rw [List.filter_append]
  congr 1
  by_cases h : k.conn = n
  · rw [if_pos h, List.filter_cons_of_pos (by simpa using h)]
    rfl
  · rw [if_neg h, List.filter_cons_of_neg (by simpa using h)]
    rfl

theorem Inv.cid_fresh {e : Endpoint} {notes : List Note} (i : Inv e notes) {n : Nat} {c : Conn}
    (hc : e.conns n = some c) {cid : Bytes} (h : cid ∉ e.table.map Prod.fst) : ∀ x ∈ c.list, x.cid ≠ cid := by
  intro x hx hh
  have := (i.tab cid n).mpr ⟨c, hc, x, hx, hh⟩
  exact h (List.mem_map_of_mem (f := Prod.fst) this)

/-- A new connection ID is created and given to the peer. -/
theorem Inv.issue {e : Endpoint} {notes : List Note} (i : Inv e notes) {n now rp : Nat} {c c1 : Conn} {l : Local}
    {t1 : List (Bytes × Nat)} {ps : List Bytes} (hc : e.conns n = some c)
    (h : create e.table n c now ps = some (t1, c1, l)) :
    Inv (withConn e n (some c1) t1) (notes ++ [.issued n l.seq rp l.cid]) := by
  obtain ⟨h1, h2, h3, h4⟩ := create_spec h
  have hlist : c1.list = c.list ++ [l] := by rw [h4]
  refine ⟨?_, ?_, ?_, ?_⟩
  · show (t1.map Prod.fst).Nodup
    rw [h3, List.map_cons, List.nodup_cons]
    exact ⟨h1, i.keys⟩
  · intro cid m
    show (cid, m) ∈ t1 ↔ ∃ c, setConn e n (some c1) m = some c ∧ _
    rw [h3, List.mem_cons, i.tab]
    by_cases hm : m = n
    · rw [hm, setConn_same, hc]
      constructor
      · rintro (hh | ⟨x, hx, y, hy, hxy⟩)
        · exact ⟨c1, rfl, l, by rw [hlist]; exact List.mem_append_right _ List.mem_cons_self, (Prod.mk.inj hh).1.symm⟩
        · refine ⟨c1, rfl, y, ?_, hxy⟩
          rw [hlist, Option.some.inj hx]
          exact List.mem_append_left _ hy
      · rintro ⟨x, hx, y, hy, hxy⟩
        rw [← Option.some.inj hx, hlist] at hy
        rcases List.mem_append.mp hy with hy | hy
        · exact Or.inr ⟨c, rfl, y, hy, hxy⟩
        · rw [List.mem_singleton] at hy
          left
          rw [← hxy, hy]
    · rw [setConn_other e hm]
      constructor
      · rintro (hh | hh)
        · exact absurd (Prod.mk.inj hh).2 hm
        · exact hh
      · exact Or.inr
  · intro m x hx
    by_cases hm : m = n
    · rw [hm, show (withConn e n (some c1) t1).conns n = some c1 from setConn_same e n (some c1)] at hx
      rw [← Option.some.inj hx, h4]
      exact (i.good n c hc).create h2 (i.cid_fresh hc h1) _
    · exact i.good m x (by rw [← setConn_other e hm (some c1)]; exact hx)
  · intro m
    rw [known_snoc]
    show ((Spec.known notes) ++ [(⟨n, l.seq, l.cid⟩ : Known)]).filter _ = ofConn m (setConn e n (some c1) m)
    rw [filter_known_append, i.known]
    by_cases hm : m = n
    · rw [hm, setConn_same, hc, if_pos rfl]
      unfold ofConn
      dsimp only
      rw [hlist, List.map_append]
      rfl
    · rw [setConn_other e hm, if_neg (fun h => hm h.symm), List.append_nil]

theorem erase_append_self {list : List Local} {l : Local} (h : l ∉ list) : (list ++ [l]).erase l = list := by
  rw [List.erase_append_right _ h]
  rw [List.erase_cons_head, List.append_nil]

theorem unregister_cons {t : List (Bytes × Nat)} {cid : Bytes} {n : Nat} (h : cid ∉ t.map Prod.fst) :
    unregister ((cid, n) :: t) cid = t := by
  unfold unregister
  rw [List.filter_cons_of_neg (by simp), List.filter_eq_self]
  intro p hp
  have : p.1 ≠ cid := fun hh => h (hh ▸ List.mem_map_of_mem (f := Prod.fst) hp)
  simpa using this

/-- A connection ID whose frame does not fit is deleted: nothing changed. -/
theorem create_delete {t t1 : List (Bytes × Nat)} {n now : Nat} {c c1 : Conn} {ps : List Bytes} {l : Local}
    (g : Good c) (h : create t n c now ps = some (t1, c1, l)) :
    (delete t1 c1 l).1 = t ∧
      ({ (delete t1 c1 l).2 with next := (delete t1 c1 l).2.next - 1 } : Conn) =
        { c with oldest := if c.next = 0 then now else c.oldest } := by
  obtain ⟨h1, h2, h3, h4⟩ := create_spec h
  subst h3 h4
  have hl : l ∉ c.list := by
    intro hh
    have := g.below l hh
    omega
  constructor
  · exact unregister_cons h1
  · unfold delete
    dsimp only
    have e1 : c.first ≠ some l.seq := by
      intro hh
      obtain ⟨x, hx, hxs⟩ := List.mem_map.mp (g.first _ hh)
      have := g.below x hx
      omega
    have e2 : ¬ (l.seq < c.retireBefore ∧ c.nbExpired > 0) := by
      rintro ⟨hh, _⟩
      have := g.before
      omega
    rw [erase_append_self hl, if_neg e1, if_neg e2]
    rfl

/-- Removal of one connection ID from the list. -/
theorem mem_unregister {t : List (Bytes × Nat)} {cid : Bytes} {p : Bytes × Nat} :
    p ∈ unregister t cid ↔ p ∈ t ∧ p.1 ≠ cid := by
  unfold unregister
  rw [List.mem_filter]
  simp

theorem erase_eq_filter {list : List Local} (hs : list.Pairwise (fun a b => a.seq < b.seq)) {l : Local}
    (h : l ∈ list) : list.erase l = list.filter (fun x => decide (x.seq ≠ l.seq)) := by
  induction list with
  | nil => cases h
  | cons x rest ih =>
    obtain ⟨h1, h2⟩ := List.pairwise_cons.mp hs
    by_cases hx : x = l
    · subst hx
      rw [List.erase_cons_head, List.filter_cons_of_neg (by simp)]
      symm
      rw [List.filter_eq_self]
      intro y hy
      have := h1 y hy
      have : y.seq ≠ x.seq := by omega
      simpa using this
    · have hm : l ∈ rest := by
        rcases List.mem_cons.mp h with h | h
        · exact absurd h.symm hx
        · exact h
      have : x.seq ≠ l.seq := by
        have := h1 l hm
        omega
      rw [List.erase_cons_tail (by simpa using hx), List.filter_cons_of_pos (by simpa using this), ih h2 hm]

theorem Good.delete {c : Conn} (g : Good c) {l : Local} (hl : l ∈ c.list) (t : List (Bytes × Nat)) :
    Good (LocalCids.delete t c l).2 := by
  have hsub : (c.list.erase l).Sublist c.list := List.erase_sublist
  refine ⟨g.sorted.sublist hsub, fun x hx => g.below x (hsub.subset hx), g.cids.sublist hsub, ?_, g.before, ?_, ?_⟩
  · show c.nb - 1 = (c.list.erase l).length
    rw [List.length_erase_of_mem hl, g.nb]
  · show (if l.seq < c.retireBefore ∧ c.nbExpired > 0 then c.nbExpired - 1 else c.nbExpired) ≤
      ((c.list.erase l).filter (fun x => decide (x.seq < c.retireBefore))).length
    have hf : (c.list.erase l).filter (fun x => decide (x.seq < c.retireBefore)) =
        (c.list.filter (fun x => decide (x.seq < c.retireBefore))).filter (fun x => decide (x.seq ≠ l.seq)) := by
      rw [erase_eq_filter g.sorted hl, List.filter_filter, List.filter_filter]
      congr 1
      funext x
      rw [Bool.and_comm]
    by_cases hlt : l.seq < c.retireBefore
    · have hm : l ∈ c.list.filter (fun x => decide (x.seq < c.retireBefore)) := by
        rw [List.mem_filter]
        exact ⟨hl, by simpa using hlt⟩
      rw [hf, ← erase_eq_filter (g.sorted.sublist List.filter_sublist) hm, List.length_erase_of_mem hm]
      have := g.expired
      split <;> omega
    · rw [if_neg (fun hh => hlt hh.1), hf]
      have : (c.list.filter (fun x => decide (x.seq < c.retireBefore))).filter (fun x => decide (x.seq ≠ l.seq)) =
          c.list.filter (fun x => decide (x.seq < c.retireBefore)) := by
        rw [List.filter_eq_self]
        intro x hx
        obtain ⟨_, hx⟩ := List.mem_filter.mp hx
        have hx : x.seq < c.retireBefore := by simpa using hx
        have : x.seq ≠ l.seq := by omega
        simpa using this
      rw [this]
      exact g.expired
  · intro q hq
    have hq : (if c.first = some l.seq then none else c.first) = some q := hq
    by_cases h1 : c.first = some l.seq
    · rw [if_pos h1] at hq; cases hq
    · rw [if_neg h1] at hq
      obtain ⟨x, hx, hxq⟩ := List.mem_map.mp (g.first q hq)
      refine List.mem_map.mpr ⟨x, ?_, hxq⟩
      show x ∈ c.list.erase l
      refine (List.mem_erase_of_ne ?_).mpr hx
      intro hh
      rw [hh] at hxq
      rw [← hxq] at hq
      exact h1 hq

theorem Inv.unique_cid {e : Endpoint} {notes : List Note} (i : Inv e notes) {n m : Nat} {c d : Conn} {x y : Local}
    (hc : e.conns n = some c) (hd : e.conns m = some d) (hx : x ∈ c.list) (hy : y ∈ d.list)
    (h : x.cid = y.cid) : n = m := by
  have h1 := (lookup_some i.keys).mpr ((i.tab x.cid n).mpr ⟨c, hc, x, hx, rfl⟩)
  have h2 := (lookup_some i.keys).mpr ((i.tab x.cid m).mpr ⟨d, hd, y, hy, h.symm⟩)
  rw [h1] at h2
  exact Option.some.inj h2

theorem pairwise_eq {R : Local → Local → Prop} {list : List Local}
    (f : Local → Local → Prop) (hf : ∀ a b, R a b → ¬ f a b ∧ ¬ f b a) (hp : list.Pairwise R) {x y : Local}
    (hx : x ∈ list) (hy : y ∈ list) (h : f x y) : x = y := by
  induction list with
  | nil => cases hx
  | cons z rest ih =>
    obtain ⟨h1, h2⟩ := List.pairwise_cons.mp hp
    rcases List.mem_cons.mp hx with e1 | e1 <;> rcases List.mem_cons.mp hy with e2 | e2
    · rw [e1, e2]
    · subst e1; exact absurd h (hf x y (h1 y e2)).1
    · subst e2; exact absurd h (hf y x (h1 x e1)).2
    · exact ih h2 e1 e2

theorem Good.cid_eq {c : Conn} (g : Good c) {x y : Local} (hx : x ∈ c.list) (hy : y ∈ c.list) (h : x.cid = y.cid) :
    x = y :=
  pairwise_eq (R := fun a b => a.cid ≠ b.cid) (fun a b => a.cid = b.cid)
    (fun _ _ h => ⟨h, fun hh => h hh.symm⟩) g.cids hx hy h

theorem Good.seq_eq {c : Conn} (g : Good c) {x y : Local} (hx : x ∈ c.list) (hy : y ∈ c.list) (h : x.seq = y.seq) :
    x = y :=
  pairwise_eq (R := fun a b => a.seq < b.seq) (fun a b => a.seq = b.seq) (fun a b h => ⟨by omega, by omega⟩) g.sorted hx hy h

/-- A connection ID is retired by the peer. -/
theorem Inv.retire {e : Endpoint} {notes : List Note} (i : Inv e notes) {n : Nat} {c : Conn} {l : Local}
    (hc : e.conns n = some c) (hl : l ∈ c.list) :
    Inv (withConn e n (some (delete e.table c l).2) (delete e.table c l).1) (notes ++ [.retired n l.seq]) := by
  have g := i.good n c hc
  have hlist : (delete e.table c l).2.list = c.list.filter (fun x => decide (x.seq ≠ l.seq)) :=
    erase_eq_filter g.sorted hl
  refine ⟨?_, ?_, ?_, ?_⟩
  · show ((unregister e.table l.cid).map Prod.fst).Nodup
    exact i.keys.sublist (List.Sublist.map _ List.filter_sublist)
  · intro cid m
    show (cid, m) ∈ unregister e.table l.cid ↔ ∃ c', setConn e n (some (delete e.table c l).2) m = some c' ∧ _
    rw [mem_unregister, i.tab]
    by_cases hm : m = n
    · subst hm
      rw [setConn_same, hc]
      constructor
      · rintro ⟨⟨x, hx, y, hy, hxy⟩, hne⟩
        refine ⟨_, rfl, y, ?_, hxy⟩
        rw [← Option.some.inj hx] at hy
        rw [hlist, List.mem_filter]
        refine ⟨hy, ?_⟩
        have : y.seq ≠ l.seq := by
          intro hh
          rw [g.seq_eq hy hl hh] at hxy
          exact hne hxy.symm
        simpa using this
      · rintro ⟨x, hx, y, hy, hxy⟩
        rw [← Option.some.inj hx, hlist, List.mem_filter] at hy
        refine ⟨⟨c, rfl, y, hy.1, hxy⟩, ?_⟩
        intro hh
        have hcid : cid = l.cid := hh
        have := g.cid_eq hy.1 hl (by rw [hxy, hcid])
        rw [this] at hy
        simp at hy
    · rw [setConn_other e hm]
      constructor
      · exact fun h => h.1
      · rintro ⟨x, hx, y, hy, hxy⟩
        refine ⟨⟨x, hx, y, hy, hxy⟩, ?_⟩
        intro hh
        have hcid : cid = l.cid := hh
        exact hm (i.unique_cid hx hc hy hl (by rw [hxy, hcid]))
  · intro m x hx
    by_cases hm : m = n
    · subst hm
      rw [show (withConn e m (some (delete e.table c l).2) (delete e.table c l).1).conns m =
        some (delete e.table c l).2 from setConn_same e m _] at hx
      rw [← Option.some.inj hx]
      exact g.delete hl e.table
    · exact i.good m x (by rw [← setConn_other e hm]; exact hx)
  · intro m
    rw [known_snoc]
    show ((Spec.known notes).filter (fun k => ¬ (k.conn = n ∧ k.seq = l.seq))).filter _ =
      ofConn m (setConn e n (some (delete e.table c l).2) m)
    rw [List.filter_filter]
    by_cases hm : m = n
    · subst hm
      rw [setConn_same]
      have h0 := i.known m
      rw [hc] at h0
      have : (Spec.known notes).filter (fun k => decide (k.conn = m) && decide (¬ (k.conn = m ∧ k.seq = l.seq))) =
          ((Spec.known notes).filter (fun k => decide (k.conn = m))).filter (fun k => decide (k.seq ≠ l.seq)) := by
        rw [List.filter_filter]
        congr 1
        funext k
        by_cases h1 : k.conn = m <;> by_cases h2 : k.seq = l.seq <;> simp [h1, h2]
      rw [this, h0]
      unfold ofConn
      dsimp only
      rw [hlist, List.filter_map]
      rfl
    · rw [setConn_other e hm, ← i.known]
      congr 1
      funext k
      by_cases h1 : k.conn = m
      · have : k.conn ≠ n := by rw [h1]; exact hm
        simp [h1, hm]
      · simp [h1]

/-! ## Expiry -/

theorem expire_spec (now ttl : Nat) (list : List Local) : ∀ (n before oldest next : Nat),
    (∀ l ∈ list, l.seq < next) → before ≤ next →
    before ≤ (expire now ttl list (n, before, oldest)).2.1 ∧ (expire now ttl list (n, before, oldest)).2.1 ≤ next ∧
      (expire now ttl list (n, before, oldest)).1 ≤
        n + (list.filter (fun l => decide (l.seq < (expire now ttl list (n, before, oldest)).2.1))).length := by
  induction list with
  | nil => intro n before oldest next _ hb; exact ⟨Nat.le_refl _, hb, Nat.le_refl _⟩
  | cons l rest ih =>
    intro n before oldest next hn hb
    have hl := hn l List.mem_cons_self
    have hrest : ∀ x ∈ rest, x.seq < next := fun x hx => hn x (List.mem_cons_of_mem _ hx)
    unfold expire
    by_cases h : (now + 2 ^ 64 - l.created) % 2 ^ 64 ≥ ttl
    · rw [if_pos h]
      have hb' : (if l.seq ≥ before then l.seq + 1 else before) ≤ next := by split <;> omega
      have hb2 : before ≤ (if l.seq ≥ before then l.seq + 1 else before) := by split <;> omega
      have hb3 : l.seq < (if l.seq ≥ before then l.seq + 1 else before) := by split <;> omega
      obtain ⟨i1, i2, i3⟩ := ih (n + 1) _ oldest next hrest hb'
      refine ⟨Nat.le_trans hb2 i1, i2, ?_⟩
      rw [List.filter_cons_of_pos (by simpa using Nat.lt_of_lt_of_le hb3 i1), List.length_cons]
      omega
    · rw [if_neg h]
      obtain ⟨i1, i2, i3⟩ := ih n before (if l.created < oldest then l.created else oldest) next hrest hb
      refine ⟨i1, i2, ?_⟩
      refine Nat.le_trans i3 (Nat.add_le_add_left ?_ _)
      exact ((List.sublist_cons_self l rest).filter _).length_le

theorem Good.checkTtl {c : Conn} (g : Good c) (now ttl : Nat) : Good (checkTtl c now ttl) := by
  unfold LocalCids.checkTtl
  by_cases h : (now + 2 ^ 64 - c.oldest) % 2 ^ 64 ≥ ttl
  · rw [if_pos h]
    obtain ⟨h1, h2, h3⟩ := expire_spec now ttl c.list 0 c.retireBefore now c.next g.below g.before
    exact ⟨g.sorted, g.below, g.cids, g.nb, h2, by simpa using h3, g.first⟩
  · rw [if_neg h]; exact g

theorem checkTtl_fields (c : Conn) (now ttl : Nat) : (checkTtl c now ttl).list = c.list ∧
    (checkTtl c now ttl).limit = c.limit ∧ (checkTtl c now ttl).closed = c.closed ∧
    (checkTtl c now ttl).nb = c.nb := by
  unfold LocalCids.checkTtl
  by_cases h : (now + 2 ^ 64 - c.oldest) % 2 ^ 64 ≥ ttl
  · rw [if_pos h]; exact ⟨rfl, rfl, rfl, rfl⟩
  · rw [if_neg h]; exact ⟨rfl, rfl, rfl, rfl⟩

theorem Good.oldest {c : Conn} (g : Good c) (o : Nat) : Good { c with oldest := o } :=
  ⟨g.sorted, g.below, g.cids, g.nb, g.before, g.expired, g.first⟩

/-- The loop which issues connection IDs. -/
theorem issueLoop_inv (n now : Nat) (turns : List (List Bytes × Bool)) : ∀ (e : Endpoint) (notes : List Note)
    (c : Conn), Inv e notes → e.conns n = some c →
    Inv (withConn e n (some (issueLoop n now turns e.table c).2.1) (issueLoop n now turns e.table c).1)
      (notes ++ (issueLoop n now turns e.table c).2.2) := by
  induction turns with
  | nil =>
    intro e notes c i hc
    show Inv (withConn e n (some c) e.table) (notes ++ [])
    rw [withConn_self hc, List.append_nil]
    exact i
  | cons turn rest ih =>
    obtain ⟨ps, fits⟩ := turn
    intro e notes c i hc
    unfold issueLoop
    by_cases hw : wants c = true
    · rw [if_pos hw]
      cases hcr : create e.table n c now ps with
      | none =>
        dsimp only
        rw [withConn_self hc, List.append_nil]
        exact i
      | some r =>
        obtain ⟨t1, c1, l⟩ := r
        dsimp only
        cases fits with
        | true =>
          have i1 := i.issue (rp := c1.retireBefore) hc hcr
          have h2 := ih (withConn e n (some c1) t1) _ c1 i1 (setConn_same e n (some c1))
          rw [withConn_withConn, List.append_assoc] at h2
          exact h2
        | false =>
          obtain ⟨h1, h2⟩ := create_delete (i.good n c hc) hcr
          rw [if_neg Bool.false_ne_true]
          dsimp only
          rw [h1, List.append_nil]
          have : ({ (delete t1 c1 l).2 with next := (delete t1 c1 l).2.next - 1 } : Conn) =
            { c with oldest := if c.next = 0 then now else c.oldest } := h2
          rw [this]
          exact i.replace (c' := { c with oldest := if c.next = 0 then now else c.oldest }) hc rfl
            ((i.good n c hc).oldest _)
    · rw [if_neg hw]
      dsimp only
      rw [withConn_self hc, List.append_nil]
      exact i

theorem find_seq {list : List Local} {q : Nat} {l : Local}
    (h : list.find? (fun l => decide (l.seq = q)) = some l) : l ∈ list ∧ l.seq = q :=
  ⟨List.mem_of_find?_eq_some h, by simpa using List.find?_some h⟩

theorem find_cid {list : List Local} {cid : Bytes} {l : Local}
    (h : list.find? (fun l => decide (l.cid = cid)) = some l) : l ∈ list ∧ l.cid = cid :=
  ⟨List.mem_of_find?_eq_some h, by simpa using List.find?_some h⟩

theorem own_mem {list : List Local} {cid : Bytes} {q : Nat}
    (h : (list.find? (fun l => decide (l.cid = cid))).map Local.seq = some q) : q ∈ list.map Local.seq := by
  cases hf : list.find? (fun l => decide (l.cid = cid)) with
  | none => rw [hf] at h; cases h
  | some l =>
    rw [hf] at h
    rw [← Option.some.inj h]
    exact List.mem_map_of_mem (find_cid hf).1

theorem arrive_list (c : Conn) (dest : Bytes) (b : Bool) : (arrive c dest b).list = c.list := by
  unfold arrive
  dsimp only
  by_cases h1 : c.first = none
  · rw [if_pos h1]
    cases b
    · rfl
    · dsimp only
      rw [if_pos rfl, if_pos rfl]
  · rw [if_neg h1]
    cases b
    · rfl
    · rw [if_pos rfl]
      split <;> rfl

/-- The first tuple after the arrival of a packet. -/
theorem arrive_first (c : Conn) (dest : Bytes) (b : Bool) :
    arrive c dest b = { c with first := (arrive c dest b).first } ∧
    ((arrive c dest b).first = c.first ∨
      (arrive c dest b).first = (c.list.find? (fun l => decide (l.cid = dest))).map Local.seq) ∧
    (b = true → (arrive c dest b).first = (c.list.find? (fun l => decide (l.cid = dest))).map Local.seq) := by
  unfold arrive
  dsimp only
  by_cases h1 : c.first = none
  · rw [if_pos h1]
    cases b
    · exact ⟨rfl, Or.inr rfl, by intro h; cases h⟩
    · rw [if_pos rfl]
      dsimp only
      rw [if_pos rfl]
      exact ⟨rfl, Or.inr rfl, fun _ => rfl⟩
  · rw [if_neg h1]
    cases b
    · exact ⟨rfl, Or.inl rfl, by intro h; cases h⟩
    · rw [if_pos rfl]
      by_cases h2 : c.first = (c.list.find? (fun l => decide (l.cid = dest))).map Local.seq
      · rw [if_pos h2]; exact ⟨rfl, Or.inl rfl, fun _ => h2⟩
      · rw [if_neg h2]; exact ⟨rfl, Or.inr rfl, fun _ => rfl⟩

theorem Good.withFirst {c : Conn} (g : Good c) {f : Option Nat} (h : ∀ q, f = some q → q ∈ c.list.map Local.seq) :
    Good { c with first := f } :=
  ⟨g.sorted, g.below, g.cids, g.nb, g.before, g.expired, h⟩

theorem Good.arrive {c : Conn} (g : Good c) (dest : Bytes) (b : Bool) : Good (arrive c dest b) := by
  obtain ⟨h1, h2, _⟩ := arrive_first c dest b
  rw [h1]
  apply g.withFirst
  intro q hq
  rcases h2 with h2 | h2
  · rw [h2] at hq; exact g.first q hq
  · rw [h2] at hq; exact own_mem hq

theorem decodeRetire_inv {e : Endpoint} {notes : List Note} (i : Inv e notes) {n : Nat} {c : Conn}
    (hc : e.conns n = some c) (q : Nat) :
    Inv (withConn e n (some (decodeRetire e.table n c q).2.1) (decodeRetire e.table n c q).1)
      (notes ++ (decodeRetire e.table n c q).2.2) := by
  have g := i.good n c hc
  unfold decodeRetire
  by_cases h : c.first = some q
  · rw [if_pos h]
    have h1 := i.replace (c' := { c with closed := true }) hc rfl
      ⟨g.sorted, g.below, g.cids, g.nb, g.before, g.expired, g.first⟩
    refine ⟨h1.keys, h1.tab, h1.good, ?_⟩
    intro m
    rw [known_snoc]
    exact h1.known m
  · rw [if_neg h]
    dsimp only
    unfold LocalCids.retire
    cases hf : c.list.find? (fun l => decide (l.seq = q)) with
    | none =>
      have hq : q ∉ c.list.map Local.seq := by
        intro hh
        obtain ⟨x, hx, hxq⟩ := List.mem_map.mp hh
        have := List.find?_eq_none.mp hf x hx
        exact this (by simpa using hxq)
      rw [if_neg hq]
      dsimp only
      rw [withConn_self hc, List.append_nil]
      exact i
    | some l =>
      obtain ⟨hl, hlq⟩ := find_seq hf
      rw [if_pos (by rw [← hlq]; exact List.mem_map_of_mem hl)]
      dsimp only
      rw [← hlq]
      exact i.retire hc hl

theorem mem_deleteAll (list : List Local) : ∀ (t : List (Bytes × Nat)) (p : Bytes × Nat),
    p ∈ deleteAll t list ↔ p ∈ t ∧ ∀ l ∈ list, l.cid ≠ p.1 := by
  induction list with
  | nil =>
    intro t p
    exact ⟨fun h => ⟨h, fun l hl => absurd hl (List.not_mem_nil)⟩, fun h => h.1⟩
  | cons l rest ih =>
    intro t p
    unfold deleteAll
    rw [ih, mem_unregister]
    constructor
    · rintro ⟨⟨h1, h2⟩, h3⟩
      refine ⟨h1, ?_⟩
      intro x hx
      rcases List.mem_cons.mp hx with rfl | hx
      · exact fun hh => h2 hh.symm
      · exact h3 x hx
    · rintro ⟨h1, h2⟩
      exact ⟨⟨h1, fun hh => h2 l List.mem_cons_self hh.symm⟩, fun x hx => h2 x (List.mem_cons_of_mem _ hx)⟩

theorem deleteAll_sublist (list : List Local) : ∀ t : List (Bytes × Nat), (deleteAll t list).Sublist t := by
  induction list with
  | nil => exact fun t => List.Sublist.refl t
  | cons l rest ih =>
    intro t
    exact (ih (unregister t l.cid)).trans List.filter_sublist

theorem Inv.close {e : Endpoint} {notes : List Note} (i : Inv e notes) {n : Nat} {c : Conn}
    (hc : e.conns n = some c) :
    Inv (withConn e n none (deleteAll e.table c.list)) (notes ++ [.deleted n]) := by
  refine ⟨i.keys.sublist ((deleteAll_sublist c.list e.table).map _), ?_, ?_, ?_⟩
  · intro cid m
    show (cid, m) ∈ deleteAll e.table c.list ↔ ∃ c', setConn e n none m = some c' ∧ _
    rw [mem_deleteAll, i.tab]
    by_cases hm : m = n
    · subst hm
      rw [setConn_same]
      constructor
      · rintro ⟨⟨x, hx, y, hy, hxy⟩, h⟩
        rw [hc] at hx
        rw [← Option.some.inj hx] at hy
        exact absurd hxy (h y hy)
      · rintro ⟨x, hx, _⟩
        cases hx
    · rw [setConn_other e hm]
      constructor
      · exact fun h => h.1
      · rintro ⟨x, hx, y, hy, hxy⟩
        refine ⟨⟨x, hx, y, hy, hxy⟩, ?_⟩
        intro l hl hh
        exact hm (i.unique_cid hx hc hy hl (by rw [hxy]; exact hh.symm))
  · intro m x hx
    by_cases hm : m = n
    · subst hm
      have : setConn e m none m = some x := hx
      rw [setConn_same] at this
      cases this
    · exact i.good m x (by rw [← setConn_other e hm none]; exact hx)
  · intro m
    rw [known_snoc]
    show ((Spec.known notes).filter (fun k => k.conn ≠ n)).filter _ = ofConn m (setConn e n none m)
    rw [List.filter_filter]
    by_cases hm : m = n
    · subst hm
      rw [setConn_same]
      show _ = []
      rw [List.filter_eq_nil_iff]
      intro k _
      by_cases h1 : k.conn = m <;> simp [h1]
    · rw [setConn_other e hm, ← i.known]
      congr 1
      funext k
      by_cases h1 : k.conn = m
      · simp [h1, hm]
      · simp [h1]

theorem Inv.addConn {e : Endpoint} {notes : List Note} (i : Inv e notes) {n : Nat} (hc : e.conns n = none)
    (c : Conn) (h0 : c.list = []) (g : Good c) : Inv (withConn e n (some c) e.table) notes := by
  refine ⟨i.keys, ?_, ?_, ?_⟩
  · intro cid m
    show (cid, m) ∈ e.table ↔ ∃ c', setConn e n (some c) m = some c' ∧ _
    rw [i.tab]
    by_cases hm : m = n
    · rw [hm, setConn_same, hc]
      constructor
      · rintro ⟨x, hx, _⟩; cases hx
      · rintro ⟨x, hx, y, hy, _⟩
        rw [← Option.some.inj hx, h0] at hy
        cases hy
    · rw [setConn_other e hm]
  · intro m x hx
    by_cases hm : m = n
    · subst hm
      have : setConn e m (some c) m = some x := hx
      rw [setConn_same] at this
      rw [← Option.some.inj this]
      exact g
    · exact i.good m x (by rw [← setConn_other e hm (some c)]; exact hx)
  · intro m
    show _ = ofConn m (setConn e n (some c) m)
    rw [i.known]
    by_cases hm : m = n
    · rw [hm, setConn_same, hc]
      unfold ofConn
      dsimp only
      rw [h0]
      rfl
    · rw [setConn_other e hm]

theorem good_new (limit : Nat) : Good { limit := limit } :=
  ⟨List.Pairwise.nil, fun l hl => absurd hl List.not_mem_nil, List.Pairwise.nil, rfl, Nat.le_refl _, Nat.le_refl _,
    fun q hq => by cases hq⟩

theorem step_inv {e : Endpoint} {notes : List Note} (i : Inv e notes) (ev : Event) :
    Inv (step e ev).1 (notes ++ (step e ev).2) := by
  have hsame : Inv e (notes ++ []) := by rw [List.append_nil]; exact i
  cases ev with
  | «open» n now limit ps pref =>
    unfold step
    dsimp only
    cases hc : e.conns n with
    | some c => exact hsame
    | none =>
      dsimp only
      cases hcr : create e.table n { limit := limit % 2 ^ 32 } now ps with
      | none => exact hsame
      | some r =>
        obtain ⟨t1, c1, l1⟩ := r
        dsimp only
        have i0 := i.addConn hc { limit := limit % 2 ^ 32 } rfl (good_new _)
        have i1 := i0.issue (rp := 0) (setConn_same e n (some { limit := limit % 2 ^ 32 })) hcr
        rw [withConn_withConn] at i1
        have hsp := create_spec hcr
        have g1 := i1.good n c1 (setConn_same e n (some c1))
        have i2 := i1.replace (c' := { c1 with first := some l1.seq }) (setConn_same e n (some c1)) rfl
          (g1.withFirst (by
            intro q hq
            rw [← Option.some.inj hq, hsp.2.2.2]
            exact List.mem_map_of_mem (List.mem_append_right _ List.mem_cons_self)))
        rw [withConn_withConn] at i2
        cases hpr : pref.bind (create t1 n { c1 with first := some l1.seq } now) with
        | none => exact i2
        | some r2 =>
          obtain ⟨t2, c2, l2⟩ := r2
          dsimp only
          cases pref with
          | none => cases hpr
          | some ps2 =>
            have i3 := i2.issue (rp := 0) (setConn_same e n _) hpr
            rw [withConn_withConn, List.append_assoc] at i3
            exact i3
  | issue n now ttl turns =>
    unfold step
    dsimp only
    cases hc : e.conns n with
    | none => exact hsame
    | some c =>
      dsimp only
      by_cases hcl : c.closed = true
      · rw [if_pos hcl]; exact hsame
      · rw [if_neg hcl]
        have i1 := i.replace (c' := checkTtl c now ttl) hc (checkTtl_fields c now ttl).1 ((i.good n c hc).checkTtl now ttl)
        have i2 := issueLoop_inv n now turns _ notes (checkTtl c now ttl) i1 (setConn_same e n _)
        rw [withConn_withConn] at i2
        exact i2
  | packet dest b q =>
    unfold step
    dsimp only
    cases hl : lookup e.table dest with
    | none => exact hsame
    | some n =>
      dsimp only
      cases hc : e.conns n with
      | none => exact hsame
      | some c =>
        dsimp only
        by_cases hcl : c.closed = true
        · rw [if_pos hcl]; exact hsame
        · rw [if_neg hcl]
          have i1 := i.replace (c' := arrive c dest b) hc (arrive_list c dest b) ((i.good n c hc).arrive dest b)
          have i2 := decodeRetire_inv i1 (setConn_same e n _) q
          rw [withConn_withConn] at i2
          exact i2
  | close n =>
    unfold step
    dsimp only
    cases hc : e.conns n with
    | none => exact hsame
    | some c => exact i.close hc

theorem inv_init : Inv {} [] := by
  refine ⟨List.Pairwise.nil, ?_, ?_, ?_⟩
  · intro cid n
    constructor
    · intro h; cases h
    · rintro ⟨c, hc, _⟩; cases hc
  · intro n c h; cases h
  · intro n; rfl

theorem run_inv (evs : List Event) : ∀ {e : Endpoint} {notes : List Note}, Inv e notes →
    Inv (run e evs).1 (notes ++ (run e evs).2) := by
  induction evs with
  | nil =>
    intro e notes i
    show Inv e (notes ++ [])
    rw [List.append_nil]; exact i
  | cons ev rest ih =>
    intro e notes i
    have h := ih (step_inv i ev)
    rw [List.append_assoc] at h
    exact h

theorem inv_of_reached {e : Endpoint} {notes : List Note} (h : Reached e notes) : Inv e notes := by
  obtain ⟨evs, h⟩ := h
  have := run_inv evs inv_init
  rw [h] at this
  exact this

theorem known_of_conn {e : Endpoint} {notes : List Note} (i : Inv e notes) {n q : Nat} {cid : Bytes} :
    (⟨n, q, cid⟩ : Known) ∈ known notes ↔ ∃ c, e.conns n = some c ∧ ∃ l ∈ c.list, l.seq = q ∧ l.cid = cid := by
  have h := i.known n
  constructor
  · intro hm
    have : (⟨n, q, cid⟩ : Known) ∈ (known notes).filter (fun k => decide (k.conn = n)) :=
      List.mem_filter.mpr ⟨hm, by simp⟩
    rw [h] at this
    cases hc : e.conns n with
    | none => rw [hc] at this; cases this
    | some c =>
      rw [hc] at this
      obtain ⟨l, hl, hk⟩ := List.mem_map.mp this
      injection hk with _ h2 h3
      exact ⟨c, rfl, l, hl, h2, h3⟩
  · rintro ⟨c, hc, l, hl, h2, h3⟩
    have : (⟨n, q, cid⟩ : Known) ∈ (known notes).filter (fun k => decide (k.conn = n)) := by
      rw [h, hc]
      exact List.mem_map.mpr ⟨l, hl, by rw [h2, h3]⟩
    exact (List.mem_filter.mp this).1

end Picoquic.LocalCids
