import Verif.Proof.PeerCids
/-!
# Proofs about the use of the connection IDs of the peer
-/

namespace Picoquic.PeerCids
open Picoquic Picoquic.Spec

theorem mem_update {a : Nat} {g : Entry → Entry} {st : List Entry} {x : Entry} (h : x ∈ update a g st) :
    ∃ y ∈ st, (y.addr = a ∧ x = g y) ∨ (y.addr ≠ a ∧ x = y) := by
  unfold update at h
  obtain ⟨y, hy, hx⟩ := List.mem_map.mp h
  refine ⟨y, hy, ?_⟩
  by_cases hc : y.addr = a
  · rw [if_pos hc] at hx; exact Or.inl ⟨hc, hx.symm⟩
  · rw [if_neg hc] at hx; exact Or.inr ⟨hc, hx.symm⟩

theorem update_mem {a : Nat} {g : Entry → Entry} {st : List Entry} {y : Entry} (h : y ∈ st) :
    (if y.addr = a then g y else y) ∈ update a g st := by
  unfold update
  exact List.mem_map_of_mem (f := fun e => if e.addr = a then g e else e) h

theorem same_of_addr {st : List Entry} (hp : st.Pairwise Apart) {x y : Entry} (hx : x ∈ st) (hy : y ∈ st)
    (h : x.addr = y.addr) : x = y := by
  induction st with
  | nil => cases hx
  | cons z rest ih =>
    have hz := List.pairwise_cons.mp hp
    rcases List.mem_cons.mp hx with h1 | h1 <;> rcases List.mem_cons.mp hy with h2 | h2
    · rw [h1, h2]
    · subst h1; exact absurd h (hz.1 y h2).1
    · subst h2; exact absurd h.symm (hz.1 x h1).1
    · exact ih hz.2 h1 h2

theorem same_of_seq {st : List Entry} (hp : st.Pairwise Apart) {x y : Entry} (hx : x ∈ st) (hy : y ∈ st)
    (h : x.seq = y.seq) : x = y := by
  induction st with
  | nil => cases hx
  | cons z rest ih =>
    have hz := List.pairwise_cons.mp hp
    rcases List.mem_cons.mp hx with h1 | h1 <;> rcases List.mem_cons.mp hy with h2 | h2
    · rw [h1, h2]
    · subst h1; exact absurd h (hz.1 y h2).2.1
    · subst h2; exact absurd h.symm (hz.1 x h1).2.1
    · exact ih hz.2 h1 h2

theorem lookup_of_mem {st : List Entry} (hp : st.Pairwise Apart) {x : Entry} (hx : x ∈ st) :
    lookup st x.addr = some x := by
  unfold lookup
  cases hf : st.find? (fun e => decide (e.addr = x.addr)) with
  | none =>
    exfalso
    have := List.find?_eq_none.mp hf x hx
    exact this (by simp)
  | some y =>
    have h1 := List.mem_of_find?_eq_some hf
    have h2 : y.addr = x.addr := by simpa using List.find?_some hf
    rw [same_of_addr hp h1 hx h2]

theorem getFromStash_spec {st : List Entry} {e : Entry} (h : getFromStash st = some e) :
    e ∈ st ∧ (e.cid ≠ [] → e.refs = 0 ∧ e.needsRemoval = false) := by
  induction st with
  | nil => cases h
  | cons x rest ih =>
    unfold getFromStash at h
    by_cases hc : x.cid.length > 0 ∧ (x.refs ≠ 0 ∨ x.needsRemoval = true)
    · rw [if_pos hc] at h
      exact ⟨List.mem_cons_of_mem _ (ih h).1, (ih h).2⟩
    · rw [if_neg hc] at h
      have := Option.some.inj h
      subst this
      refine ⟨List.mem_cons_self, ?_⟩
      intro hn
      have hl : x.cid.length > 0 := List.length_pos_iff.mpr hn
      constructor
      · apply Classical.byContradiction
        intro hr
        exact hc ⟨hl, Or.inl hr⟩
      · cases hr : x.needsRemoval with
        | false => rfl
        | true => exact absurd ⟨hl, Or.inr hr⟩ hc

/-- One element in the loop that retires the old connection IDs. -/
def mark (nb : Nat) (e : Entry) : Entry :=
  { e with needsRemoval := e.needsRemoval || decide (e.seq < nb)
           retireSent := e.retireSent ||
             (decide ((e.needsRemoval || decide (e.seq < nb)) = true ∧ e.refs = 0)) }

theorem markOld_eq (nb : Nat) {st : List Entry} (ha : ∀ e ∈ st, e.retireAcked = false) :
    (markOld nb st).1 = st.map (mark nb) ∧
      (markOld nb st).2 = ((st.filter (fun e => decide ((e.needsRemoval || decide (e.seq < nb)) = true ∧ e.refs = 0) &&
        !e.retireSent)).map Entry.seq) := by
  induction st with
  | nil => exact ⟨rfl, rfl⟩
  | cons x rest ih =>
    obtain ⟨i1, i2⟩ := ih (fun e he => ha e (List.mem_cons_of_mem _ he))
    have hx := ha x List.mem_cons_self
    unfold markOld
    dsimp only
    by_cases hc : (x.needsRemoval || decide (x.seq < nb)) = true ∧ x.refs = 0
    · rw [if_pos hc, if_neg (by rw [hx]; exact Bool.false_ne_true)]
      dsimp only
      constructor
      · rw [List.map_cons, i1]
        unfold mark
        rw [decide_eq_true hc, Bool.or_true]
      · cases hs : x.retireSent with
        | true =>
          rw [if_pos rfl, List.filter_cons_of_neg (by rw [hs]; simp), i2]
        | false =>
          rw [if_neg Bool.false_ne_true, List.filter_cons_of_pos (by rw [hs, decide_eq_true hc]; rfl), List.map_cons, i2]
    · rw [if_neg hc]
      dsimp only
      constructor
      · rw [List.map_cons, i1]
        unfold mark
        rw [decide_eq_false hc, Bool.or_false]
      · rw [List.filter_cons_of_neg (by rw [decide_eq_false hc]; simp), i2]

theorem key_mark (nb : Nat) (e : Entry) : key (mark nb e) = key e := rfl

/-! ## Pointers -/

/-- The pointers of the tuples are valid. -/
structure Safe (s : State) : Prop where
  ptr : ∀ a ∈ s.tuples, ∃ e ∈ s.stash, e.addr = a ∧ e.retireSent = false
  cnt : ∀ e ∈ s.stash, s.tuples.count e.addr ≤ e.refs
  sent : ∀ e ∈ s.stash, e.retireSent = true → e.refs ≠ 0 ∨ e.needsRemoval = true
  ret : ∀ e ∈ s.stash, e.seq ∈ s.retires → e.retireSent = true
  ne : s.tuples ≠ []

theorem dereference_eq {s : State} {first : Entry} (ha : first.retireAcked = false) (hs : first.retireSent = false) :
    dereference s first =
      if first.refs ≤ 1 then
        { s with retires := s.retires ++ [first.seq]
                 stash := update first.addr (fun x => { x with retireSent := true }) s.stash }
      else { s with stash := update first.addr (fun x => { x with refs := x.refs - 1 }) s.stash } := by
  unfold dereference
  by_cases h1 : first.refs ≤ 1
  · rw [if_pos h1, if_pos h1]
    dsimp only
    rw [if_neg (by rw [ha]; exact Bool.false_ne_true), if_neg (by rw [hs]; exact Bool.false_ne_true)]
  · rw [if_neg h1, if_neg h1]

theorem count_pos_refs {s : State} (i : Safe s) {e : Entry} (he : e ∈ s.stash) (ht : e.addr ∈ s.tuples) :
    1 ≤ e.refs := by
  have h1 := i.cnt e he
  have h2 : 0 < s.tuples.count e.addr := List.count_pos_iff.mpr ht
  omega

theorem Safe.firstEntry {c0 : Bytes} {s : State} (i : Safe s) (k : Keys c0 s.stash s.nextAddr) :
    ∃ first, firstEntry s = some first ∧ first.retireSent = false := by
  cases ht : s.tuples with
  | nil => exact absurd ht i.ne
  | cons a rest =>
    obtain ⟨e, he, ha, hs⟩ := i.ptr a (by rw [ht]; exact List.mem_cons_self)
    refine ⟨e, ?_, hs⟩
    unfold PeerCids.firstEntry
    rw [ht, ← ha]
    exact lookup_of_mem k.apart he

theorem Safe.renew {c0 : Bytes} {s s' : State} (hc0 : c0 ≠ []) (i : Safe s) (k : Keys c0 s.stash s.nextAddr)
    (h : renew s = .ok s') : Safe s' := by
  obtain ⟨first, e, hf, hg, hne, rfl⟩ := renew_ok h
  obtain ⟨hfm, rest, htu⟩ := firstEntry_mem hf
  obtain ⟨f', hf', hfs⟩ := i.firstEntry k
  rw [hf] at hf'
  have := Option.some.inj hf'
  subst this
  obtain ⟨hem, he⟩ := getFromStash_spec hg
  obtain ⟨her, hen⟩ := he (fun hh => hc0 ((k.empty e hem).mp hh))
  have hes : e.retireSent = false := by
    cases hh : e.retireSent with
    | false => rfl
    | true =>
      rcases i.sent e hem hh with h | h
      · exact absurd her h
      · rw [hen] at h; cases h
  have hea : e.addr ≠ first.addr := fun hh => hne (by rw [same_of_addr k.apart hem hfm hh])
  have heTup : e.addr ∉ s.tuples := by
    intro hh
    have := count_pos_refs i hem hh
    omega
  have hcountTail : ∀ x : Entry, s.tuples.count x.addr = rest.count x.addr + (if first.addr = x.addr then 1 else 0) := by
    intro x
    rw [htu, List.count_cons]
    by_cases hh : first.addr = x.addr
    · rw [if_pos hh, if_pos (by rw [hh]; exact beq_self_eq_true _)]
    · rw [if_neg hh, if_neg (by simpa using hh)]
  have hfirstPos := count_pos_refs i hfm (by rw [htu]; exact List.mem_cons_self)
  have heRest : rest.count e.addr = 0 := by
    rw [List.count_eq_zero]
    intro hh
    exact heTup (by rw [htu]; exact List.mem_cons_of_mem _ hh)
  rw [dereference_eq (k.acked first hfm) hfs]
  by_cases hr : first.refs ≤ 1
  · simp only [if_pos hr, htu, List.tail_cons]
    have hfr : rest.count first.addr = 0 := by
      have h1 := i.cnt first hfm
      rw [hcountTail first, if_pos rfl] at h1
      omega
    refine ⟨?_, ?_, ?_, ?_, List.cons_ne_nil _ _⟩
    · intro a ha
      rcases List.mem_cons.mp ha with rfl | ha
      · have h1 := update_mem (a := first.addr) (g := fun x => { x with retireSent := true }) hem
        rw [if_neg hea] at h1
        have h2 := update_mem (a := e.addr) (g := fun x => { x with refs := x.refs + 1 }) h1
        rw [if_pos rfl] at h2
        exact ⟨_, h2, rfl, hes⟩
      · obtain ⟨x, hx, hxa, hxs⟩ := i.ptr a (by rw [htu]; exact List.mem_cons_of_mem _ ha)
        have hxf : x.addr ≠ first.addr := by
          intro hh
          rw [List.count_eq_zero] at hfr
          exact hfr (by rw [← hh, hxa]; exact ha)
        have hxe : x.addr ≠ e.addr := by
          intro hh
          rw [List.count_eq_zero] at heRest
          exact heRest (by rw [← hh, hxa]; exact ha)
        have h1 := update_mem (a := first.addr) (g := fun x => { x with retireSent := true }) hx
        rw [if_neg hxf] at h1
        have h2 := update_mem (a := e.addr) (g := fun x => { x with refs := x.refs + 1 }) h1
        rw [if_neg hxe] at h2
        exact ⟨x, h2, hxa, hxs⟩
    · intro x hx
      obtain ⟨y, hy, hxy⟩ := mem_update hx
      obtain ⟨z, hz, hyz⟩ := mem_update hy
      have hzc := i.cnt z hz
      rw [hcountTail z] at hzc
      have hyzr : y.refs = z.refs ∧ y.addr = z.addr := by
        rcases hyz with ⟨_, rfl⟩ | ⟨_, rfl⟩ <;> exact ⟨rfl, rfl⟩
      rcases hxy with ⟨hya, rfl⟩ | ⟨hya, rfl⟩
      · show List.count y.addr (e.addr :: rest) ≤ y.refs + 1
        rw [hya, List.count_cons_self, heRest]
        omega
      · rw [List.count_cons_of_ne (fun hh => hya hh.symm), hyzr.1, hyzr.2]
        omega
    · intro x hx hxs
      obtain ⟨y, hy, hxy⟩ := mem_update hx
      obtain ⟨z, hz, hyz⟩ := mem_update hy
      rcases hxy with ⟨hya, rfl⟩ | ⟨hya, rfl⟩
      · left; show y.refs + 1 ≠ 0; omega
      · rcases hyz with ⟨hzf, rfl⟩ | ⟨_, rfl⟩
        · have : z = first := same_of_addr k.apart hz hfm hzf
          left
          show z.refs ≠ 0
          rw [this]; omega
        · exact i.sent x hz hxs
    · intro x hx hxr
      obtain ⟨y, hy, hxy⟩ := mem_update hx
      obtain ⟨z, hz, hyz⟩ := mem_update hy
      have hxy' : x.seq = y.seq ∧ x.retireSent = y.retireSent := by
        rcases hxy with ⟨_, rfl⟩ | ⟨_, rfl⟩ <;> exact ⟨rfl, rfl⟩
      rw [hxy'.2]
      rcases hyz with ⟨hzf, rfl⟩ | ⟨hzf, rfl⟩
      · rfl
      · rw [hxy'.1] at hxr
        rcases List.mem_append.mp hxr with hxr | hxr
        · exact i.ret y hz hxr
        · rw [List.mem_singleton] at hxr
          exact absurd (by rw [same_of_seq k.apart hz hfm hxr]) hzf
  · simp only [if_neg hr, htu, List.tail_cons]
    refine ⟨?_, ?_, ?_, ?_, List.cons_ne_nil _ _⟩
    · intro a ha
      rcases List.mem_cons.mp ha with rfl | ha
      · have h1 := update_mem (a := first.addr) (g := fun x => { x with refs := x.refs - 1 }) hem
        rw [if_neg hea] at h1
        have h2 := update_mem (a := e.addr) (g := fun x => { x with refs := x.refs + 1 }) h1
        rw [if_pos rfl] at h2
        exact ⟨_, h2, rfl, hes⟩
      · obtain ⟨x, hx, hxa, hxs⟩ := i.ptr a (by rw [htu]; exact List.mem_cons_of_mem _ ha)
        have hxe : x.addr ≠ e.addr := by
          intro hh
          rw [List.count_eq_zero] at heRest
          exact heRest (by rw [← hh, hxa]; exact ha)
        have h1 := update_mem (a := first.addr) (g := fun x => { x with refs := x.refs - 1 }) hx
        have h2 := update_mem (a := e.addr) (g := fun x => { x with refs := x.refs + 1 }) h1
        by_cases hxf : x.addr = first.addr
        · rw [if_pos hxf] at h2
          rw [if_neg (show ({ x with refs := x.refs - 1 } : Entry).addr ≠ e.addr from hxe)] at h2
          exact ⟨_, h2, hxa, hxs⟩
        · rw [if_neg hxf, if_neg hxe] at h2
          exact ⟨x, h2, hxa, hxs⟩
    · intro x hx
      obtain ⟨y, hy, hxy⟩ := mem_update hx
      obtain ⟨z, hz, hyz⟩ := mem_update hy
      have hzc := i.cnt z hz
      rw [hcountTail z] at hzc
      rcases hxy with ⟨hya, rfl⟩ | ⟨hya, rfl⟩
      · show List.count y.addr (e.addr :: rest) ≤ y.refs + 1
        rw [hya, List.count_cons_self, heRest]
        omega
      · rw [List.count_cons_of_ne (fun hh => hya hh.symm)]
        rcases hyz with ⟨hzf, rfl⟩ | ⟨hzf, rfl⟩
        · rw [if_pos hzf.symm] at hzc
          show List.count z.addr rest ≤ z.refs - 1
          omega
        · omega
    · intro x hx hxs
      obtain ⟨y, hy, hxy⟩ := mem_update hx
      obtain ⟨z, hz, hyz⟩ := mem_update hy
      rcases hxy with ⟨hya, rfl⟩ | ⟨hya, rfl⟩
      · left; show y.refs + 1 ≠ 0; omega
      · rcases hyz with ⟨hzf, rfl⟩ | ⟨_, rfl⟩
        · have : z = first := same_of_addr k.apart hz hfm hzf
          rw [this] at hxs
          rw [show ({ first with refs := first.refs - 1 } : Entry).retireSent = first.retireSent from rfl, hfs] at hxs
          cases hxs
        · exact i.sent x hz hxs
    · intro x hx hxr
      obtain ⟨y, hy, hxy⟩ := mem_update hx
      obtain ⟨z, hz, hyz⟩ := mem_update hy
      have hxy' : x.seq = y.seq ∧ x.retireSent = y.retireSent := by
        rcases hxy with ⟨_, rfl⟩ | ⟨_, rfl⟩ <;> exact ⟨rfl, rfl⟩
      have hyz' : y.seq = z.seq ∧ y.retireSent = z.retireSent := by
        rcases hyz with ⟨_, rfl⟩ | ⟨_, rfl⟩ <;> exact ⟨rfl, rfl⟩
      rw [hxy'.2, hyz'.2]
      rw [hxy'.1, hyz'.1] at hxr
      exact i.ret z hz hxr

theorem Safe.markOld {c0 : Bytes} {s : State} (i : Safe s) (k : Keys c0 s.stash s.nextAddr) (nb : Nat) :
    Safe { s with stash := (markOld nb s.stash).1, retires := s.retires ++ (markOld nb s.stash).2 } := by
  obtain ⟨m1, m2⟩ := markOld_eq nb k.acked
  rw [m1, m2]
  refine ⟨?_, ?_, ?_, ?_, i.ne⟩
  · intro a ha
    obtain ⟨e, he, hea, hes⟩ := i.ptr a ha
    refine ⟨mark nb e, List.mem_map_of_mem (f := mark nb) he, hea, ?_⟩
    have : e.refs ≠ 0 := by
      have := count_pos_refs i he (by rw [hea]; exact ha)
      omega
    show (e.retireSent || decide ((e.needsRemoval || decide (e.seq < nb)) = true ∧ e.refs = 0)) = false
    rw [hes, decide_eq_false (fun h => this h.2)]
    rfl
  · intro x hx
    obtain ⟨e, he, rfl⟩ := List.mem_map.mp hx
    exact i.cnt e he
  · intro x hx hxs
    obtain ⟨e, he, rfl⟩ := List.mem_map.mp hx
    have hxs' : (e.retireSent || decide ((e.needsRemoval || decide (e.seq < nb)) = true ∧ e.refs = 0)) = true := hxs
    rcases (Bool.or_eq_true _ _).mp hxs' with h | h
    · rcases i.sent e he h with h | h
      · exact Or.inl h
      · right
        show (e.needsRemoval || decide (e.seq < nb)) = true
        rw [h, Bool.true_or]
    · exact Or.inr (of_decide_eq_true h).1
  · intro x hx hxr
    obtain ⟨e, he, rfl⟩ := List.mem_map.mp hx
    show (e.retireSent || decide ((e.needsRemoval || decide (e.seq < nb)) = true ∧ e.refs = 0)) = true
    rcases List.mem_append.mp hxr with hxr | hxr
    · rw [i.ret e he hxr, Bool.true_or]
    · obtain ⟨y, hy, hys⟩ := List.mem_map.mp hxr
      obtain ⟨hym, hyc⟩ := List.mem_filter.mp hy
      rw [← same_of_seq k.apart hym he hys]
      rw [((Bool.and_eq_true _ _).mp hyc).1, Bool.or_true]

theorem Safe.removeNotBefore {c0 : Bytes} {s s' : State} {nb : Nat} (hc0 : c0 ≠ []) (i : Safe s)
    (k : Keys c0 s.stash s.nextAddr) (h : removeNotBefore s nb = .ok s') : Safe s' := by
  obtain ⟨first, hf, h1 | ⟨h1, _⟩⟩ := removeNotBefore_ok h
  · exact (i.markOld k nb).renew hc0 (k.sub (map_key_markOld nb s.stash)) h1
  · rw [h1]; exact i.markOld k nb

theorem Safe.add {c0 : Bytes} {s s' : State} {f : NewCid} (i : Safe s) (k : Keys c0 s.stash s.nextAddr)
    (hn : f.seq ∉ s.retires ∨ ∃ e ∈ s.stash, e.seq = f.seq) (h : add s f = .ok s') : Safe s' := by
  obtain ⟨_, _, h1 | ⟨h1, h2⟩⟩ := add_ok h
  · rw [h1]; exact i
  · have hn' : f.seq ∉ s.retires := by
      rcases hn with h | ⟨e, he, hh⟩
      · exact h
      · exact absurd hh (h2 e he).2.1
    subst h1
    refine ⟨?_, ?_, ?_, ?_, i.ne⟩
    · intro a ha
      obtain ⟨e, he, h⟩ := i.ptr a ha
      exact ⟨e, List.mem_append_left _ he, h⟩
    · intro x hx
      rcases List.mem_append.mp hx with hx | hx
      · exact i.cnt x hx
      · rw [List.mem_singleton] at hx
        subst hx
        show List.count s.nextAddr s.tuples ≤ 0
        rw [Nat.le_zero, List.count_eq_zero]
        intro hh
        obtain ⟨e, he, hea, _⟩ := i.ptr _ hh
        have := k.below e he
        omega
    · intro x hx hxs
      rcases List.mem_append.mp hx with hx | hx
      · exact i.sent x hx hxs
      · rw [List.mem_singleton] at hx
        subst hx
        cases hxs
    · intro x hx hxr
      rcases List.mem_append.mp hx with hx | hx
      · exact i.ret x hx hxr
      · rw [List.mem_singleton] at hx
        subst hx
        exact absurd hxr hn'

/-- Other orders or fewer tuples. -/
theorem Safe.tuples {s : State} (i : Safe s) {t : List Nat} (hs : ∀ a, t.count a ≤ s.tuples.count a) (hne : t ≠ []) :
    Safe { s with tuples := t } := by
  refine ⟨?_, ?_, i.sent, i.ret, hne⟩
  · intro a ha
    have h1 : 0 < t.count a := List.count_pos_iff.mpr ha
    have h2 := hs a
    exact i.ptr a (List.count_pos_iff.mp (by omega))
  · intro e he
    exact Nat.le_trans (hs e.addr) (i.cnt e he)

theorem Safe.retires {s : State} (i : Safe s) {q : List Nat} (hq : ∀ x ∈ q, x ∈ s.retires) :
    Safe { s with retires := q } :=
  ⟨i.ptr, i.cnt, i.sent, fun e he hr => i.ret e he (hq _ hr), i.ne⟩

theorem count_eraseIdx_add {l : List Nat} {i a : Nat} (h : l[i]? = some a) (b : Nat) :
    (l.eraseIdx i).count b + (if a = b then 1 else 0) = l.count b := by
  induction l generalizing i with
  | nil => cases h
  | cons x rest ih =>
    cases i with
    | zero =>
      have : x = a := by simpa using h
      subst this
      rw [List.eraseIdx_cons_zero, List.count_cons]
      by_cases hh : x = b
      · rw [if_pos hh, if_pos (by rw [hh]; exact beq_self_eq_true _)]
      · rw [if_neg hh, if_neg (by simpa using hh)]
    | succ i =>
      have h' : rest[i]? = some a := by simpa using h
      have := ih h'
      rw [List.eraseIdx_cons_succ, List.count_cons, List.count_cons]
      omega

theorem Safe.step {c0 : Bytes} {s s' : State} {ev : Event} (hc0 : c0 ≠ []) (i : Safe s)
    (k : Keys c0 s.stash s.nextAddr)
    (hn : ∀ f, ev = .newCid f → f.seq ∉ s.retires ∨ ∃ e ∈ s.stash, e.seq = f.seq) (h : step s ev = .ok s') :
    Safe s' := by
  cases ev with
  | newCid f =>
    obtain ⟨_, s1, ha, ⟨_, hr⟩ | ⟨_, hr⟩⟩ := decodeNew_ok h
    · have i1 := i.add k (hn f rfl) ha
      exact Safe.removeNotBefore (s := { s1 with retireBefore := f.retirePrior }) hc0
        ⟨i1.ptr, i1.cnt, i1.sent, i1.ret, i1.ne⟩ (Keys.add (s' := s1) k ha) hr
    · rw [hr]; exact i.add k (hn f rfl) ha
  | newTuple =>
    have := Outcome.ok.inj h
    subst this
    unfold newTuple
    cases hg : getFromStash s.stash with
    | none => exact i
    | some e =>
      obtain ⟨hem, he⟩ := getFromStash_spec hg
      obtain ⟨her, hen⟩ := he (fun hh => hc0 ((k.empty e hem).mp hh))
      have hes : e.retireSent = false := by
        cases hh : e.retireSent with
        | false => rfl
        | true =>
          rcases i.sent e hem hh with h | h
          · exact absurd her h
          · rw [hen] at h; cases h
      dsimp only
      refine ⟨?_, ?_, ?_, ?_, fun h => absurd (List.append_eq_nil_iff.mp h).1 i.ne⟩
      · intro a ha
        rcases List.mem_append.mp ha with ha | ha
        · obtain ⟨x, hx, hxa, hxs⟩ := i.ptr a ha
          have h1 := update_mem (a := e.addr) (g := fun x => { x with refs := x.refs + 1 }) hx
          by_cases hxe : x.addr = e.addr
          · rw [if_pos hxe] at h1
            exact ⟨_, h1, hxa, hxs⟩
          · rw [if_neg hxe] at h1
            exact ⟨_, h1, hxa, hxs⟩
        · rw [List.mem_singleton] at ha
          have h1 := update_mem (a := e.addr) (g := fun x => { x with refs := x.refs + 1 }) hem
          rw [if_pos rfl] at h1
          exact ⟨_, h1, ha.symm, hes⟩
      · intro x hx
        obtain ⟨y, hy, ⟨hya, rfl⟩ | ⟨hya, rfl⟩⟩ := mem_update hx
        · have := i.cnt y hy
          show List.count y.addr (s.tuples ++ [e.addr]) ≤ y.refs + 1
          rw [List.count_append, hya, List.count_cons_self, List.count_nil, ← hya]
          omega
        · have := i.cnt x hy
          rw [List.count_append, List.count_cons_of_ne (fun hh => hya hh.symm), List.count_nil]
          omega
      · intro x hx hxs
        obtain ⟨y, hy, ⟨hya, rfl⟩ | ⟨hya, rfl⟩⟩ := mem_update hx
        · left; show y.refs + 1 ≠ 0; omega
        · exact i.sent x hy hxs
      · intro x hx hxr
        obtain ⟨y, hy, ⟨hya, rfl⟩ | ⟨hya, rfl⟩⟩ := mem_update hx
        · exact i.ret y hy hxr
        · exact i.ret x hy hxr
  | renewed =>
    unfold PeerCids.step at h
    cases hr : PeerCids.renew s with
    | ok s1 =>
      rw [hr] at h
      rw [← Outcome.ok.inj h]
      exact i.renew hc0 k hr
    | error c => rw [hr] at h; rw [← Outcome.ok.inj h]; exact i
    | dangling => rw [hr] at h; cases h
  | promote j =>
    have := Outcome.ok.inj h
    subst this
    unfold promote
    cases hj : s.tuples[j]? with
    | none => exact i
    | some a =>
      refine i.tuples ?_ (List.cons_ne_nil _ _)
      intro b
      have := count_eraseIdx_add hj b
      rw [List.count_cons]
      by_cases hh : a = b
      · rw [if_pos hh] at this
        rw [if_pos (by rw [hh]; exact beq_self_eq_true _)]
        omega
      · rw [if_neg (by simpa using hh)]
        omega
  | failed j =>
    have := Outcome.ok.inj h
    subst this
    unfold failed
    cases hj : s.tuples[j]? with
    | none => exact i
    | some a =>
      refine i.tuples ?_ (fun h => absurd (List.append_eq_nil_iff.mp h).2 (List.cons_ne_nil _ _))
      intro b
      have := count_eraseIdx_add hj b
      rw [List.count_append, List.count_cons, List.count_nil]
      by_cases hh : a = b
      · rw [if_pos hh] at this
        rw [if_pos (by rw [hh]; exact beq_self_eq_true _)]
        omega
      · rw [if_neg (by simpa using hh)]
        omega
  | deleteTuple j =>
    have := Outcome.ok.inj h
    subst this
    refine i.tuples ?_ ?_
    · intro b
      exact List.Sublist.count_le b (List.eraseIdx_sublist _ _)
    · cases ht : s.tuples with
      | nil => exact absurd ht i.ne
      | cons a rest => rw [List.eraseIdx_cons_succ]; exact List.cons_ne_nil _ _
  | demote =>
    have := Outcome.ok.inj h
    subst this
    exact ⟨i.ptr, i.cnt, i.sent, i.ret, i.ne⟩
  | forget j =>
    have := Outcome.ok.inj h
    subst this
    exact i.retires (fun x hx => (List.eraseIdx_sublist _ _).subset hx)
  | loseRetire j =>
    have := Outcome.ok.inj h
    subst this
    unfold loseRetire
    cases hj : s.retires[j]? with
    | none => exact i
    | some q =>
      dsimp only
      cases s.stash.find? (fun e => decide (e.seq = q)) with
      | none => exact i
      | some e =>
        dsimp only
        cases e.retireAcked with
        | true => exact i
        | false =>
          refine i.retires ?_
          intro x hx
          rcases List.mem_append.mp hx with hx | hx
          · exact hx
          · rw [List.mem_singleton] at hx
            rw [hx]
            exact List.mem_of_getElem? hj
  | ackRetire j =>
    have := Outcome.ok.inj h
    subst this
    unfold ackRetire
    cases hj : s.retires[j]? with
    | none => exact i
    | some q =>
      dsimp only
      cases hfind : s.stash.find? (fun e => decide (e.seq = q)) with
      | none => exact i.retires (fun x hx => (List.eraseIdx_sublist _ _).subset hx)
      | some e =>
        dsimp only
        have hem := List.mem_of_find?_eq_some hfind
        have heq : e.seq = q := by simpa using List.find?_some hfind
        have hes : e.retireSent = true := i.ret e hem (by rw [heq]; exact List.mem_of_getElem? hj)
        refine ⟨?_, ?_, ?_, ?_, i.ne⟩
        · intro a ha
          obtain ⟨x, hx, hxa, hxs⟩ := i.ptr a ha
          refine ⟨x, ?_, hxa, hxs⟩
          unfold remove
          rw [List.mem_filter]
          refine ⟨hx, ?_⟩
          have : x.addr ≠ e.addr := by
            intro hh
            rw [same_of_addr k.apart hx hem hh, hes] at hxs
            cases hxs
          simpa using this
        · intro x hx
          exact i.cnt x (List.mem_filter.mp hx).1
        · intro x hx
          exact i.sent x (List.mem_filter.mp hx).1
        · intro x hx hxr
          exact i.ret x (List.mem_filter.mp hx).1 ((List.eraseIdx_sublist _ _).subset hxr)

theorem safe_init (c0 sec : Bytes) (limit : Nat) (rd ld : Bool) : Safe (init c0 sec limit rd ld) := by
  refine ⟨?_, ?_, ?_, ?_, List.cons_ne_nil _ _⟩
  · intro a ha
    rw [show (init c0 sec limit rd ld).tuples = [0] from rfl, List.mem_singleton] at ha
    subst ha
    exact ⟨_, List.mem_cons_self, rfl, rfl⟩
  all_goals
    intro e he
    rw [show (init c0 sec limit rd ld).stash = [{ addr := 0, seq := 0, cid := c0, secret := sec, refs := 1 }] from rfl,
      List.mem_singleton] at he
    subst he
  · show List.count 0 [0] ≤ 1; decide
  · intro h; cases h
  · intro h; cases h

theorem noReannounce_prefix {s0 : State} {evs : List Event} {e : Event} (h : NoReannounce s0 (evs ++ [e])) :
    NoReannounce s0 evs := by
  intro before f after s heq hr
  exact h before f (after ++ [e]) s (by rw [heq, List.append_assoc, List.cons_append]) hr

theorem safe_of_run {c0 sec : Bytes} {limit : Nat} {rd ld : Bool} (hc0 : c0 ≠ []) {evs : List Event} {s : State}
    (hn : NoReannounce (init c0 sec limit rd ld) evs) (h : run (init c0 sec limit rd ld) evs = .ok s) : Safe s := by
  refine run_induction (P := fun evs s => NoReannounce (init c0 sec limit rd ld) evs → Safe s)
    (fun _ => safe_init c0 sec limit rd ld) ?_ evs s h hn
  intro evs s e s' hr ih hs hn
  refine (ih (noReannounce_prefix hn)).step hc0 (keys_of_run hr) ?_ hs
  intro f hf
  exact hn evs f [] s (by rw [hf]) hr

/-- No operation on valid pointers reads freed memory. -/
theorem step_not_dangling {c0 : Bytes} {s : State} (i : Safe s) (k : Keys c0 s.stash s.nextAddr)
    (e : Event) (hn : ∀ f, e = .newCid f → f.seq ∉ s.retires ∨ ∃ x ∈ s.stash, x.seq = f.seq) :
    step s e ≠ .dangling := by
  have hren : ∀ (s : State), Safe s → Keys c0 s.stash s.nextAddr → PeerCids.renew s ≠ .dangling := by
    intro s i k h
    obtain ⟨first, hf, _⟩ := i.firstEntry k
    unfold PeerCids.renew at h
    rw [hf] at h
    dsimp only at h
    by_cases hm : (s.remoteDisabled = true ∧ first.seq ≥ s.retireBefore) ∨ s.localDisabled = true
    · rw [if_pos hm] at h; cases h
    · rw [if_neg hm] at h
      cases hg : getFromStash s.stash with
      | none => rw [hg] at h; cases h
      | some e =>
        rw [hg] at h
        dsimp only at h
        by_cases hq : e.seq = first.seq
        · rw [if_pos hq] at h; cases h
        · rw [if_neg hq] at h; cases h
  cases e with
  | renewed =>
    intro h
    unfold PeerCids.step at h
    cases hr : PeerCids.renew s with
    | ok s1 => rw [hr] at h; cases h
    | error c => rw [hr] at h; cases h
    | dangling => exact hren s i k hr
  | newCid f =>
    intro h
    have h : decodeNew s f = .dangling := h
    have hadd : PeerCids.add s f ≠ .dangling := by
      intro h
      obtain ⟨first, hf, _⟩ := i.firstEntry k
      unfold PeerCids.add at h
      by_cases h0 : f.cid.length = 0 ∨ f.cid.length > 20
      · rw [if_pos h0] at h; cases h
      · rw [if_neg h0, hf] at h
        dsimp only at h
        by_cases h1 : first.cid.length = 0
        · rw [if_pos h1] at h; cases h
        · rw [if_neg h1] at h
          cases hc : scan f (if f.retirePrior < s.retireBefore then s.retireBefore else f.retirePrior) s.stash 0 0 with
          | conflict => rw [hc] at h; cases h
          | duplicate => rw [hc] at h; cases h
          | fresh a b =>
            rw [hc] at h
            dsimp only at h
            by_cases h2 : a ≥ s.limit + b ∨ a ≥ 2 * s.limit
            · rw [if_pos h2] at h; cases h
            · rw [if_neg h2] at h; cases h
    unfold decodeNew at h
    by_cases h0 : f.retirePrior > f.seq
    · rw [if_pos h0] at h; cases h
    · rw [if_neg h0] at h
      by_cases h1 : f.cid.length > 20
      · rw [if_pos h1] at h; cases h
      · rw [if_neg h1] at h
        cases ha : PeerCids.add s f with
        | error c => rw [ha] at h; cases h
        | dangling => exact hadd ha
        | ok s1 =>
          rw [ha] at h
          dsimp only at h
          by_cases h2 : s1.retireBefore < f.retirePrior
          · rw [if_pos h2] at h
            have i1 := i.add k (hn f rfl) ha
            have i2 : Safe { s1 with retireBefore := f.retirePrior } := ⟨i1.ptr, i1.cnt, i1.sent, i1.ret, i1.ne⟩
            have k2 : Keys c0 ({ s1 with retireBefore := f.retirePrior } : State).stash
                ({ s1 with retireBefore := f.retirePrior } : State).nextAddr := Keys.add (s' := s1) k ha
            have i3 := i2.markOld k2 f.retirePrior
            have k3 := k2.sub (map_key_markOld f.retirePrior s1.stash)
            obtain ⟨first, hf, _⟩ := i3.firstEntry k3
            unfold PeerCids.removeNotBefore at h
            dsimp only at h
            dsimp only at hf
            rw [hf] at h
            dsimp only at h
            by_cases hc : first.seq < f.retirePrior ∧ first.cid.length > 0 ∧ s1.demoted = false
            · rw [if_pos hc] at h
              cases hr : PeerCids.renew { s1 with retireBefore := f.retirePrior,
                                                  stash := (PeerCids.markOld f.retirePrior s1.stash).1,
                                                  retires := s1.retires ++ (PeerCids.markOld f.retirePrior s1.stash).2 } with
              | ok s2 => rw [hr] at h; cases h
              | error c => rw [hr] at h; cases h
              | dangling => exact hren _ i3 k3 hr
            · rw [if_neg hc] at h; cases h
          · rw [if_neg h2] at h; cases h
  | newTuple => intro h; cases h
  | promote j => intro h; cases h
  | failed j => intro h; cases h
  | deleteTuple j => intro h; cases h
  | demote => intro h; cases h
  | ackRetire j => intro h; cases h
  | loseRetire j => intro h; cases h
  | forget j => intro h; cases h

end Picoquic.PeerCids
