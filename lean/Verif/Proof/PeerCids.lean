import Verif.Spec.PeerCids
/-!
# Proofs about the stash of connection IDs
-/

namespace Picoquic.PeerCids
open Picoquic Picoquic.Spec

/-- What no operation changes in an element. -/
def key (e : Entry) : Nat × Nat × Bytes × Bytes × Bool := (e.addr, e.seq, e.cid, e.secret, e.retireAcked)

theorem key_eq {a b : Entry} : key a = key b ↔
    a.addr = b.addr ∧ a.seq = b.seq ∧ a.cid = b.cid ∧ a.secret = b.secret ∧ a.retireAcked = b.retireAcked := by
  unfold key
  simp only [Prod.mk.injEq]

def Apart (a b : Entry) : Prop := a.addr ≠ b.addr ∧ a.seq ≠ b.seq ∧ a.cid ≠ b.cid ∧ a.secret ≠ b.secret

def ApartK (a b : Nat × Nat × Bytes × Bytes × Bool) : Prop :=
  a.1 ≠ b.1 ∧ a.2.1 ≠ b.2.1 ∧ a.2.2.1 ≠ b.2.2.1 ∧ a.2.2.2.1 ≠ b.2.2.2.1

theorem apart_iff (st : List Entry) : st.Pairwise Apart ↔ (st.map key).Pairwise ApartK := by
  rw [List.pairwise_map]
  exact Iff.rfl

theorem map_key_update (a : Nat) (g : Entry → Entry) (hg : ∀ e, key (g e) = key e) (st : List Entry) :
    (update a g st).map key = st.map key := by
  unfold update
  rw [List.map_map]
  apply List.map_congr_left
  intro e _
  show key (if e.addr = a then g e else e) = key e
  by_cases h : e.addr = a
  · rw [if_pos h, hg]
  · rw [if_neg h]

theorem update_sub {a : Nat} {g : Entry → Entry} {st : List Entry} (hg : ∀ e, key (g e) = key e) :
    ((update a g st).map key).Sublist (st.map key) := by
  rw [map_key_update a g hg]
  exact List.Sublist.refl _

theorem map_key_remove (a : Nat) (st : List Entry) : ((remove a st).map key).Sublist (st.map key) :=
  List.Sublist.map key List.filter_sublist

theorem map_key_markOld (nb : Nat) (st : List Entry) : ((markOld nb st).1.map key).Sublist (st.map key) := by
  induction st with
  | nil => exact List.Sublist.refl _
  | cons e rest ih =>
    unfold markOld
    dsimp only
    by_cases h1 : (e.needsRemoval || decide (e.seq < nb)) = true ∧ e.refs = 0
    · rw [if_pos h1]
      by_cases h2 : e.retireAcked = true
      · rw [if_pos h2]
        exact List.Sublist.trans ih (List.sublist_cons_self _ _)
      · rw [if_neg h2]
        rw [List.map_cons, List.map_cons]
        exact List.Sublist.cons_cons (key e) ih
    · rw [if_neg h1]
      rw [List.map_cons, List.map_cons]
      rw [show key { e with needsRemoval := (e.needsRemoval || decide (e.seq < nb)) } = key e from rfl]
      exact ih.cons_cons _

theorem map_key_dereference (s : State) (e : Entry) :
    ((dereference s e).stash.map key).Sublist (s.stash.map key) := by
  unfold dereference
  by_cases h1 : e.refs ≤ 1
  · rw [if_pos h1]
    dsimp only
    cases h2 : e.retireSent <;> cases h3 : e.retireAcked <;>
      simp only [Bool.false_eq_true, if_false, if_true]
    · refine update_sub ?_
      intro _; rfl
    · refine List.Sublist.trans (map_key_remove _ _) ?_
      refine update_sub ?_
      intro _; rfl
    · exact List.Sublist.refl _
    · exact map_key_remove _ _
  · rw [if_neg h1]
    dsimp only
    refine update_sub ?_
    intro _; rfl

/-- A successful renewal. -/
theorem renew_ok {s s' : State} (h : renew s = .ok s') :
    ∃ first e, firstEntry s = some first ∧ getFromStash s.stash = some e ∧ e.seq ≠ first.seq ∧
      s' = { dereference s first with
            tuples := e.addr :: (dereference s first).tuples.tail
            stash := update e.addr (fun x => { x with refs := x.refs + 1 }) (dereference s first).stash } := by
  unfold renew at h
  cases hf : firstEntry s with
  | none => rw [hf] at h; cases h
  | some first =>
    rw [hf] at h
    dsimp only at h
    by_cases hm : (s.remoteDisabled = true ∧ first.seq ≥ s.retireBefore) ∨ s.localDisabled = true
    · rw [if_pos hm] at h; cases h
    · rw [if_neg hm] at h
      cases hg : getFromStash s.stash with
      | none => rw [hg] at h; cases h
      | some e =>
        rw [hg] at h
        dsimp only at h
        by_cases hq : e.seq = first.seq
        · rw [if_pos hq] at h; cases h
        · rw [if_neg hq] at h
          exact ⟨first, e, rfl, rfl, hq, (Outcome.ok.inj h).symm⟩

/-- Fields which `dereference` does not change. -/
theorem dereference_fields (s : State) (e : Entry) :
    (dereference s e).tuples = s.tuples ∧ (dereference s e).nextAddr = s.nextAddr ∧
      (dereference s e).retireBefore = s.retireBefore ∧ (dereference s e).demoted = s.demoted ∧
      (dereference s e).limit = s.limit := by
  unfold dereference
  by_cases h1 : e.refs ≤ 1
  · rw [if_pos h1]
    dsimp only
    cases h2 : e.retireSent <;> cases h3 : e.retireAcked <;>
      simp only [Bool.false_eq_true, if_false, if_true, and_self]
  · rw [if_neg h1]
    exact ⟨rfl, rfl, rfl, rfl, rfl⟩

theorem renew_keys {s s' : State} (h : renew s = .ok s') :
    (s'.stash.map key).Sublist (s.stash.map key) ∧ s'.nextAddr = s.nextAddr ∧
      s'.retireBefore = s.retireBefore ∧ s'.demoted = s.demoted := by
  obtain ⟨first, e, _, _, _, rfl⟩ := renew_ok h
  obtain ⟨_, h2, h3, h4, _⟩ := dereference_fields s first
  refine ⟨?_, h2, h3, h4⟩
  dsimp only
  refine List.Sublist.trans (update_sub ?_) (map_key_dereference s first)
  intro _; rfl

/-- A successful removal of the old connection IDs. -/
theorem removeNotBefore_ok {s s' : State} {nb : Nat} (h : removeNotBefore s nb = .ok s') :
    ∃ first, firstEntry { s with stash := (markOld nb s.stash).1, retires := s.retires ++ (markOld nb s.stash).2 } =
        some first ∧
      (renew { s with stash := (markOld nb s.stash).1, retires := s.retires ++ (markOld nb s.stash).2 } = .ok s' ∨
        (s' = { s with stash := (markOld nb s.stash).1, retires := s.retires ++ (markOld nb s.stash).2 } ∧
          ¬ (first.seq < nb ∧ first.cid.length > 0 ∧ s.demoted = false))) := by
  unfold removeNotBefore at h
  dsimp only at h
  cases hf : firstEntry { s with stash := (markOld nb s.stash).1, retires := s.retires ++ (markOld nb s.stash).2 } with
  | none => rw [hf] at h; cases h
  | some first =>
    rw [hf] at h
    dsimp only at h
    refine ⟨first, rfl, ?_⟩
    by_cases hc : first.seq < nb ∧ first.cid.length > 0 ∧ s.demoted = false
    · rw [if_pos hc] at h
      cases hr : renew { s with stash := (markOld nb s.stash).1,
                                retires := s.retires ++ (markOld nb s.stash).2 } with
      | ok s2 => rw [hr] at h; left; rw [Outcome.ok.inj h]
      | error c => rw [hr] at h; cases h
      | dangling => rw [hr] at h; cases h
    · rw [if_neg hc] at h
      right
      exact ⟨(Outcome.ok.inj h).symm, hc⟩

theorem removeNotBefore_keys {s s' : State} {nb : Nat} (h : removeNotBefore s nb = .ok s') :
    (s'.stash.map key).Sublist (s.stash.map key) ∧ s'.nextAddr = s.nextAddr ∧
      s'.retireBefore = s.retireBefore ∧ s'.demoted = s.demoted := by
  obtain ⟨first, _, h1 | h1⟩ := removeNotBefore_ok h
  · obtain ⟨k1, k2, k3, k4⟩ := renew_keys h1
    exact ⟨k1.trans (map_key_markOld nb s.stash), k2, k3, k4⟩
  · obtain ⟨rfl, _⟩ := h1
    exact ⟨map_key_markOld nb s.stash, rfl, rfl, rfl⟩

/-! ## The search -/

theorem scan_fresh {f : NewCid} {rb : Nat} {st : List Entry} : ∀ {n r a b : Nat}, scan f rb st n r = .fresh a b →
    ∀ e ∈ st, f.cid ≠ e.cid ∧ e.seq ≠ f.seq ∧ f.secret ≠ e.secret := by
  induction st with
  | nil => intro n r a b _ e he; cases he
  | cons x rest ih =>
    intro n r a b h
    unfold scan at h
    by_cases h1 : f.cid = x.cid
    · rw [if_pos h1] at h
      by_cases h2 : x.seq = f.seq ∧ f.secret = x.secret
      · rw [if_pos h2] at h; cases h
      · rw [if_neg h2] at h; cases h
    · rw [if_neg h1] at h
      by_cases h2 : x.seq = f.seq
      · rw [if_pos h2] at h; cases h
      · rw [if_neg h2] at h
        by_cases h3 : f.secret = x.secret
        · rw [if_pos h3] at h; cases h
        · rw [if_neg h3] at h
          intro e he
          rcases List.mem_cons.mp he with rfl | he
          · exact ⟨h1, h2, h3⟩
          · exact ih h e he

theorem scan_conflict {f : NewCid} {rb : Nat} {st : List Entry} (hp : st.Pairwise Apart) {e : Entry} (he : e ∈ st)
    (hc : Contradicts e f) : ∀ n r, scan f rb st n r = .conflict := by
  induction st with
  | nil => cases he
  | cons x rest ih =>
    intro n r
    have hx := List.pairwise_cons.mp hp
    unfold scan
    by_cases h1 : f.cid = x.cid
    · rw [if_pos h1]
      by_cases h2 : x.seq = f.seq ∧ f.secret = x.secret
      · exfalso
        rcases List.mem_cons.mp he with rfl | he
        · exact hc.2 ⟨h2.1, h1.symm, h2.2.symm⟩
        · obtain ⟨_, a2, a3, _⟩ := hx.1 e he
          rcases hc.1 with h | h
          · exact a2 (h2.1.trans h.symm)
          · exact a3 (h1.symm.trans h.symm)
      · rw [if_neg h2]
    · rw [if_neg h1]
      by_cases h2 : x.seq = f.seq
      · rw [if_pos h2]
      · rw [if_neg h2]
        by_cases h3 : f.secret = x.secret
        · rw [if_pos h3]
        · rw [if_neg h3]
          rcases List.mem_cons.mp he with rfl | he
          · rcases hc.1 with h | h
            · exact absurd h h2
            · exact absurd h.symm h1
          · exact ih hx.2 he _ _

theorem scan_duplicate {f : NewCid} {rb : Nat} {st : List Entry} (hp : st.Pairwise Apart) {e : Entry} (he : e ∈ st)
    (hs : SameCid e f) : ∀ n r, scan f rb st n r = .duplicate := by
  induction st with
  | nil => cases he
  | cons x rest ih =>
    intro n r
    have hx := List.pairwise_cons.mp hp
    unfold scan
    rcases List.mem_cons.mp he with rfl | he
    · rw [if_pos hs.2.1.symm, if_pos ⟨hs.1, hs.2.2.symm⟩]
    · obtain ⟨_, a2, a3, a4⟩ := hx.1 e he
      rw [if_neg (fun h => a3 (h.symm.trans hs.2.1.symm)), if_neg (fun h => a2 (h.trans hs.1.symm)),
        if_neg (fun h => a4 (h.symm.trans hs.2.2.symm))]
      exact ih hx.2 he _ _

/-- A successful addition. -/
theorem add_ok {s s' : State} {f : NewCid} (h : add s f = .ok s') :
    f.cid.length ≠ 0 ∧ (∃ first, firstEntry s = some first ∧ first.cid.length ≠ 0) ∧
      (s' = s ∨ (s' = { s with
            stash := s.stash ++ [{ addr := s.nextAddr, seq := f.seq, cid := f.cid, secret := f.secret }]
            nextAddr := s.nextAddr + 1 } ∧
          ∀ e ∈ s.stash, f.cid ≠ e.cid ∧ e.seq ≠ f.seq ∧ f.secret ≠ e.secret)) := by
  unfold add at h
  by_cases h0 : f.cid.length = 0 ∨ f.cid.length > 20
  · rw [if_pos h0] at h; cases h
  · rw [if_neg h0] at h
    cases hf : firstEntry s with
    | none => rw [hf] at h; cases h
    | some first =>
      rw [hf] at h
      dsimp only at h
      by_cases h1 : first.cid.length = 0
      · rw [if_pos h1] at h; cases h
      · rw [if_neg h1] at h
        refine ⟨fun h => h0 (Or.inl h), ⟨first, rfl, h1⟩, ?_⟩
        cases hc : scan f (if f.retirePrior < s.retireBefore then s.retireBefore else f.retirePrior) s.stash 0 0 with
        | conflict => rw [hc] at h; cases h
        | duplicate => rw [hc] at h; left; exact (Outcome.ok.inj h).symm
        | fresh a b =>
          rw [hc] at h
          dsimp only at h
          by_cases h2 : a ≥ s.limit + b ∨ a ≥ 2 * s.limit
          · rw [if_pos h2] at h; cases h
          · rw [if_neg h2] at h
            right
            exact ⟨(Outcome.ok.inj h).symm, scan_fresh hc⟩

/-- A frame accepted. -/
theorem decodeNew_ok {s s' : State} {f : NewCid} (h : decodeNew s f = .ok s') :
    f.retirePrior ≤ f.seq ∧ ∃ s1, add s f = .ok s1 ∧
      ((s1.retireBefore < f.retirePrior ∧
          removeNotBefore { s1 with retireBefore := f.retirePrior } f.retirePrior = .ok s') ∨
        (¬ s1.retireBefore < f.retirePrior ∧ s' = s1)) := by
  unfold decodeNew at h
  by_cases h0 : f.retirePrior > f.seq
  · rw [if_pos h0] at h; cases h
  · rw [if_neg h0] at h
    by_cases h1 : f.cid.length > 20
    · rw [if_pos h1] at h; cases h
    · rw [if_neg h1] at h
      refine ⟨by omega, ?_⟩
      cases ha : add s f with
      | error c => rw [ha] at h; cases h
      | dangling => rw [ha] at h; cases h
      | ok s1 =>
        rw [ha] at h
        dsimp only at h
        refine ⟨s1, rfl, ?_⟩
        by_cases h2 : s1.retireBefore < f.retirePrior
        · rw [if_pos h2] at h; left; exact ⟨h2, h⟩
        · rw [if_neg h2] at h; right; exact ⟨h2, (Outcome.ok.inj h).symm⟩

/-! ## The invariant on the elements -/

structure Keys (c0 : Bytes) (st : List Entry) (next : Nat) : Prop where
  apart : st.Pairwise Apart
  below : ∀ e ∈ st, e.addr < next
  acked : ∀ e ∈ st, e.retireAcked = false
  empty : ∀ e ∈ st, e.cid = [] ↔ c0 = []

theorem mem_of_keys {st st' : List Entry} (h : (st'.map key).Sublist (st.map key)) {e : Entry} (he : e ∈ st') :
    ∃ e0 ∈ st, key e0 = key e := by
  have := h.subset (List.mem_map_of_mem (f := key) he)
  obtain ⟨e0, h0, h1⟩ := List.mem_map.mp this
  exact ⟨e0, h0, h1⟩

theorem Keys.sub {c0 : Bytes} {st st' : List Entry} {next : Nat} (k : Keys c0 st next)
    (h : (st'.map key).Sublist (st.map key)) : Keys c0 st' next := by
  refine ⟨?_, ?_, ?_, ?_⟩
  · rw [apart_iff]
    exact ((apart_iff st).mp k.apart).sublist h
  · intro e he
    obtain ⟨e0, h0, hk⟩ := mem_of_keys h he
    have := k.below e0 h0
    rw [(key_eq.mp hk).1] at this
    exact this
  · intro e he
    obtain ⟨e0, h0, hk⟩ := mem_of_keys h he
    rw [← (key_eq.mp hk).2.2.2.2]
    exact k.acked e0 h0
  · intro e he
    obtain ⟨e0, h0, hk⟩ := mem_of_keys h he
    rw [← (key_eq.mp hk).2.2.1]
    exact k.empty e0 h0

theorem lookup_mem {st : List Entry} {a : Nat} {e : Entry} (h : lookup st a = some e) : e ∈ st ∧ e.addr = a := by
  unfold lookup at h
  exact ⟨List.mem_of_find?_eq_some h, by simpa using List.find?_some h⟩

theorem firstEntry_mem {s : State} {e : Entry} (h : firstEntry s = some e) :
    e ∈ s.stash ∧ ∃ rest, s.tuples = e.addr :: rest := by
  unfold firstEntry at h
  cases ht : s.tuples with
  | nil => rw [ht] at h; cases h
  | cons a rest =>
    rw [ht] at h
    obtain ⟨h1, h2⟩ := lookup_mem h
    exact ⟨h1, rest, by rw [h2]⟩

theorem Keys.add {c0 : Bytes} {s s' : State} {f : NewCid} (k : Keys c0 s.stash s.nextAddr) (h : add s f = .ok s') :
    Keys c0 s'.stash s'.nextAddr := by
  obtain ⟨hlen, ⟨first, hf, hfl⟩, h1 | ⟨h1, h2⟩⟩ := add_ok h
  · rw [h1]; exact k
  · subst h1
    dsimp only
    refine ⟨?_, ?_, ?_, ?_⟩
    · rw [List.pairwise_append]
      refine ⟨k.apart, List.pairwise_singleton _ _, ?_⟩
      intro a ha b hb
      rw [List.mem_singleton] at hb
      subst hb
      obtain ⟨q1, q2, q3⟩ := h2 a ha
      have := k.below a ha
      exact ⟨by show a.addr ≠ s.nextAddr; omega, q2, fun h => q1 h.symm, fun h => q3 h.symm⟩
    · intro e he
      rcases List.mem_append.mp he with he | he
      · have := k.below e he; omega
      · rw [List.mem_singleton] at he; subst he; exact Nat.lt_succ_self _
    · intro e he
      rcases List.mem_append.mp he with he | he
      · exact k.acked e he
      · rw [List.mem_singleton] at he; subst he; rfl
    · intro e he
      rcases List.mem_append.mp he with he | he
      · exact k.empty e he
      · rw [List.mem_singleton] at he; subst he
        have hm := k.empty first (firstEntry_mem hf).1
        constructor
        · intro h; rw [show f.cid = [] from h] at hlen; exact absurd rfl hlen
        · intro h; rw [hm.mpr h] at hfl; exact absurd rfl hfl

theorem Keys.step {c0 : Bytes} {s s' : State} {ev : Event} (k : Keys c0 s.stash s.nextAddr) (h : step s ev = .ok s') :
    Keys c0 s'.stash s'.nextAddr := by
  cases ev with
  | newCid f =>
    obtain ⟨_, s1, ha, ⟨_, hr⟩ | ⟨_, hr⟩⟩ := decodeNew_ok h
    · obtain ⟨k1, k2, _⟩ := removeNotBefore_keys hr
      rw [k2]
      exact (k.add ha).sub k1
    · rw [hr]; exact k.add ha
  | newTuple =>
    have := Outcome.ok.inj h
    subst this
    unfold newTuple
    cases hg : getFromStash s.stash with
    | none => exact k
    | some e =>
      dsimp only
      refine k.sub (update_sub ?_)
      intro _; rfl
  | renewed =>
    unfold PeerCids.step at h
    cases hr : renew s with
    | ok s1 =>
      rw [hr] at h
      have := Outcome.ok.inj h
      subst this
      obtain ⟨k1, k2, _⟩ := renew_keys hr
      rw [k2]
      exact k.sub k1
    | error c => rw [hr] at h; rw [← Outcome.ok.inj h]; exact k
    | dangling => rw [hr] at h; cases h
  | promote i =>
    have := Outcome.ok.inj h
    subst this
    unfold promote
    cases s.tuples[i]? <;> exact k
  | failed i =>
    have := Outcome.ok.inj h
    subst this
    unfold failed
    cases s.tuples[i]? <;> exact k
  | deleteTuple i =>
    have := Outcome.ok.inj h
    subst this
    exact k
  | demote =>
    have := Outcome.ok.inj h
    subst this
    exact k
  | forget i =>
    have := Outcome.ok.inj h
    subst this
    exact k
  | loseRetire i =>
    have := Outcome.ok.inj h
    subst this
    unfold loseRetire
    cases s.retires[i]? with
    | none => exact k
    | some q =>
      dsimp only
      cases s.stash.find? (fun e => decide (e.seq = q)) with
      | none => exact k
      | some e =>
        dsimp only
        cases e.retireAcked <;> exact k
  | ackRetire i =>
    have := Outcome.ok.inj h
    subst this
    unfold ackRetire
    cases s.retires[i]? with
    | none => exact k
    | some q =>
      dsimp only
      cases s.stash.find? (fun e => decide (e.seq = q)) with
      | none => exact k
      | some e =>
        dsimp only
        exact k.sub (map_key_remove _ _)

/-! ## Histories -/

theorem run_snoc (s : State) (evs : List Event) (e : Event) :
    run s (evs ++ [e]) = match run s evs with
      | .ok s1 => step s1 e
      | .error c => .error c
      | .dangling => .dangling := by
  induction evs generalizing s with
  | nil =>
    show run s [e] = step s e
    unfold run
    cases step s e <;> rfl
  | cons x rest ih =>
    rw [List.cons_append]
    unfold run
    cases step s x with
    | ok s1 => exact ih s1
    | error c => rfl
    | dangling => rfl

/-- Induction on the events, last event first. -/
theorem run_induction {s0 : State} {P : List Event → State → Prop} (h0 : P [] s0)
    (hs : ∀ evs s e s', run s0 evs = .ok s → P evs s → step s e = .ok s' → P (evs ++ [e]) s') :
    ∀ evs s, run s0 evs = .ok s → P evs s := by
  intro evs
  have : ∀ n (evs : List Event), evs.length = n → ∀ s, run s0 evs = .ok s → P evs s := by
    intro n
    induction n with
    | zero =>
      intro evs hl s h
      rw [List.length_eq_zero_iff] at hl
      subst hl
      rw [← Outcome.ok.inj h]; exact h0
    | succ n ih =>
      intro evs hl s h
      have hne : evs ≠ [] := by intro hh; rw [hh] at hl; cases hl
      have hd : evs.dropLast ++ [evs.getLast hne] = evs := List.dropLast_concat_getLast hne
      rw [← hd, run_snoc] at h
      cases hr : run s0 evs.dropLast with
      | error c => rw [hr] at h; cases h
      | dangling => rw [hr] at h; cases h
      | ok s1 =>
        rw [hr] at h
        rw [← hd]
        exact hs _ _ _ _ hr (ih _ (by rw [List.length_dropLast, hl]; rfl) s1 hr) h
  exact this _ evs rfl

theorem keys_init (c0 sec : Bytes) (limit : Nat) (rd ld : Bool) :
    Keys c0 (init c0 sec limit rd ld).stash (init c0 sec limit rd ld).nextAddr := by
  refine ⟨List.pairwise_singleton _ _, ?_, ?_, ?_⟩ <;>
  · intro e he
    rw [show (init c0 sec limit rd ld).stash = [{ addr := 0, seq := 0, cid := c0, secret := sec, refs := 1 }] from rfl,
      List.mem_singleton] at he
    subst he
    first | exact Nat.zero_lt_one | rfl | exact Iff.rfl

theorem keys_of_run {c0 sec : Bytes} {limit : Nat} {rd ld : Bool} {evs : List Event} {s : State}
    (h : run (init c0 sec limit rd ld) evs = .ok s) : Keys c0 s.stash s.nextAddr :=
  run_induction (P := fun _ s => Keys c0 s.stash s.nextAddr) (keys_init c0 sec limit rd ld)
    (fun _ _ _ _ _ k h => k.step h) evs s h

end Picoquic.PeerCids
