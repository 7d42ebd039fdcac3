import Verif.Proof.PeerCidsUse
/-!
# Proofs about the connection IDs which the peer asked to retire
-/

namespace Picoquic.PeerCids
open Picoquic Picoquic.Spec

/-- Nothing new in the stash, and the marks are kept. -/
def Sub (st' st : List Entry) : Prop :=
  ∀ x ∈ st', ∃ y ∈ st, x.addr = y.addr ∧ x.seq = y.seq ∧ (y.needsRemoval = true → x.needsRemoval = true)

theorem Sub.refl (st : List Entry) : Sub st st := fun x hx => ⟨x, hx, rfl, rfl, fun h => h⟩

theorem Sub.trans {a b c : List Entry} (h1 : Sub a b) (h2 : Sub b c) : Sub a c := by
  intro x hx
  obtain ⟨y, hy, e1, e2, e3⟩ := h1 x hx
  obtain ⟨z, hz, f1, f2, f3⟩ := h2 y hy
  exact ⟨z, hz, e1.trans f1, e2.trans f2, fun h => e3 (f3 h)⟩

theorem sub_update {a : Nat} {g : Entry → Entry} {st : List Entry}
    (hg : ∀ e, (g e).addr = e.addr ∧ (g e).seq = e.seq ∧ (g e).needsRemoval = e.needsRemoval) :
    Sub (update a g st) st := by
  intro x hx
  obtain ⟨y, hy, ⟨_, rfl⟩ | ⟨_, rfl⟩⟩ := mem_update hx
  · obtain ⟨h1, h2, h3⟩ := hg y
    exact ⟨y, hy, h1, h2, fun h => by rw [h3]; exact h⟩
  · exact ⟨x, hy, rfl, rfl, fun h => h⟩

theorem sub_remove {a : Nat} {st : List Entry} : Sub (remove a st) st :=
  fun x hx => ⟨x, (List.mem_filter.mp hx).1, rfl, rfl, fun h => h⟩

theorem sub_dereference (s : State) (e : Entry) : Sub (dereference s e).stash s.stash := by
  unfold dereference
  by_cases h1 : e.refs ≤ 1
  · rw [if_pos h1]
    dsimp only
    by_cases h2 : e.retireSent = true <;> by_cases h3 : e.retireAcked = true
    · rw [if_pos h3, if_pos h2]; exact sub_remove
    · rw [if_neg h3, if_pos h2]; exact Sub.refl _
    · rw [if_pos h3, if_neg h2]
      exact Sub.trans sub_remove (sub_update (fun _ => ⟨rfl, rfl, rfl⟩))
    · rw [if_neg h3, if_neg h2]
      exact sub_update (fun _ => ⟨rfl, rfl, rfl⟩)
  · rw [if_neg h1]
    exact sub_update (fun _ => ⟨rfl, rfl, rfl⟩)

theorem sub_renew {s s' : State} (h : renew s = .ok s') : Sub s'.stash s.stash := by
  obtain ⟨first, e, _, _, _, rfl⟩ := renew_ok h
  exact Sub.trans (sub_update (fun _ => ⟨rfl, rfl, rfl⟩)) (sub_dereference s first)

/-- Connection IDs below the requested limit are marked. -/
def Old (rb : Nat) (st : List Entry) : Prop := ∀ e ∈ st, e.seq < rb → e.needsRemoval = true

theorem Old.sub {rb : Nat} {st st' : List Entry} (o : Old rb st) (h : Sub st' st) : Old rb st' := by
  intro x hx hlt
  obtain ⟨y, hy, _, h2, h3⟩ := h x hx
  exact h3 (o y hy (by rw [← h2]; exact hlt))

theorem old_markOld {c0 : Bytes} {st : List Entry} {next : Nat} (k : Keys c0 st next) (nb : Nat) :
    Old nb (markOld nb st).1 ∧ Sub (markOld nb st).1 st := by
  rw [(markOld_eq nb k.acked).1]
  constructor
  · intro x hx hlt
    obtain ⟨y, hy, rfl⟩ := List.mem_map.mp hx
    have hlt : y.seq < nb := hlt
    show (y.needsRemoval || decide (y.seq < nb)) = true
    rw [decide_eq_true hlt, Bool.or_true]
  · intro x hx
    obtain ⟨y, hy, rfl⟩ := List.mem_map.mp hx
    refine ⟨y, hy, rfl, rfl, ?_⟩
    intro h
    show (y.needsRemoval || decide (y.seq < nb)) = true
    rw [h, Bool.true_or]

/-- The connection IDs used, by the stash. -/
def Used (st : List Entry) (t : List Nat) (q : Nat) : Prop := ∃ e ∈ st, e.addr ∈ t ∧ e.seq = q

theorem inUse_iff {c0 : Bytes} {s : State} (k : Keys c0 s.stash s.nextAddr) (q : Nat) : InUse s q ↔ Used s.stash s.tuples q := by
  constructor
  · rintro ⟨i, e, hd, hq⟩
    unfold destination at hd
    cases ht : s.tuples[i]? with
    | none => rw [ht] at hd; cases hd
    | some a =>
      rw [ht] at hd
      dsimp only at hd
      cases hl : lookup s.stash a with
      | none => rw [hl] at hd; cases hd
      | some x =>
        rw [hl] at hd
        have := Outcome.ok.inj hd
        subst this
        obtain ⟨h1, h2⟩ := lookup_mem hl
        exact ⟨x, h1, by rw [h2]; exact List.mem_of_getElem? ht, hq⟩
  · rintro ⟨e, he, ht, hq⟩
    obtain ⟨i, hi⟩ := List.mem_iff_getElem?.mp ht
    refine ⟨i, e, ?_, hq⟩
    unfold destination
    rw [hi]
    dsimp only
    rw [lookup_of_mem k.apart he]

theorem Used.sub {st st' : List Entry} {t t' : List Nat} {q : Nat} (h : Used st' t' q) (hs : Sub st' st)
    (ht : ∀ a ∈ t', a ∈ t) : Used st t q := by
  obtain ⟨x, hx, hxt, hxq⟩ := h
  obtain ⟨y, hy, h1, h2, _⟩ := hs x hx
  exact ⟨y, hy, by rw [← h1]; exact ht _ hxt, by rw [← h2]; exact hxq⟩

theorem fresh_not_old {c0 : Bytes} {rb : Nat} {st : List Entry} {next : Nat} (hc0 : c0 ≠ []) (k : Keys c0 st next)
    (o : Old rb st) {e : Entry} (h : getFromStash st = some e) : e ∈ st ∧ rb ≤ e.seq := by
  obtain ⟨hm, he⟩ := getFromStash_spec h
  obtain ⟨_, hn⟩ := he (fun hh => hc0 ((k.empty e hm).mp hh))
  refine ⟨hm, ?_⟩
  apply Classical.byContradiction
  intro hlt
  have := o e hm (by omega)
  rw [hn] at this
  cases this

theorem used_renew {c0 : Bytes} {s s' : State} (hc0 : c0 ≠ []) (k : Keys c0 s.stash s.nextAddr)
    (o : Old s.retireBefore s.stash) (h : renew s = .ok s') {q : Nat} (hu : Used s'.stash s'.tuples q) :
    Used s.stash s.tuples q ∨ s.retireBefore ≤ q := by
  have hsub := sub_renew h
  obtain ⟨first, e, hf, hg, _, hs'⟩ := renew_ok h
  obtain ⟨hem, hge⟩ := fresh_not_old hc0 k o hg
  obtain ⟨x, hx, hxt, hxq⟩ := hu
  have htup : s'.tuples = e.addr :: s.tuples.tail := by
    rw [hs']
    show e.addr :: (dereference s first).tuples.tail = _
    rw [(dereference_fields s first).1]
  obtain ⟨y, hy, h1, h2, _⟩ := hsub x hx
  rw [htup] at hxt
  rcases List.mem_cons.mp hxt with hxt | hxt
  · right
    rw [← hxq, h2, same_of_addr k.apart hy hem (by rw [← h1]; exact hxt)]
    exact hge
  · left
    exact ⟨y, hy, by rw [← h1]; exact List.mem_of_mem_tail hxt, by rw [← h2]; exact hxq⟩

/-- The first tuple after a renewal. -/
theorem first_renew {c0 : Bytes} {s s' : State} (hc0 : c0 ≠ []) (k : Keys c0 s.stash s.nextAddr)
    (o : Old s.retireBefore s.stash) (h : renew s = .ok s') {x : Entry} (hx : destination s' 0 = .ok x) :
    s.retireBefore ≤ x.seq := by
  have hsub := sub_renew h
  obtain ⟨first, e, hf, hg, _, hs'⟩ := renew_ok h
  obtain ⟨hem, hge⟩ := fresh_not_old hc0 k o hg
  have htup : s'.tuples = e.addr :: s.tuples.tail := by
    rw [hs']
    show e.addr :: (dereference s first).tuples.tail = _
    rw [(dereference_fields s first).1]
  unfold destination at hx
  rw [htup] at hx
  simp only [List.getElem?_cons_zero] at hx
  cases hl : lookup s'.stash e.addr with
  | none => rw [hl] at hx; cases hx
  | some z =>
    rw [hl] at hx
    have := Outcome.ok.inj hx
    subst this
    obtain ⟨h1, h2⟩ := lookup_mem hl
    obtain ⟨y, hy, g1, g2, _⟩ := hsub z h1
    rw [g2, same_of_addr k.apart hy hem (by rw [← g1]; exact h2)]
    exact hge

theorem step_retireBefore {s s' : State} {ev : Event} (h : step s ev = .ok s') :
    s'.retireBefore = max s.retireBefore (retirePriorTo [ev]) := by
  cases ev with
  | newCid f =>
    show s'.retireBefore = max s.retireBefore (max f.retirePrior 0)
    obtain ⟨_, s1, ha, ⟨hlt, hr⟩ | ⟨hlt, hr⟩⟩ := decodeNew_ok h
    · rw [(removeNotBefore_keys hr).2.2.1]
      show f.retirePrior = _
      have : s1.retireBefore = s.retireBefore := by
        obtain ⟨_, _, h1 | ⟨h1, _⟩⟩ := add_ok ha <;> rw [h1]
      omega
    · have : s1.retireBefore = s.retireBefore := by
        obtain ⟨_, _, h1 | ⟨h1, _⟩⟩ := add_ok ha <;> rw [h1]
      rw [hr]
      omega
  | newTuple =>
    show s'.retireBefore = max s.retireBefore 0
    rw [← Outcome.ok.inj h, Nat.max_zero]
    unfold newTuple
    cases getFromStash s.stash <;> rfl
  | renewed =>
    show s'.retireBefore = max s.retireBefore 0
    rw [Nat.max_zero]
    unfold PeerCids.step at h
    cases hr : PeerCids.renew s with
    | ok s1 => rw [hr] at h; rw [← Outcome.ok.inj h, (renew_keys hr).2.2.1]
    | error c => rw [hr] at h; rw [← Outcome.ok.inj h]
    | dangling => rw [hr] at h; cases h
  | promote j =>
    show s'.retireBefore = max s.retireBefore 0
    rw [← Outcome.ok.inj h, Nat.max_zero]
    unfold promote
    cases s.tuples[j]? <;> rfl
  | failed j =>
    show s'.retireBefore = max s.retireBefore 0
    rw [← Outcome.ok.inj h, Nat.max_zero]
    unfold failed
    cases s.tuples[j]? <;> rfl
  | deleteTuple j =>
    show s'.retireBefore = max s.retireBefore 0
    rw [← Outcome.ok.inj h, Nat.max_zero]
    rfl
  | demote =>
    show s'.retireBefore = max s.retireBefore 0
    rw [← Outcome.ok.inj h, Nat.max_zero]
  | ackRetire j =>
    show s'.retireBefore = max s.retireBefore 0
    rw [← Outcome.ok.inj h, Nat.max_zero]
    unfold ackRetire
    cases s.retires[j]? with
    | none => rfl
    | some q =>
      dsimp only
      cases s.stash.find? (fun e => decide (e.seq = q)) <;> rfl
  | loseRetire j =>
    show s'.retireBefore = max s.retireBefore 0
    rw [← Outcome.ok.inj h, Nat.max_zero]
    unfold loseRetire
    cases s.retires[j]? with
    | none => rfl
    | some q =>
      dsimp only
      cases s.stash.find? (fun e => decide (e.seq = q)) with
      | none => rfl
      | some e => dsimp only; cases e.retireAcked <;> rfl
  | forget j =>
    show s'.retireBefore = max s.retireBefore 0
    rw [← Outcome.ok.inj h, Nat.max_zero]

theorem retirePriorTo_append (a b : List Event) : retirePriorTo (a ++ b) = max (retirePriorTo a) (retirePriorTo b) := by
  induction a with
  | nil => show retirePriorTo b = max 0 _; omega
  | cons e rest ih =>
    cases e with
    | newCid f =>
      show max f.retirePrior (retirePriorTo (rest ++ b)) = max (max f.retirePrior (retirePriorTo rest)) _
      rw [ih]; omega
    | _ => exact ih

theorem retireBefore_of_run {c0 sec : Bytes} {limit : Nat} {rd ld : Bool} {evs : List Event} {s : State}
    (h : run (init c0 sec limit rd ld) evs = .ok s) : s.retireBefore = retirePriorTo evs := by
  refine run_induction (P := fun evs s => s.retireBefore = retirePriorTo evs) rfl ?_ evs s h
  intro evs s e s' _ ih hs
  rw [step_retireBefore hs, ih, retirePriorTo_append]

/-- One event: marks, and which connection IDs come into use. -/
theorem old_step {c0 : Bytes} {s s' : State} {ev : Event} (hc0 : c0 ≠ []) (k : Keys c0 s.stash s.nextAddr)
    (o : Old s.retireBefore s.stash) (hn : ∀ f, ev = .newCid f → s.retireBefore ≤ f.seq) (h : step s ev = .ok s') :
    Old s'.retireBefore s'.stash ∧ (∀ q, Used s'.stash s'.tuples q → Used s.stash s.tuples q ∨ s'.retireBefore ≤ q) := by
  cases ev with
  | newCid f =>
    obtain ⟨hle, s1, ha, hc⟩ := decodeNew_ok h
    have hk1 : Keys c0 s1.stash s1.nextAddr := k.add ha
    have hf := hn f rfl
    have hold1 : Old s1.retireBefore s1.stash ∧ (∀ q, Used s1.stash s1.tuples q → Used s.stash s.tuples q ∨ f.seq ≤ q) ∧
        s1.retireBefore = s.retireBefore := by
      obtain ⟨_, _, h1 | ⟨h1, h2⟩⟩ := add_ok ha
      · rw [h1]; exact ⟨o, fun q hq => Or.inl hq, rfl⟩
      · subst h1
        refine ⟨?_, ?_, rfl⟩
        · intro x hx hlt
          rcases List.mem_append.mp hx with hx | hx
          · exact o x hx hlt
          · rw [List.mem_singleton] at hx
            subst hx
            exact absurd hlt (Nat.not_lt.mpr hf)
        · rintro q ⟨x, hx, hxt, hxq⟩
          rcases List.mem_append.mp hx with hx | hx
          · exact Or.inl ⟨x, hx, hxt, hxq⟩
          · rw [List.mem_singleton] at hx
            subst hx
            exact Or.inr (by rw [← hxq]; exact Nat.le_refl _)
    obtain ⟨o1, u1, r1⟩ := hold1
    rcases hc with ⟨hlt, hr⟩ | ⟨hlt, hr⟩
    · obtain ⟨om, sm⟩ := old_markOld hk1 f.retirePrior
      have hrb : s'.retireBefore = f.retirePrior := (removeNotBefore_keys hr).2.2.1
      rw [hrb]
      have hum : ∀ q, Used (markOld f.retirePrior s1.stash).1 s1.tuples q →
          Used s.stash s.tuples q ∨ f.retirePrior ≤ q := by
        intro q hq
        rcases u1 q (Used.sub hq sm (fun a h => h)) with h | h
        · exact Or.inl h
        · exact Or.inr (Nat.le_trans hle h)
      obtain ⟨first, _, h1 | ⟨h1, _⟩⟩ := removeNotBefore_ok hr
      · refine ⟨om.sub (sub_renew h1), ?_⟩
        intro q hq
        rcases used_renew (s := { s1 with retireBefore := f.retirePrior
                                          stash := (markOld f.retirePrior s1.stash).1
                                          retires := s1.retires ++ (markOld f.retirePrior s1.stash).2 })
          hc0 (hk1.sub (map_key_markOld f.retirePrior s1.stash)) om h1 hq with h | h
        · exact hum q h
        · exact Or.inr h
      · rw [h1]
        exact ⟨om, hum⟩
    · rw [hr]
      refine ⟨o1, ?_⟩
      intro q hq
      rcases u1 q hq with h | h
      · exact Or.inl h
      · right; rw [r1]; omega
  | newTuple =>
    have := Outcome.ok.inj h
    subst this
    unfold newTuple
    cases hg : getFromStash s.stash with
    | none => exact ⟨o, fun q hq => Or.inl hq⟩
    | some e =>
      obtain ⟨hem, hge⟩ := fresh_not_old hc0 k o hg
      dsimp only
      refine ⟨o.sub (sub_update (fun _ => ⟨rfl, rfl, rfl⟩)), ?_⟩
      rintro q ⟨x, hx, hxt, hxq⟩
      obtain ⟨y, hy, h1, h2, _⟩ := sub_update (a := e.addr) (g := fun x => { x with refs := x.refs + 1 })
        (fun _ => ⟨rfl, rfl, rfl⟩) x hx
      rcases List.mem_append.mp hxt with hxt | hxt
      · exact Or.inl ⟨y, hy, by rw [← h1]; exact hxt, by rw [← h2]; exact hxq⟩
      · rw [List.mem_singleton] at hxt
        right
        rw [← hxq, h2, same_of_addr k.apart hy hem (by rw [← h1]; exact hxt)]
        exact hge
  | renewed =>
    unfold PeerCids.step at h
    cases hr : PeerCids.renew s with
    | ok s1 =>
      rw [hr] at h
      rw [← Outcome.ok.inj h, (renew_keys hr).2.2.1]
      exact ⟨o.sub (sub_renew hr), fun q hq => used_renew hc0 k o hr hq⟩
    | error c => rw [hr] at h; rw [← Outcome.ok.inj h]; exact ⟨o, fun q hq => Or.inl hq⟩
    | dangling => rw [hr] at h; cases h
  | promote j =>
    have := Outcome.ok.inj h
    subst this
    unfold promote
    cases hj : s.tuples[j]? with
    | none => exact ⟨o, fun q hq => Or.inl hq⟩
    | some a =>
      refine ⟨o, fun q hq => Or.inl (Used.sub hq (Sub.refl s.stash) ?_)⟩
      intro b hb
      rcases List.mem_cons.mp hb with rfl | hb
      · exact List.mem_of_getElem? hj
      · exact (List.eraseIdx_sublist _ _).subset hb
  | failed j =>
    have := Outcome.ok.inj h
    subst this
    unfold failed
    cases hj : s.tuples[j]? with
    | none => exact ⟨o, fun q hq => Or.inl hq⟩
    | some a =>
      refine ⟨o, fun q hq => Or.inl (Used.sub hq (Sub.refl s.stash) ?_)⟩
      intro b hb
      rcases List.mem_append.mp hb with hb | hb
      · exact (List.eraseIdx_sublist _ _).subset hb
      · rw [List.mem_singleton] at hb
        rw [hb]
        exact List.mem_of_getElem? hj
  | deleteTuple j =>
    have := Outcome.ok.inj h
    subst this
    refine ⟨o, fun q hq => Or.inl (Used.sub hq (Sub.refl s.stash) ?_)⟩
    intro b hb
    exact (List.eraseIdx_sublist _ _).subset hb
  | demote =>
    have := Outcome.ok.inj h
    subst this
    exact ⟨o, fun q hq => Or.inl hq⟩
  | forget j =>
    have := Outcome.ok.inj h
    subst this
    exact ⟨o, fun q hq => Or.inl hq⟩
  | loseRetire j =>
    have := Outcome.ok.inj h
    subst this
    unfold loseRetire
    cases s.retires[j]? with
    | none => exact ⟨o, fun q hq => Or.inl hq⟩
    | some q =>
      dsimp only
      cases s.stash.find? (fun e => decide (e.seq = q)) with
      | none => exact ⟨o, fun q hq => Or.inl hq⟩
      | some e => dsimp only; cases e.retireAcked <;> exact ⟨o, fun q hq => Or.inl hq⟩
  | ackRetire j =>
    have := Outcome.ok.inj h
    subst this
    unfold ackRetire
    cases s.retires[j]? with
    | none => exact ⟨o, fun q hq => Or.inl hq⟩
    | some q =>
      dsimp only
      cases s.stash.find? (fun e => decide (e.seq = q)) with
      | none => exact ⟨o, fun q hq => Or.inl hq⟩
      | some e => exact ⟨o.sub sub_remove, fun q hq => Or.inl (Used.sub hq sub_remove (fun a h => h))⟩

theorem noLate_prefix {evs : List Event} {e : Event} (h : NoLate (evs ++ [e])) : NoLate evs := by
  intro before f after heq
  exact h before f (after ++ [e]) (by rw [heq, List.append_assoc, List.cons_append])

theorem old_of_run {c0 sec : Bytes} {limit : Nat} {rd ld : Bool} (hc0 : c0 ≠ []) {evs : List Event} {s : State}
    (hn : NoLate evs) (h : run (init c0 sec limit rd ld) evs = .ok s) : Old s.retireBefore s.stash := by
  refine run_induction (P := fun evs s => NoLate evs → Old s.retireBefore s.stash) ?_ ?_ evs s h hn
  · intro _ e _ hlt
    exact absurd hlt (Nat.not_lt_zero _)
  · intro evs s e s' hr ih hs hn
    refine (old_step hc0 (keys_of_run hr) (ih (noLate_prefix hn)) ?_ hs).1
    intro f hf
    rw [retireBefore_of_run hr]
    exact hn evs f [] (by rw [hf])

end Picoquic.PeerCids
