import Verif.Model.Wake
import Verif.Proof.Splay
import Verif.Props.Splay

/-! Lemmas on the wake list. -/

namespace Picoquic.Wake
open Picoquic.Splay Picoquic.Spec

theorem cmp_isCmp : IsCmp cmp :=
  ⟨fun a b => Picoquic.Props.C04_wake_comparator.anti a.2 b.2,
   fun a b => Picoquic.Props.C04_wake_comparator.zero a.2 b.2,
   fun a b c => Picoquic.Props.C04_wake_comparator.trans a.2 b.2 c.2⟩

theorem cmp_lt {a b : Entry} : cmp a b < 0 ↔ a.2 < b.2 := by
  unfold cmp wakeCompare
  by_cases h : a.2 < b.2
  · rw [if_pos h]; exact ⟨fun _ => h, fun _ => by decide⟩
  · rw [if_neg h]
    by_cases h2 : a.2 > b.2
    · rw [if_pos h2]; exact ⟨fun h => absurd h (by decide), fun h' => absurd h' h⟩
    · rw [if_neg h2]; exact ⟨fun h => absurd h (by decide), fun h' => absurd h' h⟩

theorem cmp_le {a b : Entry} : cmp a b ≤ 0 ↔ a.2 ≤ b.2 := by
  have := cmp_isCmp.anti b a
  rw [cmp_lt] at this
  omega

theorem locate_spec (id : Nat) (t : Tree Entry) (up : List (Anc Entry)) :
    (∀ z, locate id t up = some z → z.x.1 = id ∧ z.tree = up.foldl Anc.plug t) ∧
    (locate id t up = none ↔ ∀ e ∈ t.toList, e.1 ≠ id) := by
  induction t generalizing up with
  | nil => exact ⟨(fun z h => nomatch h), fun _ e h => absurd h List.not_mem_nil, fun _ => rfl⟩
  | node l e r ihl ihr =>
    unfold locate
    by_cases h : e.1 = id
    · rw [if_pos h]
      refine ⟨fun z hz => ?_, (fun hz => nomatch hz), fun hz => ?_⟩
      · cases hz; exact ⟨h, rfl⟩
      · exact absurd h (hz e (by simp [Tree.toList]))
    · rw [if_neg h]
      have hl := ihl (.left e r :: up)
      have hr := ihr (.right l e :: up)
      cases hloc : locate id l (.left e r :: up) with
      | some z =>
        refine ⟨fun z' hz => ?_, (fun hz => nomatch hz), fun hz => ?_⟩
        · cases hz
          exact hl.1 z hloc
        · have : locate id l (.left e r :: up) = none :=
            hl.2.2 (fun x hx => hz x (by simp [Tree.toList, hx]))
          rw [hloc] at this; exact nomatch this
      | none =>
        refine ⟨fun z' hz => hr.1 z' hz, ?_⟩
        show locate id r (.right l e :: up) = none ↔ _
        rw [hr.2]
        have hl' := hl.2.1 hloc
        constructor
        · intro h' x hx
          simp only [Tree.toList, List.mem_append, List.mem_cons] at hx
          rcases hx with hx | hx | hx
          · exact hl' x hx
          · rw [hx]; exact h
          · exact h' x hx
        · intro h' x hx
          exact h' x (by simp [Tree.toList, hx])

/-- Nobody twice, earliest first. -/
structure Good (l : List (Nat × Nat)) : Prop where
  sorted : l.Pairwise (fun a b => a.2 ≤ b.2)
  once : l.Pairwise (fun a b => a.1 ≠ b.1)

theorem Good.nil : Good [] := ⟨List.Pairwise.nil, List.Pairwise.nil⟩

theorem inTurn_split (a : Nat × Nat) (p s : List (Nat × Nat)) (hp : ∀ b ∈ p, ¬ a.2 < b.2)
    (hs : ∀ b ∈ s, a.2 < b.2) : inTurn a (p ++ s) = p ++ a :: s := by
  induction p with
  | nil =>
    cases s with
    | nil => rfl
    | cons x xs =>
      show inTurn a (x :: xs) = _
      unfold inTurn
      rw [if_pos (hs x (by simp))]; rfl
  | cons x xs ih =>
    show inTurn a (x :: (xs ++ s)) = _
    unfold inTurn
    rw [if_neg (hp x (by simp)), ih (fun b hb => hp b (by simp [hb]))]; rfl

theorem mem_inTurn {a b : Nat × Nat} {l : List (Nat × Nat)} : b ∈ inTurn a l ↔ b = a ∨ b ∈ l := by
  induction l with
  | nil => simp [inTurn]
  | cons x xs ih =>
    unfold inTurn
    by_cases h : a.2 < x.2
    · rw [if_pos h]; simp
    · rw [if_neg h, List.mem_cons, ih, List.mem_cons]
      constructor
      · rintro (h | h | h)
        · exact .inr (.inl h)
        · exact .inl h
        · exact .inr (.inr h)
      · rintro (h | h | h)
        · exact .inr (.inl h)
        · exact .inl h
        · exact .inr (.inr h)

theorem length_inTurn (a : Nat × Nat) (l : List (Nat × Nat)) :
    (inTurn a l).length = l.length + 1 := by
  induction l with
  | nil => rfl
  | cons x xs ih =>
    unfold inTurn
    by_cases h : a.2 < x.2
    · rw [if_pos h]; rfl
    · rw [if_neg h, List.length_cons, ih]; rfl

theorem mem_others {id : Nat} {b : Nat × Nat} {l : List (Nat × Nat)} :
    b ∈ others id l ↔ b ∈ l ∧ b.1 ≠ id := by
  simp [others]

theorem Good.inTurn {a : Nat × Nat} {l : List (Nat × Nat)} (h : Good l) (hn : ∀ b ∈ l, b.1 ≠ a.1) :
    Good (inTurn a l) := by
  induction l with
  | nil => exact ⟨List.pairwise_singleton _ _, List.pairwise_singleton _ _⟩
  | cons x xs ih =>
    have hx := List.pairwise_cons.1 h.sorted
    have ho := List.pairwise_cons.1 h.once
    unfold Spec.inTurn
    by_cases hlt : a.2 < x.2
    · rw [if_pos hlt]
      refine ⟨List.pairwise_cons.2 ⟨fun b hb => ?_, h.sorted⟩,
        List.pairwise_cons.2 ⟨fun b hb => (hn b hb).symm, h.once⟩⟩
      rcases List.mem_cons.1 hb with rfl | hb
      · omega
      · have := hx.1 b hb; omega
    · rw [if_neg hlt]
      have ih' := ih ⟨hx.2, ho.2⟩ (fun b hb => hn b (by simp [hb]))
      refine ⟨List.pairwise_cons.2 ⟨fun b hb => ?_, ih'.sorted⟩,
        List.pairwise_cons.2 ⟨fun b hb => ?_, ih'.once⟩⟩
      · rcases mem_inTurn.1 hb with rfl | hb
        · omega
        · exact hx.1 b hb
      · rcases mem_inTurn.1 hb with rfl | hb
        · exact hn x (by simp)
        · exact ho.1 b hb

theorem Good.others {id : Nat} {l : List (Nat × Nat)} (h : Good l) : Good (others id l) :=
  ⟨h.sorted.filter _, h.once.filter _⟩

theorem Good.move {s : Agenda} (h : Good s.turns) (id t : Nat) : Good (s.move id t).turns :=
  Good.inTurn (Good.others h) (fun _ hb => (mem_others.1 hb).2)

theorem timeOf_none {id : Nat} {l : List (Nat × Nat)} :
    timeOf id l = none ↔ ∀ e ∈ l, e.1 ≠ id := by
  simp [timeOf]

theorem timeOf_mem {id w : Nat} {l : List (Nat × Nat)} (h : timeOf id l = some w) : (id, w) ∈ l := by
  unfold timeOf at h
  cases hf : l.find? (fun e => e.1 == id) with
  | none => rw [hf] at h; exact nomatch h
  | some e =>
    rw [hf] at h
    have h1 := List.mem_of_find?_eq_some hf
    have h2 : e.1 = id := by have := List.find?_some hf; simpa using this
    have h3 : e.2 = w := by simpa using h
    rw [← h2, ← h3]; exact h1

theorem mem_timeOf {id w : Nat} {l : List (Nat × Nat)} (hg : Good l) (h : (id, w) ∈ l) :
    timeOf id l = some w := by
  cases ht : timeOf id l with
  | none => exact absurd rfl (timeOf_none.1 ht _ h)
  | some v =>
    have hv := timeOf_mem ht
    induction l with
    | nil => exact absurd h List.not_mem_nil
    | cons x xs ih =>
      have ho := List.pairwise_cons.1 hg.once
      rcases List.mem_cons.1 h with h1 | h1 <;> rcases List.mem_cons.1 hv with h2 | h2
      · rw [← h2] at h1; injection h1 with _ h1; rw [h1]
      · exact absurd (by rw [← h1]) (ho.1 _ h2)
      · exact absurd (by rw [← h2]) (ho.1 _ h1)
      · have hx : x.1 ≠ id := fun h => ho.1 _ h1 h
        have : timeOf id xs = some v := by
          have : timeOf id (x :: xs) = timeOf id xs := by
            unfold timeOf
            rw [List.find?_cons_of_neg (by simpa using hx)]
          rw [← this]; exact ht
        exact ih ⟨(List.pairwise_cons.1 hg.sorted).2, ho.2⟩ h1 this h2

/-- The tree and the list. -/
structure Rel (q : Quic) (s : Agenda) : Prop where
  turns : q.tree.root.toList = s.turns
  size : q.tree.size = s.turns.length
  alarms : q.app = s.alarms
  packets : q.stateless = s.packets

theorem Rel.init : Rel Quic.init {} := ⟨rfl, rfl, rfl, rfl⟩

theorem node_none {q : Quic} {s : Agenda} (h : Rel q s) (id : Nat) :
    q.node id = none ↔ timeOf id s.turns = none := by
  unfold Quic.node
  rw [(locate_spec id q.tree.root []).2, timeOf_none, h.turns]

theorem node_some {q : Quic} {s : Agenda} (h : Rel q s) (hg : Good s.turns) {id : Nat}
    {z : Loc Entry} (hz : q.node id = some z) :
    z.x.1 = id ∧ z.before ++ z.x :: z.after = s.turns ∧ timeOf id s.turns = some z.x.2 := by
  have h1 := (locate_spec id q.tree.root []).1 z hz
  have h2 : z.before ++ z.x :: z.after = s.turns := by
    rw [← Loc.tree_toList, h1.2, ← h.turns]; rfl
  refine ⟨h1.1, h2, mem_timeOf hg ?_⟩
  rw [← h1.1, ← h2]; simp

theorem others_split {id : Nat} {p q : List (Nat × Nat)} {x : Nat × Nat} (hg : Good (p ++ x :: q))
    (hx : x.1 = id) : others id (p ++ x :: q) = p ++ q := by
  have ho := List.pairwise_append.1 hg.once
  have ho2 := List.pairwise_cons.1 ho.2.1
  unfold others
  rw [List.filter_append, List.filter_cons_of_neg (by simp [hx])]
  rw [List.filter_eq_self.2 (fun b hb => ?_), List.filter_eq_self.2 (fun b hb => ?_)]
  · have := ho2.1 b hb; rw [hx] at this; simpa using (Ne.symm this)
  · have := ho.2.2 b hb x (by simp); rw [hx] at this; simpa using this

theorem remove_spec {q : Quic} {s : Agenda} (h : Rel q s) (hg : Good s.turns) {id : Nat}
    {z : Loc Entry} (hz : q.node id = some z) :
    ∃ q', remove q z = some q' ∧ Rel q' { s with turns := others id s.turns } := by
  obtain ⟨t', h1, h2, h3⟩ := deleteHint_spec q.tree z
  obtain ⟨n1, n2, _⟩ := node_some h hg hz
  refine ⟨{ q with tree := t' }, by unfold remove; rw [h1], ?_⟩
  have he : others id s.turns = z.before ++ z.after := by
    rw [← n2]; exact others_split (n2 ▸ hg) n1
  refine ⟨?_, ?_, h.alarms, h.packets⟩
  · show t'.root.toList = others id s.turns
    rw [he, h2]
  · show t'.size = ((others id s.turns).length : Int)
    rw [he, h3, h.size, ← n2]
    simp only [List.length_append, List.length_cons]
    omega

theorem insertCnx_spec {q : Quic} {s : Agenda} (h : Rel q s) (hg : Good s.turns) (id t : Nat) :
    ∃ q', insertCnx q id t = some q' ∧ Rel q' { s with turns := inTurn (id, t) s.turns } := by
  have hs : Sorted cmp q.tree.root.toList := by
    rw [h.turns]
    exact hg.sorted.imp (fun h => cmp_le.2 h)
  obtain ⟨t', h1, h2, p, r, h3, h4, h5, h6⟩ := insert_spec cmp cmp_isCmp q.tree (id, t) hs
  refine ⟨{ q with tree := t' }, by unfold insertCnx; rw [h1], ?_, ?_, h.alarms, h.packets⟩
  · show t'.root.toList = inTurn (id, t) s.turns
    rw [← h.turns, h3, h6]
    exact (inTurn_split _ _ _ (fun b hb hlt => h4 b hb (cmp_lt.2 hlt))
      (fun b hb => cmp_lt.1 (h5 b hb))).symm
  · show t'.size = ((inTurn (id, t) s.turns).length : Int)
    rw [h2, h.size, length_inTurn]; omega

theorem reinsert_spec {q : Quic} {s : Agenda} (h : Rel q s) (hg : Good s.turns) (id t : Nat)
    (hl : timeOf id s.turns ≠ none) :
    ∃ q', reinsert q id t = some q' ∧ Rel q' (s.move id t) := by
  unfold reinsert
  cases hz : q.node id with
  | none => exact absurd ((node_none h id).1 hz) hl
  | some z =>
    obtain ⟨q1, h1, h2⟩ := remove_spec h hg hz
    obtain ⟨q2, h3, h4⟩ := insertCnx_spec h2 (Good.others hg) id t
    exact ⟨q2, by simp only [h1]; exact h3, h4⟩

theorem setAppField_spec {q : Quic} {s : Agenda} (h : Rel q s) (id t : Nat) :
    Rel (setAppField q id t) { s with alarms := fun i => if i = id then t else s.alarms i } := by
  refine ⟨h.turns, h.size, ?_, h.packets⟩
  show (fun i => if i = id then t else q.app i) = fun i => if i = id then t else s.alarms i
  rw [h.alarms]

theorem setApp_spec {q : Quic} {s : Agenda} (h : Rel q s) (hg : Good s.turns) (id t : Nat) :
    ∃ q', setApp q id t = some q' ∧ Rel q' (s.setAlarm id t) := by
  unfold setApp Agenda.setAlarm
  have hf := setAppField_spec h id t
  cases hz : q.node id with
  | none =>
    rw [(node_none h id).1 hz]
    exact ⟨_, rfl, hf⟩
  | some z =>
    obtain ⟨_, _, n3⟩ := node_some h hg hz
    rw [n3]
    by_cases hc : t ≠ 0 ∧ t < z.x.2
    · obtain ⟨q', h1, h2⟩ := reinsert_spec hf hg id t (by rw [n3]; exact fun h => nomatch h)
      exact ⟨q', by simp only [if_pos hc]; exact h1, by simp only [if_pos hc]; exact h2⟩
    · exact ⟨setAppField q id t, by simp only [if_neg hc], by simp only [if_neg hc]; exact hf⟩

theorem timeOf_isSome_move {s : Agenda} (hg : Good s.turns) (id t : Nat) :
    timeOf id (s.move id t).turns = some t :=
  mem_timeOf (Good.move hg id t) (mem_inTurn.2 (.inl rfl))

theorem setAlarm_good {s : Agenda} (hg : Good s.turns) (id t : Nat) :
    Good (s.setAlarm id t).turns := by
  unfold Agenda.setAlarm
  cases h : timeOf id s.turns with
  | none => exact hg
  | some w =>
    by_cases hc : t ≠ 0 ∧ t < w
    · simp only [if_pos hc]; exact Good.move hg id t
    · simp only [if_neg hc]; exact hg

theorem setAlarm_live {s : Agenda} (hg : Good s.turns) (id t : Nat)
    (hl : timeOf id s.turns ≠ none) : timeOf id (s.setAlarm id t).turns ≠ none := by
  unfold Agenda.setAlarm
  cases h : timeOf id s.turns with
  | none => exact absurd h hl
  | some w =>
    by_cases hc : t ≠ 0 ∧ t < w
    · simp only [if_pos hc]
      rw [timeOf_isSome_move (by exact hg) id t]; exact fun h => nomatch h
    · simp only [if_neg hc]; exact hl

theorem ring_good (s : Agenda) (hg : Good s.turns) (id now : Nat) (vs : List Nat) :
    Good (s.ring id now vs).1.turns := by
  induction vs generalizing s with
  | nil =>
    unfold Agenda.ring
    by_cases h : s.alarms id ≠ 0 ∧ s.alarms id ≤ now
    · rw [if_pos h]; exact hg
    · rw [if_neg h]; exact hg
  | cons v vs ih =>
    unfold Agenda.ring
    by_cases h : s.alarms id ≠ 0 ∧ s.alarms id ≤ now
    · rw [if_pos h]
      exact ih _ (setAlarm_good (by exact hg) id v)
    · rw [if_neg h]; exact hg

theorem ring_live (s : Agenda) (hg : Good s.turns) (id now : Nat) (vs : List Nat)
    (hl : timeOf id s.turns ≠ none) : timeOf id (s.ring id now vs).1.turns ≠ none := by
  induction vs generalizing s with
  | nil =>
    unfold Agenda.ring
    by_cases h : s.alarms id ≠ 0 ∧ s.alarms id ≤ now
    · rw [if_pos h]; exact hl
    · rw [if_neg h]; exact hl
  | cons v vs ih =>
    unfold Agenda.ring
    by_cases h : s.alarms id ≠ 0 ∧ s.alarms id ≤ now
    · rw [if_pos h]
      exact ih _ (setAlarm_good (by exact hg) id v)
        (setAlarm_live (by exact hg) id v (by exact hl))
    · rw [if_neg h]; exact hl

theorem handleApp_spec (vs : List Nat) {q : Quic} {s : Agenda} (h : Rel q s) (hg : Good s.turns)
    (id now : Nat) :
    ∃ q', handleApp q id now vs = some (q', (s.ring id now vs).2) ∧ Rel q' (s.ring id now vs).1 := by
  induction vs generalizing q s with
  | nil =>
    unfold handleApp Agenda.ring
    rw [h.alarms]
    by_cases hc : s.alarms id ≠ 0 ∧ s.alarms id ≤ now
    · rw [if_pos hc, if_pos hc]
      refine ⟨_, rfl, ?_⟩
      have := setAppField_spec h id 0
      exact this
    · rw [if_neg hc, if_neg hc]
      exact ⟨_, rfl, h⟩
  | cons v vs ih =>
    unfold handleApp Agenda.ring
    rw [h.alarms]
    by_cases hc : s.alarms id ≠ 0 ∧ s.alarms id ≤ now
    · rw [if_pos hc, if_pos hc]
      have hf := setAppField_spec h id 0
      obtain ⟨q1, h1, h2⟩ := setApp_spec hf hg id v
      obtain ⟨q2, h3, h4⟩ := ih h2 (setAlarm_good (by exact hg) id v)
      refine ⟨q2, ?_, h4⟩
      simp only [h1, h3]
    · rw [if_neg hc, if_neg hc]
      exact ⟨_, rfl, h⟩

theorem deleteCnx_spec {q : Quic} {s : Agenda} (h : Rel q s) (hg : Good s.turns) (id : Nat) :
    ∃ q', deleteCnx q id = some q' ∧
      Rel q' { s with turns := others id s.turns,
                      alarms := fun i => if i = id then 0 else s.alarms i } := by
  unfold deleteCnx
  have hf := setAppField_spec h id 0
  cases hz : q.node id with
  | none =>
    have hn := timeOf_none.1 ((node_none h id).1 hz)
    have : others id s.turns = s.turns := by
      unfold others
      exact List.filter_eq_self.2 (fun b hb => by simpa using hn b hb)
    rw [this]
    exact ⟨_, rfl, hf⟩
  | some z =>
    have hz' : (setAppField q id 0).node id = some z := hz
    obtain ⟨q', h1, h2⟩ := remove_spec hf hg hz'
    exact ⟨q', h1, h2⟩

theorem others_inTurn_self (id t : Nat) (l : List (Nat × Nat)) :
    others id (inTurn (id, t) l) = others id l := by
  induction l with
  | nil => simp [inTurn, others]
  | cons x xs ih =>
    unfold inTurn
    by_cases h : t < x.2
    · rw [if_pos h]; unfold others; rw [List.filter_cons_of_neg (by simp)]
    · rw [if_neg h]
      unfold others at ih ⊢
      rw [List.filter_cons, List.filter_cons, ih]

theorem others_others (id : Nat) (l : List (Nat × Nat)) : others id (others id l) = others id l := by
  unfold others; rw [List.filter_filter]; simp

theorem move_move (s : Agenda) (id t u : Nat) : (s.move id t).move id u = s.move id u := by
  unfold Agenda.move
  simp only [others_inTurn_self, others_others]

theorem serve_spec {q : Quic} {s : Agenda} (h : Rel q s) (hg : Good s.turns) (id now : Nat)
    (r : Serve) (hl : timeOf id s.turns ≠ none) :
    ∃ q1, preparePacket q id now r = some (q1, (s.serve id now r).2) ∧
      (r.how ≠ .disconnected → Rel q1 (s.serve id now r).1) ∧
      (r.how = .disconnected →
        ∃ q2, (if r.client then reinsert q1 id (2 ^ 64 - 1) else deleteCnx q1 id) = some q2 ∧
          Rel q2 (s.serve id now r).1) := by
  obtain ⟨q', h1, h2⟩ := handleApp_spec r.again h hg id now
  have hg' := ring_good s hg id now r.again
  have hl' := ring_live s hg id now r.again hl
  have hw : (s.serve id now r).2 = (s.ring id now r.again).2 := by
    unfold Agenda.serve
    cases r.how with
    | ok => rfl
    | error => rfl
    | disconnected => by_cases hc : r.client = true <;> simp [hc]
  obtain ⟨q1, h3, h4⟩ := reinsert_spec h2 hg' id
    (if r.how = .ok then programApp q' id r.next else r.next) hl'
  refine ⟨q1, ?_, ?_, ?_⟩
  · unfold preparePacket
    simp only [h1, h3, hw]
  · intro hd
    cases hh : r.how with
    | ok =>
      rw [hh, if_pos rfl] at h4
      unfold Agenda.serve
      simp only [hh]
      unfold programApp at h4
      rw [h2.alarms] at h4
      exact h4
    | error =>
      rw [hh, if_neg (by decide)] at h4
      unfold Agenda.serve
      simp only [hh]
      exact h4
    | disconnected => exact absurd hh hd
  · intro hd
    rw [hd, if_neg (by decide)] at h4
    have hg4 := Good.move hg' id r.next
    unfold Agenda.serve
    simp only [hd]
    by_cases hc : r.client = true
    · obtain ⟨q2, h5, h6⟩ := reinsert_spec h4 hg4 id (2 ^ 64 - 1)
        (by rw [timeOf_isSome_move hg']; exact fun h => nomatch h)
      rw [move_move] at h6
      exact ⟨q2, by rw [if_pos hc]; exact h5, by rw [if_pos hc]; exact h6⟩
    · obtain ⟨q2, h5, h6⟩ := deleteCnx_spec h4 hg4 id
      refine ⟨q2, by rw [if_neg hc]; exact h5, ?_⟩
      rw [if_neg hc]
      have e : others id ((s.ring id now r.again).1.move id r.next).turns =
          others id (s.ring id now r.again).1.turns := by
        show others id (inTurn (id, r.next) (others id _)) = _
        rw [others_inTurn_self, others_others]
      exact ⟨by rw [h6.turns]; exact e, by rw [h6.size]; show ((others id _).length : Int) = _; rw [e], h6.alarms, h6.packets⟩

theorem serve_good (s : Agenda) (hg : Good s.turns) (id now : Nat) (r : Serve) :
    Good (s.serve id now r).1.turns := by
  have hg' := ring_good s hg id now r.again
  unfold Agenda.serve
  cases r.how with
  | ok => exact Good.move hg' _ _
  | error => exact Good.move hg' _ _
  | disconnected =>
    by_cases hc : r.client = true
    · simp only [hc, if_true]; exact Good.move hg' _ _
    · simp only [hc]; exact Good.others hg'

theorem step_good (s : Agenda) (hg : Good s.turns) (op : WakeOp) : Good (s.step op).1.turns := by
  cases op with
  | create id t =>
    unfold Agenda.step
    by_cases h : (timeOf id s.turns).isSome
    · simp only [if_pos h]; exact hg
    · simp only [if_neg h]
      exact Good.inTurn hg (timeOf_none.1 (by simpa using h))
  | touch id t =>
    unfold Agenda.step
    by_cases h : (timeOf id s.turns).isSome
    · simp only [if_pos h]; exact Good.move hg _ _
    · simp only [if_neg h]; exact hg
  | sleep id t =>
    unfold Agenda.step
    by_cases h : (timeOf id s.turns).isSome
    · simp only [if_pos h]; exact Good.move hg _ _
    · simp only [if_neg h]; exact hg
  | alarm id t =>
    unfold Agenda.step
    by_cases h : (timeOf id s.turns).isSome
    · simp only [if_pos h]; exact setAlarm_good hg _ _
    · simp only [if_neg h]; exact hg
  | delete id => exact Good.others hg
  | queue p => exact hg
  | prepare now room r =>
    unfold Agenda.step
    cases s.packets with
    | cons p ps => exact hg
    | nil =>
      cases ht : s.turns with
      | nil => simp only; rw [ht]; exact Good.nil
      | cons e es =>
        by_cases h : now ≠ 0 ∧ now < e.2
        · simp only [if_pos h]; exact hg
        · simp only [if_neg h]; exact serve_good s hg _ _ _

theorem first_turns {q : Quic} {s : Agenda} (h : Rel q s) :
    (first q.tree).map (fun z => z.x) = s.turns.head? := by
  rcases Picoquic.Props.first_spec q.tree with ⟨h1, h2⟩ | ⟨z, h1, h2, h3⟩
  · rw [h1, ← h.turns, h2]; rfl
  · have : q.tree.root.toList = z.before ++ z.x :: z.after := by rw [← h2]; exact Loc.tree_toList z
    rw [h1, ← h.turns, this, h3]; rfl

theorem earliest_turns {q : Quic} {s : Agenda} (h : Rel q s) (now : Nat) :
    earliest q now = match s.turns with
      | [] => none
      | e :: _ => if now ≠ 0 ∧ now < e.2 then none else some e := by
  have hf := first_turns h
  unfold earliest
  cases ht : s.turns with
  | nil =>
    rw [ht] at hf
    cases hq : first q.tree with
    | none => rfl
    | some z => rw [hq] at hf; exact nomatch hf
  | cons e es =>
    rw [ht] at hf
    cases hq : first q.tree with
    | none => rw [hq] at hf; exact nomatch hf
    | some z =>
      rw [hq] at hf
      have : z.x = e := by simpa using hf
      simp only [this]

theorem step_spec {q : Quic} {s : Agenda} (h : Rel q s) (hg : Good s.turns) (op : WakeOp) :
    ∃ q', step q op = some (q', (s.step op).2) ∧ Rel q' (s.step op).1 := by
  cases op with
  | create id t =>
    simp only [step, Agenda.step]
    cases hz : q.node id with
    | none =>
      obtain ⟨q', h1, h2⟩ := insertCnx_spec h hg id t
      rw [(node_none h id).1 hz]
      exact ⟨q', by simp only [h1]; rfl, h2⟩
    | some z =>
      rw [(node_some h hg hz).2.2]
      exact ⟨q, rfl, h⟩
  | touch id t =>
    simp only [step, Agenda.step]
    cases ht : timeOf id s.turns with
    | none =>
      have : reinsert q id t = some q := by unfold reinsert; rw [(node_none h id).2 ht]
      exact ⟨q, by simp only [this]; rfl, h⟩
    | some w =>
      obtain ⟨q', h1, h2⟩ := reinsert_spec h hg id t (by rw [ht]; exact fun h => nomatch h)
      exact ⟨q', by simp only [h1]; rfl, h2⟩
  | sleep id t =>
    simp only [step, Agenda.step]
    cases ht : timeOf id s.turns with
    | none =>
      have : reinsert q id t = some q := by unfold reinsert; rw [(node_none h id).2 ht]
      exact ⟨q, by simp only [this]; rfl, h⟩
    | some w =>
      obtain ⟨q', h1, h2⟩ := reinsert_spec h hg id t (by rw [ht]; exact fun h => nomatch h)
      exact ⟨q', by simp only [h1]; rfl, h2⟩
  | alarm id t =>
    simp only [step, Agenda.step]
    cases hz : q.node id with
    | none =>
      rw [(node_none h id).1 hz]
      exact ⟨q, rfl, h⟩
    | some z =>
      rw [(node_some h hg hz).2.2]
      obtain ⟨q', h1, h2⟩ := setApp_spec h hg id t
      exact ⟨q', by simp only [h1]; rfl, h2⟩
  | delete id =>
    simp only [step, Agenda.step]
    obtain ⟨q', h1, h2⟩ := deleteCnx_spec h hg id
    exact ⟨q', by simp only [h1], h2⟩
  | queue p =>
    refine ⟨_, rfl, h.turns, h.size, h.alarms, ?_⟩
    show q.stateless ++ [p] = s.packets ++ [p]
    rw [h.packets]
  | prepare now room r =>
    simp only [step, Agenda.step, prepareNext]
    rw [h.packets]
    cases hp : s.packets with
    | cons p ps =>
      refine ⟨{ q with stateless := ps }, ?_, h.turns, h.size, h.alarms, rfl⟩
      by_cases hc : p.length ≤ room
      · simp only [if_pos hc, if_neg (show ¬ p.length > room by omega)]
      · simp only [if_neg hc, if_pos (show p.length > room by omega)]
    | nil =>
      have he := earliest_turns h now
      cases ht : s.turns with
      | nil =>
        rw [ht] at he
        exact ⟨q, by simp only [he], h⟩
      | cons e es =>
        rw [ht] at he
        by_cases hc : now ≠ 0 ∧ now < e.2
        · simp only [if_pos hc] at he ⊢
          exact ⟨q, by simp only [he], h⟩
        · simp only [if_neg hc] at he ⊢
          have hl : timeOf e.1 s.turns ≠ none := by
            intro hn
            exact timeOf_none.1 hn e (by rw [ht]; simp) rfl
          obtain ⟨q1, h1, h2, h3⟩ := serve_spec h hg e.1 now r hl
          simp only [he, h1]
          by_cases hd : r.how = .disconnected
          · obtain ⟨q2, h4, h5⟩ := h3 hd
            exact ⟨q2, by rw [if_pos hd, h4], h5⟩
          · exact ⟨q1, by rw [if_neg hd], h2 hd⟩

theorem run_spec (ops : List WakeOp) {q : Quic} {s : Agenda} (h : Rel q s) (hg : Good s.turns) :
    ∃ q', run q ops = some (q', (s.run ops).2) ∧ Rel q' (s.run ops).1 ∧ Good (s.run ops).1.turns := by
  induction ops generalizing q s with
  | nil => exact ⟨q, rfl, h, hg⟩
  | cons op ops ih =>
    obtain ⟨q1, h1, h2⟩ := step_spec h hg op
    obtain ⟨q2, h3, h4, h5⟩ := ih h2 (step_good s hg op)
    refine ⟨q2, ?_, h4, h5⟩
    show (match step q op with
      | none => none
      | some (q', e) => match run q' ops with
        | none => none
        | some (q'', es) => some (q'', e :: es)) = _
    rw [h1]
    simp only [h3]
    rfl

end Picoquic.Wake

namespace Picoquic.Wake
open Picoquic.Splay Picoquic.Spec

/-! ### What serving changes -/

theorem setAlarm_others (s : Agenda) (id t : Nat) :
    others id (s.setAlarm id t).turns = others id s.turns := by
  unfold Agenda.setAlarm
  cases timeOf id s.turns with
  | none => rfl
  | some w =>
    by_cases hc : t ≠ 0 ∧ t < w
    · simp only [if_pos hc]
      show others id (inTurn (id, t) (others id s.turns)) = _
      rw [others_inTurn_self, others_others]
    · simp only [if_neg hc]

theorem setAlarm_alarms (s : Agenda) (id t : Nat) :
    (s.setAlarm id t).alarms = fun i => if i = id then t else s.alarms i := by
  unfold Agenda.setAlarm
  cases timeOf id s.turns with
  | none => rfl
  | some w => by_cases hc : t ≠ 0 ∧ t < w
              · simp only [if_pos hc]; rfl
              · simp only [if_neg hc]

theorem setAlarm_packets (s : Agenda) (id t : Nat) : (s.setAlarm id t).packets = s.packets := by
  unfold Agenda.setAlarm
  cases timeOf id s.turns with
  | none => rfl
  | some w => by_cases hc : t ≠ 0 ∧ t < w
              · simp only [if_pos hc]; rfl
              · simp only [if_neg hc]

theorem ring_spec (vs : List Nat) (s : Agenda) (id now : Nat) :
    others id (s.ring id now vs).1.turns = others id s.turns ∧
    (s.ring id now vs).1.packets = s.packets ∧
    ((s.ring id now vs).1.alarms id = 0 ∨ now < (s.ring id now vs).1.alarms id) ∧
    (∀ i, i ≠ id → (s.ring id now vs).1.alarms i = s.alarms i) := by
  induction vs generalizing s with
  | nil =>
    unfold Agenda.ring
    by_cases h : s.alarms id ≠ 0 ∧ s.alarms id ≤ now
    · rw [if_pos h]
      refine ⟨rfl, rfl, .inl (if_pos rfl), fun i hi => if_neg hi⟩
    · rw [if_neg h]
      refine ⟨rfl, rfl, ?_, fun i _ => rfl⟩
      simp only at *
      omega
  | cons v vs ih =>
    unfold Agenda.ring
    by_cases h : s.alarms id ≠ 0 ∧ s.alarms id ≤ now
    · rw [if_pos h]
      obtain ⟨h1, h2, h3, h4⟩ := ih
        ({ s with alarms := fun i => if i = id then 0 else s.alarms i }.setAlarm id v)
      refine ⟨h1.trans (setAlarm_others _ _ _), h2.trans (setAlarm_packets _ _ _), h3, ?_⟩
      intro i hi
      rw [show (_ : Agenda × Nat).1.alarms i = _ from h4 i hi, setAlarm_alarms]
      show (if i = id then v else if i = id then 0 else s.alarms i) = _
      rw [if_neg hi, if_neg hi]
    · rw [if_neg h]
      refine ⟨rfl, rfl, ?_, fun i _ => rfl⟩
      simp only at *
      omega

/-- The new time of a connection that is served. -/
theorem serve_turns (s : Agenda) (id now : Nat) (r : Serve) :
    (s.serve id now r).1.packets = s.packets ∧
    (∀ i, i ≠ id → (s.serve id now r).1.alarms i = s.alarms i) ∧
    ((r.how = .disconnected ∧ r.client = false ∧
        (s.serve id now r).1.turns = others id s.turns ∧ (s.serve id now r).1.alarms id = 0) ∨
     (¬ (r.how = .disconnected ∧ r.client = false) ∧
      ((s.serve id now r).1.alarms id = 0 ∨ now < (s.serve id now r).1.alarms id) ∧
      ∃ t, (s.serve id now r).1.turns = inTurn (id, t) (others id s.turns) ∧
        (r.how = .error → t = r.next) ∧ (r.how = .disconnected → t = 2 ^ 64 - 1) ∧
        (r.how = .ok → t = if (s.serve id now r).1.alarms id = 0 then r.next
          else min r.next ((s.serve id now r).1.alarms id)))) := by
  obtain ⟨h1, h2, h3, h4⟩ := ring_spec r.again s id now
  unfold Agenda.serve
  cases hh : r.how with
  | ok =>
    refine ⟨h2, h4, .inr ⟨(fun h => nomatch h.1), h3, _, ?_, (fun h => nomatch h), (fun h => nomatch h),
      fun _ => rfl⟩⟩
    show inTurn (id, _) (others id (s.ring id now r.again).1.turns) = _
    rw [h1]
    congr 2
    show (if (s.ring id now r.again).1.alarms id ≠ 0 ∧ (s.ring id now r.again).1.alarms id < r.next
      then _ else _) = if (s.ring id now r.again).1.alarms id = 0 then _ else _
    by_cases hz : (s.ring id now r.again).1.alarms id = 0
    · rw [if_pos hz, if_neg (fun h => h.1 hz)]
    · rw [if_neg hz]
      by_cases hlt : (s.ring id now r.again).1.alarms id < r.next
      · rw [if_pos ⟨hz, hlt⟩]; exact (Nat.min_eq_right (Nat.le_of_lt hlt)).symm
      · rw [if_neg (fun h => hlt h.2)]; exact (Nat.min_eq_left (Nat.le_of_not_lt hlt)).symm
  | error =>
    refine ⟨h2, h4, .inr ⟨(fun h => nomatch h.1), h3, r.next, ?_, fun _ => rfl, (fun h => nomatch h),
      (fun h => nomatch h)⟩⟩
    show inTurn (id, _) (others id (s.ring id now r.again).1.turns) = _
    rw [h1]
  | disconnected =>
    cases hc : r.client with
    | true =>
      refine ⟨h2, h4, .inr ⟨(fun h => nomatch h.2), h3, 2 ^ 64 - 1, ?_, (fun h => nomatch h), fun _ => rfl,
        (fun h => nomatch h)⟩⟩
      show inTurn (id, _) (others id (s.ring id now r.again).1.turns) = _
      rw [h1]
    | false =>
      refine ⟨h2, fun i hi => ?_, .inl ⟨rfl, rfl, h1, if_pos rfl⟩⟩
      show (if i = id then 0 else _) = _
      rw [if_neg hi]; exact h4 i hi

theorem serve_callbacks (s : Agenda) (id now : Nat) (r : Serve) :
    (s.serve id now r).2 = (s.ring id now r.again).2 := by
  unfold Agenda.serve
  cases r.how with
  | ok => rfl
  | error => rfl
  | disconnected => by_cases hc : r.client = true <;> simp [hc]

/-! ### Turns -/

theorem ahead_inTurn {b w : Nat} {e : Nat × Nat} {l : List (Nat × Nat)} (hg : Good l)
    (hb : (b, w) ∈ l) (ht : w ≤ e.2) : ahead b (inTurn e l) = ahead b l := by
  induction l with
  | nil => exact absurd hb List.not_mem_nil
  | cons x xs ih =>
    have hs := List.pairwise_cons.1 hg.sorted
    have ho := List.pairwise_cons.1 hg.once
    have hx : ¬ e.2 < x.2 := by
      rcases List.mem_cons.1 hb with h | h
      · rw [← h]; exact Nat.not_lt.2 ht
      · have := hs.1 _ h; simp only at this; omega
    unfold inTurn
    rw [if_neg hx]
    by_cases hxb : x.1 = b
    · simp [ahead, hxb]
    · have hb' : (b, w) ∈ xs := by
        rcases List.mem_cons.1 hb with h | h
        · exact absurd (by rw [← h]) hxb
        · exact h
      have := ih ⟨hs.2, ho.2⟩ hb'
      unfold ahead at this ⊢
      rw [List.takeWhile_cons_of_pos (by simpa using hxb),
        List.takeWhile_cons_of_pos (by simpa using hxb), List.length_cons, List.length_cons, this]

theorem ahead_others {b id : Nat} (l : List (Nat × Nat)) (hne : id ≠ b) :
    ahead b (others id l) ≤ ahead b l := by
  induction l with
  | nil => exact Nat.le_refl _
  | cons x xs ih =>
    unfold ahead others at *
    by_cases hx : x.1 = id
    · rw [List.filter_cons_of_neg (by simp [hx]),
        List.takeWhile_cons_of_pos (by simpa [hx] using hne)]
      exact Nat.le_trans ih (by simp)
    · rw [List.filter_cons_of_pos (by simpa using hx)]
      by_cases hb : x.1 = b
      · simp [hb]
      · rw [List.takeWhile_cons_of_pos (by simpa using hb),
          List.takeWhile_cons_of_pos (by simpa using hb)]
        simp only [List.length_cons]; omega

theorem mem_others_of {b w id : Nat} {l : List (Nat × Nat)} (h : (b, w) ∈ l) (hne : id ≠ b) :
    (b, w) ∈ others id l := mem_others.2 ⟨h, fun h => hne h.symm⟩

theorem move_patient {b w id t : Nat} {s : Agenda} (hg : Good s.turns) (hb : (b, w) ∈ s.turns)
    (hne : id ≠ b) (ht : w ≤ t) :
    (b, w) ∈ (s.move id t).turns ∧ ahead b (s.move id t).turns ≤ ahead b s.turns := by
  have h1 := mem_others_of hb hne
  refine ⟨mem_inTurn.2 (.inr h1), ?_⟩
  show ahead b (inTurn (id, t) (others id s.turns)) ≤ _
  rw [ahead_inTurn (Good.others hg) h1 (e := (id, t)) ht]
  exact ahead_others _ hne

/-- The number of requests until a connection is served, at most. -/
def rank (b : Nat) (s : Agenda) : Nat := ahead b s.turns + s.packets.length

theorem requests_one (op : WakeOp) (ops : List WakeOp) :
    requests (op :: ops) = requests [op] + requests ops := by
  cases op <;> simp only [requests] <;> omega

theorem queued_one (op : WakeOp) (ops : List WakeOp) :
    queued (op :: ops) = queued [op] ++ queued ops := by
  cases op <;> rfl

theorem step_patient {b w : Nat} (hw : w < 2 ^ 64) (s : Agenda) (hg : Good s.turns)
    (hb : (b, w) ∈ s.turns) (op : WakeOp) (hp : Patient b w op) :
    (∃ n, (s.step op).2 = .served b n) ∨
    ((b, w) ∈ (s.step op).1.turns ∧
      rank b (s.step op).1 + requests [op] ≤ rank b s + (queued [op]).length) := by
  cases op with
  | create id t =>
    right
    simp only [Agenda.step]
    by_cases h : (timeOf id s.turns).isSome
    · simp only [if_pos h]; exact ⟨hb, Nat.le_refl _⟩
    · simp only [if_neg h]
      refine ⟨mem_inTurn.2 (.inr hb), ?_⟩
      show ahead b (inTurn (id, t) s.turns) + _ + 0 ≤ _
      rw [ahead_inTurn hg hb (e := (id, t)) hp]; exact Nat.le_refl _
  | touch id t =>
    right
    simp only [Agenda.step]
    by_cases h : (timeOf id s.turns).isSome
    · simp only [if_pos h]
      have := move_patient hg hb hp.1 hp.2
      refine ⟨this.1, ?_⟩
      show ahead b (s.move id t).turns + s.packets.length + 0 ≤ ahead b s.turns + s.packets.length + 0
      omega
    · simp only [if_neg h]; exact ⟨hb, Nat.le_refl _⟩
  | sleep id t =>
    right
    simp only [Agenda.step]
    by_cases h : (timeOf id s.turns).isSome
    · simp only [if_pos h]
      have := move_patient hg hb hp.1 hp.2
      refine ⟨this.1, ?_⟩
      show ahead b (s.move id t).turns + s.packets.length + 0 ≤ ahead b s.turns + s.packets.length + 0
      omega
    · simp only [if_neg h]; exact ⟨hb, Nat.le_refl _⟩
  | alarm id t =>
    right
    simp only [Agenda.step]
    cases ht : timeOf id s.turns with
    | none => exact ⟨hb, Nat.le_refl _⟩
    | some v =>
      rw [if_pos (show (some v).isSome = true from rfl)]
      unfold Agenda.setAlarm
      rw [ht]
      by_cases hc : t ≠ 0 ∧ t < v
      · simp only [if_pos hc]
        have hwt : w ≤ t := by rcases hp with h | h; exact absurd h hc.1; exact h
        have hne : id ≠ b := by
          rintro rfl
          rw [mem_timeOf hg hb] at ht
          injection ht with ht
          omega
        have := move_patient (s := { s with alarms := fun i => if i = id then t else s.alarms i })
          hg hb hne hwt
        refine ⟨this.1, ?_⟩
        have h2 := this.2
        show ahead b _ + s.packets.length + 0 ≤ ahead b s.turns + s.packets.length + 0
        exact Nat.add_le_add_right h2 _
      · simp only [if_neg hc]; exact ⟨hb, Nat.le_refl _⟩
  | delete id =>
    right
    refine ⟨mem_others_of hb hp, ?_⟩
    show ahead b (others id s.turns) + s.packets.length + 0 ≤ ahead b s.turns + s.packets.length + 0
    have := ahead_others s.turns (b := b) (id := id) hp
    omega
  | queue p =>
    right
    refine ⟨hb, ?_⟩
    show ahead b s.turns + (s.packets ++ [p]).length + 0 ≤ ahead b s.turns + s.packets.length + 1
    simp only [List.length_append, List.length_singleton]; omega
  | prepare now room r =>
    simp only [Agenda.step]
    cases hpk : s.packets with
    | cons p ps =>
      right
      refine ⟨hb, ?_⟩
      show ahead b s.turns + ps.length + 1 ≤ ahead b s.turns + s.packets.length + 0
      rw [hpk]; simp only [List.length_cons]; omega
    | nil =>
      cases ht : s.turns with
      | nil => rw [ht] at hb; exact absurd hb List.not_mem_nil
      | cons e es =>
        have hs := List.pairwise_cons.1 (ht ▸ hg.sorted)
        have ho := List.pairwise_cons.1 (ht ▸ hg.once)
        have hle : e.2 ≤ w := by
          rw [ht] at hb
          rcases List.mem_cons.1 hb with h | h
          · rw [← h]; exact Nat.le_refl _
          · exact hs.1 _ h
        have hc : ¬ (now ≠ 0 ∧ now < e.2) := by have := hp.1; omega
        simp only [if_neg hc]
        by_cases heb : e.1 = b
        · left; exact ⟨_, by rw [heb]⟩
        · right
          have hbes : (b, w) ∈ es := by
            rw [ht] at hb
            rcases List.mem_cons.1 hb with h | h
            · exact absurd (by rw [← h]) heb
            · exact h
          have hoth : others e.1 s.turns = es := by
            rw [ht]
            have := others_split (id := e.1) (p := []) (x := e) (q := es) (ht ▸ hg) rfl
            simpa using this
          have hrank : rank b s = ahead b es + 1 := by
            unfold rank ahead
            rw [hpk, ht, List.takeWhile_cons_of_pos (by simpa using heb)]; rfl
          have hgs : Good es := hoth ▸ Good.others hg
          obtain ⟨hpk', _, hcase⟩ := serve_turns s e.1 now r
          rcases hcase with ⟨_, _, h3, _⟩ | ⟨_, h2, t, h3, he, hd, hok⟩
          · refine ⟨by rw [h3, hoth]; exact hbes, ?_⟩
            rw [hrank]
            show ahead b (s.serve e.1 now r).1.turns + (s.serve e.1 now r).1.packets.length + 1 ≤ _
            rw [h3, hoth, hpk', hpk]; exact Nat.le_refl _
          · have hwt : w ≤ t := by
              cases hh : r.how with
              | error => rw [he hh]; exact hp.2
              | disconnected => rw [hd hh]; omega
              | ok =>
                rw [hok hh]
                by_cases hz : (s.serve e.1 now r).1.alarms e.1 = 0
                · rw [if_pos hz]; exact hp.2
                · rw [if_neg hz]
                  have h1 := hp.1
                  have h4 := hp.2
                  omega
            refine ⟨by rw [h3, hoth]; exact mem_inTurn.2 (.inr hbes), ?_⟩
            rw [hrank]
            show ahead b (s.serve e.1 now r).1.turns + (s.serve e.1 now r).1.packets.length + 1 ≤ _
            rw [h3, hoth, hpk', hpk, ahead_inTurn hgs hbes (e := (e.1, t)) hwt]; exact Nat.le_refl _

theorem run_patient {b w : Nat} (hw : w < 2 ^ 64) (ops : List WakeOp) (s : Agenda)
    (hg : Good s.turns) (hb : (b, w) ∈ s.turns) (hp : ∀ op ∈ ops, Patient b w op)
    (hn : ∀ n, WakeEvent.served b n ∉ (s.run ops).2) :
    requests ops ≤ rank b s + (queued ops).length := by
  induction ops generalizing s with
  | nil => exact Nat.zero_le _
  | cons op ops ih =>
    rcases step_patient hw s hg hb op (hp op (by simp)) with ⟨n, h⟩ | ⟨h1, h2⟩
    · exact absurd (by show _ ∈ (s.step op).2 :: _; rw [h]; simp) (hn n)
    · have := ih (s.step op).1 (step_good s hg op) h1 (fun o ho => hp o (by simp [ho]))
        (fun n hm => hn n (by show _ ∈ (s.step op).2 :: _; exact List.mem_cons_of_mem _ hm))
      rw [requests_one, queued_one, List.length_append]
      omega

/-! ### Alarms -/

/-- Alarms are not slept through. -/
structure Awake (c : Nat) (s : Agenda) : Prop where
  live : ∀ id w, (id, w) ∈ s.turns → s.alarms id ≠ 0 → w ≤ max (s.alarms id) c
  dead : ∀ id, (∀ e ∈ s.turns, e.1 ≠ id) → s.alarms id = 0

theorem Awake.touch {c c' id : Nat} {s : Agenda} (h : Awake c s) (hc : c ≤ c') : Awake c' (s.move id c') := by
  refine ⟨fun i v hm ha => ?_, fun i hi => ?_⟩
  · rcases mem_inTurn.1 hm with he | hm
    · injection he with h1 h2
      rw [h2]; exact Nat.le_max_right _ _
    · have h1 := h.live i v (mem_others.1 hm).1 ha
      show v ≤ max (s.alarms i) c'
      omega
  · by_cases hii : i = id
    · exact absurd hii.symm (hi (id, c') (mem_inTurn.2 (.inl rfl)))
    · exact h.dead i (fun e he heq => hi e (mem_inTurn.2 (.inr (mem_others.2 ⟨he, fun h => hii (heq.symm.trans h)⟩))) heq)

theorem Awake.mono {c c' : Nat} {s : Agenda} (h : Awake c s) (hc : c ≤ c') : Awake c' s :=
  ⟨fun i v hm ha => by have := h.live i v hm ha; omega, h.dead⟩

theorem Awake.setAlarm {c id t : Nat} {s : Agenda} (h : Awake c s) (hg : Good s.turns)
    (hl : timeOf id s.turns ≠ none) : Awake c (s.setAlarm id t) := by
  cases ht : timeOf id s.turns with
  | none => exact absurd ht hl
  | some v =>
    unfold Agenda.setAlarm
    rw [ht]
    have hmem := timeOf_mem ht
    by_cases hc : t ≠ 0 ∧ t < v
    · simp only [if_pos hc]
      refine ⟨fun i u hm ha => ?_, fun i hi => ?_⟩
      · show u ≤ max (if i = id then t else s.alarms i) c
        rcases mem_inTurn.1 hm with he | hm
        · injection he with h1 h2
          rw [if_pos h1, h2]; exact Nat.le_max_left _ _
        · have hm := mem_others.1 hm
          have hii : i ≠ id := hm.2
          rw [if_neg hii]
          refine h.live i u hm.1 ?_
          intro h0
          exact ha (by show (if i = id then t else s.alarms i) = 0; rw [if_neg hii]; exact h0)
      · show (if i = id then t else s.alarms i) = 0
        by_cases hii : i = id
        · exact absurd hii.symm (hi (id, t) (mem_inTurn.2 (.inl rfl)))
        · rw [if_neg hii]
          exact h.dead i (fun e he heq => hi e (mem_inTurn.2 (.inr (mem_others.2 ⟨he, fun h => hii (heq.symm.trans h)⟩))) heq)
    · simp only [if_neg hc]
      refine ⟨fun i u hm ha => ?_, fun i hi => ?_⟩
      · show u ≤ max (if i = id then t else s.alarms i) c
        by_cases hii : i = id
        · rw [if_pos hii]
          have hu : u = v := by
            have := mem_timeOf hg hm
            rw [hii, ht] at this
            injection this with this; exact this.symm
          have hat : t ≠ 0 := by
            intro h0
            exact ha (by show (if i = id then t else s.alarms i) = 0; rw [if_pos hii]; exact h0)
          have : ¬ t < v := fun h => hc ⟨hat, h⟩
          omega
        · rw [if_neg hii]
          refine h.live i u hm ?_
          intro h0
          exact ha (by show (if i = id then t else s.alarms i) = 0; rw [if_neg hii]; exact h0)
      · show (if i = id then t else s.alarms i) = 0
        by_cases hii : i = id
        · exact absurd hii.symm (hi _ hmem)
        · rw [if_neg hii]; exact h.dead i hi

theorem Awake.forget {c id : Nat} {s : Agenda} (h : Awake c s) :
    Awake c { s with turns := others id s.turns, alarms := fun i => if i = id then 0 else s.alarms i } := by
  refine ⟨fun i u hm ha => ?_, fun i hi => ?_⟩
  · have hm := mem_others.1 hm
    have hii : i ≠ id := hm.2
    show u ≤ max (if i = id then 0 else s.alarms i) c
    rw [if_neg hii]
    refine h.live i u hm.1 ?_
    intro h0
    exact ha (by show (if i = id then 0 else s.alarms i) = 0; rw [if_neg hii]; exact h0)
  · show (if i = id then 0 else s.alarms i) = 0
    by_cases hii : i = id
    · rw [if_pos hii]
    · rw [if_neg hii]
      exact h.dead i (fun e he heq => hi e (mem_others.2 ⟨he, fun h => hii (heq.symm.trans h)⟩) heq)

theorem Awake.create {c id t : Nat} {s : Agenda} (h : Awake c s) (hn : timeOf id s.turns = none) :
    Awake c { s with turns := inTurn (id, t) s.turns } := by
  have h0 := h.dead id (timeOf_none.1 hn)
  refine ⟨fun i u hm ha => ?_, fun i hi => h.dead i (fun e he => hi e (mem_inTurn.2 (.inr he)))⟩
  rcases mem_inTurn.1 hm with he | hm
  · injection he with h1 h2
    exact absurd (by show s.alarms i = 0; rw [h1]; exact h0) ha
  · exact h.live i u hm ha

theorem Awake.serve {c now id : Nat} {s : Agenda} {r : Serve} (h : Awake c s) (hc : c ≤ now)
    (hr : r.how = .ok ∨ (r.how = .disconnected ∧ r.client = false)) :
    Awake now (s.serve id now r).1 := by
  obtain ⟨_, ho, hcase⟩ := serve_turns s id now r
  rcases hcase with ⟨_, _, h3, h4⟩ | ⟨hnd, h2, t, h3, _, _, hok⟩
  · refine ⟨fun i u hm ha => ?_, fun i hi => ?_⟩
    · rw [h3] at hm
      have hm := mem_others.1 hm
      have hii : i ≠ id := hm.2
      rw [ho i hii] at ha ⊢
      have := h.live i u hm.1 ha
      omega
    · by_cases hii : i = id
      · rw [hii]; exact h4
      · rw [ho i hii]
        exact h.dead i (fun e he heq => hi e (by rw [h3]; exact mem_others.2 ⟨he, fun h => hii (heq.symm.trans h)⟩) heq)
  · have hk : r.how = .ok := by
      rcases hr with h | h
      · exact h
      · exact absurd h hnd
    refine ⟨fun i u hm ha => ?_, fun i hi => ?_⟩
    · rw [h3] at hm
      rcases mem_inTurn.1 hm with he | hm
      · injection he with h1 h2
        rw [h1] at ha ⊢
        rw [h2, hok hk, if_neg ha]
        omega
      · have hm := mem_others.1 hm
        have hii : i ≠ id := hm.2
        rw [ho i hii] at ha ⊢
        have := h.live i u hm.1 ha
        omega
    · by_cases hii : i = id
      · exact absurd hii.symm (hi (id, t) (by rw [h3]; exact mem_inTurn.2 (.inl rfl)))
      · rw [ho i hii]
        exact h.dead i (fun e he heq => hi e (by rw [h3]; exact mem_inTurn.2 (.inr (mem_others.2 ⟨he, fun h => hii (heq.symm.trans h)⟩))) heq)

theorem run_awake (ops : List WakeOp) (c : Nat) (s : Agenda) (hg : Good s.turns) (h : Awake c s)
    (ht : Timely c ops) : Awake (lastCall c ops) (s.run ops).1 := by
  induction ops generalizing s c with
  | nil => exact h
  | cons op ops ih =>
    have hg' := step_good s hg op
    show Awake (lastCall c (op :: ops)) ((s.step op).1.run ops).1
    cases op with
    | create id t =>
      refine ih c _ hg' ?_ ht
      simp only [Agenda.step]
      by_cases hi : (timeOf id s.turns).isSome
      · rw [if_pos hi]; exact h
      · rw [if_neg hi]; exact Awake.create h (by simpa using hi)
    | touch id t =>
      refine ih t _ hg' ?_ ht.2
      simp only [Agenda.step]
      by_cases hi : (timeOf id s.turns).isSome
      · rw [if_pos hi]; exact Awake.touch h ht.1
      · rw [if_neg hi]; exact Awake.mono h ht.1
    | sleep id t => exact absurd ht (fun h => h)
    | alarm id t =>
      refine ih c _ hg' ?_ ht
      simp only [Agenda.step]
      by_cases hi : (timeOf id s.turns).isSome
      · rw [if_pos hi]; exact Awake.setAlarm h hg (fun hn => by rw [hn] at hi; exact nomatch hi)
      · rw [if_neg hi]; exact h
    | delete id => exact ih c _ hg' (Awake.forget h) ht
    | queue p => exact ih c _ hg' ⟨h.live, h.dead⟩ ht
    | prepare now room r =>
      refine ih now _ hg' ?_ ht.2.2
      simp only [Agenda.step]
      cases hpk : s.packets with
      | cons p ps =>
        have := Awake.mono h ht.1
        exact ⟨this.live, this.dead⟩
      | nil =>
        cases htn : s.turns with
        | nil => exact Awake.mono h ht.1
        | cons e es =>
          simp only
          by_cases hc : now ≠ 0 ∧ now < e.2
          · rw [if_pos hc]; exact Awake.mono h ht.1
          · rw [if_neg hc]
            exact Awake.serve h ht.1 ht.2.1

/-! ### Packets -/

theorem run_packets (ops : List WakeOp) (s : Agenda) :
    leaving (s.run ops).2 ++ (s.run ops).1.packets = s.packets ++ queued ops := by
  induction ops generalizing s with
  | nil => simp [Agenda.run, leaving, queued]
  | cons op ops ih =>
    have ih' := ih (s.step op).1
    show leaving ((s.step op).2 :: ((s.step op).1.run ops).2) ++ ((s.step op).1.run ops).1.packets = _
    cases op with
    | create id t =>
      have : (s.step (.create id t)).1.packets = s.packets ∧ (s.step (.create id t)).2 = .none := by
        simp only [Agenda.step]
        by_cases hi : (timeOf id s.turns).isSome
        · rw [if_pos hi]; exact ⟨rfl, rfl⟩
        · rw [if_neg hi]; exact ⟨rfl, rfl⟩
      rw [this.2]; rw [this.1] at ih'; exact ih'
    | touch id t =>
      have : (s.step (.touch id t)).1.packets = s.packets ∧ (s.step (.touch id t)).2 = .none := by
        simp only [Agenda.step]
        by_cases hi : (timeOf id s.turns).isSome
        · rw [if_pos hi]; exact ⟨rfl, rfl⟩
        · rw [if_neg hi]; exact ⟨rfl, rfl⟩
      rw [this.2]; rw [this.1] at ih'; exact ih'
    | sleep id t =>
      have : (s.step (.sleep id t)).1.packets = s.packets ∧ (s.step (.sleep id t)).2 = .none := by
        simp only [Agenda.step]
        by_cases hi : (timeOf id s.turns).isSome
        · rw [if_pos hi]; exact ⟨rfl, rfl⟩
        · rw [if_neg hi]; exact ⟨rfl, rfl⟩
      rw [this.2]; rw [this.1] at ih'; exact ih'
    | alarm id t =>
      have : (s.step (.alarm id t)).1.packets = s.packets ∧ (s.step (.alarm id t)).2 = .none := by
        simp only [Agenda.step]
        by_cases hi : (timeOf id s.turns).isSome
        · rw [if_pos hi]; exact ⟨setAlarm_packets _ _ _, rfl⟩
        · rw [if_neg hi]; exact ⟨rfl, rfl⟩
      rw [this.2]; rw [this.1] at ih'; exact ih'
    | delete id => exact ih'
    | queue p =>
      have : (s.step (.queue p)).1.packets = s.packets ++ [p] := rfl
      rw [this, List.append_assoc] at ih'
      exact ih'
    | prepare now room r =>
      cases hpk : s.packets with
      | cons p ps =>
        have h1 : (s.step (.prepare now room r)).1.packets = ps := by
          simp only [Agenda.step, hpk]
        have h2 : ∀ es, leaving ((s.step (.prepare now room r)).2 :: es) = p :: leaving es := by
          intro es
          simp only [Agenda.step, hpk]
          by_cases hl : p.length ≤ room
          · rw [if_pos hl]; rfl
          · rw [if_neg hl]; rfl
        rw [h2, List.cons_append, ih', h1]; rfl
      | nil =>
        have h1 : (s.step (.prepare now room r)).1.packets = [] := by
          simp only [Agenda.step, hpk]
          cases htn : s.turns with
          | nil => exact hpk
          | cons e es =>
            simp only
            by_cases hc : now ≠ 0 ∧ now < e.2
            · rw [if_pos hc]; exact hpk
            · rw [if_neg hc]; exact (serve_turns s e.1 now r).1.trans hpk
        have h2 : ∀ es, leaving ((s.step (.prepare now room r)).2 :: es) = leaving es := by
          intro evs
          simp only [Agenda.step, hpk]
          cases htn : s.turns with
          | nil => rfl
          | cons e es =>
            simp only
            by_cases hc : now ≠ 0 ∧ now < e.2
            · rw [if_pos hc]; rfl
            · rw [if_neg hc]; rfl
        rw [h2, ih', h1]; rfl

end Picoquic.Wake
