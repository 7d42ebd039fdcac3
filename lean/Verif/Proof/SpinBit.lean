import Verif.Spec.SpinBit
/-!
# Proofs about the spin bit
-/

namespace Picoquic.SpinBit
open Picoquic.Spec

theorem edges_cons (a b : Bool) (l : List Bool) : spinEdges (a :: b :: l) = (if a = b then 0 else 1) + spinEdges (b :: l) := rfl

/-- One bit less. -/
theorem edges_drop (x : Bool) (r : List Bool) : ∀ l : List Bool, spinEdges (l ++ r) ≤ spinEdges (l ++ x :: r) := by
  intro l
  induction l with
  | nil =>
    cases r with
    | nil => exact Nat.zero_le _
    | cons b r => show spinEdges (b :: r) ≤ spinEdges (x :: b :: r); rw [edges_cons]; omega
  | cons a l ih =>
    cases l with
    | nil =>
      cases r with
      | nil => exact Nat.zero_le _
      | cons b r =>
        show spinEdges (a :: b :: r) ≤ spinEdges (a :: x :: b :: r)
        rw [edges_cons, edges_cons a x, edges_cons x b]
        cases a <;> cases b <;> cases x <;> simp <;> omega
    | cons c l =>
      show spinEdges (a :: c :: (l ++ r)) ≤ spinEdges (a :: c :: (l ++ x :: r))
      rw [edges_cons, edges_cons a c]
      have : spinEdges (c :: (l ++ r)) ≤ spinEdges (c :: (l ++ x :: r)) := ih
      omega

theorem edges_dup (x : Bool) (r : List Bool) : ∀ l : List Bool, spinEdges (l ++ x :: x :: r) = spinEdges (l ++ x :: r) := by
  intro l
  induction l with
  | nil => show spinEdges (x :: x :: r) = spinEdges (x :: r); rw [edges_cons, if_pos rfl, Nat.zero_add]
  | cons a l ih =>
    cases l with
    | nil =>
      show spinEdges (a :: x :: x :: r) = spinEdges (a :: x :: r)
      rw [edges_cons, edges_cons, edges_cons, if_pos (rfl : x = x), Nat.zero_add]
    | cons c l =>
      show spinEdges (a :: c :: (l ++ x :: x :: r)) = spinEdges (a :: c :: (l ++ x :: r))
      rw [edges_cons, edges_cons]
      have : spinEdges (c :: (l ++ x :: x :: r)) = spinEdges (c :: (l ++ x :: r)) := ih
      omega

theorem edges_ends (b : Bool) : ∀ (l : List Bool) (a : Bool), a ≠ b → 1 ≤ spinEdges (a :: (l ++ [b])) := by
  intro l
  induction l with
  | nil => intro a h; show 1 ≤ spinEdges [a, b]; rw [edges_cons, if_neg h]; omega
  | cons c l ih =>
    intro a h
    show 1 ≤ spinEdges (a :: c :: (l ++ [b]))
    rw [edges_cons]
    by_cases hc : c = b
    · subst hc; rw [if_neg h]; omega
    · have := ih c hc; omega

theorem edges_zero : ∀ (l : List Bool) (a : Bool), spinEdges (a :: l) = 0 → ∀ x ∈ l, x = a := by
  intro l
  induction l with
  | nil => intro a _ x hx; exact absurd hx (by simp)
  | cons b l ih =>
    intro a h x hx
    rw [edges_cons] at h
    by_cases hb : a = b
    · subst hb
      rcases List.mem_cons.1 hx with e | hx
      · exact e
      · exact ih a (by omega) x hx
    · rw [if_neg hb] at h; omega

theorem edges_const (b : Bool) : ∀ (l : List Bool) (a : Bool), a ≠ b → (∀ x ∈ l, x = a) → spinEdges (a :: (l ++ [b])) = 1 := by
  intro l
  induction l with
  | nil => intro a h _; show spinEdges [a, b] = 1; rw [edges_cons, if_neg h]; rfl
  | cons c l ih =>
    intro a h hl
    have hc : c = a := hl c List.mem_cons_self
    subst hc
    show spinEdges (c :: c :: (l ++ [b])) = 1
    rw [edges_cons, if_pos rfl, Nat.zero_add]
    exact ih c h (fun x hx => hl x (List.mem_cons_of_mem _ hx))

theorem edges_tail (a : Bool) (l : List Bool) : spinEdges l ≤ spinEdges (a :: l) := edges_drop a l []

/-- What holds at any time. -/
structure Ring (y : SpinSys) : Prop where
  client : y.client.client = true ∧ y.client.policy = 0
  server : y.server.client = false ∧ y.server.policy = 0
  up : ∀ p ∈ y.up, p.path = 0
  down : ∀ p ∈ y.down, p.path = 0
  one : spinEdges ((!y.client.spin 0) :: spinWay y) = 1

theorem ring_start : Ring spinStart := by
  refine ⟨⟨rfl, rfl⟩, ⟨rfl, rfl⟩, ?_, ?_, by decide⟩ <;> intro p hp <;> exact absurd hp (by simp [spinStart])

theorem byte_bit (e : End) (h : e.policy = 0) (rand : Nat) :
    ∃ b, firstByte e false false rand = some b ∧ parseSpin b = e.spin 0 := by
  unfold firstByte outgoing
  rw [h]
  refine ⟨_, rfl, ?_⟩
  cases e.spin 0 <;> decide

theorem in_basic (e : End) (h : e.policy = 0) (path : Nat) (bit : Bool) :
    incoming e path bit = some { e with spin := fun p => if p = path then (bit ^^ e.client) else e.spin p } := by
  unfold incoming
  cases e
  simp only at h
  subst h
  rfl

/-- Fewer bits and the same ends. -/
theorem one_of_drop {c x : Bool} {l r : List Bool} (h : spinEdges ((!c) :: (l ++ x :: r ++ [c])) = 1) :
    spinEdges ((!c) :: (l ++ r ++ [c])) = 1 := by
  have h1 := edges_ends c (l ++ r) (!c) (by cases c <;> decide)
  have h2 := edges_drop x (r ++ [c]) ((!c) :: l)
  have e1 : (!c) :: (l ++ r ++ [c]) = (!c) :: l ++ (r ++ [c]) := by simp
  have e2 : (!c) :: (l ++ x :: r ++ [c]) = (!c) :: l ++ x :: (r ++ [c]) := by simp
  rw [e2] at h
  rw [e1] at h1 ⊢
  omega

theorem erase_map (l : List SpinPkt) (i : Nat) : l.eraseIdx i = l ∨
    ∃ a p b, l = a ++ p :: b ∧ l.eraseIdx i = a ++ b := by
  by_cases h : i < l.length
  · right
    refine ⟨l.take i, l[i], l.drop (i + 1), ?_, ?_⟩
    · simp
    · rw [List.eraseIdx_eq_take_drop_succ]
  · left
    exact List.eraseIdx_of_length_le (by omega)

theorem mem_erase {l : List SpinPkt} {i : Nat} {p : SpinPkt} (h : p ∈ l.eraseIdx i) : p ∈ l := List.mem_of_mem_eraseIdx h

/-- A packet for the client. -/
theorem ring_down {y : SpinSys} {p : SpinPkt} {r : List SpinPkt} (h : Ring y) (hd : y.down = p :: r) :
    spinEdges (p.bit :: (r.map (·.bit) ++ [y.server.spin 0] ++ y.up.map (·.bit) ++ [!p.bit])) = 1 ∧
      (p.bit = y.client.spin 0 → (∀ q ∈ r, q.bit = y.client.spin 0) ∧ y.server.spin 0 = y.client.spin 0 ∧
        ∀ q ∈ y.up, q.bit = y.client.spin 0) := by
  have h1 := h.one
  unfold spinWay at h1
  rw [hd] at h1
  have h1 : spinEdges ((!y.client.spin 0) :: p.bit :: (r.map (·.bit) ++ [y.server.spin 0] ++ y.up.map (·.bit) ++ [y.client.spin 0])) = 1 := h1
  rw [edges_cons] at h1
  by_cases hp : p.bit = y.client.spin 0
  · rw [hp] at h1 ⊢
    rw [if_neg (by cases y.client.spin 0 <;> decide)] at h1
    have hz := edges_zero _ _ (by omega : spinEdges (y.client.spin 0 :: (r.map (·.bit) ++ [y.server.spin 0] ++ y.up.map (·.bit) ++ [y.client.spin 0])) = 0)
    have ha : ∀ x ∈ r.map (·.bit) ++ [y.server.spin 0] ++ y.up.map (·.bit), x = y.client.spin 0 :=
      fun x hx => hz x (List.mem_append_left _ hx)
    refine ⟨edges_const _ _ _ (by cases y.client.spin 0 <;> decide) ha, fun _ => ⟨?_, ?_, ?_⟩⟩
    · intro q hq
      exact ha _ (List.mem_append_left _ (List.mem_append_left _ (List.mem_map_of_mem hq)))
    · exact ha _ (List.mem_append_left _ (List.mem_append_right _ (List.mem_singleton.2 rfl)))
    · intro q hq
      exact ha _ (List.mem_append_right _ (List.mem_map_of_mem hq))
  · have hq : p.bit = !y.client.spin 0 := by
      revert hp; cases p.bit <;> cases y.client.spin 0 <;> simp
    refine ⟨?_, fun e => absurd e hp⟩
    rw [hq] at h1 ⊢
    rw [if_pos rfl, Nat.zero_add] at h1
    rw [Bool.not_not]
    exact h1

theorem ring_step (y : SpinSys) (e : SpinEvent) (h : Ring y) (ho : spinInOrder e) : Ring (spinStep y e) := by
  have hone := h.one
  unfold spinWay at hone
  cases e with
  | send up path rand =>
    have ho : path = 0 := ho
    subst ho
    cases up
    · obtain ⟨b, e1, e2⟩ := byte_bit y.server h.server.2 rand
      simp only [spinStep]
      rw [e1]
      refine ⟨h.client, h.server, h.up, ?_, ?_⟩
      · intro p hp
        rcases List.mem_append.1 hp with hp | hp
        · exact h.down p hp
        · rw [List.mem_singleton.1 hp]
      · simp only [spinWay, e2, List.map_append, List.map_cons, List.map_nil]
        have := edges_dup (y.server.spin 0) (y.up.map (·.bit) ++ [y.client.spin 0]) ((!y.client.spin 0) :: y.down.map (·.bit))
        simp only [List.append_assoc, List.cons_append, List.nil_append] at this hone ⊢
        rw [this]
        exact hone
    · obtain ⟨b, e1, e2⟩ := byte_bit y.client h.client.2 rand
      simp only [spinStep]
      rw [e1]
      refine ⟨h.client, h.server, ?_, h.down, ?_⟩
      · intro p hp
        rcases List.mem_append.1 hp with hp | hp
        · exact h.up p hp
        · rw [List.mem_singleton.1 hp]
      · simp only [spinWay, e2, List.map_append, List.map_cons, List.map_nil]
        have := edges_dup (y.client.spin 0) [] ((!y.client.spin 0) :: (y.down.map (·.bit) ++ [y.server.spin 0] ++ y.up.map (·.bit)))
        simp only [List.append_assoc, List.cons_append, List.nil_append] at this hone ⊢
        rw [this]
        exact hone
  | lose up i =>
    cases up
    · simp only [spinStep]
      rcases erase_map y.down i with e | ⟨a, p, b, e1, e2⟩
      · simp only [e]; exact h
      · refine ⟨h.client, h.server, h.up, fun p hp => h.down p (mem_erase hp), ?_⟩
        simp only [spinWay, e2]
        rw [e1] at hone
        have := one_of_drop (c := y.client.spin 0) (x := p.bit) (l := a.map (·.bit)) (r := b.map (·.bit) ++ [y.server.spin 0] ++ y.up.map (·.bit))
        simp only [List.map_append, List.map_cons, List.append_assoc, List.cons_append, List.nil_append] at this hone ⊢
        exact this hone
    · simp only [spinStep]
      rcases erase_map y.up i with e | ⟨a, p, b, e1, e2⟩
      · simp only [e]; exact h
      · refine ⟨h.client, h.server, fun p hp => h.up p (mem_erase hp), h.down, ?_⟩
        simp only [spinWay, e2]
        rw [e1] at hone
        have := one_of_drop (c := y.client.spin 0) (x := p.bit) (l := y.down.map (·.bit) ++ [y.server.spin 0] ++ a.map (·.bit)) (r := b.map (·.bit))
        simp only [List.map_append, List.map_cons, List.append_assoc, List.cons_append, List.nil_append] at this hone ⊢
        exact this hone
  | deliver up i =>
    have ho : i = 0 := ho
    subst ho
    cases up
    · cases hd : y.down with
      | nil => simp only [spinStep]; rw [hd]; exact h
      | cons p r =>
        obtain ⟨h1, _⟩ := ring_down h hd
        have hp : p.path = 0 := h.down p (by rw [hd]; exact List.mem_cons_self)
        simp only [spinStep]
        rw [hd]
        simp only [List.getElem?_cons_zero, List.eraseIdx_cons_zero, in_basic y.client h.client.2, Option.getD_some, hp]
        refine ⟨h.client, h.server, h.up, fun q hq => h.down q (by rw [hd]; exact List.mem_cons_of_mem _ hq), ?_⟩
        simp only [spinWay, if_true, h.client.1, Bool.xor_true, Bool.not_not]
        exact h1
    · cases hd : y.up with
      | nil => simp only [spinStep]; rw [hd]; exact h
      | cons p r =>
        have hp : p.path = 0 := h.up p (by rw [hd]; exact List.mem_cons_self)
        simp only [spinStep]
        rw [hd]
        simp only [List.getElem?_cons_zero, List.eraseIdx_cons_zero, in_basic y.server h.server.2, Option.getD_some, hp]
        refine ⟨h.client, h.server, fun q hq => h.up q (by rw [hd]; exact List.mem_cons_of_mem _ hq), h.down, ?_⟩
        simp only [spinWay, if_true, h.server.1, Bool.xor_false]
        rw [hd] at hone
        have := one_of_drop (c := y.client.spin 0) (x := y.server.spin 0) (l := y.down.map (·.bit)) (r := p.bit :: r.map (·.bit))
        simp only [List.map_cons, List.append_assoc, List.cons_append, List.nil_append] at this hone ⊢
        exact this hone

theorem ring_run : ∀ (es : List SpinEvent) (y : SpinSys), Ring y → (∀ e ∈ es, spinInOrder e) → Ring (spinRun y es) := by
  intro es
  induction es with
  | nil => intro y h _; exact h
  | cons e es ih =>
    intro y h ho
    exact ih _ (ring_step y e h (ho e List.mem_cons_self)) (fun x hx => ho x (List.mem_cons_of_mem _ hx))

end Picoquic.SpinBit
