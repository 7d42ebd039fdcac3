import Verif.Proof.H3Data
import Verif.Proof.Fixed
import Verif.Model.Capsule
import Verif.Spec.Capsule
/-!
# Proofs about capsules
-/

namespace Picoquic.Capsule
open Picoquic Picoquic.Spec
open Picoquic.H3Data (complete readRec varVal varSkip typeLen headLen)

/-! ### The front of a capsule -/

theorem readRec_append_none : ∀ (a b h h' r : Bytes), readRec h a = (h', r, none) → readRec h (a ++ b) = readRec h' b := by
  intro a
  induction a with
  | nil => intro b h h' r e; unfold readRec at e; injection e with e1 _; rw [← e1]; rfl
  | cons x a ih =>
    intro b h h' r e
    rw [List.cons_append]
    unfold readRec at e
    conv => lhs; unfold readRec
    by_cases c : complete (h ++ [x]) = true
    · rw [if_pos c] at e; injection e with _ e; injection e with _ e; cases e
    · rw [if_neg c] at e ⊢; exact ih b _ h' r e

theorem readRec_append_some : ∀ (a b h h' r : Bytes) (tn : Nat × Nat), readRec h a = (h', r, some tn) → readRec h (a ++ b) = (h', r ++ b, some tn) := by
  intro a
  induction a with
  | nil => intro b h h' r tn e; unfold readRec at e; injection e with _ e; injection e with _ e; cases e
  | cons x a ih =>
    intro b h h' r tn e
    rw [List.cons_append]
    unfold readRec at e
    conv => lhs; unfold readRec
    by_cases c : complete (h ++ [x]) = true
    · rw [if_pos c] at e ⊢
      injection e with e1 e; injection e with e2 e3
      rw [← e1, ← e2, ← e3]
    · rw [if_neg c] at e ⊢; exact ih b _ h' r tn e

theorem readRec_none : ∀ (a h h' r : Bytes), complete h = false → readRec h a = (h', r, none) → complete h' = false ∧ r = [] ∧ (h' = [] → h = [] ∧ a = []) := by
  intro a
  induction a with
  | nil => intro h h' r hc e; unfold readRec at e; injection e with e1 e; injection e with e2 _; subst e1; exact ⟨hc, e2.symm, fun h => ⟨h, rfl⟩⟩
  | cons x a ih =>
    intro h h' r _ e
    unfold readRec at e
    by_cases c : complete (h ++ [x]) = true
    · rw [if_pos c] at e; injection e with _ e; injection e with _ e; cases e
    · rw [if_neg c] at e
      obtain ⟨h1, h2, h3⟩ := ih _ h' r (by simpa using c) e
      exact ⟨h1, h2, fun h0 => absurd (h3 h0).1 (by simp)⟩

theorem varVal_lt {q : Bytes} (hq : q ≠ []) (hl : q.length = varSkip (q.headD 0)) : varVal q < 2 ^ 62 := by
  cases q with
  | nil => exact absurd rfl hq
  | cons b q =>
    show Picoquic.accumulate (b &&& 0x3F).toNat q < _
    rw [accumulate_eq, low6_eq]
    have hb : b.toNat < 256 := toNat_lt256 b
    have h1 := bigEndian_lt q
    rw [H3Data.varSkip_eq, List.length_cons, List.headD_cons] at hl
    have h2 : b.toNat / 64 ≤ 3 := by omega
    have h3 : 2 ^ (b.toNat / 64) ≤ 2 ^ 3 := Nat.pow_le_pow_right (by decide) h2
    have h4 : 256 ^ q.length ≤ 256 ^ 7 := Nat.pow_le_pow_right (by decide) (by omega)
    have h5 : b.toNat % 64 * 256 ^ q.length ≤ 63 * 256 ^ q.length := Nat.mul_le_mul_right _ (by omega)
    simp only [Nat.reducePow] at h4 ⊢
    omega

theorem complete_new {h : Bytes} {b : UInt8} (hc : complete h = false) (hc' : complete (h ++ [b]) = true) : (h ++ [b]).length = headLen (h ++ [b]) ∧ typeLen (h ++ [b]) < (h ++ [b]).length := by
  obtain ⟨-, h2, h3⟩ := of_decide_eq_true hc'
  refine ⟨?_, h2⟩
  have hlen : (h ++ [b]).length = h.length + 1 := by rw [List.length_append, List.length_singleton]
  have hg := H3Data.headLen_gt (h ++ [b])
  have hp := H3Data.typeLen_pos (h ++ [b])
  by_cases hn : h = []
  · subst hn; simp only [List.nil_append, List.length_singleton] at *; omega
  · by_cases ht : typeLen h < h.length
    · rw [H3Data.headLen_append hn ht] at h3 ⊢
      by_cases c : h.length < headLen h
      · omega
      · have : complete h = true := decide_eq_true ⟨hn, ht, by omega⟩
        rw [hc] at this; cases this
    · rw [H3Data.typeLen_append hn] at h2 hg
      omega

theorem readRec_lt : ∀ (a h h' r : Bytes) (t n : Nat), complete h = false → readRec h a = (h', r, some (t, n)) → n < 2 ^ 62 ∧ r.length < a.length := by
  intro a
  induction a with
  | nil => intro h h' r t n _ e; unfold readRec at e; injection e with _ e; injection e with _ e; cases e
  | cons x a ih =>
    intro h h' r t n hc e
    unfold readRec at e
    by_cases c : complete (h ++ [x]) = true
    · rw [if_pos c] at e
      injection e with e1 e; injection e with e2 e; injection e with e; injection e with e3 e4
      obtain ⟨l1, l2⟩ := complete_new hc c
      refine ⟨?_, by rw [← e2]; simp⟩
      rw [← e4]
      apply varVal_lt
      · intro h0; rw [List.drop_eq_nil_iff] at h0; omega
      · rw [List.length_drop]
        have : (((h ++ [x]).drop (typeLen (h ++ [x]))).headD 0) = (h ++ [x]).getD (typeLen (h ++ [x])) 0 := by
          rw [List.headD_eq_head?_getD, List.head?_drop, List.getD_eq_getElem?_getD]
        rw [this]
        unfold headLen at l1
        omega
    · rw [if_neg c] at e
      obtain ⟨k1, k2⟩ := ih _ h' r t n (by simpa using c) e
      exact ⟨k1, by rw [List.length_cons]; omega⟩

/-! ### Pieces -/

/-- The state when the front `h` and the bytes `r` of the value were read. -/
def St (h : Bytes) (t n : Nat) (r : Bytes) : Cap :=
  { hdr := h, known := true, stored := decide (n ≤ r.length), ty := t, len := n, read := r.length, size := n, buf := some (r ++ List.replicate (n - r.length) 0) }

/-- What comes of the front of a capsule and what follows. -/
def body (h : Bytes) (t n : Nat) (r : Bytes) : List Ev × Res :=
  if r.length < n then ([], .ok (St h t n r))
  else
    match act (St h t n (r.take n)) with
    | none => ([], .refused)
    | some e => if r.length = n then ([e], .ok (St h t n r)) else ([e], .ub)

/-- What comes of all the bytes. -/
def outcome (mem : Nat → Bool) (h : Bytes) (bs : Bytes) : List Ev × Res :=
  match readRec h bs with
  | (h', _, none) => ([], .ok { hdr := h' })
  | (h', r, some (t, n)) => if n = 0 ∨ mem n = false then ([], .refused) else body h' t n r

theorem loop_nil (mem : Nat → Bool) (f : Nat) (c : Cap) (hf : 0 < f) : loop mem f c [] = ([], .ok c) := by
  cases f with
  | zero => omega
  | succ f => unfold loop; rw [if_pos rfl]

theorem reset_st {h : Bytes} {t n : Nat} {r : Bytes} (hr : r.length < n) : reset (St h t n r) = St h t n r := by
  unfold reset
  rw [if_neg]
  show ¬ decide (n ≤ r.length) = true
  simp; omega

theorem amount_st {h : Bytes} {t n : Nat} {r bs : Bytes} (hr : r.length ≤ n) (hn : n < 2 ^ 62) : amount (St h t n r) bs = min bs.length (n - r.length) := by
  show (if r.length + bs.length > n then (n + 2 ^ 64 - r.length) % 2 ^ 64 else bs.length) = _
  simp only [Nat.reducePow] at hn ⊢
  by_cases c : r.length + bs.length > n
  · rw [if_pos c, show n + 18446744073709551616 - r.length = (n - r.length) + 18446744073709551616 by omega, Nat.add_mod_right, Nat.mod_eq_of_lt (by omega)]; omega
  · rw [if_neg c]; omega

/-- Bytes of the value. -/
theorem copy_st {h : Bytes} {t n : Nat} {r bs : Bytes} (hr : r.length ≤ n) (hn : n < 2 ^ 62) :
    copy (St h t n r) bs = .ok (St h t n (r ++ bs.take (n - r.length))) (bs.drop (n - r.length)) := by
  have ha : amount (St h t n r) bs = min bs.length (n - r.length) := amount_st hr hn
  have hb : (St h t n r).buf = some (r ++ List.replicate (n - r.length) 0) := rfl
  have hrd : (St h t n r).read = r.length := rfl
  unfold copy
  rw [hb, ha, hrd]
  dsimp only
  have hl : (r ++ List.replicate (n - r.length) (0 : UInt8)).length = n := by rw [List.length_append, List.length_replicate]; omega
  rw [if_neg (by rw [hl]; omega)]
  have et : bs.take (min bs.length (n - r.length)) = bs.take (n - r.length) := by
    rw [List.take_eq_take_iff]; omega
  have ed : bs.drop (min bs.length (n - r.length)) = bs.drop (n - r.length) := by
    by_cases c : n - r.length ≤ bs.length
    · rw [Nat.min_eq_right c]
    · rw [Nat.min_eq_left (by omega), List.drop_length, List.drop_eq_nil_of_le (by omega)]
  have el : (r ++ bs.take (n - r.length)).length = r.length + min bs.length (n - r.length) := by
    rw [List.length_append, List.length_take]; omega
  rw [et, ed]
  congr 1
  unfold St
  congr 1
  · show (if r.length + min bs.length (n - r.length) ≥ n then true else decide (n ≤ r.length)) = decide (n ≤ (r ++ bs.take (n - r.length)).length)
    rw [el]
    by_cases c : r.length + min bs.length (n - r.length) ≥ n
    · rw [if_pos c, decide_eq_true c]
    · rw [if_neg c, decide_eq_false c, decide_eq_false (by omega)]
  · exact el.symm
  · rw [el, List.take_left, List.drop_append, List.append_assoc]
    congr 3
    rw [show r.length + min bs.length (n - r.length) - r.length = min bs.length (n - r.length) by omega, List.drop_eq_nil_of_le (by omega), List.nil_append, List.drop_replicate]
    congr 1
    omega

theorem store_st {mem : Nat → Bool} {h : Bytes} {t n : Nat} {r bs : Bytes} : store mem (St h t n r) bs = copy (St h t n r) bs := by
  have e : grow mem (St h t n r) = some (St h t n r) := by
    unfold grow
    exact if_neg (show ¬ n < n by omega)
  unfold store
  rw [e]

/-- After a capsule. -/
theorem accumulate_stored {mem : Nat → Bool} {h : Bytes} {t n : Nat} {r bs : Bytes} (hr : r.length = n) (h0 : 0 < n) (hn : n < 2 ^ 62) : accumulate mem (St h t n r) bs = .ub := by
  let R : Cap := { hdr := [], known := true, stored := false, ty := 0, len := 0, read := r.length, size := n, buf := some (r ++ List.replicate (n - r.length) 0) }
  have hrs : reset (St h t n r) = R := by
    unfold reset
    rw [if_pos]
    · rfl
    · show decide (n ≤ r.length) = true
      simp; omega
  have hg : grow mem R = some R := by
    unfold grow
    exact if_neg (show ¬ n < 0 by omega)
  have ha : amount R bs = 2 ^ 64 - n := by
    show (if r.length + bs.length > 0 then (0 + 2 ^ 64 - r.length) % 2 ^ 64 else bs.length) = _
    rw [if_pos (by omega), hr]
    simp only [Nat.reducePow] at hn ⊢
    rw [Nat.mod_eq_of_lt (by omega)]
  have hcp : copy R bs = .ub := by
    unfold copy
    have hb : R.buf = some (r ++ List.replicate (n - r.length) 0) := rfl
    rw [hb]
    dsimp only
    rw [if_pos]
    right
    rw [ha]
    show r.length + _ > _
    rw [List.length_append, List.length_replicate]
    simp only [Nat.reducePow] at hn ⊢
    omega
  unfold accumulate
  rw [hrs, if_pos (show R.known = true from rfl)]
  unfold store
  rw [hg]
  exact hcp

theorem loop_stored {mem : Nat → Bool} {f : Nat} {h : Bytes} {t n : Nat} {r bs : Bytes} (hr : r.length = n) (h0 : 0 < n) (hn : n < 2 ^ 62) (hb : bs ≠ []) (hf : 0 < f) :
    loop mem f (St h t n r) bs = ([], .ub) := by
  cases f with
  | zero => omega
  | succ f =>
    unfold loop
    rw [if_neg hb, accumulate_stored hr h0 hn]

/-- What a call that reads bytes of the value leads to. -/
theorem after_copy {mem : Nat → Bool} {f : Nat} {h : Bytes} {t n : Nat} {r bs : Bytes} (hr : r.length ≤ n) (h0 : 0 < n) (hn : n < 2 ^ 62) (hf : 0 < f)
    {c : Cap} {x : Bytes} (e : copy (St h t n r) bs = .ok c x) :
    (if c.stored then
      match act c with
      | none => ([], .refused)
      | some e => (e :: (loop mem f c x).1, (loop mem f c x).2)
    else loop mem f c x) = body h t n (r ++ bs) := by
  rw [copy_st hr hn] at e
  injection e with e1 e2
  subst e1; subst e2
  have hst : (St h t n (r ++ bs.take (n - r.length))).stored = decide (n ≤ (r ++ bs).length) := by
    show decide (n ≤ (r ++ bs.take (n - r.length)).length) = _
    rw [List.length_append, List.length_append, List.length_take]
    congr 1
    rw [eq_iff_iff]
    omega
  have htk : (r ++ bs).take n = r ++ bs.take (n - r.length) := by
    rw [List.take_append, List.take_of_length_le hr]
  unfold body
  by_cases c : (r ++ bs).length < n
  · rw [if_pos c, if_neg (by rw [hst]; simp; rw [List.length_append] at c; omega)]
    rw [List.length_append] at c
    rw [List.take_of_length_le (by omega), List.drop_eq_nil_of_le (by omega), loop_nil _ _ _ hf]
  · rw [if_neg c, if_pos (by rw [hst]; simp; rw [List.length_append] at c; omega), htk]
    rw [List.length_append] at c
    cases act (St h t n (r ++ bs.take (n - r.length))) with
    | none => rfl
    | some e =>
      dsimp only
      by_cases c2 : (r ++ bs).length = n
      · rw [if_pos c2]
        rw [List.length_append] at c2
        rw [List.drop_eq_nil_of_le (by omega), loop_nil _ _ _ hf, List.take_of_length_le (by omega)]
      · rw [if_neg c2]
        rw [List.length_append] at c2
        rw [loop_stored (by rw [List.length_append, List.length_take]; omega) h0 hn (by intro h; rw [List.drop_eq_nil_iff] at h; omega) hf]

/-- A piece in the middle of the value. -/
theorem receive_st {mem : Nat → Bool} {h : Bytes} {t n : Nat} {r bs : Bytes} (hr : r.length < n) (hn : n < 2 ^ 62) (hb : bs ≠ []) :
    receive mem (St h t n r) bs = body h t n (r ++ bs) := by
  unfold receive loop
  rw [if_neg hb]
  have e : accumulate mem (St h t n r) bs = copy (St h t n r) bs := by
    unfold accumulate
    rw [reset_st hr, if_pos (show (St h t n r).known = true from rfl), store_st]
  rw [e]
  have e2 := copy_st (h := h) (t := t) (bs := bs) (Nat.le_of_lt hr) hn
  rw [e2]
  dsimp only
  exact after_copy (Nat.le_of_lt hr) (by omega) hn (List.length_pos_iff.2 hb) e2

/-- A piece in the front. -/
theorem receive_front {mem : Nat → Bool} {h bs : Bytes} (hc : complete h = false) (hb : bs ≠ []) : receive mem { hdr := h } bs = outcome mem h bs := by
  have hrs : reset { hdr := h } = { hdr := h } := rfl
  unfold receive loop
  rw [if_neg hb]
  unfold accumulate
  rw [hrs, if_neg (show ¬ ((false : Bool) = true) from fun h => nomatch h), if_neg (fun h => hb h.2)]
  dsimp only
  rw [H3Data.readHeader_rec hc hb]
  unfold outcome
  cases er : readRec h bs with
  | mk h' p =>
    obtain ⟨r, o⟩ := p
    cases o with
    | none =>
      obtain ⟨-, k2, -⟩ := readRec_none _ _ _ _ hc er
      subst k2
      dsimp only
      rw [if_neg (by decide), loop_nil _ _ _ (List.length_pos_iff.2 hb)]
    | some tn =>
      obtain ⟨t, n⟩ := tn
      obtain ⟨hn, hl⟩ := readRec_lt _ _ _ _ _ _ hc er
      dsimp only
      by_cases h0 : n = 0
      · subst h0
        rw [if_pos (.inl rfl)]
        rfl
      · by_cases hm : mem n = true
        · rw [if_neg (by rw [hm]; simp [h0])]
          have e1 : store mem { hdr := h', ty := t, len := n, known := true } r = copy (St h' t n []) r := by
            unfold store grow
            rw [if_pos (show 0 < n by omega), if_pos hm, if_pos rfl]
            dsimp only
            congr 1
            unfold St
            congr 1
            exact (decide_eq_false (show ¬ n ≤ 0 by omega)).symm
          rw [e1]
          have e2 := copy_st (h := h') (t := t) (n := n) (r := []) (bs := r) (Nat.zero_le _) hn
          rw [e2]
          dsimp only
          exact after_copy (mem := mem) (f := bs.length) (Nat.zero_le _) (by omega) hn (List.length_pos_iff.2 hb) e2
        · have hm : mem n = false := by simpa using hm
          rw [if_pos (.inr hm)]
          unfold store grow
          rw [if_pos (show 0 < n by omega), if_neg (by rw [hm]; decide)]
          rfl

theorem receive_nil (mem : Nat → Bool) (c : Cap) : receive mem c [] = ([], .ok c) := loop_nil _ _ _ (by decide)

/-- Continuing after a piece. -/
def andThen (r : List Ev × Res) (k : Cap → List Ev × Res) : List Ev × Res :=
  match r with
  | (es, .ok c) => (es ++ (k c).1, (k c).2)
  | (es, .ub) => (es, .ub)
  | (es, .hang) => (es, .hang)
  | (es, .refused) => (es, .refused)

theorem body_append {mem : Nat → Bool} {h : Bytes} {t n : Nat} {r b : Bytes} (h0 : 0 < n) (hn : n < 2 ^ 62) (hb : b ≠ []) :
    body h t n (r ++ b) = andThen (body h t n r) (fun c => receive mem c b) := by
  have hbl := List.length_pos_iff.2 hb
  by_cases c : r.length < n
  · conv => rhs; unfold body
    rw [if_pos c]
    show _ = ([] ++ (receive mem (St h t n r) b).1, (receive mem (St h t n r) b).2)
    rw [receive_st c hn hb]
    rfl
  · unfold body
    rw [if_neg c, if_neg (by rw [List.length_append]; omega), List.take_append_of_le_length (by omega)]
    cases act (St h t n (r.take n)) with
    | none => rfl
    | some e =>
      dsimp only
      rw [if_neg (by rw [List.length_append]; omega)]
      by_cases c2 : r.length = n
      · rw [if_pos c2]
        show _ = ([e] ++ (receive mem (St h t n r) b).1, (receive mem (St h t n r) b).2)
        unfold receive
        rw [loop_stored c2 h0 hn hb (by omega)]
        rfl
      · rw [if_neg c2]; rfl

theorem outcome_append {mem : Nat → Bool} {h a b : Bytes} (hc : complete h = false) (hb : b ≠ []) :
    outcome mem h (a ++ b) = andThen (outcome mem h a) (fun c => receive mem c b) := by
  unfold outcome
  cases er : readRec h a with
  | mk h' p =>
    obtain ⟨r, o⟩ := p
    cases o with
    | none =>
      obtain ⟨k1, k2, -⟩ := readRec_none _ _ _ _ hc er
      rw [readRec_append_none _ b _ _ _ er]
      show _ = ([] ++ (receive mem { hdr := h' } b).1, (receive mem { hdr := h' } b).2)
      rw [receive_front k1 hb]
      rfl
    | some tn =>
      obtain ⟨t, n⟩ := tn
      obtain ⟨hn, hl⟩ := readRec_lt _ _ _ _ _ _ hc er
      rw [readRec_append_some _ b _ _ _ _ er]
      dsimp only
      by_cases c : n = 0 ∨ mem n = false
      · rw [if_pos c, if_pos c]; rfl
      · rw [if_neg c, if_neg c]
        exact body_append (by omega) hn hb

theorem receiveAll_cons (mem : Nat → Bool) (c : Cap) (p : Bytes) (ps : List Bytes) : receiveAll mem c (p :: ps) = andThen (receive mem c p) (fun c => receiveAll mem c ps) := by
  conv => lhs; unfold receiveAll
  unfold andThen
  split <;> rename_i h <;> rw [h]

theorem andThen_assoc (r : List Ev × Res) (k k' : Cap → List Ev × Res) : andThen (andThen r k) k' = andThen r (fun c => andThen (k c) k') := by
  obtain ⟨es, r⟩ := r
  cases r with
  | ok c =>
    show andThen (es ++ (k c).1, (k c).2) k' = (es ++ (andThen (k c) k').1, (andThen (k c) k').2)
    cases hk : k c with
    | mk es' r' =>
      cases r' <;> simp [andThen]
  | ub => rfl
  | hang => rfl
  | refused => rfl

theorem andThen_pure (r : List Ev × Res) : andThen r (fun c => ([], .ok c)) = r := by
  obtain ⟨es, r⟩ := r
  cases r <;> simp [andThen]

theorem receiveAll_snoc (mem : Nat → Bool) : ∀ (ps : List Bytes) (c : Cap) (p : Bytes), receiveAll mem c (ps ++ [p]) = andThen (receiveAll mem c ps) (fun c => receive mem c p) := by
  intro ps
  induction ps with
  | nil =>
    intro c p
    rw [List.nil_append, receiveAll_cons]
    show andThen _ (fun c => ([], .ok c)) = ([] ++ (receive mem c p).1, (receive mem c p).2)
    rw [andThen_pure]
    rfl
  | cons q ps ih =>
    intro c p
    rw [List.cons_append, receiveAll_cons, receiveAll_cons, andThen_assoc]
    congr 1
    funext c
    exact ih c p

theorem outcome_nil (mem : Nat → Bool) : outcome mem [] [] = ([], .ok {}) := rfl

/-- What comes of the pieces only depends on the bytes. -/
theorem receiveAll_outcome (mem : Nat → Bool) (ps : List Bytes) : receiveAll mem {} ps = outcome mem [] ps.flatten := by
  have : ∀ (qs : List Bytes), receiveAll mem {} qs.reverse = outcome mem [] qs.reverse.flatten := by
    intro qs
    induction qs with
    | nil => rfl
    | cons q qs ih =>
      rw [List.reverse_cons, receiveAll_snoc, ih, List.flatten_append]
      show _ = outcome mem [] (qs.reverse.flatten ++ (q ++ []))
      rw [List.append_nil]
      by_cases hq : q = []
      · subst hq
        rw [List.append_nil]
        have : (fun c => receive mem c []) = (fun c => (([], .ok c) : List Ev × Res)) := by funext c; exact receive_nil _ _
        rw [this, andThen_pure]
      · rw [outcome_append (H3Data.complete_short (by decide)) hq]
  have h := this ps.reverse
  rw [List.reverse_reverse] at h
  exact h

/-! ### Capsules -/

theorem varint_ne {p : Bytes} {t : Nat} (h : Varint p t) : p ≠ [] := by
  obtain ⟨k, h⟩ := h
  exact (H3Data.varint_head h).1

theorem outcome_front {mem : Nat → Bool} {p q : Bytes} {t n : Nat} (hp : Varint p t) (hq : Varint q n) (r : Bytes) :
    outcome mem [] (p ++ (q ++ r)) = if n = 0 ∨ mem n = false then ([], .refused) else body (p ++ q) t n r := by
  have hn : p ++ q ≠ [] := by simp [varint_ne hp]
  unfold outcome
  rw [← List.append_assoc, H3Data.readRec_front hp hq r (p ++ q) [] rfl hn]

theorem readRec_incomplete {p q : Bytes} {t n : Nat} (hp : Varint p t) (hq : Varint q n) : ∀ (y x z : Bytes), x ++ (y ++ z) = p ++ q → z ≠ [] → readRec x y = (x ++ y, [], none) := by
  intro y
  induction y with
  | nil => intro x z _ _; unfold readRec; rw [List.append_nil]
  | cons b y ih =>
    intro x z h hz
    have h' : (x ++ [b]) ++ (y ++ z) = p ++ q := by rw [← h]; simp
    have hzl := List.length_pos_iff.2 hz
    unfold readRec
    rw [if_neg (by
      rw [H3Data.front_incomplete hp hq (x := x ++ [b]) ⟨_, h'⟩ (by
        rw [← h']; simp only [List.length_append, List.length_singleton]; omega)]; decide)]
    rw [ih _ z h' hz]
    simp

/-- A part of a capsule leads to nothing. -/
theorem outcome_part {mem : Nat → Bool} {t : Nat} {v bs x : Bytes} (hb : CapsuleBytes t v bs) (hv : v ≠ []) (hm : mem v.length = true) (hx : x <+: bs) (hl : x.length < bs.length) :
    ∃ c, outcome mem [] x = ([], .ok c) := by
  obtain ⟨p, q, rfl, hp, hq⟩ := hb
  obtain ⟨y, hy⟩ := hx
  have hvl := List.length_pos_iff.2 hv
  by_cases c : x.length < (p ++ q).length
  · refine ⟨{ hdr := x }, ?_⟩
    have e : readRec [] x = (x, [], none) := by
      have : x <+: p ++ q := by
        apply List.prefix_of_prefix_length_le (l₃ := p ++ (q ++ v)) ⟨y, hy⟩ ⟨v, by simp⟩ (Nat.le_of_lt c)
      obtain ⟨z, hz⟩ := this
      have hzn : z ≠ [] := by intro h; subst h; rw [List.append_nil] at hz; rw [hz] at c; omega
      have := readRec_incomplete hp hq x [] z (by simpa using hz) hzn
      simpa using this
    unfold outcome
    rw [e]
  · have : p ++ q <+: x := List.prefix_of_prefix_length_le (l₃ := p ++ (q ++ v)) ⟨v, by simp⟩ ⟨y, hy⟩ (by omega)
    obtain ⟨z, rfl⟩ := this
    refine ⟨St (p ++ q) t v.length z, ?_⟩
    rw [List.append_assoc, outcome_front hp hq, if_neg (by rw [hm]; simp; exact hv)]
    unfold body
    rw [if_pos]
    simp only [List.length_append] at hl
    omega

theorem outcome_whole {mem : Nat → Bool} {t : Nat} {v bs : Bytes} (hb : CapsuleBytes t v bs) (rest : Bytes) :
    ∃ h, outcome mem [] (bs ++ rest) = if v = [] ∨ mem v.length = false then ([], .refused) else body h t v.length (v ++ rest) := by
  obtain ⟨p, q, rfl, hp, hq⟩ := hb
  refine ⟨p ++ q, ?_⟩
  rw [List.append_assoc, List.append_assoc, outcome_front hp hq]
  by_cases c : v = []
  · subst c; rw [if_pos (.inl rfl), if_pos (.inl rfl)]
  · by_cases c2 : mem v.length = false
    · rw [if_pos (.inr c2), if_pos (.inr c2)]
    · rw [if_neg (by simp [c2, c]), if_neg (by simp [c2, c])]

theorem st_val (h : Bytes) (t : Nat) (v : Bytes) : ((St h t v.length v).buf.getD []).take (St h t v.length v).len = v := by
  show (v ++ _).take v.length = v
  rw [List.take_left]

theorem act_datagram (h v : Bytes) : act (St h 0 v.length v) = some (.datagram v) := by
  unfold act
  rw [if_pos (show (St h 0 v.length v).ty = 0 from rfl), st_val]

theorem act_session (h v msg : Bytes) {t code : Nat} (ht : t = 0x78ae ∨ t = 0x2843) (hv : CloseValue code msg v) : act (St h t v.length v) = some (.session t code msg) := by
  obtain ⟨p, rfl, hp, hc⟩ := hv
  unfold act
  have h0 : (St h t (p ++ msg).length (p ++ msg)).ty = t := rfl
  rw [h0, if_neg (by omega), if_pos ht, if_neg (by show ¬ (p ++ msg).length < 4; rw [List.length_append]; omega), st_val,
    (framesUint32Decode_iff _ code msg).2 ⟨p, hp, rfl, hc⟩]

theorem act_other (h v : Bytes) {t : Nat} (h0 : t ≠ 0) (h1 : t ≠ 0x78ae) (h2 : t ≠ 0x2843) : act (St h t v.length v) = none := by
  unfold act
  have e : (St h t v.length v).ty = t := rfl
  rw [e, if_neg h0, if_neg (fun h => h.elim h1 h2)]

theorem act_short (h v : Bytes) {t : Nat} (ht : t = 0x78ae ∨ t = 0x2843) (hv : v.length < 4) : act (St h t v.length v) = none := by
  unfold act
  have e : (St h t v.length v).ty = t := rfl
  rw [e, if_neg (by omega), if_pos ht]
  exact if_pos hv

theorem body_whole (h : Bytes) (t : Nat) (v rest : Bytes) :
    body h t v.length (v ++ rest) = (match act (St h t v.length v) with
      | none => ([], .refused)
      | some e => if rest = [] then ([e], .ok (St h t v.length v)) else ([e], .ub)) := by
  unfold body
  rw [if_neg (by rw [List.length_append]; omega), List.take_left]
  cases act (St h t v.length v) with
  | none => rfl
  | some e =>
    dsimp only
    by_cases c : rest = []
    · subst c; rw [if_pos (by simp), if_pos rfl, List.append_nil]
    · rw [if_neg (by rw [List.length_append]; have := List.length_pos_iff.2 c; omega), if_neg c]

/-- The front of a capsule is its type and its length. -/
theorem varint_of {q : Bytes} (hq : q ≠ []) (hl : q.length = varSkip (q.headD 0)) : Varint q (varVal q) := by
  cases q with
  | nil => exact absurd rfl hq
  | cons b q =>
    rw [H3Data.varSkip_eq, List.headD_cons] at hl
    have h := (framesVarintDecode_iff (b :: q) (varVal (b :: q)) []).1 (by
      unfold framesVarintDecode
      dsimp only
      rw [varintLen_eq, if_pos (by omega), ← hl, List.length_cons, Nat.add_sub_cancel, List.take_length, List.drop_length]
      rfl)
    obtain ⟨k, p, h1, h2⟩ := h
    rw [List.append_nil] at h1
    subst h1
    exact ⟨k, h2⟩

theorem readRec_some : ∀ (a h h' r : Bytes) (t n : Nat), complete h = false → readRec h a = (h', r, some (t, n)) → ∃ p q, h' = p ++ q ∧ Varint p t ∧ Varint q n ∧ h ++ a = p ++ (q ++ r) := by
  intro a
  induction a with
  | nil => intro h h' r t n _ e; unfold readRec at e; injection e with _ e; injection e with _ e; cases e
  | cons x a ih =>
    intro h h' r t n hc e
    unfold readRec at e
    by_cases c : complete (h ++ [x]) = true
    · rw [if_pos c] at e
      injection e with e1 e; injection e with e2 e; injection e with e; injection e with e3 e4
      obtain ⟨l1, l2⟩ := complete_new hc c
      have hp := H3Data.typeLen_pos (h ++ [x])
      refine ⟨(h ++ [x]).take (typeLen (h ++ [x])), (h ++ [x]).drop (typeLen (h ++ [x])), by rw [List.take_append_drop]; exact e1.symm, ?_, ?_, ?_⟩
      · rw [← e3]
        apply varint_of
        · intro h0; rw [List.take_eq_nil_iff] at h0; rcases h0 with h0 | h0
          · omega
          · simp at h0
        · rw [List.length_take, Nat.min_eq_left (by omega)]
          generalize h ++ [x] = y at *
          cases y with
          | nil => simp at l2
          | cons b y =>
            unfold typeLen at hp ⊢
            rw [List.headD_cons] at hp ⊢
            cases e : varSkip b with
            | zero => omega
            | succ m => rw [List.take_succ_cons, List.headD_cons, e]
      · rw [← e4]
        apply varint_of
        · intro h0; rw [List.drop_eq_nil_iff] at h0; omega
        · rw [List.length_drop]
          have : (((h ++ [x]).drop (typeLen (h ++ [x]))).headD 0) = (h ++ [x]).getD (typeLen (h ++ [x])) 0 := by
            rw [List.headD_eq_head?_getD, List.head?_drop, List.getD_eq_getElem?_getD]
          rw [this]
          unfold headLen at l1
          omega
      · rw [← List.append_assoc, List.take_append_drop, ← e2]; simp
    · rw [if_neg c] at e
      obtain ⟨p, q, k1, k2, k3, k4⟩ := ih _ h' r t n (by simpa using c) e
      exact ⟨p, q, k1, k2, k3, by rw [← k4]; simp⟩

theorem body_hang (h : Bytes) (t n : Nat) (r : Bytes) : (body h t n r).2 ≠ .hang := by
  unfold body
  split
  · exact fun h => nomatch h
  · split
    · exact fun h => nomatch h
    · split <;> exact fun h => nomatch h

theorem outcome_hang (mem : Nat → Bool) (bs : Bytes) : (outcome mem [] bs).2 ≠ .hang := by
  unfold outcome
  split
  · exact fun h => nomatch h
  · split
    · exact fun h => nomatch h
    · exact body_hang _ _ _ _

theorem outcome_ub {mem : Nat → Bool} {bs : Bytes} (h : (outcome mem [] bs).2 = .ub) :
    ∃ t v cs rest, bs = cs ++ rest ∧ rest ≠ [] ∧ CapsuleBytes t v cs ∧ v ≠ [] ∧ mem v.length = true ∧ (t = 0 ∨ ((t = 0x78ae ∨ t = 0x2843) ∧ 4 ≤ v.length)) := by
  unfold outcome at h
  cases er : readRec [] bs with
  | mk h' p =>
    obtain ⟨r, o⟩ := p
    rw [er] at h
    cases o with
    | none => cases h
    | some tn =>
      obtain ⟨t, n⟩ := tn
      obtain ⟨p, q, -, hp, hq, hbs⟩ := readRec_some _ _ _ _ _ _ (H3Data.complete_short (by decide)) er
      rw [List.nil_append] at hbs
      dsimp only at h
      by_cases c : n = 0 ∨ mem n = false
      · rw [if_pos c] at h; cases h
      · rw [if_neg c] at h
        unfold body at h
        by_cases c1 : r.length < n
        · rw [if_pos c1] at h; cases h
        · rw [if_neg c1] at h
          have hl : (r.take n).length = n := by rw [List.length_take]; omega
          cases ea : act (St h' t n (r.take n)) with
          | none => rw [ea] at h; cases h
          | some e =>
            rw [ea] at h
            dsimp only at h
            by_cases c2 : r.length = n
            · rw [if_pos c2] at h; cases h
            · refine ⟨t, r.take n, p ++ (q ++ r.take n), r.drop n, ?_, ?_, ⟨p, q, rfl, hp, by rw [hl]; exact hq⟩, ?_, ?_, ?_⟩
              · rw [hbs, List.append_assoc, List.append_assoc, List.take_append_drop]
              · intro h0; rw [List.drop_eq_nil_iff] at h0; omega
              · intro h0; rw [h0, List.length_nil] at hl; omega
              · rw [hl]; cases hm : mem n with
                | true => rfl
                | false => exact absurd (.inr hm) c
              · by_cases t0 : t = 0
                · exact .inl t0
                · by_cases t1 : t = 0x78ae ∨ t = 0x2843
                  · refine .inr ⟨t1, ?_⟩
                    by_cases l4 : 4 ≤ (r.take n).length
                    · exact l4
                    · have := act_short h' (r.take n) t1 (by omega)
                      rw [hl] at this
                      rw [this] at ea; cases ea
                  · have := act_other h' (r.take n) t0 (fun h => t1 (.inl h)) (fun h => t1 (.inr h))
                    rw [hl] at this
                    rw [this] at ea; cases ea

/-! ### Messages -/

theorem closeBytes_iff (code : Nat) (msg bs : Bytes) :
    closeBytes code msg = some bs ↔ 6 + (varintBytes (4 + msg.length)).length + msg.length ≤ 512 ∧ bs = varintBytes 0x2843 ++ (varintBytes (4 + msg.length) ++ (picoformat32 code ++ msg)) := by
  have e1 : (varintBytes 0x2843).length = 2 := by decide
  have hl := encodeVarintLength_le (4 + msg.length)
  have hp := encodeVarintLength_pos (4 + msg.length)
  have e2 := varintBytes_length (4 + msg.length)
  have e3 : (Enc.seq (framesVarintEncode 0x2843) (Enc.seq (framesVarintEncode (4 + msg.length)) (framesUint32Encode code))) 512
      = some (varintBytes 0x2843 ++ (varintBytes (4 + msg.length) ++ picoformat32 code)) := by
    unfold Enc.seq
    rw [framesVarintEncode_eq, if_pos (by decide)]
    dsimp only
    rw [framesVarintEncode_eq, e1, if_pos (by omega)]
    dsimp only
    unfold framesUint32Encode
    rw [if_neg (by omega)]
    rfl
  have e4 : (picoformat32 code).length = 4 := rfl
  unfold closeBytes
  rw [e3]
  dsimp only
  have e5 : (varintBytes 0x2843 ++ (varintBytes (4 + msg.length) ++ picoformat32 code)).length = 6 + (varintBytes (4 + msg.length)).length := by
    simp only [List.length_append, e1, e4]; omega
  rw [e5]
  by_cases c : 6 + (varintBytes (4 + msg.length)).length + msg.length > 512
  · rw [if_pos c]
    exact ⟨(fun h => nomatch h), fun h => by omega⟩
  · rw [if_neg c]
    simp only [Option.some.injEq, List.append_assoc]
    exact ⟨fun h => ⟨by omega, h.symm⟩, fun h => h.2.symm⟩

end Picoquic.Capsule
