import Verif.Model.H3Control
import Verif.Spec.H3Control
import Verif.Proof.H3Data
/-!
# Proofs about HTTP/3 settings and the streams opened by the peer
-/

namespace Picoquic.H3Control
open Picoquic Picoquic.H3Data Picoquic.Spec

/-! ### Numbers -/

/-- More bytes are needed. -/
def Part (buf : Bytes) : Prop := buf = [] ∨ buf.length < varSkip (buf.headD 0)

theorem vfs_nil (buf : Bytes) : varintFromStream buf [] = (buf, [], none) := rfl

theorem vfs_cons {buf : Bytes} (h : Part buf) (b : UInt8) (bs : Bytes) :
    varintFromStream buf (b :: bs) =
      if (buf ++ [b]).length ≥ varSkip ((buf ++ [b]).headD 0) then ([], bs, some (varVal (buf ++ [b]))) else varintFromStream (buf ++ [b]) bs := by
  have hlen : (buf ++ [b]).length = buf.length + 1 := by simp
  have key : varintFromStream buf (b :: bs) =
      (let g := fill (buf ++ [b]) (varSkip ((buf ++ [b]).headD 0)) bs
       if g.1.length ≥ varSkip ((buf ++ [b]).headD 0) then ([], g.2, some (varVal g.1)) else (g.1, g.2, none)) := by
    unfold varintFromStream
    rw [if_neg (List.cons_ne_nil _ _)]
    dsimp only
    rcases h with h | h
    · subst h
      rw [fill_cons (by decide), fill_full (h := [] ++ [b]) (n := 1) (by simp)]
    · cases buf with
      | nil =>
        rw [fill_cons (by decide), fill_full (h := [] ++ [b]) (n := 1) (by simp)]
      | cons a buf =>
        rw [fill_full (h := a :: buf) (n := 1) (by simp)]
        dsimp only
        rw [fill_cons h]
        rfl
  rw [key]
  dsimp only
  by_cases c : (buf ++ [b]).length ≥ varSkip ((buf ++ [b]).headD 0)
  · rw [if_pos c, fill_full c]
    dsimp only
    rw [if_pos c]
  · rw [if_neg c]
    cases bs with
    | nil =>
      rw [fill_nil]
      dsimp only
      rw [if_neg c, vfs_nil]
    | cons x bs =>
      unfold varintFromStream
      rw [if_neg (List.cons_ne_nil _ _)]
      dsimp only
      rw [fill_full (h := buf ++ [b]) (n := 1) (by simp)]

theorem part_next {buf : Bytes} {b : UInt8} (h : ¬ (buf ++ [b]).length ≥ varSkip ((buf ++ [b]).headD 0)) : Part (buf ++ [b]) := .inr (Nat.lt_of_not_le h)

theorem vfs_spec : ∀ (bs buf : Bytes), Part buf → bs ≠ [] →
    ((varintFromStream buf bs).2.2 = none → (varintFromStream buf bs).2.1 = [] ∧ Part (varintFromStream buf bs).1) ∧
    (∀ v, (varintFromStream buf bs).2.2 = some v → (varintFromStream buf bs).1 = [] ∧ (varintFromStream buf bs).2.1.length < bs.length) := by
  intro bs
  induction bs with
  | nil => intro buf _ h; exact absurd rfl h
  | cons b bs ih =>
    intro buf hp _
    rw [vfs_cons hp]
    by_cases c : (buf ++ [b]).length ≥ varSkip ((buf ++ [b]).headD 0)
    · rw [if_pos c]
      exact ⟨fun h => (by cases h), fun v _ => ⟨rfl, by simp⟩⟩
    · rw [if_neg c]
      cases bs with
      | nil => exact ⟨fun _ => ⟨rfl, part_next c⟩, fun v h => by cases h⟩
      | cons x bs =>
        obtain ⟨h1, h2⟩ := ih (buf ++ [b]) (part_next c) (List.cons_ne_nil _ _)
        exact ⟨h1, fun v hv => ⟨(h2 v hv).1, by have := (h2 v hv).2; rw [List.length_cons]; omega⟩⟩

/-- A whole number. -/
theorem vfs_whole {p : Bytes} {v : Nat} (hp : Varint p v) (rest : Bytes) : varintFromStream [] (p ++ rest) = ([], rest, some v) := by
  obtain ⟨k, hk⟩ := hp
  obtain ⟨h1, h2, h3⟩ := varint_head hk
  have gen : ∀ (y x : Bytes), x ++ y = p → y ≠ [] → Part x → varintFromStream x (y ++ rest) = ([], rest, some v) := by
    intro y
    induction y with
    | nil => intro x _ h; exact absurd rfl h
    | cons b y ih =>
      intro x hx _ hpx
      rw [List.cons_append, vfs_cons hpx]
      have hx' : (x ++ [b]) ++ y = p := by rw [← hx]; simp
      have hh : (x ++ [b]).headD 0 = p.headD 0 := by rw [← hx']; cases x <;> rfl
      cases y with
      | nil =>
        have e : x ++ [b] = p := by rw [← hx']; simp
        rw [e, if_pos (by rw [h2]; exact Nat.le_refl _), h3]
        rfl
      | cons b' y =>
        have hl : ¬ (x ++ [b]).length ≥ varSkip ((x ++ [b]).headD 0) := by
          rw [hh, h2, ← hx']; simp
        rw [if_neg hl]
        exact ih _ hx' (List.cons_ne_nil _ _) (part_next hl)
  exact gen p [] rfl h1 (.inl rfl)

/-! ### The control stream, one byte at a time -/

/-- What holds between pieces. -/
structure Inv (c : Ctl) : Prop where
  part : Part c.buf
  lenTy : c.ty = none → c.len = none
  lenBuf : c.len ≠ none → c.buf = []
  fresh : c.len = none → c.read = 0 ∧ c.frame = none
  open' : ∀ n, c.len = some n → c.read < n ∧ (c.ignored = false → n ≤ 0x10000 ∧ c.frame ≠ none)

/-- Continuing after a piece. -/
def andThen (r : Res) (k : Ctl → Res) : Res :=
  match r with
  | .ok c => k c
  | r => r

/-- Continuing after an iteration. -/
def goOn (o : Step) (k : Ctl → Bytes → Res) : Res :=
  match o with
  | .ok c rest => k c rest
  | .refused code c => .refused code c

theorem reset_inv {c : Ctl} (h : c.buf = []) : Inv (reset c) :=
  ⟨.inl h, fun _ => rfl, fun h => absurd rfl h, fun _ => ⟨rfl, rfl⟩, fun n h => by cases h⟩

theorem finish_spec {c c' : Ctl} {t : Nat} {bs rest : Bytes} (hb : c.buf = []) (h : finish c t bs = .ok c' rest) : Inv c' ∧ rest = bs := by
  unfold finish at h
  split at h
  · split at h
    · cases h
    · dsimp only at h
      split at h
      · cases h; exact ⟨reset_inv hb, rfl⟩
      · cases h
  · cases h; exact ⟨reset_inv hb, rfl⟩

theorem body_spec {c c' : Ctl} {t n : Nat} {bs rest : Bytes} (hb : c.buf = []) (ht : c.ty ≠ none) (hl : c.len = some n) (h : body c t n bs = .ok c' rest) :
    Inv c' ∧ rest.length ≤ bs.length ∧ (c.read < n → bs ≠ [] → rest.length < bs.length) := by
  unfold body at h
  by_cases c1 : c.read < n
  · rw [if_pos c1] at h
    dsimp only at h
    have hk : (if c.read + bs.length > n then n - c.read else bs.length) ≤ bs.length := by split <;> omega
    have hk0 : bs ≠ [] → 0 < (if c.read + bs.length > n then n - c.read else bs.length) := by
      intro h0
      have : 0 < bs.length := List.length_pos_iff.2 h0
      split <;> omega
    generalize (if c.read + bs.length > n then n - c.read else bs.length) = k at *
    have hr : rest = bs.drop k → rest.length ≤ bs.length ∧ (c.read < n → bs ≠ [] → rest.length < bs.length) := by
      intro e
      rw [e, List.length_drop]
      exact ⟨by omega, fun _ h0 => by have := hk0 h0; omega⟩
    by_cases c2 : c.ignored = true
    · rw [if_pos c2] at h
      split at h
      · obtain ⟨i, e⟩ := finish_spec (by exact hb) h
        exact ⟨i, hr e⟩
      · rename_i c3
        cases h
        refine ⟨⟨.inl hb, fun h => absurd h ht, fun _ => hb, fun h => ?_, fun m hm => ?_⟩, hr rfl⟩
        · have h : c.len = none := h
          rw [hl] at h; cases h
        · have hm : c.len = some m := hm
          rw [hl] at hm; cases hm
          refine ⟨Nat.lt_of_not_le c3, fun h => ?_⟩
          have h : c.ignored = false := h
          rw [c2] at h; cases h
    · rw [if_neg c2] at h
      split at h
      · cases h
      · rename_i c4
        split at h
        · obtain ⟨i, e⟩ := finish_spec (by exact hb) h
          exact ⟨i, hr e⟩
        · rename_i c3
          cases h
          refine ⟨⟨.inl hb, fun h => absurd h ht, fun _ => hb, fun h => ?_, fun m hm => ?_⟩, hr rfl⟩
          · have h : c.len = none := h
            rw [hl] at h; cases h
          · have hm : c.len = some m := hm
            rw [hl] at hm; cases hm
            refine ⟨Nat.lt_of_not_le c3, fun _ => ⟨Nat.le_of_not_lt c4, ?_⟩⟩
            intro h; cases h
  · rw [if_neg c1] at h
    obtain ⟨i, e⟩ := finish_spec hb h
    exact ⟨i, by rw [e]; exact Nat.le_refl _, fun h' => absurd h' c1⟩

theorem length_spec {c c' : Ctl} {t : Nat} {bs rest : Bytes} (hi : Inv c) (ht : c.ty = some t) (h : length c t bs = .ok c' rest) :
    Inv c' ∧ rest.length ≤ bs.length ∧ (bs ≠ [] → rest.length < bs.length) := by
  have htn : c.ty ≠ none := by rw [ht]; intro h; cases h
  unfold length at h
  cases hl : c.len with
  | some n =>
    rw [hl] at h
    dsimp only at h
    obtain ⟨i, h1, h2⟩ := body_spec (hi.lenBuf (by rw [hl]; intro h; cases h)) htn hl h
    exact ⟨i, h1, h2 (hi.open' n hl).1⟩
  | none =>
    rw [hl] at h
    dsimp only at h
    by_cases hb : bs = []
    · subst hb
      rw [vfs_nil] at h
      cases h
      refine ⟨⟨hi.part, fun _ => rfl, fun h => absurd rfl h, fun _ => hi.fresh hl, fun n hn => by cases hn⟩, Nat.le_refl _, fun h => absurd rfl h⟩
    · obtain ⟨s1, s2⟩ := vfs_spec bs c.buf hi.part hb
      generalize varintFromStream c.buf bs = x at h s1 s2
      obtain ⟨buf, r, o⟩ := x
      cases o with
      | none =>
        dsimp only at h s1
        cases h
        obtain ⟨e1, e2⟩ := s1 rfl
        exact ⟨⟨e2, fun _ => rfl, fun h => absurd rfl h, fun _ => hi.fresh hl, fun n hn => by cases hn⟩, by rw [e1]; simp, fun h => by rw [e1]; exact List.length_pos_iff.2 h⟩
      | some n =>
        dsimp only at h s2
        obtain ⟨e1, e2⟩ := s2 n rfl
        obtain ⟨i, h1, -⟩ := body_spec (by exact e1) (by exact htn) rfl h
        exact ⟨i, by omega, fun _ => by omega⟩

theorem iter_spec {c c' : Ctl} {bs rest : Bytes} (hi : Inv c) (hb : bs ≠ []) (h : iter c bs = .ok c' rest) : Inv c' ∧ rest.length < bs.length := by
  unfold iter at h
  cases ht : c.ty with
  | some t =>
    rw [ht] at h
    obtain ⟨i, -, h2⟩ := length_spec hi ht h
    exact ⟨i, h2 hb⟩
  | none =>
    rw [ht] at h
    dsimp only at h
    have hl := hi.lenTy ht
    obtain ⟨s1, s2⟩ := vfs_spec bs c.buf hi.part hb
    generalize varintFromStream c.buf bs = x at h s1 s2
    obtain ⟨buf, r, o⟩ := x
    cases o with
    | none =>
      dsimp only at h s1
      cases h
      obtain ⟨e1, e2⟩ := s1 rfl
      refine ⟨⟨e2, fun _ => hl, fun h => absurd hl h, hi.fresh, fun n hn => ?_⟩, by rw [e1]; exact List.length_pos_iff.2 hb⟩
      have hn : c.len = some n := hn
      rw [hl] at hn; cases hn
    | some t =>
      dsimp only at h s2
      obtain ⟨e1, e2⟩ := s2 t rfl
      have hi' : ∀ g, Inv { c with buf := buf, ty := some t, ignored := g } := by
        intro g
        refine ⟨.inl e1, (fun h => by cases h), fun h => absurd hl h, hi.fresh, fun n hn => ?_⟩
        have hn : c.len = some n := hn
        rw [hl] at hn; cases hn
      split at h
      · cases h
      · split at h
        · cases h
        · split at h
          · cases h
          · split at h
            · obtain ⟨i, h1, -⟩ := length_spec (hi' true) rfl h
              exact ⟨i, by omega⟩
            · obtain ⟨i, h1, -⟩ := length_spec (hi' c.ignored) rfl h
              exact ⟨i, by omega⟩

theorem ctlLoop_fuel : ∀ (n n' : Nat) (c : Ctl) (bs : Bytes), Inv c → bs.length ≤ n → bs.length ≤ n' → ctlLoop n c bs = ctlLoop n' c bs := by
  intro n
  induction n with
  | zero =>
    intro n' c bs hi h _
    cases bs with
    | nil => cases n' <;> rfl
    | cons b bs => exfalso; rw [List.length_cons] at h; omega
  | succ n ih =>
    intro n' c bs hi h h'
    cases bs with
    | nil => cases n' <;> rfl
    | cons b bs =>
      cases n' with
      | zero => exfalso; rw [List.length_cons] at h'; omega
      | succ n' =>
        unfold ctlLoop
        cases ho : iter c (b :: bs) with
        | refused code c => rfl
        | ok c' rest =>
          dsimp only
          obtain ⟨h1, h2⟩ := iter_spec hi (List.cons_ne_nil _ _) ho
          exact ih n' c' rest h1 (by omega) (by omega)

theorem control_nil (c : Ctl) : control c [] = .ok c := rfl

theorem control_cons {c : Ctl} (hi : Inv c) {bs : Bytes} (hb : bs ≠ []) : control c bs = goOn (iter c bs) control := by
  cases bs with
  | nil => exact absurd rfl hb
  | cons b bs =>
    unfold control
    rw [List.length_cons, ctlLoop]
    cases ho : iter c (b :: bs) with
    | refused code c => rfl
    | ok c' rest =>
      unfold goOn
      dsimp only
      obtain ⟨h1, h2⟩ := iter_spec hi (List.cons_ne_nil _ _) ho
      exact ctlLoop_fuel _ _ c' rest h1 (by rw [List.length_cons] at h2; omega) (Nat.le_refl _)

theorem control_inv : ∀ {bs : Bytes} {c c' : Ctl}, Inv c → control c bs = .ok c' → Inv c' := by
  have key : ∀ (n : Nat) (c c' : Ctl) (bs : Bytes), Inv c → ctlLoop n c bs = .ok c' → Inv c' := by
    intro n
    induction n with
    | zero =>
      intro c c' bs hi h
      cases bs with
      | nil => cases h; exact hi
      | cons b bs => cases h
    | succ n ih =>
      intro c c' bs hi h
      cases bs with
      | nil => cases h; exact hi
      | cons b bs =>
        unfold ctlLoop at h
        cases ho : iter c (b :: bs) with
        | refused code c => rw [ho] at h; cases h
        | ok c1 rest =>
          rw [ho] at h
          obtain ⟨h1, -⟩ := iter_spec hi (List.cons_ne_nil _ _) ho
          exact ih c1 c' rest h1 h
  intro bs c c' hi h
  exact key _ c c' bs hi h

theorem andThen_goOn (o : Step) (k : Ctl → Bytes → Res) (k' : Ctl → Res) : andThen (goOn o k) k' = goOn o (fun c r => andThen (k c r) k') := by
  cases o <;> rfl

theorem andThen_ok (r : Res) : andThen r (fun c => .ok c) = r := by cases r <;> rfl

/-- A frame whose end does not depend on what follows. -/
theorem goOn_finish (c : Ctl) (t : Nat) (bs : Bytes) : goOn (finish c t bs) control = andThen (goOn (finish c t []) control) (fun c => control c bs) := by
  unfold finish
  split
  · split
    · rfl
    · dsimp only
      split
      · simp [goOn, andThen, control_nil]
      · rfl
  · simp [goOn, andThen, control_nil]

theorem body_ignored {c : Ctl} {t n k : Nat} {bs : Bytes} (c1 : c.read < n) (c2 : c.ignored = true) (hk : (if c.read + bs.length > n then n - c.read else bs.length) = k) :
    body c t n bs = if c.read + k ≥ n then finish { c with read := c.read + k } t (bs.drop k) else .ok { c with read := c.read + k } (bs.drop k) := by
  unfold body
  rw [if_pos c1]
  dsimp only
  rw [hk, if_pos c2]

theorem body_load {c : Ctl} {t n k : Nat} {bs : Bytes} (c1 : c.read < n) (c2 : ¬ c.ignored = true) (c3 : ¬ n > 0x10000)
    (hk : (if c.read + bs.length > n then n - c.read else bs.length) = k) :
    body c t n bs = if c.read + k ≥ n then finish { c with frame := some (c.frame.getD [] ++ bs.take k), read := c.read + k } t (bs.drop k)
      else .ok { c with frame := some (c.frame.getD [] ++ bs.take k), read := c.read + k } (bs.drop k) := by
  unfold body
  rw [if_pos c1]
  dsimp only
  rw [hk, if_neg c2, if_neg c3]

/-- With the type and the length known. -/
theorem control_body {c : Ctl} {t n : Nat} (hi : Inv c) (ht : c.ty = some t) (hl : c.len = some n) {bs : Bytes} (hb : bs ≠ []) : control c bs = goOn (body c t n bs) control := by
  rw [control_cons hi hb]
  unfold iter
  rw [ht]
  dsimp only
  unfold length
  rw [hl]

/-- The contents: all of them may come later. -/
theorem body_later {c : Ctl} {t n : Nat} (hb : c.buf = []) (ht : c.ty = some t) (hl : c.len = some n) (h0 : c.read = 0) (hf : c.frame = none) (bs : Bytes) :
    goOn (body c t n bs) control = andThen (goOn (body c t n []) control) (fun c => control c bs) := by
  cases hbs : bs with
  | nil => exact (andThen_ok _).symm
  | cons x xs =>
    rw [← hbs]
    have hne : bs ≠ [] := by rw [hbs]; exact List.cons_ne_nil _ _
    by_cases c1 : c.read < n
    · have k0 : (if c.read + ([] : Bytes).length > n then n - c.read else ([] : Bytes).length) = 0 := by
        rw [List.length_nil, if_neg (by omega)]
      have n0 : ¬ c.read + 0 ≥ n := by omega
      have hlen : c.len ≠ none := by rw [hl]; intro h; cases h
      have hty : c.ty ≠ none := by rw [ht]; intro h; cases h
      by_cases c2 : c.ignored = true
      · have e : body c t n [] = .ok c [] := by
          unfold body
          rw [if_pos c1]
          dsimp only
          rw [k0, if_pos c2, if_neg n0]
          rfl
        have hi : Inv c := by
          refine ⟨.inl hb, fun h => absurd h hty, fun _ => hb, fun h => absurd h hlen, fun m hm => ?_⟩
          rw [hl] at hm; cases hm
          exact ⟨c1, fun h => by rw [c2] at h; cases h⟩
        rw [e]
        show _ = control c bs
        rw [control_body hi ht hl hne]
      · by_cases c3 : n > 0x10000
        · have e : ∀ y, body c t n y = .refused 0x102 c := by
            intro y
            unfold body
            rw [if_pos c1]
            dsimp only
            rw [if_neg c2, if_pos c3]
          rw [e, e]
          rfl
        · have e : body c t n [] = .ok { c with frame := some [] } [] := by
            unfold body
            rw [if_pos c1]
            dsimp only
            rw [k0, if_neg c2, if_neg c3, if_neg n0, hf]
            rfl
          have hi : Inv { c with frame := some [] } := by
            refine ⟨.inl hb, fun h => absurd h hty, fun _ => hb, fun h => absurd h hlen, fun m hm => ?_⟩
            have hm : c.len = some m := hm
            rw [hl] at hm; cases hm
            exact ⟨c1, fun _ => ⟨Nat.le_of_not_lt c3, fun h => by cases h⟩⟩
          rw [e]
          show _ = control { c with frame := some [] } bs
          rw [control_body hi ht hl hne]
          congr 1
          rw [body_load c1 c2 c3 rfl, body_load (c := { c with frame := some [] }) c1 c2 c3 rfl, hf]
          rfl
    · have e : ∀ y, body c t n y = finish c t y := by
        intro y
        unfold body
        rw [if_neg c1]
      rw [e, e]
      exact goOn_finish c t bs

/-- The contents: those behind the first byte may come later. -/
theorem body_split {c : Ctl} {t n : Nat} (hi : Inv c) (ht : c.ty = some t) (hl : c.len = some n) (b : UInt8) (bs : Bytes) :
    goOn (body c t n (b :: bs)) control = andThen (goOn (body c t n [b]) control) (fun c => control c bs) := by
  cases hbs : bs with
  | nil => exact (andThen_ok _).symm
  | cons x xs =>
    rw [← hbs]
    have hne : bs ≠ [] := by rw [hbs]; exact List.cons_ne_nil _ _
    obtain ⟨c1, hig⟩ := hi.open' n hl
    have hlb : 0 < bs.length := List.length_pos_iff.2 hne
    have hlen : c.len ≠ none := by rw [hl]; intro h; cases h
    have hty : c.ty ≠ none := by rw [ht]; intro h; cases h
    have hb := hi.lenBuf hlen
    have k1 : (if c.read + [b].length > n then n - c.read else [b].length) = 1 := by
      rw [List.length_singleton, if_neg (by omega)]
    by_cases c3 : n = c.read + 1
    · have k2 : (if c.read + (b :: bs).length > n then n - c.read else (b :: bs).length) = 1 := by
        rw [List.length_cons]; split <;> omega
      have n1 : c.read + 1 ≥ n := by omega
      by_cases c2 : c.ignored = true
      · rw [body_ignored c1 c2 k1, body_ignored c1 c2 k2, if_pos n1, if_pos n1]
        exact goOn_finish _ t bs
      · have h4 := hig (by simpa using c2)
        have c3 : ¬ n > 0x10000 := by omega
        rw [body_load c1 c2 c3 k1, body_load c1 c2 c3 k2, if_pos n1, if_pos n1]
        exact goOn_finish _ t bs
    · have n1 : ¬ c.read + 1 ≥ n := by omega
      obtain ⟨k, m1, m2⟩ : ∃ k, (if c.read + (b :: bs).length > n then n - c.read else (b :: bs).length) = k + 1 ∧
          (if c.read + 1 + bs.length > n then n - (c.read + 1) else bs.length) = k := by
        refine ⟨_, ?_, rfl⟩
        rw [List.length_cons]
        by_cases c : c.read + (bs.length + 1) > n
        · rw [if_pos c, if_pos (by omega)]; omega
        · rw [if_neg c, if_neg (by omega)]
      have n2 : c.read + (k + 1) = c.read + 1 + k := by omega
      by_cases c2 : c.ignored = true
      · have e : body c t n [b] = .ok { c with read := c.read + 1 } [] := by
          unfold body
          rw [if_pos c1]
          dsimp only
          rw [k1, if_pos c2, if_neg n1]
          rfl
        have hi' : Inv { c with read := c.read + 1 } := by
          refine ⟨.inl hb, fun h => absurd h hty, fun _ => hb, fun h => absurd h hlen, fun m hm => ?_⟩
          have hm : c.len = some m := hm
          rw [hl] at hm; cases hm
          refine ⟨Nat.lt_of_not_le n1, fun h => ?_⟩
          have h : c.ignored = false := h
          rw [c2] at h; cases h
        rw [e]
        show _ = control { c with read := c.read + 1 } bs
        rw [control_body hi' ht hl hne]
        congr 1
        rw [body_ignored c1 c2 m1, body_ignored (c := { c with read := c.read + 1 }) (Nat.lt_of_not_le n1) c2 m2]
        dsimp only
        rw [n2]
        rfl
      · have h4 := hig (by simpa using c2)
        have e : body c t n [b] = .ok { c with frame := some (c.frame.getD [] ++ [b]), read := c.read + 1 } [] := by
          rw [body_load c1 c2 (by omega) k1, if_neg n1]
          rfl
        have hi' : Inv { c with frame := some (c.frame.getD [] ++ [b]), read := c.read + 1 } := by
          refine ⟨.inl hb, fun h => absurd h hty, fun _ => hb, fun h => absurd h hlen, fun m hm => ?_⟩
          have hm : c.len = some m := hm
          rw [hl] at hm; cases hm
          exact ⟨Nat.lt_of_not_le n1, fun _ => ⟨h4.1, fun h => by cases h⟩⟩
        rw [e]
        show _ = control { c with frame := some (c.frame.getD [] ++ [b]), read := c.read + 1 } bs
        rw [control_body hi' ht hl hne]
        congr 1
        have c3 : ¬ n > 0x10000 := by omega
        rw [body_load c1 c2 c3 m1, body_load (c := { c with frame := some (c.frame.getD [] ++ [b]), read := c.read + 1 }) (Nat.lt_of_not_le n1) c2 c3 m2]
        dsimp only
        rw [n2]
        simp

/-- With the type known. -/
theorem control_length {c : Ctl} {t : Nat} (hi : Inv c) (ht : c.ty = some t) {bs : Bytes} (hb : bs ≠ []) : control c bs = goOn (length c t bs) control := by
  rw [control_cons hi hb]
  unfold iter
  rw [ht]

/-- The length: what follows the first byte may come later. -/
theorem length_split {c : Ctl} {t : Nat} (hi : Inv c) (ht : c.ty = some t) (b : UInt8) (bs : Bytes) :
    goOn (length c t (b :: bs)) control = andThen (goOn (length c t [b]) control) (fun c => control c bs) := by
  unfold length
  cases hl : c.len with
  | some n => exact body_split hi ht hl b bs
  | none =>
    dsimp only
    rw [vfs_cons hi.part b bs, vfs_cons hi.part b []]
    by_cases cc : (c.buf ++ [b]).length ≥ varSkip ((c.buf ++ [b]).headD 0)
    · rw [if_pos cc, if_pos cc]
      exact body_later (c := { c with buf := [], len := some (varVal (c.buf ++ [b])) }) rfl ht rfl (hi.fresh hl).1 (hi.fresh hl).2 bs
    · rw [if_neg cc, if_neg cc, vfs_nil]
      dsimp only
      have hi' : Inv { c with buf := c.buf ++ [b] } := by
        refine ⟨part_next cc, fun _ => hl, fun h => absurd hl h, fun _ => hi.fresh hl, fun n hn => ?_⟩
        have hn : c.len = some n := hn
        rw [hl] at hn; cases hn
      cases bs with
      | nil => rw [vfs_nil]; rfl
      | cons x xs =>
        show _ = control { c with len := none, buf := c.buf ++ [b] } (x :: xs)
        rw [show ({ c with len := none, buf := c.buf ++ [b] } : Ctl) = { c with buf := c.buf ++ [b] } by rw [← hl]]
        rw [control_length hi' ht (List.cons_ne_nil _ _)]
        unfold length
        dsimp only
        rw [hl]

/-- The control stream: what follows the first byte may come later. -/
theorem control_split {c : Ctl} (hi : Inv c) (b : UInt8) (bs : Bytes) : control c (b :: bs) = andThen (control c [b]) (fun c => control c bs) := by
  rw [control_cons hi (List.cons_ne_nil _ _), control_cons hi (List.cons_ne_nil _ _)]
  unfold iter
  cases ht : c.ty with
  | some t => exact length_split hi ht b bs
  | none =>
    have hl := hi.lenTy ht
    dsimp only
    rw [vfs_cons hi.part b bs, vfs_cons hi.part b []]
    by_cases cc : (c.buf ++ [b]).length ≥ varSkip ((c.buf ++ [b]).headD 0)
    · rw [if_pos cc, if_pos cc]
      dsimp only
      split
      · rfl
      · split
        · rfl
        · split
          · rfl
          · have gen : ∀ c' : Ctl, Inv c' → c'.ty = some (varVal (c.buf ++ [b])) → c'.len = none → c'.buf = [] →
                goOn (length c' (varVal (c.buf ++ [b])) bs) control = andThen (goOn (length c' (varVal (c.buf ++ [b])) []) control) (fun c => control c bs) := by
              intro c' i1 i2 i3 i4
              cases bs with
              | nil => exact (andThen_ok _).symm
              | cons x xs =>
                have e : length c' (varVal (c.buf ++ [b])) [] = .ok c' [] := by
                  unfold length
                  rw [i3]
                  dsimp only
                  rw [vfs_nil]
                  cases c'; subst i3; rfl
                rw [e]
                show _ = control c' (x :: xs)
                rw [control_length i1 i2 (List.cons_ne_nil _ _)]
            have hi' : ∀ g, Inv { c with buf := [], ty := some (varVal (c.buf ++ [b])), ignored := g } := by
              intro g
              refine ⟨.inl rfl, (fun h => by cases h), fun h => absurd hl h, hi.fresh, fun n hn => ?_⟩
              have hn : c.len = some n := hn
              rw [hl] at hn; cases hn
            split
            · exact gen _ (hi' true) rfl hl rfl
            · exact gen _ (hi' c.ignored) rfl hl rfl
    · rw [if_neg cc, if_neg cc, vfs_nil]
      dsimp only
      have hi' : Inv { c with buf := c.buf ++ [b] } := by
        refine ⟨part_next cc, fun _ => hl, fun h => absurd hl h, fun _ => hi.fresh hl, fun n hn => ?_⟩
        have hn : c.len = some n := hn
        rw [hl] at hn; cases hn
      cases bs with
      | nil => rw [vfs_nil]; rfl
      | cons x xs =>
        show _ = control { c with ty := none, buf := c.buf ++ [b] } (x :: xs)
        rw [show ({ c with ty := none, buf := c.buf ++ [b] } : Ctl) = { c with buf := c.buf ++ [b] } by rw [← ht]]
        rw [control_cons hi' (List.cons_ne_nil _ _)]
        unfold iter
        dsimp only
        rw [ht]

theorem andThen_assoc (r : Res) (k k' : Ctl → Res) : andThen (andThen r k) k' = andThen r (fun c => andThen (k c) k') := by cases r <;> rfl

theorem andThen_congr {r : Res} {k k' : Ctl → Res} (h : ∀ c, r = .ok c → k c = k' c) : andThen r k = andThen r k' := by
  cases r with
  | ok c => exact h c rfl
  | refused _ _ => rfl
  | stuck => rfl

theorem control_append : ∀ (a b : Bytes) (c : Ctl), Inv c → control c (a ++ b) = andThen (control c a) (fun c => control c b) := by
  intro a
  induction a with
  | nil => intro b c _; rfl
  | cons x a ih =>
    intro b c hi
    rw [List.cons_append, control_split hi x (a ++ b), control_split hi x a, andThen_assoc]
    apply andThen_congr
    intro c1 h
    exact ih b c1 (control_inv hi h)

/-! ### Frames of the control stream -/

/-- Between two frames. -/
def Idle (c : Ctl) : Prop := c.buf = [] ∧ c.ty = none ∧ c.len = none ∧ c.read = 0 ∧ c.frame = none

theorem Idle.inv {c : Ctl} (h : Idle c) : Inv c :=
  ⟨.inl h.1, fun _ => h.2.2.1, fun h' => absurd h.2.2.1 h', fun _ => ⟨h.2.2.2.1, h.2.2.2.2⟩, fun n hn => by rw [h.2.2.1] at hn; cases hn⟩

theorem idle_reset {c : Ctl} (h : c.buf = []) : Idle (reset c) := ⟨h, rfl, rfl, rfl, rfl⟩

theorem varint_ne_nil {p : Bytes} {n : Nat} (h : Varint p n) : p ≠ [] := by
  obtain ⟨k, h⟩ := h
  exact (varint_head h).1

/-- The contents of a frame, all at once. -/
theorem body_whole {c : Ctl} {t : Nat} {w : Bytes} (h0 : c.read = 0) (hf : c.frame = none) (hg : c.ignored = false → w.length ≤ 0x10000) :
    body c t w.length w = finish { c with read := w.length, frame := if c.ignored = true ∨ w = [] then none else some w } t [] := by
  have hk : (if c.read + w.length > w.length then w.length - c.read else w.length) = w.length := by rw [h0, if_neg (by omega)]
  by_cases hw : w = []
  · subst hw
    unfold body
    rw [if_neg (by simp), if_pos (.inr rfl)]
    congr 1
    cases c; simp_all
  · have hl : 0 < w.length := List.length_pos_iff.2 hw
    by_cases c2 : c.ignored = true
    · rw [body_ignored (by omega) c2 hk, if_pos (by omega), if_pos (.inl c2), h0, List.drop_length, Nat.zero_add]
      congr 1
      cases c; simp_all
    · rw [body_load (by omega) c2 (by have := hg (by simpa using c2); omega) hk, if_pos (by omega), if_neg (by simp [c2, hw]), h0, List.drop_length, Nat.zero_add, hf]
      simp

/-- A frame on the control stream, as far as its type is allowed. -/
theorem control_frame {c : Ctl} (hc : Idle c) {f : H3Frame} {bs : Bytes} (hb : H3FrameBytes f bs) :
    control c bs =
      if c.received = true ∧ f.ty = 4 then control c bs
      else if c.received = false ∧ f.ty ≠ 4 then control c bs
      else if f.ty = 0 ∨ f.ty = 1 ∨ f.ty = 5 ∨ f.ty = 0x41 then control c bs
      else goOn (body { c with ty := some f.ty, len := some f.payload.length, ignored := c.ignored || decide (f.ty ≠ 4) } f.ty f.payload.length f.payload) control := by
  obtain ⟨p, q, rfl, hp, hq⟩ := hb
  by_cases c1 : c.received = true ∧ f.ty = 4
  · rw [if_pos c1]
  by_cases c2 : c.received = false ∧ f.ty ≠ 4
  · rw [if_neg c1, if_pos c2]
  by_cases c3 : f.ty = 0 ∨ f.ty = 1 ∨ f.ty = 5 ∨ f.ty = 0x41
  · rw [if_neg c1, if_neg c2, if_pos c3]
  rw [if_neg c1, if_neg c2, if_neg c3, control_cons hc.inv (by simp [varint_ne_nil hp])]
  congr 1
  unfold iter
  rw [hc.2.1]
  dsimp only
  rw [hc.1, vfs_whole hp]
  dsimp only
  rw [if_neg (by simpa using c1), if_neg (by simpa using c2), if_neg c3]
  by_cases t4 : f.ty = 4
  · rw [if_neg (by simp [t4])]
    unfold length
    dsimp only
    rw [hc.2.2.1]
    dsimp only
    rw [vfs_whole hq]
    dsimp only
    congr 1
    obtain ⟨h1, -⟩ := hc
    cases c; simp_all
  · rw [if_pos t4]
    unfold length
    dsimp only
    rw [hc.2.2.1]
    dsimp only
    rw [vfs_whole hq]
    dsimp only
    congr 1
    obtain ⟨h1, -⟩ := hc
    cases c; simp_all

/-- A frame whose type is not allowed. -/
theorem control_bad {c : Ctl} (hc : Idle c) {f : H3Frame} {bs : Bytes} (hb : H3FrameBytes f bs)
    (h : (c.received = true ∧ f.ty = 4) ∨ (c.received = false ∧ f.ty ≠ 4) ∨ (f.ty = 0 ∨ f.ty = 1 ∨ f.ty = 5 ∨ f.ty = 0x41)) :
    ∃ code c', control c bs = .refused code c' := by
  obtain ⟨p, q, rfl, hp, hq⟩ := hb
  rw [control_cons hc.inv (by simp [varint_ne_nil hp])]
  unfold iter
  rw [hc.2.1]
  dsimp only
  rw [hc.1, vfs_whole hp]
  dsimp only
  split
  · exact ⟨_, _, rfl⟩
  · split
    · exact ⟨_, _, rfl⟩
    · split
      · exact ⟨_, _, rfl⟩
      · exfalso
        rename_i c1 c2 c3
        rcases h with h | h | h
        · exact c1 (by simpa using h)
        · exact c2 (by simpa using h)
        · exact c3 h

/-! ### Settings -/

theorem componentsLoop_pairs {kvs : List (Nat × Nat)} {bs : Bytes} (h : H3Pairs kvs bs) :
    ∀ (n : Nat) (s : Settings), bs.length ≤ n → componentsLoop n s bs = (kvs.foldl (fun s kv => setOne s kv.1 kv.2) s, true) := by
  induction h with
  | nil => intro n s _; cases n <;> rfl
  | @cons k v kvs a b r ha hb _ ih =>
    intro n s hn
    have hne := varint_ne_nil ha
    obtain ⟨ka, ha⟩ := ha
    obtain ⟨kb, hb⟩ := hb
    have hd := framesVarintDecode_of_isVarint ha (b ++ r)
    have hd2 := framesVarintDecode_of_isVarint hb r
    cases ha' : a with
    | nil => exact absurd ha' hne
    | cons x xs =>
      rw [ha'] at hd hn
      rw [List.cons_append] at hd ⊢
      cases n with
      | zero => simp at hn
      | succ n =>
        rw [componentsLoop, hd]
        dsimp only
        rw [hd2]
        dsimp only
        rw [List.foldl_cons]
        apply ih
        simp only [List.cons_append, List.length_cons, List.length_append] at hn
        omega

theorem componentsLoop_ok : ∀ (n : Nat) (s s' : Settings) (bs : Bytes), componentsLoop n s bs = (s', true) → ∃ kvs, H3Pairs kvs bs := by
  intro n
  induction n with
  | zero =>
    intro s s' bs h
    cases bs with
    | nil => exact ⟨[], .nil⟩
    | cons b bs => cases h
  | succ n ih =>
    intro s s' bs h
    cases bs with
    | nil => exact ⟨[], .nil⟩
    | cons b bs =>
      rw [componentsLoop] at h
      cases h1 : framesVarintDecode (b :: bs) with
      | none => rw [h1] at h; cases h
      | some x =>
        obtain ⟨k, r⟩ := x
        rw [h1] at h
        dsimp only at h
        cases h2 : framesVarintDecode r with
        | none => rw [h2] at h; cases h
        | some y =>
          obtain ⟨v, r'⟩ := y
          rw [h2] at h
          dsimp only at h
          obtain ⟨kvs, hk⟩ := ih _ _ _ h
          obtain ⟨ka, a, e1, ha⟩ := isVarint_of_decode h1
          obtain ⟨kb, b', e2, hb⟩ := isVarint_of_decode h2
          rw [e1, e2]
          exact ⟨(k, v) :: kvs, .cons ⟨ka, ha⟩ ⟨kb, hb⟩ hk⟩

/-- The settings of pairs. -/
def settingsOf (kvs : List (Nat × Nat)) : Settings :=
  { sessions := h3Setting kvs 0xc671706a, table := h3Setting kvs 1, blocked := h3Setting kvs 7, connect := decide (h3Setting kvs 8 % 2 = 1), datagram := decide (h3Setting kvs 0x33 % 2 = 1) }

theorem h3Setting_snoc (kvs : List (Nat × Nat)) (k v k' : Nat) : h3Setting (kvs ++ [(k, v)]) k' = if k' = k then v else h3Setting kvs k' := by
  unfold h3Setting
  rw [List.reverse_append, List.reverse_singleton, List.singleton_append, List.lookup_cons]
  by_cases h : k' = k
  · rw [if_pos h]
    have : (k' == k) = true := by simpa using h
    rw [this]; rfl
  · rw [if_neg h]
    have : (k' == k) = false := by simpa using h
    rw [this]

theorem settingsOf_snoc (kvs : List (Nat × Nat)) (k v : Nat) : settingsOf (kvs ++ [(k, v)]) = setOne (settingsOf kvs) k v := by
  unfold settingsOf setOne
  simp only [h3Setting_snoc]
  by_cases h1 : k = 1
  · subst h1; rfl
  by_cases h2 : k = 7
  · subst h2; rfl
  by_cases h3 : k = 8
  · subst h3; rfl
  by_cases h4 : k = 0x33
  · subst h4; rfl
  by_cases h5 : k = 0xc671706a
  · subst h5; rfl
  rw [if_neg (Ne.symm h1), if_neg (Ne.symm h2), if_neg (Ne.symm h3), if_neg (Ne.symm h4), if_neg (Ne.symm h5), if_neg h1, if_neg h2, if_neg h3, if_neg h4, if_neg h5]

theorem fold_settings (kvs : List (Nat × Nat)) : kvs.foldl (fun s kv => setOne s kv.1 kv.2) {} = settingsOf kvs := by
  have gen : ∀ (a b : List (Nat × Nat)), b.foldl (fun s kv => setOne s kv.1 kv.2) (settingsOf a) = settingsOf (a ++ b) := by
    intro a b
    induction b generalizing a with
    | nil => rw [List.append_nil]; rfl
    | cons x b ih =>
      obtain ⟨k, v⟩ := x
      rw [List.foldl_cons, ← settingsOf_snoc, ih, List.append_assoc]
      rfl
  exact gen [] kvs

/-- The first frame. -/
theorem control_settings {c : Ctl} (hc : Idle c) (hr : c.received = false) (hg : c.ignored = false) (hs : c.settings = {}) {f : H3Frame} {bs : Bytes} (hb : H3FrameBytes f bs) (ht : f.ty = 4)
    (hn : f.payload ≠ []) (hl : f.payload.length ≤ 0x10000) :
    (∀ kvs, H3Pairs kvs f.payload → ∃ c', control c bs = .ok c' ∧ Idle c' ∧ c'.received = true ∧ c'.settings = settingsOf kvs) ∧
    ((¬ ∃ kvs, H3Pairs kvs f.payload) → ∃ code c', control c bs = .refused code c') := by
  rw [control_frame hc hb, if_neg (by rw [hr]; simp), if_neg (by simp [ht]), if_neg (by omega)]
  rw [body_whole (by exact hc.2.2.2.1) (by exact hc.2.2.2.2) (fun _ => hl)]
  unfold finish
  rw [if_pos ht]
  dsimp only
  rw [if_neg (by simp [hg, ht, hn])]
  dsimp only
  rw [hs]
  constructor
  · intro kvs hk
    have e : componentsDecode {} f.payload = (settingsOf kvs, true) := by
      unfold componentsDecode
      rw [componentsLoop_pairs hk _ _ (Nat.le_refl _), fold_settings]
    rw [e]
    exact ⟨_, rfl, idle_reset (by exact hc.1), rfl, rfl⟩
  · intro hk
    cases hd : (componentsDecode {} f.payload).2 with
    | true => exact absurd (componentsLoop_ok _ _ _ _ (Prod.ext rfl hd)) hk
    | false => exact ⟨_, _, rfl⟩

/-- Settings without contents. -/
theorem control_settings_empty {c : Ctl} (hc : Idle c) (hr : c.received = false) (hg : c.ignored = false) {f : H3Frame} {bs : Bytes} (hb : H3FrameBytes f bs) (ht : f.ty = 4)
    (hn : f.payload = []) : ∃ code c', control c bs = .refused code c' := by
  rw [control_frame hc hb, if_neg (by rw [hr]; simp), if_neg (by simp [ht]), if_neg (by omega)]
  rw [body_whole (by exact hc.2.2.2.1) (by exact hc.2.2.2.2) (fun _ => by simp [hn])]
  unfold finish
  rw [if_pos ht]
  dsimp only
  rw [if_pos (.inr hn)]
  exact ⟨_, _, rfl⟩

/-- Settings that are too long. -/
theorem control_settings_long {c : Ctl} (hc : Idle c) (hr : c.received = false) (hg : c.ignored = false) {f : H3Frame} {bs : Bytes} (hb : H3FrameBytes f bs) (ht : f.ty = 4)
    (hn : 0x10000 < f.payload.length) : ∃ code c', control c bs = .refused code c' := by
  rw [control_frame hc hb, if_neg (by rw [hr]; simp), if_neg (by simp [ht]), if_neg (by omega)]
  unfold body
  dsimp only
  rw [if_pos (by rw [hc.2.2.2.1]; omega), if_neg (by simp [hg, ht]), if_pos hn]
  exact ⟨_, _, rfl⟩

/-- A later frame. -/
theorem control_later {c : Ctl} (hc : Idle c) (hr : c.received = true) {f : H3Frame} {bs : Bytes} (hb : H3FrameBytes f bs) :
    (H3Later f → ∃ c', control c bs = .ok c' ∧ Idle c' ∧ c'.received = true ∧ c'.settings = c.settings) ∧ (¬ H3Later f → ∃ code c', control c bs = .refused code c') := by
  constructor
  · rintro ⟨h0, h1, h4, h5, h41⟩
    rw [control_frame hc hb, if_neg (by simp [h4]), if_neg (by rw [hr]; simp), if_neg (by omega)]
    rw [body_whole (by exact hc.2.2.2.1) (by exact hc.2.2.2.2) (by simp [h4])]
    unfold finish
    rw [if_neg h4]
    exact ⟨_, rfl, idle_reset (by exact hc.1), hr, rfl⟩
  · intro h
    apply control_bad hc hb
    unfold H3Later at h
    by_cases h4 : f.ty = 4
    · exact .inl ⟨hr, h4⟩
    · refine .inr (.inr ?_)
      omega

theorem control_laters : ∀ (fs : List H3Frame) (bs : Bytes), H3Stream fs bs → ∀ c : Ctl, Idle c → c.received = true →
    ((∀ f ∈ fs, H3Later f) → ∃ c', control c bs = .ok c' ∧ Idle c' ∧ c'.received = true ∧ c'.settings = c.settings) ∧
    ((¬ ∀ f ∈ fs, H3Later f) → ∃ code c', control c bs = .refused code c') := by
  intro fs bs h
  induction h with
  | nil =>
    intro c hc hr
    exact ⟨fun _ => ⟨c, rfl, hc, hr, rfl⟩, fun h => absurd (by simp) h⟩
  | @cons f fs a b hf _ ih =>
    intro c hc hr
    rw [control_append _ _ _ hc.inv]
    obtain ⟨o1, o2⟩ := control_later hc hr hf
    by_cases hl : H3Later f
    · obtain ⟨c1, e1, i1, r1, s1⟩ := o1 hl
      rw [e1]
      obtain ⟨k1, k2⟩ := ih c1 i1 r1
      constructor
      · intro h
        obtain ⟨c2, e2, i2, r2, s2⟩ := k1 (fun g hg => h g (by simp [hg]))
        exact ⟨c2, e2, i2, r2, s2.trans s1⟩
      · intro h
        exact k2 (fun h' => h (by intro g hg; rcases List.mem_cons.1 hg with e | e; · rw [e]; exact hl
                                  · exact h' g e))
    · obtain ⟨code, c1, e1⟩ := o2 hl
      rw [e1]
      exact ⟨fun h => absurd (h f (by simp)) hl, fun _ => ⟨code, c1, rfl⟩⟩

/-! ### Streams of the peer, one byte at a time -/

/-- The result of a piece. -/
def run (known : Nat → Bool) (u : Uni) (bs : Bytes) : Bytes × URes :=
  match unidir known u bs with
  | .ok u d => (d, .ok u [])
  | r => ([], r)

/-- The same, of a stream with a type. -/
def runType (known : Nat → Bool) (u : Uni) (t : Nat) (bs : Bytes) : Bytes × URes :=
  match ofType known u t bs with
  | .ok u d => (d, .ok u [])
  | r => ([], r)

/-- Continuing after a piece. -/
def uThen (r : Bytes × URes) (k : Uni → Bytes × URes) : Bytes × URes :=
  match r with
  | (d, .ok u _) => (d ++ (k u).1, (k u).2)
  | r => r

/-- What holds between pieces. -/
structure UInv (u : Uni) : Prop where
  fresh : u.stype = none → Part u.ctl.buf ∧ u.session = none
  ctl : u.stype = some 0 → Inv u.ctl
  wt : u.stype = some 0x54 → u.session = none → Part u.ctl.buf

theorem run_type {known : Nat → Bool} {u : Uni} {t : Nat} (h : u.stype = some t) (bs : Bytes) : run known u bs = runType known u t bs := by
  unfold run runType unidir
  rw [h]

theorem ofType_nil (known : Nat → Bool) (u : Uni) (t : Nat) : ofType known u t [] = .ok u [] := by
  unfold ofType
  split
  · rfl
  · split
    · unfold session
      split
      · rfl
      · rw [vfs_nil]
    · rfl

theorem run_nil (known : Nat → Bool) (u : Uni) : run known u [] = ([], .ok u []) := by
  cases h : u.stype with
  | some t => rw [run_type h]; unfold runType; rw [ofType_nil]
  | none => unfold run unidir; rw [h]; dsimp only; rw [vfs_nil]; cases u; simp_all

theorem runType_split {known : Nat → Bool} {u : Uni} {t : Nat} (hi : UInv u) (h : u.stype = some t) (b : UInt8) (bs : Bytes) :
    runType known u t (b :: bs) = uThen (runType known u t [b]) (fun u => run known u bs) ∧ ∀ u' d, runType known u t [b] = (d, .ok u' []) → UInv u' := by
  unfold runType ofType
  by_cases t0 : t = 0
  · subst t0
    rw [if_pos rfl, if_pos rfl]
    have hc := hi.ctl h
    rw [control_split hc b bs]
    cases hr : control u.ctl [b] with
    | ok c =>
      have hc' := control_inv hc hr
      constructor
      · show _ = uThen ([], _) _
        unfold uThen
        dsimp only
        rw [run_type (u := { u with ctl := c }) h]
        unfold runType ofType
        rw [if_pos rfl]
        rfl
      · intro u' d he
        cases he
        exact ⟨(fun h' => by rw [show u.stype = none from h'] at h; cases h), fun _ => hc', (fun h' => by rw [show u.stype = _ from h'] at h; cases h)⟩
    | refused code c => exact ⟨rfl, fun u' d he => by cases he⟩
    | stuck => exact ⟨rfl, fun u' d he => by cases he⟩
  · rw [if_neg t0, if_neg t0]
    by_cases t54 : t = 0x54
    · subst t54
      rw [if_pos rfl, if_pos rfl]
      unfold session
      cases hs : u.session with
      | some i =>
        dsimp only
        constructor
        · unfold uThen
          dsimp only
          rw [run_type h]
          unfold runType ofType
          rw [if_neg (by decide), if_pos rfl]
          unfold session
          rw [hs]
          rfl
        · intro u' d he; cases he; exact hi
      | none =>
        dsimp only
        have hp := hi.wt h hs
        rw [vfs_cons hp b bs, vfs_cons hp b []]
        by_cases cc : (u.ctl.buf ++ [b]).length ≥ varSkip ((u.ctl.buf ++ [b]).headD 0)
        · rw [if_pos cc, if_pos cc]
          dsimp only
          by_cases hk : known (varVal (u.ctl.buf ++ [b])) = true
          · rw [if_pos hk, if_pos hk]
            constructor
            · unfold uThen
              dsimp only
              rw [run_type (u := { u with ctl := { u.ctl with buf := [] }, session := some (varVal (u.ctl.buf ++ [b])) }) h]
              rfl
            · intro u' d he
              cases he
              refine ⟨fun h' => ?_, fun h' => ?_, fun _ h' => by cases h'⟩
              · rw [show u.stype = none from h'] at h; cases h
              · rw [show u.stype = _ from h'] at h; cases h
          · rw [if_neg hk, if_neg hk]
            exact ⟨rfl, fun u' d he => by cases he⟩
        · rw [if_neg cc, if_neg cc, vfs_nil]
          dsimp only
          constructor
          · unfold uThen
            dsimp only
            rw [run_type (u := { u with ctl := { u.ctl with buf := u.ctl.buf ++ [b] }, session := none }) h]
            unfold runType ofType
            rw [if_neg (by decide), if_pos rfl]
            unfold session
            rfl
          · intro u' d he
            cases he
            refine ⟨fun h' => ?_, fun h' => ?_, fun _ _ => part_next cc⟩
            · rw [show u.stype = none from h'] at h; cases h
            · rw [show u.stype = _ from h'] at h; cases h
    · rw [if_neg t54, if_neg t54]
      constructor
      · unfold uThen
        dsimp only
        rw [run_type h]
        unfold runType ofType
        rw [if_neg t0, if_neg t54]
        rfl
      · intro u' d he; cases he; exact hi

theorem run_split {known : Nat → Bool} {u : Uni} (hi : UInv u) (b : UInt8) (bs : Bytes) :
    run known u (b :: bs) = uThen (run known u [b]) (fun u => run known u bs) ∧
    ∀ u' d, run known u [b] = (d, .ok u' []) → UInv u' := by
  cases h : u.stype with
  | some t =>
    rw [run_type h, run_type h]
    exact runType_split hi h b bs
  | none =>
    obtain ⟨hp, hs⟩ := hi.fresh h
    unfold run unidir
    rw [h]
    dsimp only
    rw [vfs_cons hp b bs, vfs_cons hp b []]
    by_cases cc : (u.ctl.buf ++ [b]).length ≥ varSkip ((u.ctl.buf ++ [b]).headD 0)
    · rw [if_pos cc, if_pos cc]
      dsimp only
      rw [ofType_nil]
      dsimp only
      constructor
      · rfl
      · intro u' d he
        cases he
        refine ⟨(fun h' => by cases h'), fun h' => ?_, fun _ _ => .inl ?_⟩
        · have h' : varVal (u.ctl.buf ++ [b]) = 0 := by injection h'
          dsimp only
          rw [if_pos h']
          exact reset_inv rfl
        · dsimp only
          split <;> rfl
    · rw [if_neg cc, if_neg cc, vfs_nil]
      dsimp only
      constructor
      · rfl
      · intro u' d he
        cases he
        exact ⟨fun _ => ⟨part_next cc, hs⟩, (fun h' => by cases h'), fun h' => by cases h'⟩

theorem run_shape {known : Nat → Bool} {u : Uni} {bs : Bytes} (d : Bytes) (u' : Uni) (e : Bytes) (h : run known u bs = (d, .ok u' e)) : e = [] := by
  unfold run at h
  cases hr : unidir known u bs <;> rw [hr] at h <;> cases h
  rfl

theorem run_append {known : Nat → Bool} (a b : Bytes) : ∀ u : Uni, UInv u →
    run known u (a ++ b) = uThen (run known u a) (fun u => run known u b) ∧ ∀ u' d, run known u a = (d, .ok u' []) → UInv u' := by
  induction a with
  | nil =>
    intro u hu
    rw [run_nil]
    refine ⟨rfl, fun u' d he => ?_⟩
    cases he; exact hu
  | cons x a ih =>
    intro u hu
    rw [List.cons_append, (run_split hu x (a ++ b)).1, (run_split hu x a).1]
    have hk := (run_split (known := known) hu x a).2
    have shape := run_shape (known := known) (u := u) (bs := [x])
    generalize run known u [x] = r at hk shape
    obtain ⟨d, r⟩ := r
    cases r with
    | ok u1 e =>
      cases shape d u1 e rfl
      obtain ⟨i1, i2⟩ := ih u1 (hk u1 d rfl)
      show (d ++ (run known u1 (a ++ b)).1, (run known u1 (a ++ b)).2) = uThen (d ++ (run known u1 a).1, (run known u1 a).2) _ ∧ ∀ u' d', (d ++ (run known u1 a).1, (run known u1 a).2) = (d', URes.ok u' []) → UInv u'
      rw [i1]
      generalize run known u1 a = r2 at i2
      obtain ⟨d2, r2⟩ := r2
      cases r2 with
      | ok u2 e2 =>
        refine ⟨?_, fun u' d' he => ?_⟩
        · show (d ++ (d2 ++ (run known u2 b).1), _) = (d ++ d2 ++ (run known u2 b).1, _)
          rw [List.append_assoc]
          rfl
        · cases he
          exact i2 _ _ rfl
      | refused code u2 => exact ⟨rfl, fun u' d' he => by cases he⟩
      | stuck => exact ⟨rfl, fun u' d' he => by cases he⟩
    | refused code u1 => exact ⟨rfl, fun u' d' he => by cases he⟩
    | stuck => exact ⟨rfl, fun u' d' he => by cases he⟩

theorem pieces_cons (known : Nat → Bool) (u : Uni) (p : Bytes) (ps : List Bytes) :
    pieces (unidir known) u (p :: ps) = uThen (run known u p) (fun u => pieces (unidir known) u ps) := by
  rw [pieces]
  unfold run
  cases unidir known u p <;> rfl

theorem pieces_run (known : Nat → Bool) (ps : List Bytes) : ∀ u : Uni, UInv u → pieces (unidir known) u ps = run known u ps.flatten := by
  induction ps with
  | nil => intro u _; rw [List.flatten_nil, run_nil]; rfl
  | cons p ps ih =>
    intro u hu
    rw [pieces_cons, List.flatten_cons, (run_append p ps.flatten u hu).1]
    have hk := (run_append (known := known) p ps.flatten u hu).2
    have shape := run_shape (known := known) (u := u) (bs := p)
    generalize run known u p = r at hk shape
    obtain ⟨d, r⟩ := r
    cases r with
    | ok u1 e =>
      cases shape d u1 e rfl
      show (d ++ (pieces (unidir known) u1 ps).1, (pieces (unidir known) u1 ps).2) = (d ++ (run known u1 ps.flatten).1, (run known u1 ps.flatten).2)
      rw [ih u1 (hk _ _ rfl)]
    | refused code u1 => rfl
    | stuck => rfl

theorem uinv_new (c : Ctl) (h : c.buf = []) : UInv { ctl := c } :=
  ⟨fun _ => ⟨.inl h, rfl⟩, (fun h => by cases h), fun h => by cases h⟩

/-- A stream from its beginning. -/
theorem run_new (known : Nat → Bool) (c : Ctl) (h : c.buf = []) {p : Bytes} {t : Nat} (hp : Varint p t) (rest : Bytes) :
    run known { ctl := c } (p ++ rest) = runType known { stype := some t, ctl := if t = 0 then reset c else c } t rest := by
  unfold run unidir runType
  dsimp only
  rw [h, vfs_whole hp]
  dsimp only
  have e : ({ c with buf := [] } : Ctl) = c := by cases c; simp_all
  rw [e]

/-! ### Encoding -/

theorem venc {v room : Nat} {bs : Bytes} (h : framesVarintEncode v room = some bs) (hv : v < 2 ^ 62) : Varint bs v ∧ bs.length ≤ room := by
  rw [framesVarintEncode_eq] at h
  split at h
  · cases h
    obtain ⟨k, hk, -⟩ := varintBytes_isVarint v hv
    refine ⟨⟨k, hk⟩, ?_⟩
    rw [varintBytes_length]
    assumption
  · cases h

theorem pairs_snoc {kvs : List (Nat × Nat)} {bs a b : Bytes} {k v : Nat} (h : H3Pairs kvs bs) (ha : Varint a k) (hb : Varint b v) : H3Pairs (kvs ++ [(k, v)]) (bs ++ (a ++ b)) := by
  induction h with
  | nil =>
    have := H3Pairs.cons ha hb H3Pairs.nil
    simpa using this
  | @cons k' v' kvs a' b' r ha' hb' _ ih =>
    have := H3Pairs.cons ha' hb' ih
    simpa using this

/-- What one component adds. -/
def opt (k v d : Nat) : List (Nat × Nat) := if v ≠ d then [(k, v)] else []

theorem add_spec {room k v d : Nat} {bs out : Bytes} {kvs : List (Nat × Nat)} (h : addComponent room k v d bs = some out) (hk : k < 2 ^ 62) (hv : v ≠ d → v < 2 ^ 62) (hp : H3Pairs kvs bs)
    (hl : bs.length ≤ room) : H3Pairs (kvs ++ opt k v d) out ∧ out.length ≤ room := by
  unfold addComponent componentEncode at h
  unfold opt
  by_cases hd : v ≠ d
  · rw [if_pos hd] at h ⊢
    cases h1 : framesVarintEncode k (room - bs.length) with
    | none => rw [h1] at h; cases h
    | some a =>
      rw [h1] at h
      dsimp only at h
      obtain ⟨va, la⟩ := venc h1 hk
      cases h2 : framesVarintEncode v (room - bs.length - a.length) with
      | none => rw [h2] at h; cases h
      | some b =>
        rw [h2] at h
        dsimp only at h
        obtain ⟨vb, lb⟩ := venc h2 (hv hd)
        cases h
        exact ⟨pairs_snoc hp va vb, by simp only [List.length_append]; omega⟩
  · rw [if_neg hd] at h ⊢
    dsimp only at h
    cases h
    simp only [List.append_nil]
    exact ⟨hp, hl⟩

theorem settings_opt (kvs : List (Nat × Nat)) (k v d : Nat) : settingsOf (kvs ++ opt k v d) = if v ≠ d then setOne (settingsOf kvs) k v else settingsOf kvs := by
  unfold opt
  split
  · exact settingsOf_snoc kvs k v
  · rw [List.append_nil]

/-- The settings that arrive. -/
def sent (s : Settings) : Settings :=
  { s with table := if s.table = UINT64_MAX then 0 else s.table, blocked := if s.blocked = UINT64_MAX then 0 else s.blocked }

/-- The values fit. -/
def Fits (s : Settings) : Prop := (s.table < 2 ^ 62 ∨ s.table = UINT64_MAX) ∧ (s.blocked < 2 ^ 62 ∨ s.blocked = UINT64_MAX) ∧ s.sessions < 2 ^ 62

theorem components_spec {room : Nat} {s : Settings} {out : Bytes} (h : components room s = some out) (hs : Fits s) :
    ∃ kvs, H3Pairs kvs out ∧ out.length ≤ room ∧ settingsOf kvs = sent s ∧ (s.table ≠ UINT64_MAX ∨ s.blocked ≠ UINT64_MAX → kvs ≠ []) := by
  obtain ⟨f1, f2, f3⟩ := hs
  have bt : ∀ b : Bool, b.toNat ≠ 0 → b.toNat < 2 ^ 62 := by intro b; cases b <;> simp
  unfold components at h
  cases h1 : addComponent room 1 s.table UINT64_MAX [] with
  | none => rw [h1] at h; cases h
  | some b1 =>
    obtain ⟨p1, l1⟩ := add_spec h1 (by decide) (by omega) .nil (by simp)
    rw [h1] at h
    cases h2 : addComponent room 7 s.blocked UINT64_MAX b1 with
    | none => simp [h2] at h
    | some b2 =>
      obtain ⟨p2, l2⟩ := add_spec h2 (by decide) (by omega) p1 l1
      cases h3 : addComponent room 8 s.connect.toNat 0 b2 with
      | none => simp [h2, h3] at h
      | some b3 =>
        obtain ⟨p3, l3⟩ := add_spec h3 (by decide) (bt _) p2 l2
        cases h4 : addComponent room 0x33 s.datagram.toNat 0 b3 with
        | none => simp [h2, h3, h4] at h
        | some b4 =>
          obtain ⟨p4, l4⟩ := add_spec h4 (by decide) (bt _) p3 l3
          have h5 : addComponent room 0xc671706a s.sessions 0 b4 = some out := by simpa [h2, h3, h4] using h
          obtain ⟨p5, l5⟩ := add_spec h5 (by decide) (fun _ => f3) p4 l4
          refine ⟨_, p5, l5, ?_, ?_⟩
          · rw [settings_opt, settings_opt, settings_opt, settings_opt, settings_opt]
            have e : settingsOf [] = {} := by decide
            rw [e]
            clear h1 h2 h3 h4 h5 p1 p2 p3 p4 p5 h f1 f2 f3
            obtain ⟨a, b, c, d, e⟩ := s
            by_cases ha : a = 0 <;> by_cases hb : b = UINT64_MAX <;> by_cases hc : c = UINT64_MAX <;> cases d <;> cases e <;> simp [setOne, sent, ha, hb, hc]
          · rintro hh he
            simp only [List.append_eq_nil_iff, opt] at he
            obtain ⟨⟨⟨⟨⟨-, e1⟩, e2⟩, -⟩, -⟩, -⟩ := he
            rcases hh with hh | hh
            · rw [if_pos hh] at e1; cases e1
            · rw [if_pos hh] at e2; cases e2

theorem settings_spec {s : Settings} {room : Nat} {bs : Bytes} (h : settingsEncode s room = some bs) (hs : Fits s) (hr : room < 2 ^ 62) :
    ∃ kvs payload, H3FrameBytes ⟨4, payload⟩ bs ∧ H3Pairs kvs payload ∧ settingsOf kvs = sent s ∧ bs.length ≤ room ∧ (s.table ≠ UINT64_MAX ∨ s.blocked ≠ UINT64_MAX → kvs ≠ []) := by
  unfold settingsEncode at h
  cases h1 : framesVarintEncode 4 room with
  | none => rw [h1] at h; cases h
  | some t =>
    rw [h1] at h
    dsimp only at h
    obtain ⟨v1, l1⟩ := venc h1 (by decide)
    cases h2 : framesVarintEncode room (room - t.length) with
    | none => rw [h2] at h; cases h
    | some l =>
      rw [h2] at h
      dsimp only at h
      obtain ⟨v2, l2⟩ := venc h2 hr
      cases h3 : components (room - t.length - l.length) s with
      | none => rw [h3] at h; cases h
      | some c =>
        rw [h3] at h
        dsimp only at h
        obtain ⟨kvs, p3, l3, e3, n3⟩ := components_spec h3 hs
        cases h4 : framesVarintEncode c.length l.length with
        | none => rw [h4] at h; cases h
        | some l' =>
          rw [h4] at h
          cases h
          obtain ⟨v4, l4⟩ := venc h4 (by omega)
          exact ⟨kvs, c, ⟨t, l', by simp, v1, v4⟩, p3, e3, by simp only [List.length_append]; omega, n3⟩

theorem enc_len (v : Nat) : encodeVarintLength v ≤ 8 := by
  unfold encodeVarintLength
  split <;> split <;> omega

theorem add_room {room k v d : Nat} {bs : Bytes} {n m : Nat} (hb : bs.length ≤ n) (hm : encodeVarintLength k + encodeVarintLength v ≤ m) (hr : n + m ≤ room) :
    ∃ out, addComponent room k v d bs = some out ∧ out.length ≤ n + m := by
  unfold addComponent componentEncode
  by_cases hd : v ≠ d
  · rw [if_pos hd]
    rw [framesVarintEncode_eq, if_pos (by omega)]
    dsimp only
    rw [varintBytes_length, framesVarintEncode_eq, if_pos (by omega)]
    exact ⟨_, rfl, by simp only [List.length_append, varintBytes_length]; omega⟩
  · rw [if_neg hd]
    exact ⟨_, rfl, by simp; omega⟩

/-- There is room for the settings in 47 bytes. -/
theorem settings_room (s : Settings) (room : Nat) (h : 47 ≤ room) : ∃ bs, settingsEncode s room = some bs ∧ bs.length ≤ 40 := by
  unfold settingsEncode
  have hl := enc_len room
  rw [framesVarintEncode_eq, if_pos (by have : encodeVarintLength 4 = 1 := by decide
                                        omega)]
  dsimp only
  have ht : (varintBytes 4).length = 1 := by decide
  rw [ht, framesVarintEncode_eq, if_pos (by omega)]
  dsimp only
  rw [varintBytes_length]
  have bt : ∀ b : Bool, encodeVarintLength b.toNat = 1 := by intro b; cases b <;> decide
  obtain ⟨o1, e1, n1⟩ := add_room (room := room - 1 - encodeVarintLength room) (k := 1) (v := s.table) (d := UINT64_MAX) (bs := []) (n := 0) (m := 9) (by simp)
    (by have := enc_len s.table; have : encodeVarintLength 1 = 1 := by decide
        omega) (by omega)
  obtain ⟨o2, e2, n2⟩ := add_room (room := room - 1 - encodeVarintLength room) (k := 7) (v := s.blocked) (d := UINT64_MAX) (m := 9) n1
    (by have := enc_len s.blocked; have : encodeVarintLength 7 = 1 := by decide
        omega) (by omega)
  obtain ⟨o3, e3, n3⟩ := add_room (room := room - 1 - encodeVarintLength room) (k := 8) (v := s.connect.toNat) (d := 0) (m := 2) n2
    (by have := bt s.connect; have : encodeVarintLength 8 = 1 := by decide
        omega) (by omega)
  obtain ⟨o4, e4, n4⟩ := add_room (room := room - 1 - encodeVarintLength room) (k := 0x33) (v := s.datagram.toNat) (d := 0) (m := 2) n3
    (by have := bt s.datagram; have : encodeVarintLength 0x33 = 1 := by decide
        omega) (by omega)
  obtain ⟨o5, e5, n5⟩ := add_room (room := room - 1 - encodeVarintLength room) (k := 0xc671706a) (v := s.sessions) (d := 0) (m := 16) n4
    (by have := enc_len s.sessions; have := enc_len 0xc671706a; omega) (by omega)
  have e : components (room - 1 - encodeVarintLength room) s = some o5 := by
    unfold components
    simp [e1, e2, e3, e4, e5]
  rw [e]
  dsimp only
  have h1 : encodeVarintLength o5.length = 1 := by unfold encodeVarintLength; split <;> split <;> omega
  rw [framesVarintEncode_eq, if_pos (by
    have := encodeVarintLength_pos room
    omega)]
  exact ⟨_, rfl, by simp only [List.length_append, varintBytes_length, h1, show encodeVarintLength 4 = 1 from by decide]; omega⟩

/-- A control stream that is accepted. -/
theorem pieces_accept (known : Nat → Bool) {p bs : Bytes} {f : H3Frame} {rest : List H3Frame} {kvs : List (Nat × Nat)} {cs : List Bytes} (hp : Varint p 0) (hb : H3Stream (f :: rest) bs)
    (hf : f.ty = 4) (hk : H3Pairs kvs f.payload) (hn : kvs ≠ []) (hl : f.payload.length ≤ 65536) (hr : ∀ g ∈ rest, H3Later g) (hc : cs.flatten = p ++ bs) :
    ∃ u, pieces (unidir known) { ctl := {} } cs = ([], .ok u []) ∧ u.ctl.received = true ∧ u.ctl.settings = settingsOf kvs := by
  rw [pieces_run _ _ _ (uinv_new _ rfl), hc, run_new known {} rfl hp]
  unfold runType ofType
  rw [if_pos rfl, if_pos rfl]
  have hi : Idle (reset {}) := idle_reset rfl
  have hne : f.payload ≠ [] := by
    intro e
    rw [e] at hk
    cases kvs with
    | nil => exact hn rfl
    | cons x xs =>
      generalize hz : ([] : Bytes) = z at hk
      cases hk with
      | cons ha _ _ =>
        have := congrArg List.length hz
        have := List.length_pos_iff.2 (varint_ne_nil ha)
        simp at *
        omega
  cases hb with
  | @cons _ _ a b hfb hrest =>
    obtain ⟨c1, e1, i1, r1, s1⟩ := (control_settings hi rfl rfl rfl hfb hf hne hl).1 kvs hk
    obtain ⟨c2, e2, i2, r2, s2⟩ := (control_laters _ _ hrest c1 i1 r1).1 hr
    have e : control (reset {}) (a ++ b) = .ok c2 := by
      rw [control_append _ _ _ hi.inv, e1]
      exact e2
    dsimp only
    rw [e]
    exact ⟨_, rfl, r2, s2.trans s1⟩

end Picoquic.H3Control
