import Verif.Model.Mtu
import Verif.Spec.Mtu
/-!
# Proofs about path MTU discovery
-/

namespace Picoquic.Mtu
open Picoquic Picoquic.Spec

/-- The largest first probe. -/
def firstMax (c : Cfg) (v6 : Bool) : Nat :=
  if c.mtuMax > 0 ∧ c.remote > localMax c v6 then localMax c v6
  else if c.remote > MAX_PACKET_SIZE then MAX_PACKET_SIZE
  else c.remote

/-- The largest packet. -/
def bound (c : Cfg) (v6 : Bool) : Nat := max (initialMtu v6) (firstMax c v6)

theorem nextProbe_le {c : Cfg} {p : Path} {B : Nat} (hr : 0 < c.remote) (h1 : p.mtu ≤ B) (h2 : p.tried ≤ B) (h3 : firstMax c p.v6 ≤ B) : nextProbe c p ≤ B := by
  unfold nextProbe
  by_cases h0 : p.tried = 0
  · rw [if_pos h0, if_pos hr]
    unfold firstMax at h3
    omega
  · rw [if_neg h0]
    split
    · omega
    · split <;> omega

theorem initialMtu_ge (v6 : Bool) : 1232 ≤ initialMtu v6 := by cases v6 <;> decide

/-- What holds of a path and of its packets. -/
structure Inv (c : Cfg) (v6 : Bool) (h : MtuHist) : Prop where
  fam : h.path.v6 = v6
  lo : initialMtu v6 ≤ h.path.mtu
  mtu : h.path.mtu ≤ bound c v6
  tried : h.path.tried ≤ bound c v6
  sent : ∀ x, x ∈ h.sent → x.1 ≤ bound c v6
  acks : ∀ s, s ∈ h.acks → ∃ b, (s, b) ∈ h.sent
  best : h.path.mtu = initialMtu v6 ∨ h.path.mtu ∈ h.acks

theorem mayProbe_iff {c : Cfg} {p : Path} {ready : Bool} {pol : Policy} {queued : Nat} {idle : Bool} {bufMax : Nat} (h : mayProbe c p ready pol queued idle bufMax = true) :
    idle = true ∧ p.mtu < bufMax ∧ p.mtu < nextProbe c p ∧ p.probeSent = false ∧ pol ≠ .blocked ∧ ready = true ∧ (p.tried = 0 ∨ p.tried > 1400) := by
  unfold mayProbe at h
  simp only [Bool.and_eq_true, decide_eq_true_eq] at h
  obtain ⟨⟨h1, h2⟩, h3⟩ := h
  unfold probeNeeded at h2
  by_cases a : ready = true ∧ p.probeSent = false ∧ pol ≠ .blocked
  · rw [if_pos a] at h2
    by_cases b : p.tried = 0 ∨ p.tried > 1400
    · rw [if_pos b] at h2
      by_cases d : nextProbe c p > p.mtu
      · exact ⟨h1, h3, d, a.2.1, a.2.2, a.1, b⟩
      · rw [if_neg d] at h2; exact absurd rfl h2
    · rw [if_neg b] at h2; exact absurd rfl h2
  · rw [if_neg a] at h2; exact absurd rfl h2

theorem prepareProbe_some {c : Cfg} {p : Path} {header checksum bufMax length : Nat} (h : prepareProbe c p header checksum bufMax = some length) :
    length + checksum = min (nextProbe c p) bufMax ∧ length ≤ MAX_PACKET_SIZE := by
  unfold prepareProbe at h
  by_cases a : header ≥ MAX_PACKET_SIZE
  · rw [if_pos a] at h; cases h
  · rw [if_neg a] at h
    by_cases b : min (nextProbe c p) bufMax < checksum + (header + 1)
    · rw [if_pos b] at h; cases h
    · rw [if_neg b] at h
      by_cases d : min (nextProbe c p) bufMax - checksum > MAX_PACKET_SIZE
      · rw [if_pos d] at h; cases h
      · rw [if_neg d] at h
        injection h with h
        omega

theorem reset_fields (p : Path) : (reset p).v6 = p.v6 ∧ (reset p).mtu = initialMtu p.v6 ∧ (reset p).tried = 0 ∧ (reset p).losses = p.losses := ⟨rfl, rfl, rfl, rfl⟩

theorem checkLoss_cases (p : Path) (size : Nat) (timer ready : Bool) :
    checkLoss p size timer ready = p ∨ checkLoss p size timer ready = { p with losses := p.losses + 1 } ∨ checkLoss p size timer ready = reset { p with losses := p.losses + 1 } := by
  unfold checkLoss
  split
  · split
    · exact .inr (.inr rfl)
    · exact .inr (.inl rfl)
  · exact .inl rfl

theorem lost_cases (p : Path) (size : Nat) (probe timer ready : Bool) :
    (lost p size probe timer ready).v6 = p.v6 ∧ ((lost p size probe timer ready).mtu = p.mtu ∨ (lost p size probe timer ready).mtu = initialMtu p.v6) ∧
    ((lost p size probe timer ready).tried = p.tried ∨ (lost p size probe timer ready).tried = 0 ∨ (lost p size probe timer ready).tried = size) := by
  unfold lost lostProbe
  rcases checkLoss_cases p size timer ready with e | e | e <;> rw [e] <;> cases probe <;> simp [reset]

theorem inv_step {c : Cfg} {v6 : Bool} {h h' : MtuHist} {op : MtuOp} (hr : 0 < c.remote) (hi : Inv c v6 h) (hm : ∀ v, op = .move v → v = v6) (e : mtuStep c h op = some h') : Inv c v6 h' := by
  obtain ⟨i1, i2, i3, i4, i5, i6, i7⟩ := hi
  have hlo : initialMtu v6 ≤ bound c v6 := Nat.le_max_left _ _
  cases op with
  | data size =>
    unfold mtuStep at e
    dsimp only at e
    by_cases a : size ≤ h.path.mtu
    · rw [if_pos a] at e
      injection e with e; subst e
      refine ⟨i1, i2, i3, i4, ?_, ?_, i7⟩
      · intro x hx
        rw [List.mem_append, List.mem_singleton] at hx
        rcases hx with hx | rfl
        · exact i5 x hx
        · exact Nat.le_trans a i3
      · intro s hs
        obtain ⟨b, hb⟩ := i6 s hs
        exact ⟨b, List.mem_append_left _ hb⟩
    · rw [if_neg a] at e
      injection e with e; subst e
      exact ⟨i1, i2, i3, i4, i5, i6, i7⟩
  | probe ready pol queued idle header checksum bufMax =>
    unfold mtuStep at e
    dsimp only at e
    by_cases a : mayProbe c h.path ready pol queued idle bufMax = true
    · rw [if_pos a] at e
      cases ep : prepareProbe c h.path header checksum bufMax with
      | none => rw [ep] at e; cases e
      | some length =>
        rw [ep] at e
        injection e with e; subst e
        obtain ⟨k1, -⟩ := prepareProbe_some ep
        refine ⟨i1, i2, i3, i4, ?_, ?_, i7⟩
        · intro x hx
          rw [List.mem_append, List.mem_singleton] at hx
          rcases hx with hx | rfl
          · exact i5 x hx
          · dsimp only
            rw [k1]
            refine Nat.le_trans (Nat.min_le_left _ _) (nextProbe_le hr i3 i4 ?_)
            rw [i1]; exact Nat.le_max_right _ _
        · intro s hs
          obtain ⟨b, hb⟩ := i6 s hs
          exact ⟨b, List.mem_append_left _ hb⟩
    · rw [if_neg a] at e
      injection e with e; subst e
      exact ⟨i1, i2, i3, i4, i5, i6, i7⟩
  | ack k =>
    unfold mtuStep at e
    dsimp only at e
    cases ek : h.sent[k]? with
    | none => rw [ek] at e; injection e with e; subst e; exact ⟨i1, i2, i3, i4, i5, i6, i7⟩
    | some x =>
      obtain ⟨size, b⟩ := x
      rw [ek] at e
      injection e with e; subst e
      have hmem : (size, b) ∈ h.sent := List.mem_of_getElem? ek
      have hs := i5 _ hmem
      have ha : ∀ s, s ∈ size :: h.acks → ∃ b, (s, b) ∈ h.sent := by
        intro s hs
        rw [List.mem_cons] at hs
        rcases hs with rfl | hs
        · exact ⟨b, hmem⟩
        · exact i6 s hs
      have hb : h.path.mtu = initialMtu v6 ∨ h.path.mtu ∈ size :: h.acks := i7.elim .inl (fun h => .inr (List.mem_cons_of_mem _ h))
      unfold acked
      dsimp only at hs ⊢
      split
      · exact ⟨i1, i2, i3, i4, i5, ha, hb⟩
      · split
        · exact ⟨i1, (by dsimp only; omega), hs, i4, i5, ha, .inr List.mem_cons_self⟩
        · exact ⟨i1, i2, i3, i4, i5, ha, hb⟩
  | ackLate k =>
    unfold mtuStep at e
    dsimp only at e
    cases ek : h.sent[k]? with
    | none => rw [ek] at e; injection e with e; subst e; exact ⟨i1, i2, i3, i4, i5, i6, i7⟩
    | some x =>
      obtain ⟨size, b⟩ := x
      rw [ek] at e
      injection e with e; subst e
      have hmem : (size, b) ∈ h.sent := List.mem_of_getElem? ek
      have hs := i5 _ hmem
      have ha : ∀ s, s ∈ size :: h.acks → ∃ b, (s, b) ∈ h.sent := by
        intro s hs
        rw [List.mem_cons] at hs
        rcases hs with rfl | hs
        · exact ⟨b, hmem⟩
        · exact i6 s hs
      have hb : h.path.mtu = initialMtu v6 ∨ h.path.mtu ∈ size :: h.acks := i7.elim .inl (fun h => .inr (List.mem_cons_of_mem _ h))
      unfold ackedLate
      dsimp only at hs ⊢
      split
      · refine ⟨i1, (by dsimp only; omega), hs, ?_, i5, ha, .inr List.mem_cons_self⟩
        dsimp only
        split
        · exact hs
        · exact i4
      · exact ⟨i1, i2, i3, i4, i5, ha, hb⟩
  | lose k timer ready =>
    unfold mtuStep at e
    dsimp only at e
    cases ek : h.sent[k]? with
    | none => rw [ek] at e; injection e with e; subst e; exact ⟨i1, i2, i3, i4, i5, i6, i7⟩
    | some x =>
      obtain ⟨size, b⟩ := x
      rw [ek] at e
      injection e with e; subst e
      have hs := i5 _ (List.mem_of_getElem? ek)
      obtain ⟨l1, l2, l3⟩ := lost_cases h.path size b timer ready
      rw [i1] at l2
      dsimp only at hs
      refine ⟨l1.trans i1, ?_, ?_, ?_, i5, i6, ?_⟩ <;> dsimp only
      · rcases l2 with l2 | l2 <;> rw [l2] <;> omega
      · rcases l2 with l2 | l2 <;> rw [l2] <;> omega
      · rcases l3 with l3 | l3 | l3 <;> rw [l3] <;> omega
      · rcases l2 with l2 | l2
        · rw [l2]; exact i7
        · exact .inl l2
  | abandon k =>
    unfold mtuStep at e
    dsimp only at e
    cases ek : h.sent[k]? with
    | none => rw [ek] at e; injection e with e; subst e; exact ⟨i1, i2, i3, i4, i5, i6, i7⟩
    | some x =>
      obtain ⟨size, b⟩ := x
      rw [ek] at e
      injection e with e; subst e
      unfold abandoned lostProbe
      cases b with
      | true => exact ⟨i1, i2, i3, i4, i5, i6, i7⟩
      | false => exact ⟨i1, i2, i3, i4, i5, i6, i7⟩
  | move v =>
    have hv := hm v rfl
    subst hv
    unfold mtuStep at e
    injection e with e; subst e
    exact ⟨rfl, Nat.le_refl _, hlo, Nat.zero_le _, i5, i6, .inl rfl⟩

theorem inv_run {c : Cfg} {v6 : Bool} (hr : 0 < c.remote) : ∀ (ops : List MtuOp) (h h' : MtuHist), Inv c v6 h → (∀ v, .move v ∈ ops → v = v6) → mtuRun c h ops = some h' → Inv c v6 h' := by
  intro ops
  induction ops with
  | nil => intro h h' hi _ e; unfold mtuRun at e; injection e with e; subst e; exact hi
  | cons op ops ih =>
    intro h h' hi hm e
    unfold mtuRun at e
    cases es : mtuStep c h op with
    | none => rw [es] at e; cases e
    | some h1 =>
      rw [es] at e
      exact ih h1 h' (inv_step hr hi (fun v hv => hm v (hv ▸ List.mem_cons_self)) es) (fun v hv => hm v (List.mem_cons_of_mem _ hv)) e

theorem inv_new (c : Cfg) (v6 : Bool) : Inv c v6 { path := newPath v6 } :=
  ⟨rfl, Nat.le_refl _, Nat.le_max_left _ _, Nat.zero_le _, (fun _ h => nomatch h), (fun _ h => nomatch h), .inl rfl⟩

theorem localMax_eq {c : Cfg} {v6 : Bool} (h1 : overhead v6 ≤ c.mtuMax) (h2 : c.mtuMax < 2 ^ 32) : localMax c v6 = c.mtuMax - overhead v6 := by
  unfold localMax
  simp only [Nat.reducePow] at h2 ⊢
  have : 0 < overhead v6 := by cases v6 <;> decide
  rw [show c.mtuMax + 4294967296 - overhead v6 = (c.mtuMax - overhead v6) + 4294967296 by omega, Nat.add_mod_right, Nat.mod_eq_of_lt (by omega)]

/-- What the first probe respects. -/
theorem firstMax_allows {c : Cfg} {v6 : Bool} (h1 : c.mtuMax = 0 ∨ overhead v6 ≤ c.mtuMax) (h2 : c.mtuMax < 2 ^ 32) : MtuAllows c v6 (firstMax c v6) := by
  have ho : (if v6 then 48 else 28) = overhead v6 := rfl
  unfold MtuAllows firstMax
  by_cases a : c.mtuMax = 0
  · rw [if_neg (by omega)]
    refine ⟨?_, fun h => absurd a h⟩
    split <;> omega
  · have hl := localMax_eq (h1.resolve_left a) h2
    have hov := h1.resolve_left a
    rw [ho, hl]
    by_cases b : c.mtuMax > 0 ∧ c.remote > c.mtuMax - overhead v6
    · rw [if_pos b]
      exact ⟨by omega, fun _ => by omega⟩
    · rw [if_neg b]
      split
      · exact ⟨by omega, fun _ => by omega⟩
      · exact ⟨by omega, fun _ => by omega⟩

theorem MtuAllows.mono {c : Cfg} {v6 : Bool} {a b : Nat} (h : MtuAllows c v6 b) (hab : a ≤ b) : MtuAllows c v6 a :=
  ⟨Nat.le_trans hab h.1, fun hn => by have := h.2 hn; omega⟩

/-- A probe fits. -/
theorem prepareProbe_ok {c : Cfg} {v6 : Bool} {h : MtuHist} {header checksum bufMax : Nat} (hr : 0 < c.remote) (hi : Inv c v6 h) (hb : firstMax c v6 ≤ MAX_PACKET_SIZE) (hh : header + checksum < 1200)
    (h1 : h.path.mtu < bufMax) (h2 : h.path.mtu < nextProbe c h.path) : prepareProbe c h.path header checksum bufMax ≠ none := by
  have k1 := initialMtu_ge v6
  have k2 := hi.lo
  have k3 : bound c v6 ≤ MAX_PACKET_SIZE := by
    unfold bound
    have : initialMtu v6 ≤ MAX_PACKET_SIZE := by cases v6 <;> decide
    omega
  have k4 := nextProbe_le (p := h.path) hr hi.mtu hi.tried (by rw [hi.fam]; exact Nat.le_max_right _ _)
  have hM : MAX_PACKET_SIZE = 1536 := rfl
  unfold prepareProbe
  rw [if_neg (by omega), if_neg (by omega), if_neg (by omega)]
  exact fun h => nomatch h

theorem run_ok {c : Cfg} {v6 : Bool} (hr : 0 < c.remote) (hb : firstMax c v6 ≤ MAX_PACKET_SIZE) : ∀ (ops : List MtuOp) (h : MtuHist), Inv c v6 h → (∀ v, .move v ∈ ops → v = v6) →
    (∀ ready pol queued idle header checksum bufMax, .probe ready pol queued idle header checksum bufMax ∈ ops → header + checksum < 1200) → mtuRun c h ops ≠ none := by
  intro ops
  induction ops with
  | nil => intro h _ _ _ e; cases e
  | cons op ops ih =>
    intro h hi hm hp e
    unfold mtuRun at e
    cases es : mtuStep c h op with
    | some h1 =>
      rw [es] at e
      exact ih h1 (inv_step hr hi (fun v hv => hm v (hv ▸ List.mem_cons_self)) es) (fun v hv => hm v (List.mem_cons_of_mem _ hv))
        (fun a b c d e f g hg => hp a b c d e f g (List.mem_cons_of_mem _ hg)) e
    | none =>
      cases op with
      | probe ready pol queued idle header checksum bufMax =>
        unfold mtuStep at es
        dsimp only at es
        by_cases a : mayProbe c h.path ready pol queued idle bufMax = true
        · rw [if_pos a] at es
          obtain ⟨-, a2, a3, -⟩ := mayProbe_iff a
          have := prepareProbe_ok (header := header) (checksum := checksum) (bufMax := bufMax) hr hi hb (hp _ _ _ _ _ _ _ List.mem_cons_self) a2 a3
          cases ep : prepareProbe c h.path header checksum bufMax with
          | none => exact this ep
          | some l => rw [ep] at es; cases es
        · rw [if_neg a] at es; cases es
      | data size => unfold mtuStep at es; dsimp only at es; split at es <;> cases es
      | ack k => unfold mtuStep at es; dsimp only at es; split at es <;> cases es
      | ackLate k => unfold mtuStep at es; dsimp only at es; split at es <;> cases es
      | lose k t r => unfold mtuStep at es; dsimp only at es; split at es <;> cases es
      | abandon k => unfold mtuStep at es; dsimp only at es; split at es <;> cases es
      | move v => unfold mtuStep at es; cases es

/-! ### No discovery -/

/-- What holds if there is no discovery. -/
structure Still (v6 : Bool) (h : MtuHist) : Prop where
  fam : h.path.v6 = v6
  mtu : h.path.mtu = initialMtu v6
  sent : ∀ x, x ∈ h.sent → x.1 ≤ initialMtu v6 ∧ x.2 = false

theorem still_run {c : Cfg} {v6 : Bool} : ∀ (ops : List MtuOp) (h h' : MtuHist), Still v6 h → (∀ v, .move v ∈ ops → v = v6) →
    (∀ ready pol queued idle header checksum bufMax, .probe ready pol queued idle header checksum bufMax ∈ ops → pol = .blocked) → mtuRun c h ops = some h' → Still v6 h' := by
  intro ops
  induction ops with
  | nil => intro h h' hi _ _ e; unfold mtuRun at e; injection e with e; subst e; exact hi
  | cons op ops ih =>
    intro h h' hi hm hp e
    unfold mtuRun at e
    cases es : mtuStep c h op with
    | none => rw [es] at e; cases e
    | some h1 =>
      rw [es] at e
      refine ih h1 h' ?_ (fun v hv => hm v (List.mem_cons_of_mem _ hv)) (fun a b c d e f g hg => hp a b c d e f g (List.mem_cons_of_mem _ hg)) e
      obtain ⟨i1, i2, i3⟩ := hi
      have hstay : ∀ (q : Path), q.v6 = v6 → q.mtu = initialMtu v6 → ∀ (acks : List Nat), Still v6 { h with path := q, acks := acks } := fun q a b _ => ⟨a, b, i3⟩
      cases op with
      | data size =>
        unfold mtuStep at es
        dsimp only at es
        by_cases a : size ≤ h.path.mtu
        · rw [if_pos a] at es; injection es with es; subst es
          refine ⟨i1, i2, ?_⟩
          intro x hx
          rw [List.mem_append, List.mem_singleton] at hx
          rcases hx with hx | rfl
          · exact i3 x hx
          · exact ⟨by rw [← i2]; exact a, rfl⟩
        · rw [if_neg a] at es; injection es with es; subst es; exact ⟨i1, i2, i3⟩
      | probe ready pol queued idle header checksum bufMax =>
        unfold mtuStep at es
        dsimp only at es
        by_cases a : mayProbe c h.path ready pol queued idle bufMax = true
        · exact absurd (hp _ _ _ _ _ _ _ List.mem_cons_self) (mayProbe_iff a).2.2.2.2.1
        · rw [if_neg a] at es; injection es with es; subst es; exact ⟨i1, i2, i3⟩
      | ack k =>
        unfold mtuStep at es
        dsimp only at es
        cases ek : h.sent[k]? with
        | none => rw [ek] at es; injection es with es; subst es; exact ⟨i1, i2, i3⟩
        | some x =>
          rw [ek] at es; injection es with es; subst es
          have hs := (i3 _ (List.mem_of_getElem? ek)).1
          unfold acked
          split
          · exact ⟨i1, i2, i3⟩
          · rw [if_neg (by omega)]; exact ⟨i1, i2, i3⟩
      | ackLate k =>
        unfold mtuStep at es
        dsimp only at es
        cases ek : h.sent[k]? with
        | none => rw [ek] at es; injection es with es; subst es; exact ⟨i1, i2, i3⟩
        | some x =>
          rw [ek] at es; injection es with es; subst es
          have hs := (i3 _ (List.mem_of_getElem? ek)).1
          unfold ackedLate
          rw [if_neg (by omega)]; exact ⟨i1, i2, i3⟩
      | lose k t r =>
        unfold mtuStep at es
        dsimp only at es
        cases ek : h.sent[k]? with
        | none => rw [ek] at es; injection es with es; subst es; exact ⟨i1, i2, i3⟩
        | some x =>
          rw [ek] at es; injection es with es; subst es
          obtain ⟨l1, l2, -⟩ := lost_cases h.path x.1 x.2 t r
          rw [i1, i2] at l2
          exact ⟨l1.trans i1, l2.elim id id, i3⟩
      | abandon k =>
        unfold mtuStep at es
        dsimp only at es
        cases ek : h.sent[k]? with
        | none => rw [ek] at es; injection es with es; subst es; exact ⟨i1, i2, i3⟩
        | some x =>
          rw [ek] at es; injection es with es; subst es
          unfold abandoned lostProbe
          split <;> exact ⟨i1, i2, i3⟩
      | move v =>
        have hv := hm v List.mem_cons_self
        subst hv
        unfold mtuStep at es; injection es with es; subst es
        exact ⟨rfl, rfl, i3⟩

/-! ### Rounds -/

/-- How many probes can be lost. -/
def rank (tried : Nat) : Nat := if tried = 0 then 3 else if tried > 1500 then 2 else if tried > 1400 then 1 else 0

theorem round_spec {c : Cfg} {p : Path} {pol : Policy} {queued bufMax : Nat} {arrives : Bool} (hm : 0 < p.mtu) (hp : p.probeSent = false) :
    let r := mtuRound c p pol queued bufMax arrives
    r.1.probeSent = false ∧ r.1.v6 = p.v6 ∧
    (r.2 = false → r.1 = p) ∧
    (r.2 = true → arrives = true → r.1.tried = p.tried ∧ p.mtu < r.1.mtu ∧ r.1.mtu ≤ nextProbe c p) ∧
    (r.2 = true → arrives = false → r.1.mtu = p.mtu ∧ rank r.1.tried < rank p.tried ∧ r.1.tried ≤ nextProbe c p) := by
  intro r
  have er : r = mtuRound c p pol queued bufMax arrives := rfl
  unfold mtuRound at er
  by_cases a : mayProbe c p true pol queued true bufMax = true
  · rw [if_pos a] at er
    obtain ⟨-, a2, a3, -, -, -, a7⟩ := mayProbe_iff a
    cases arrives with
    | true =>
      rw [if_pos rfl] at er
      have e : acked (probed p) (min (nextProbe c p) bufMax) = { p with mtu := min (nextProbe c p) bufMax, probeSent := false } := by
        unfold acked probed
        dsimp only
        rw [if_neg (by omega), if_pos (by omega)]
      rw [e] at er
      rw [er]
      refine ⟨rfl, rfl, (fun h => nomatch h), fun _ _ => ⟨rfl, ?_, ?_⟩, (fun _ h => nomatch h)⟩ <;> dsimp only <;> omega
    | false =>
      rw [if_neg (by decide)] at er
      have e : lost (probed p) (min (nextProbe c p) bufMax) true false true = { p with probeSent := false, tried := min (nextProbe c p) bufMax } := by
        unfold lost lostProbe checkLoss probed
        dsimp only
        rw [if_pos rfl, if_neg (by rintro ⟨h | h, -⟩; · omega
                                   · cases h)]
        rfl
      rw [e] at er
      rw [er]
      refine ⟨rfl, rfl, (fun h => nomatch h), (fun _ h => nomatch h), fun _ _ => ⟨rfl, ?_, ?_⟩⟩
      · dsimp only
        have hlt : nextProbe c p ≤ 1500 ∨ p.tried = 0 ∨ p.tried ≤ 1500 := by
          unfold nextProbe
          by_cases h0 : p.tried = 0
          · exact .inr (.inl h0)
          · by_cases h1 : p.tried > 1500
            · rw [if_neg h0, if_pos h1]; exact .inl (by decide)
            · exact .inr (.inr (by omega))
        have hlt2 : nextProbe c p ≤ 1400 ∨ p.tried = 0 ∨ p.tried > 1500 ∨ p.tried ≤ 1400 := by
          unfold nextProbe
          by_cases h0 : p.tried = 0
          · exact .inr (.inl h0)
          · by_cases h1 : p.tried > 1500
            · exact .inr (.inr (.inl h1))
            · by_cases h2 : p.tried > 1400
              · rw [if_neg h0, if_neg h1, if_pos h2]; exact .inl (by decide)
              · exact .inr (.inr (.inr (by omega)))
        generalize nextProbe c p = n at *
        have hn : min n bufMax ≤ n := Nat.min_le_left _ _
        have hpos : 0 < min n bufMax := by omega
        generalize min n bufMax = m at *
        unfold rank
        rw [if_neg (show ¬ m = 0 by omega)]
        by_cases t0 : p.tried = 0
        · rw [if_pos t0]; split
          · omega
          · split <;> omega
        · rw [if_neg t0]
          by_cases t1 : p.tried > 1500
          · rw [if_pos t1, if_neg (show ¬ m > 1500 by omega)]
            split <;> omega
          · rw [if_neg t1, if_pos (show p.tried > 1400 by omega), if_neg (show ¬ m > 1500 by omega), if_neg (show ¬ m > 1400 by omega)]
            omega
      · dsimp only; omega
  · rw [if_neg a] at er
    rw [er]
    exact ⟨hp, rfl, fun _ => rfl, (fun h => nomatch h), (fun h => nomatch h)⟩

theorem rounds_spec {c : Cfg} {B : Nat} (hr : 0 < c.remote) : ∀ (rs : List (Policy × Nat × Nat × Bool)) (p : Path), 0 < p.mtu → p.probeSent = false → p.mtu ≤ B → p.tried ≤ B → firstMax c p.v6 ≤ B →
    p.mtu + (mtuRounds c p rs).2.1 ≤ (mtuRounds c p rs).1.mtu ∧ (mtuRounds c p rs).1.mtu ≤ B ∧ (mtuRounds c p rs).2.2 + rank (mtuRounds c p rs).1.tried ≤ rank p.tried := by
  intro rs
  induction rs with
  | nil => intro p _ _ h _ _; exact ⟨Nat.le_refl _, h, by simp [mtuRounds]⟩
  | cons x rs ih =>
    obtain ⟨pol, queued, bufMax, arrives⟩ := x
    intro p h1 h2 h3 h4 h5
    obtain ⟨r1, r2, r3, r4, r5⟩ := round_spec (c := c) (p := p) (pol := pol) (queued := queued) (bufMax := bufMax) (arrives := arrives) h1 h2
    have hle := nextProbe_le hr h3 h4 h5
    unfold mtuRounds
    dsimp only
    generalize mtuRound c p pol queued bufMax arrives = r at *
    cases hr2 : r.2 with
    | false =>
      obtain ⟨k1, k2, k3⟩ := ih p h1 h2 h3 h4 h5
      rw [r3 hr2]
      simp only [Bool.false_eq_true, false_and, if_false, Nat.zero_add]
      exact ⟨k1, k2, k3⟩
    | true =>
      cases arrives with
      | true =>
        obtain ⟨e1, e2, e3⟩ := r4 hr2 rfl
        obtain ⟨k1, k2, k3⟩ := ih r.1 (by omega) r1 (by omega) (by omega) (by rw [r2]; exact h5)
        simp only [and_self, if_true, Bool.true_eq_false, and_false, if_false, Nat.zero_add]
        rw [e1] at k3
        exact ⟨by omega, k2, k3⟩
      | false =>
        obtain ⟨e1, e2, e3⟩ := r5 hr2 rfl
        obtain ⟨k1, k2, k3⟩ := ih r.1 (by omega) r1 (by omega) (by omega) (by rw [r2]; exact h5)
        simp only [Bool.false_eq_true, and_false, if_false, Nat.zero_add, and_self, if_true]
        exact ⟨by omega, k2, by omega⟩

end Picoquic.Mtu
