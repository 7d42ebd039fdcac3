import Verif.Spec.LossDetect
/-! # Loss detection: lemmas -/

namespace Picoquic.LossDetect
open Picoquic Picoquic.Spec

theorem i64_small (x : Int) (h1 : - 2 ^ 63 ≤ x) (h2 : x < 2 ^ 63) : i64 x = x := by
  unfold i64
  split <;> omega

theorem i64_none (seq : Nat) (h : seq < 2 ^ 62) : i64 ((UINT64_MAX : Nat) - (seq : Int)) = -1 - seq := by
  have : ((UINT64_MAX : Nat) : Int) = 2 ^ 64 - 1 := by decide
  rw [this]
  unfold i64
  split <;> omega

theorem delta (e : Env) (p : Pkt) (h : p.seq < 2 ^ 62) (hh : e.highest = UINT64_MAX ∨ e.highest < 2 ^ 62) (n : Nat) (hn : 0 < n) :
    (i64 (e.highest - p.seq) ≥ n ↔ laterAcked e p n) := by
  unfold laterAcked
  rcases hh with hh | hh
  · rw [hh, i64_none _ h]
    constructor
    · intro a; omega
    · intro a; exact absurd rfl a.1
  · rw [i64_small _ (by omega) (by omega)]
    have : e.highest ≠ UINT64_MAX := by intro x; rw [x] at hh; exact absurd hh (by decide)
    constructor
    · intro a; exact ⟨this, by omega⟩
    · intro a; omega

theorem rack_eq (e : Env) (a : Path) (p : Pkt) (h : plausible e a p) (hl : laterAcked e p 1) : rackTime e a p = p.sent + overtakenFor e a := by
  obtain ⟨h1, h2, h3, h4, h5, h6⟩ := h
  obtain ⟨h7, h8⟩ := h6 hl
  unfold rackTime overtakenFor
  dsimp only
  rw [i64_small _ (by omega) (by omega)]
  have hd : (if a.srtt / 4 > 5000 then (5000 : Int) else (a.srtt : Int) / 4) = ((min (a.srtt / 4) 5000 : Nat) : Int) := by
    split <;> omega
  have hb : min (a.srtt / 4) 5000 ≤ 5000 := Nat.min_le_right _ _
  rw [hd]
  generalize min (a.srtt / 4) 5000 = d at *
  have hm : (((e.ackTime : Int) + (d : Int) - ((e.latestSent : Int) - p.sent) + e.maxAckDelay) % 2 ^ 64).toNat = p.sent + ((e.ackTime - e.latestSent) + d + e.maxAckDelay) := by
    omega
  rw [hm]
  split <;> omega

/-- The part of `judge` that looks at acknowledgements. -/
def first (e : Env) (a : Path) (p : Pkt) : Bool × Nat :=
  if p.zero && !e.zeroAccepted then (true, e.now)
  else if p.zero && e.st != 14 && e.st != 13 then (false, e.now + a.srtt + 10000)
  else
    let d := i64 (e.highest - p.seq)
    if d ≥ 3 then (true, e.now)
    else if d > 0 then (decide (rackTime e a p ≤ e.now) || p.trap, rackTime e a p)
    else (false, UINT64_MAX)

/-- Has the timer expired? -/
def late (e : Env) (a : Path) (last : Nat) (p : Pkt) : Bool := decide (last + a.cur ≤ e.now) || (decide (a.nbRet = 0) && decide (p.sent + 2 * a.cur < last) && decide (p.sent + 2 * a.cur ≤ e.now))

theorem judge_first (e : Env) (a : Path) (last : Nat) (p : Pkt) (h : (first e a p).1 = true) : judge e a last p = (true, false, (first e a p).2) := by
  show (if (first e a p).1 = true then (true, false, (first e a p).2) else _) = _
  rw [if_pos h]

theorem judge_late (e : Env) (a : Path) (last : Nat) (p : Pkt) (h : (first e a p).1 = false) (hl : late e a last p = true) :
    (judge e a last p).1 = (a.demoted && decide (last + a.cur ≤ e.now) || (!decide (last + a.cur ≤ e.now) && !p.eliciting)) ∧
    (judge e a last p).2.1 = !(judge e a last p).1 := by
  have e1 : judge e a last p = (if (first e a p).1 = true then (true, false, (first e a p).2) else
    if e.now ≥ last + a.cur then
      if a.demoted then (true, false, if last + a.cur < (first e a p).2 then last + a.cur else (first e a p).2) else (false, true, if last + a.cur < (first e a p).2 then last + a.cur else (first e a p).2)
    else if a.nbRet = 0 then
      if p.sent + 2 * a.cur < last then
        if e.now ≥ p.sent + 2 * a.cur then
          if p.eliciting then (false, true, if p.sent + 2 * a.cur < (first e a p).2 then p.sent + 2 * a.cur else (first e a p).2)
          else (true, false, if p.sent + 2 * a.cur < (first e a p).2 then p.sent + 2 * a.cur else (first e a p).2)
        else (false, false, if p.sent + 2 * a.cur < (first e a p).2 then p.sent + 2 * a.cur else (first e a p).2)
      else (false, false, if last + a.cur < (first e a p).2 then last + a.cur else (first e a p).2)
    else (false, false, if last + a.cur < (first e a p).2 then last + a.cur else (first e a p).2)) := rfl
  rw [e1, if_neg (by simp [h])]
  unfold late at hl
  by_cases h1 : e.now ≥ last + a.cur
  · rw [if_pos h1]; cases a.demoted <;> simp [h1]
  · rw [if_neg h1]
    have h1' : ¬ last + a.cur ≤ e.now := h1
    simp only [h1', decide_false, Bool.false_or, Bool.and_eq_true, decide_eq_true_eq] at hl
    obtain ⟨⟨h2, h3⟩, h4⟩ := hl
    rw [if_pos h2, if_pos h3, if_pos h4]
    cases p.eliciting <;> simp [h1']

theorem judge_early (e : Env) (a : Path) (last : Nat) (p : Pkt) (h : (first e a p).1 = false) (hl : late e a last p = false) :
    (judge e a last p).1 = false ∧ (judge e a last p).2.1 = false ∧ (judge e a last p).2.2 ≤ last + a.cur := by
  have e1 : judge e a last p = (if (first e a p).1 = true then (true, false, (first e a p).2) else
    if e.now ≥ last + a.cur then
      if a.demoted then (true, false, if last + a.cur < (first e a p).2 then last + a.cur else (first e a p).2) else (false, true, if last + a.cur < (first e a p).2 then last + a.cur else (first e a p).2)
    else if a.nbRet = 0 then
      if p.sent + 2 * a.cur < last then
        if e.now ≥ p.sent + 2 * a.cur then
          if p.eliciting then (false, true, if p.sent + 2 * a.cur < (first e a p).2 then p.sent + 2 * a.cur else (first e a p).2)
          else (true, false, if p.sent + 2 * a.cur < (first e a p).2 then p.sent + 2 * a.cur else (first e a p).2)
        else (false, false, if p.sent + 2 * a.cur < (first e a p).2 then p.sent + 2 * a.cur else (first e a p).2)
      else (false, false, if last + a.cur < (first e a p).2 then last + a.cur else (first e a p).2)
    else (false, false, if last + a.cur < (first e a p).2 then last + a.cur else (first e a p).2)) := rfl
  have hle : ∀ x y : Nat, (if x < y then x else y) ≤ x := by intro x y; split <;> omega
  rw [e1, if_neg (by simp [h])]
  unfold late at hl
  simp only [Bool.or_eq_false_iff, decide_eq_false_iff_not, Bool.and_eq_false_iff] at hl
  obtain ⟨h1, h2⟩ := hl
  rw [if_neg h1]
  by_cases h3 : a.nbRet = 0
  · rw [if_pos h3]
    by_cases h4 : p.sent + 2 * a.cur < last
    · rw [if_pos h4]
      by_cases h5 : e.now ≥ p.sent + 2 * a.cur
      · rcases h2 with (h2 | h2) | h2
        · exact absurd h3 h2
        · exact absurd h4 h2
        · exact absurd h5 h2
      · rw [if_neg h5]; exact ⟨rfl, rfl, Nat.le_trans (hle _ _) (by omega)⟩
    · rw [if_neg h4]; exact ⟨rfl, rfl, hle _ _⟩
  · rw [if_neg h3]; exact ⟨rfl, rfl, hle _ _⟩

/-- What acknowledgements say about a plain packet. -/
theorem first_plain (e : Env) (a : Path) (p : Pkt) (hp : plain e a p) (h : plausible e a p) :
    (first e a p).1 = true ↔ (laterAcked e p 3 ∨ (laterAcked e p 1 ∧ p.sent + overtakenFor e a ≤ e.now)) := by
  obtain ⟨p1, p2, p3, p4, p5⟩ := hp
  have z1 : (p.zero && !e.zeroAccepted) = false := by
    cases hz : p.zero
    · rfl
    · rw [(p5 hz).1]; rfl
  have z2 : (p.zero && e.st != 14 && e.st != 13) = false := by
    cases hz : p.zero
    · rfl
    · rcases (p5 hz).2 with x | x <;> rw [x] <;> rfl
  unfold first
  rw [if_neg (by simp [z1]), if_neg (by simp [z2])]
  dsimp only
  have d3 := delta e p h.1 h.2.1 3 (by omega)
  have d1 := delta e p h.1 h.2.1 1 (by omega)
  by_cases h3 : i64 (e.highest - p.seq) ≥ 3
  · rw [if_pos h3]; simp [d3.1 h3]
  · rw [if_neg h3]
    have n3 : ¬ laterAcked e p 3 := fun x => h3 (d3.2 x)
    by_cases h1 : i64 (e.highest - p.seq) > 0
    · rw [if_pos h1]
      have l1 := d1.1 (by omega)
      rw [rack_eq e a p h l1]
      simp [p3, n3, l1]
    · rw [if_neg h1]
      have n1 : ¬ laterAcked e p 1 := fun x => h1 (by have := d1.2 x; omega)
      simp [n3, n1]

theorem verdict_plain (e : Env) (a : Path) (last : Nat) (p : Pkt) (hp : plain e a p) : verdict e a last p = judge e a last p := by
  unfold verdict
  rw [if_neg (by simp [hp.1, hp.2.1])]

/-! ## The queue -/

theorem lastTime_cons (p : Pkt) (ps : List Pkt) : lastTime (p :: ps) = lastSent p ps := by
  unfold lastTime lastSent
  rw [List.getLast?_eq_some_getLast (by simp)]
  rfl

theorem lastTime_tail (p q : Pkt) (ps : List Pkt) : lastTime (p :: q :: ps) = lastTime (q :: ps) := by
  unfold lastTime
  rw [List.getLast?_cons_cons]

/-- Why a packet may leave the queue in this way. -/
def fair (e : Env) (a : Path) (v : Bool × Bool × Nat) : Ev → Prop
  | .lost p => v.1 = true ∧ p.trap = false
  | .trap p => v.1 = true ∧ p.trap = true
  | .timer p => v.1 = false ∧ v.2.1 = true ∧ (e.st ≤ 13 ∨ (p.eliciting = true ∧ a.pto = false))
  | .dropped p => v.1 = false ∧ v.2.1 = true ∧ 13 < e.st ∧ p.eliciting = false

/-- One packet of the queue. -/
theorem needed_cases (e : Env) (a : Path) (w : Nat) (p : Pkt) (ps : List Pkt) :
    (needed e a w (p :: ps) = { needed e a w ps with kept := p :: (needed e a w ps).kept } ∧ p.zero = true ∧
      (e.st < 13 ∨ ((verdict e a (lastSent p ps) p).1 = false ∧ (verdict e a (lastSent p ps) p).2.1 = false))) ∨
    (∃ ev, ev.pkt = p ∧ isProbe ev = false ∧ fair e a (verdict e a (lastSent p ps) p) ev ∧ needed e a w (p :: ps) = { needed e a w ps with evs := ev :: (needed e a w ps).evs }) ∨
    (∃ ev, ev.pkt = p ∧ fair e a (verdict e a (lastSent p ps) p) ev ∧
      ((∃ q, ev = .lost q) ∧ needed e a w (p :: ps) = ⟨ps, [ev], w, p.copied, a⟩ ∧ 0 < p.copied ∨
       isProbe ev = true ∧ e.st ≤ 13 ∧ needed e a w (p :: ps) = ⟨ps, [ev], w, p.copied, a⟩ ∨
       isProbe ev = true ∧ 13 < e.st ∧ needed e a w (p :: ps) = ⟨ps, [ev], w, p.copied, { a with pto := true, nbRet := a.nbRet + 1 }⟩)) ∨
    (needed e a w (p :: ps) = ⟨p :: ps, [], w, 0, a⟩ ∧
      (((verdict e a (lastSent p ps) p).1 = true ∧ p.crypto = true ∧ e.room < p.len) ∨ (13 < e.st ∧ a.pto = true ∧ (verdict e a (lastSent p ps) p).2.1 = true))) ∨
    (needed e a w (p :: ps) = ⟨p :: ps, [], if (verdict e a (lastSent p ps) p).2.2 < w then (verdict e a (lastSent p ps) p).2.2 else w, 0, a⟩ ∧
      p.zero = false ∧ (verdict e a (lastSent p ps) p).1 = false ∧ (verdict e a (lastSent p ps) p).2.1 = false) := by
  rw [needed]
  by_cases h1 : (p.zero && decide (e.st < 13)) = true
  · rw [if_pos h1]
    simp at h1
    exact Or.inl ⟨rfl, h1.1, Or.inl h1.2⟩
  rw [if_neg h1]
  dsimp only
  generalize verdict e a (lastSent p ps) p = v
  by_cases h2 : v.1 = true
  · rw [if_pos h2]
    by_cases h3 : (p.crypto && decide (p.len > e.room)) = true
    · rw [if_pos h3]
      simp at h3
      exact Or.inr (Or.inr (Or.inr (Or.inl ⟨rfl, Or.inl ⟨h2, h3.1, h3.2⟩⟩)))
    rw [if_neg h3]
    by_cases h4 : p.trap = true
    · rw [if_pos h4]
      exact Or.inr (Or.inl ⟨.trap p, rfl, rfl, ⟨h2, h4⟩, rfl⟩)
    rw [if_neg h4]
    have h4' : p.trap = false := by cases h : p.trap <;> simp_all
    by_cases h5 : (p.pure || p.copied == 0) = true
    · rw [if_pos h5]
      exact Or.inr (Or.inl ⟨.lost p, rfl, rfl, ⟨h2, h4'⟩, rfl⟩)
    rw [if_neg h5]
    simp at h5
    exact Or.inr (Or.inr (Or.inl ⟨.lost p, rfl, ⟨h2, h4'⟩, Or.inl ⟨⟨p, rfl⟩, rfl, by omega⟩⟩))
  rw [if_neg h2]
  have h2' : v.1 = false := by cases h : v.1 <;> simp_all
  by_cases h3 : v.2.1 = true
  · rw [if_neg (by simp [h3])]
    by_cases h4 : e.st ≤ 13
    · rw [if_pos h4]
      by_cases h5 : p.pure = true
      · rw [if_pos h5]
        exact Or.inr (Or.inl ⟨.timer p, rfl, by simp [isProbe, h5], ⟨h2', h3, Or.inl h4⟩, rfl⟩)
      · rw [if_neg h5]
        exact Or.inr (Or.inr (Or.inl ⟨.timer p, rfl, ⟨h2', h3, Or.inl h4⟩, Or.inr (Or.inl ⟨by simp [isProbe, h5], h4, rfl⟩)⟩))
    rw [if_neg h4]
    by_cases h5 : p.eliciting = true
    · rw [if_neg (by simp [h5])]
      by_cases h6 : a.pto = true
      · rw [if_pos h6]
        exact Or.inr (Or.inr (Or.inr (Or.inl ⟨rfl, Or.inr ⟨by omega, h6, h3⟩⟩)))
      rw [if_neg h6]
      have h6' : a.pto = false := by cases h : a.pto <;> simp_all
      by_cases h7 : p.pure = true
      · rw [if_pos h7]
        exact Or.inr (Or.inl ⟨.timer p, rfl, by simp [isProbe, h7], ⟨h2', h3, Or.inr ⟨h5, h6'⟩⟩, rfl⟩)
      · rw [if_neg h7]
        exact Or.inr (Or.inr (Or.inl ⟨.timer p, rfl, ⟨h2', h3, Or.inr ⟨h5, h6'⟩⟩, Or.inr (Or.inr ⟨by simp [isProbe, h7], by omega, rfl⟩)⟩))
    · rw [if_pos (by simp [h5])]
      exact Or.inr (Or.inl ⟨.dropped p, rfl, rfl, ⟨h2', h3, by omega, by cases h : p.eliciting <;> simp_all⟩, rfl⟩)
  · have h3' : v.2.1 = false := by cases h : v.2.1 <;> simp_all
    rw [if_pos (by simp [h3'])]
    by_cases h4 : p.zero = true
    · rw [if_pos h4]
      exact Or.inl ⟨rfl, h4, Or.inr ⟨h2', h3'⟩⟩
    · rw [if_neg h4]
      exact Or.inr (Or.inr (Or.inr (Or.inr ⟨rfl, by cases h : p.zero <;> simp_all, h2', h3'⟩)))

theorem needed_perm (e : Env) (a : Path) (w : Nat) (q : List Pkt) : ((needed e a w q).evs.map Ev.pkt ++ (needed e a w q).kept).Perm q := by
  induction q with
  | nil => exact List.Perm.refl _
  | cons p ps ih =>
    rcases needed_cases e a w p ps with ⟨h, _⟩ | ⟨ev, h1, _, _, h⟩ | ⟨ev, h1, _, ⟨_, h, _⟩ | ⟨_, _, h⟩ | ⟨_, _, h⟩⟩ | ⟨h, _⟩ | ⟨h, _⟩
    · rw [h]; exact List.perm_middle.trans (ih.cons p)
    · rw [h]; simp only [List.map_cons, List.cons_append, h1]; exact ih.cons p
    all_goals (rw [h]; simp [*])

theorem needed_fair (e : Env) (a : Path) (w : Nat) (q : List Pkt) : ∀ ev ∈ (needed e a w q).evs, ev.pkt ∈ q ∧ fair e a (verdict e a (lastTime q) ev.pkt) ev := by
  induction q with
  | nil => intro ev h; simp [needed] at h
  | cons p ps ih =>
    have hl : ∀ ev ∈ (needed e a w ps).evs, ev.pkt ∈ p :: ps ∧ fair e a (verdict e a (lastTime (p :: ps)) ev.pkt) ev := by
      intro ev hev
      obtain ⟨x, y⟩ := ih ev hev
      refine ⟨by simp [x], ?_⟩
      cases ps with
      | nil => simp at x
      | cons q qs => rw [lastTime_tail]; exact y
    intro ev hev
    rcases needed_cases e a w p ps with ⟨h, _⟩ | ⟨ev', h1, _, h2, h⟩ | ⟨ev', h1, h2, ⟨_, h, _⟩ | ⟨_, _, h⟩ | ⟨_, _, h⟩⟩ | ⟨h, _⟩ | ⟨h, _⟩
    · rw [h] at hev; exact hl ev hev
    · rw [h] at hev
      rcases List.mem_cons.1 hev with rfl | hev
      · rw [h1, lastTime_cons]; exact ⟨by simp, h2⟩
      · exact hl ev hev
    all_goals (rw [h] at hev; simp at hev)
    all_goals (subst hev; rw [h1, lastTime_cons]; exact ⟨by simp, h2⟩)

theorem onAck_perm (e : Env) (a : Path) (q : List Pkt) : (onAck e a q).2.map Ev.pkt ++ (onAck e a q).1 = q := by
  induction q with
  | nil => rfl
  | cons p ps ih =>
    rw [onAck]
    split
    · simp only [List.map_cons, List.cons_append, ih]
      congr 1
      split <;> rfl
    · rfl

theorem onAck_fair (e : Env) (a : Path) (q : List Pkt) : ∀ ev ∈ (onAck e a q).2, ev.pkt ∈ q ∧ fair e a (verdict e a (lastTime q) ev.pkt) ev := by
  induction q with
  | nil => intro ev h; simp [onAck] at h
  | cons p ps ih =>
    intro ev hev
    rw [onAck] at hev
    split at hev
    · rename_i hv
      rcases List.mem_cons.1 hev with rfl | hev
      · rw [lastTime_cons]
        split
        · rename_i ht; exact ⟨by simp [Ev.pkt], hv, ht⟩
        · rename_i ht; exact ⟨by simp [Ev.pkt], hv, by cases h : p.trap <;> simp_all⟩
      · obtain ⟨x, y⟩ := ih ev hev
        refine ⟨by simp [x], ?_⟩
        cases ps with
        | nil => simp at x
        | cons q qs => rw [lastTime_tail]; exact y
    · simp at hev

/-- The packet that stops the search was not lost. -/
theorem onAck_head (e : Env) (a : Path) (q : List Pkt) (p : Pkt) (ps : List Pkt) (h : (onAck e a q).1 = p :: ps) : (verdict e a (lastTime q) p).1 = false := by
  induction q with
  | nil => simp [onAck] at h
  | cons x xs ih =>
    rw [onAck] at h
    split at h
    · have := ih h
      cases xs with
      | nil => simp [onAck] at h
      | cons y ys => rw [lastTime_tail]; exact this
    · rename_i hv
      simp only [List.cons.injEq] at h
      obtain ⟨rfl, rfl⟩ := h
      rw [lastTime_cons]
      simpa using hv

/-- Being overtaken by three shows. -/
theorem verdict_three (e : Env) (a : Path) (last : Nat) (p : Pkt) (h : p.seq < 2 ^ 62) (hh : e.highest = UINT64_MAX ∨ e.highest < 2 ^ 62)
    (hz : p.zero = true → e.zeroAccepted = true → e.st = 13 ∨ e.st = 14) (hl : laterAcked e p 3) : (verdict e a last p).1 = true := by
  unfold verdict
  by_cases hi : (e.initialRepeat || p.orphan) = true
  · rw [if_pos hi]
  · rw [if_neg hi]
    have : (first e a p).1 = true := by
      unfold first
      by_cases h1 : (p.zero && !e.zeroAccepted) = true
      · rw [if_pos h1]
      · rw [if_neg h1]
        have z2 : (p.zero && e.st != 14 && e.st != 13) = false := by
          cases hz' : p.zero
          · rfl
          · have ha : e.zeroAccepted = true := by cases hx : e.zeroAccepted <;> simp_all
            rcases hz hz' ha with x | x <;> rw [x] <;> rfl
        rw [if_neg (by simp [z2])]
        dsimp only
        have h3 : i64 (e.highest - p.seq) ≥ 3 := (delta e p h hh 3 (by omega)).2 hl
        rw [if_pos h3]
    rw [judge_first _ _ _ _ this]

/-- Nothing to do: the connection asks to be called in time. -/
theorem needed_wake (e : Env) (a : Path) (w : Nat) (q : List Pkt) (hz : ∀ p ∈ q, p.zero = false) (hc : ∀ p ∈ q, p.crypto = false ∨ p.len ≤ e.room)
    (hp : a.pto = false) (hl : (needed e a w q).evs.countP isProbe = 0) (hd : (needed e a w q).length = 0) (hk : (needed e a w q).kept ≠ []) :
    (needed e a w q).wake ≤ lastTime q + a.cur := by
  induction q with
  | nil => simp [needed] at hk
  | cons p ps ih =>
    have zp := hz p (by simp)
    have cp := hc p (by simp)
    rcases needed_cases e a w p ps with ⟨_, h, _⟩ | ⟨ev, h1, h2, _, h⟩ | ⟨ev, h1, _, ⟨_, h, h3⟩ | ⟨h2, _, h⟩ | ⟨h2, _, h⟩⟩ | ⟨_, ⟨_, h1, h2⟩ | ⟨_, h1, _⟩⟩ | ⟨h, _, h1, h2⟩
    · rw [zp] at h; cases h
    · rw [h] at hl hd hk ⊢
      rw [List.countP_cons_of_neg (by simp [h2])] at hl
      have := ih (fun x hx => hz x (by simp [hx])) (fun x hx => hc x (by simp [hx])) hl hd hk
      cases ps with
      | nil => simp [needed] at hk
      | cons y ys => rw [lastTime_tail]; exact this
    · rw [h] at hd; simp at hd; omega
    · rw [h, List.countP_cons_of_pos h2] at hl; omega
    · rw [h, List.countP_cons_of_pos h2] at hl; omega
    · rcases cp with cp | cp
      · rw [cp] at h1; cases h1
      · omega
    · rw [hp] at h1; cases h1
    · rw [h]
      rw [lastTime_cons]
      have hv : (verdict e a (lastSent p ps) p).2.2 ≤ lastSent p ps + a.cur := by
        unfold verdict at h1 h2 ⊢
        by_cases hx : (e.initialRepeat || p.orphan) = true
        · rw [if_pos hx] at h1; cases h1
        · rw [if_neg hx] at h1 h2 ⊢
          have hf : (first e a p).1 = false := by
            cases hf : (first e a p).1
            · rfl
            · rw [judge_first _ _ _ _ hf] at h1; cases h1
          cases hlt : late e a (lastSent p ps) p
          · exact (judge_early _ _ _ _ hf hlt).2.2
          · have := (judge_late _ _ _ _ hf hlt).2
            rw [h1, h2] at this; cases this
      dsimp only
      split <;> omega

/-- When the timer of the last packet has expired, something is repeated, or nothing is left. -/
theorem needed_probe (e : Env) (a : Path) (w : Nat) (q : List Pkt) (hz : ∀ p ∈ q, p.zero = false) (hc : ∀ p ∈ q, p.crypto = false ∨ p.len ≤ e.room)
    (hp : a.pto = false) (ht : lastTime q + a.cur ≤ e.now) :
    (needed e a w q).kept = [] ∨ 0 < (needed e a w q).length ∨ (needed e a w q).evs.countP isProbe = 1 := by
  induction q with
  | nil => left; rfl
  | cons p ps ih =>
    have zp := hz p (by simp)
    have cp := hc p (by simp)
    rcases needed_cases e a w p ps with ⟨_, h, _⟩ | ⟨ev, h1, h2, _, h⟩ | ⟨ev, h1, _, ⟨_, h, h3⟩ | ⟨h2, _, h⟩ | ⟨h2, _, h⟩⟩ | ⟨_, ⟨_, h1, h2⟩ | ⟨_, h1, _⟩⟩ | ⟨h, _, h1, h2⟩
    · rw [zp] at h; cases h
    · rw [h]
      dsimp only
      rw [List.countP_cons_of_neg (by simp [h2])]
      cases ps with
      | nil => left; rfl
      | cons y ys =>
        rw [lastTime_tail] at ht
        exact ih (fun x hx => hz x (by simp [hx])) (fun x hx => hc x (by simp [hx])) ht
    · rw [h]; right; left; exact h3
    · rw [h]; right; right; simp [h2]
    · rw [h]; right; right; simp [h2]
    · rcases cp with cp | cp
      · rw [cp] at h1; cases h1
      · omega
    · rw [hp] at h1; cases h1
    · exfalso
      rw [lastTime_cons] at ht
      unfold verdict at h1 h2
      by_cases hx : (e.initialRepeat || p.orphan) = true
      · rw [if_pos hx] at h1; cases h1
      · rw [if_neg hx] at h1 h2
        have hf : (first e a p).1 = false := by
          cases hf : (first e a p).1
          · rfl
          · rw [judge_first _ _ _ _ hf] at h1; cases h1
        have hlt : late e a (lastSent p ps) p = true := by simp [late, ht]
        have := (judge_late _ _ _ _ hf hlt).2
        rw [h1, h2] at this; cases this

/-- At most one probe at a time, and none while one is asked for. -/
theorem needed_one (e : Env) (a : Path) (w : Nat) (q : List Pkt) (hs : 13 < e.st) :
    ((needed e a w q).evs.countP isProbe = 0 ∧ (needed e a w q).path = a) ∨
    ((needed e a w q).evs.countP isProbe = 1 ∧ a.pto = false ∧ (needed e a w q).path = { a with pto := true, nbRet := a.nbRet + 1 }) := by
  induction q with
  | nil => left; exact ⟨rfl, rfl⟩
  | cons p ps ih =>
    rcases needed_cases e a w p ps with ⟨h, _⟩ | ⟨ev, h1, h2, _, h⟩ | ⟨ev, h1, hf, ⟨⟨q, h2⟩, h, h3⟩ | ⟨h2, h3, h⟩ | ⟨h2, _, h⟩⟩ | ⟨h, _⟩ | ⟨h, _⟩
    · rw [h]; exact ih
    · rw [h]; dsimp only; rw [List.countP_cons_of_neg (by simp [h2])]; exact ih
    · rw [h]; left; subst h2; exact ⟨rfl, rfl⟩
    · omega
    · rw [h]; right
      refine ⟨by simp [h2], ?_, rfl⟩
      cases ev with
      | timer p' => rcases hf.2.2 with x | x
                    · omega
                    · exact x.2
      | _ => simp [isProbe] at h2
    · rw [h]; left; exact ⟨rfl, rfl⟩
    · rw [h]; left; exact ⟨rfl, rfl⟩

end Picoquic.LossDetect
