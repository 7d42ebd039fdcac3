import Verif.Spec.Updates
/-! # Proofs about the scheduling of acknowledgements -/

namespace Picoquic.AckSched
open Picoquic.Spec

/-- The context of the packet number space of path `i`. -/
def State.space (s : State) (i : Nat) : Option Ctx :=
  if s.multipath then s.paths[i]?.map (·.ctx) else some s.ctx

theorem space_mp (s : State) (i : Nat) (h : s.multipath = true) : s.space i = s.paths[i]?.map (·.ctx) := if_pos h

theorem space_single (s : State) (i : Nat) (h : ¬ s.multipath = true) : s.space i = some s.ctx := if_neg h

theorem onPath_get (f : Path → Path) : ∀ (ps : List Path) (i j : Nat),
    (onPath i f ps)[j]? = if j = i then ps[j]?.map f else ps[j]?
  | [], i, j => by simp [onPath]
  | p :: ps, 0, 0 => by simp [onPath]
  | p :: ps, 0, j + 1 => by simp [onPath]
  | p :: ps, i + 1, 0 => by simp [onPath]
  | p :: ps, i + 1, j + 1 => by simp [onPath, onPath_get f ps i j]

theorem sentOnPaths_get (now : Nat) (opp : Bool) : ∀ (ps : List Path) (w : List Bool) (j : Nat),
    (sentOnPaths now opp ps w)[j]? =
      ps[j]?.map (fun p => { p with ctx := if w[j]? = some true then p.ctx.sent now opp else p.ctx })
  | [], w, j => by simp [sentOnPaths]
  | p :: ps, w, 0 => by
    cases w with
    | nil => simp [sentOnPaths]
    | cons b w => cases b <;> simp [sentOnPaths]
  | p :: ps, w, j + 1 => by
    have := sentOnPaths_get now opp ps w.tail j
    simp only [sentOnPaths, List.getElem?_cons_succ, this]
    cases w
    · simp
    · rfl

/-- What asking changes in a context. -/
theorem neededInCtx_ctx (s : State) (c : Ctx) (now : Nat) (y opp : Bool) (wake : Nat) :
    (s.neededInCtx c now y opp wake).2.2 = c ∨
      (s.neededInCtx c now y opp wake).2.2 = c.setAct opp { c.act opp with afterFin := false } := by
  unfold State.neededInCtx
  dsimp only
  (repeat' split) <;> simp

theorem neededOnPaths_get (s : State) (now : Nat) (y : Nat → Bool) (opp : Bool) :
    ∀ (ps : List Path) (k wake j : Nat),
    (s.neededOnPaths now y opp k ps wake).2.2[j]? = ps[j]? ∨
      (s.neededOnPaths now y opp k ps wake).2.2[j]? =
        ps[j]?.map (fun p => { p with ctx := p.ctx.setAct opp { p.ctx.act opp with afterFin := false } })
  | [], k, wake, j => by simp [State.neededOnPaths]
  | p :: ps, k, wake, j => by
    have hc := neededInCtx_ctx s p.ctx now (y k) opp wake
    unfold State.neededOnPaths
    generalize s.neededInCtx p.ctx now (y k) opp wake = r at hc
    obtain ⟨b, w, c⟩ := r
    dsimp only at hc
    cases b with
    | true =>
      dsimp only
      cases j with
      | zero => rcases hc with h | h <;> simp [h]
      | succ j => left; simp
    | false =>
      dsimp only
      cases j with
      | zero => rcases hc with h | h <;> simp [h]
      | succ j => simpa using neededOnPaths_get s now y opp ps (k + 1) w j

/-- The fields of the nominal context which matter are not changed by an `ask`. -/
def SameAct (c c' : Ctx) : Prop :=
  c'.act0.needed = c.act0.needed ∧ c'.act0.immediate = c.act0.immediate ∧ c'.act0.oldest = c.act0.oldest ∧
    c'.act0.highest = c.act0.highest ∧ c'.largest = c.largest

theorem SameAct.rfl' (c : Ctx) : SameAct c c := ⟨rfl, rfl, rfl, rfl, rfl⟩

theorem sameAct_setAct (c : Ctx) (opp : Bool) : SameAct c (c.setAct opp { c.act opp with afterFin := false }) := by
  cases opp <;> exact ⟨rfl, rfl, rfl, rfl, rfl⟩

/-- What asking leaves unchanged. -/
theorem isNeeded_state (s : State) (now : Nat) (y : Nat → Bool) (opp : Bool) (wake : Nat) :
    ∃ c ps, (s.isNeeded now y opp wake).2.2 = { s with ctx := c, paths := ps } ∧ SameAct s.ctx c ∧
      ∀ j : Nat, (∃ p : Path, s.paths[j]? = some p ∧ ∃ c', ps[j]? = some { p with ctx := c' } ∧ SameAct p.ctx c') ∨
        (s.paths[j]? = none ∧ ps[j]? = none) := by
  have hc := neededInCtx_ctx s s.ctx now (y 0) opp wake
  have hsame : ∀ j : Nat, (∃ p : Path, s.paths[j]? = some p ∧ ∃ c', s.paths[j]? = some { p with ctx := c' } ∧ SameAct p.ctx c') ∨
        (s.paths[j]? = none ∧ s.paths[j]? = none) := by
    intro j
    cases h : s.paths[j]? with
    | none => exact .inr ⟨rfl, rfl⟩
    | some p => exact .inl ⟨p, rfl, p.ctx, rfl, .rfl' _⟩
  have hctx : ∀ c, (c = s.ctx ∨ c = s.ctx.setAct opp { s.ctx.act opp with afterFin := false }) → SameAct s.ctx c := by
    rintro c (rfl | rfl)
    · exact .rfl' _
    · exact sameAct_setAct _ _
  unfold State.isNeeded
  generalize s.neededInCtx s.ctx now (y 0) opp wake = r at hc
  obtain ⟨b, w, c⟩ := r
  dsimp only at hc
  cases b with
  | true => exact ⟨c, s.paths, rfl, hctx c hc, hsame⟩
  | false =>
    dsimp only
    by_cases hm : s.multipath = true
    · rw [if_pos hm]
      refine ⟨c, _, rfl, hctx c hc, ?_⟩
      intro j
      have := neededOnPaths_get s now y opp s.paths 0 w j
      cases h : s.paths[j]? with
      | none => rw [h] at this; exact .inr ⟨rfl, by simpa using this⟩
      | some p =>
        rw [h] at this
        left
        refine ⟨p, rfl, ?_⟩
        rcases this with h1 | h1
        · exact ⟨p.ctx, h1, .rfl' _⟩
        · exact ⟨_, h1, sameAct_setAct _ _⟩
    · rw [if_neg hm]
      exact ⟨c, s.paths, rfl, hctx c hc, hsame⟩

/-! ## The context of a packet number space -/

/-- What is known of the context of a packet number space. -/
structure Follows (c : Ctx) (g : Seen) : Prop where
  largest : c.last = g.largest
  highest : c.act0.highest = g.acked
  needed : c.act0.needed = g.pending

/-- The fields which no event changes. -/
theorem step_fixed (s : State) (ev : Event) : (step s ev).multipath = s.multipath ∧ (step s ev).negotiated = s.negotiated ∧
    (step s ev).minDelay = s.minDelay ∧ (step s ev).paths.length = s.paths.length := by
  have hon : ∀ (f : Path → Path) (ps : List Path) (i : Nat), (onPath i f ps).length = ps.length := by
    intro f ps
    induction ps with
    | nil => intro i; simp [onPath]
    | cons p ps ih => intro i; cases i <;> simp [onPath, ih]
  have hset : ∀ (s : State) now i imm, (s.setNeeded now i imm).multipath = s.multipath ∧
      (s.setNeeded now i imm).negotiated = s.negotiated ∧ (s.setNeeded now i imm).minDelay = s.minDelay ∧
      (s.setNeeded now i imm).paths.length = s.paths.length := by
    intro s now i imm
    unfold State.setNeeded
    by_cases h : s.multipath = true
    · simp [h, hon]
    · simp [h]
  cases ev with
  | ackFrequency seq p d t => simp only [step, State.ackFrequency]; (repeat' split) <;> simp
  | immediateAck now i last =>
    simp only [step, State.immediateAck]; (repeat' split) <;> first | exact hset .. | simp
  | pathStatus id b seq =>
    have : ∀ ps : List Path, (statusOnPaths id b seq ps).length = ps.length := by
      intro ps
      induction ps with
      | nil => rfl
      | cons p ps ih => simp only [statusOnPaths]; split <;> simp [ih]
    simp only [step, State.pathStatus]; split <;> simp [this]
  | maxPathId m => simp only [step, State.maxPathIdFrame]; split <;> simp
  | recordPn i pn =>
    simp only [step, State.recordPn]; split
    · split <;> simp [hon]
    · simp
  | eliciting now i => exact hset ..
  | fin => simp [step]
  | ask now y opp wake =>
    obtain ⟨c, ps, h, -, hp⟩ := isNeeded_state s now y opp wake
    simp only [step, h]
    refine ⟨trivial, trivial, trivial, ?_⟩
    have hb : ∀ j : Nat, (ps[j]? = none ↔ s.paths[j]? = none) := by
      intro j
      rcases hp j with ⟨p, h1, c', h2, _⟩ | ⟨h1, h2⟩ <;> simp [h1, h2]
    have h1 := (hb ps.length).1 (by simp)
    have h2 := (hb s.paths.length).2 (by simp)
    rw [List.getElem?_eq_none_iff] at h1 h2
    omega
  | ackSent now opp w =>
    have : ∀ (ps : List Path) (w : List Bool), (sentOnPaths now opp ps w).length = ps.length := by
      intro ps
      induction ps with
      | nil => intro w; rfl
      | cons p ps ih => intro w; simp [sentOnPaths, ih]
    simp only [step, State.sendAck]; (repeat' split) <;> simp [this]

theorem run_fixed (evs : List Event) : ∀ s, (run s evs).multipath = s.multipath ∧
    (run s evs).negotiated = s.negotiated ∧ (run s evs).minDelay = s.minDelay ∧
    (run s evs).paths.length = s.paths.length := by
  induction evs with
  | nil => intro s; exact ⟨rfl, rfl, rfl, rfl⟩
  | cons ev evs ih =>
    intro s
    obtain ⟨h1, h2, h3, h4⟩ := ih (step s ev)
    obtain ⟨k1, k2, k3, k4⟩ := step_fixed s ev
    exact ⟨h1.trans k1, h2.trans k2, h3.trans k3, h4.trans k4⟩

/-- The effect of an event on the context of a packet number space. -/
def CtxStep (mp : Bool) (i : Nat) (ev : Event) (c c' : Ctx) : Prop :=
  match ev with
  | .recordPn j pn =>
    c'.act0.needed = c.act0.needed ∧ c'.act0.immediate = c.act0.immediate ∧ c'.act0.oldest = c.act0.oldest ∧
    c'.act0.highest = c.act0.highest ∧
      c'.last = if spaceOf mp j = spaceOf mp i then max c.last pn else c.last
  | .eliciting now j =>
    c'.act0.highest = c.act0.highest ∧ c'.last = c.last ∧
      (if spaceOf mp j = spaceOf mp i then c'.act0.needed = true ∧ c'.act0.immediate = c.act0.immediate ∧
          c'.act0.oldest = if c.act0.needed then c.act0.oldest else now
        else SameAct c c')
  | .immediateAck now j false =>
    c'.act0.highest = c.act0.highest ∧ c'.last = c.last ∧
      (if spaceOf mp j = spaceOf mp i then c'.act0.needed = true ∧
          (c.act0.immediate = true → c'.act0.immediate = true) ∧
          (mp = true ∨ c.act0.needed = false → c'.act0.immediate = true) ∧
          c'.act0.oldest = if c.act0.needed then c.act0.oldest else now
        else SameAct c c')
  | .ackSent _ false w =>
    if w[spaceOf mp i]? = some true then c'.last = c.last ∧ c'.act0.highest = c.last ∧ c'.act0.needed = false
    else SameAct c c'
  | _ => SameAct c c'

theorem order_same (c : Ctx) (l : Option Nat) (pn : Nat) : SameAct c (c.order l pn) := by
  unfold Ctx.order
  split
  · exact .rfl' _
  · split
    · split <;> exact ⟨rfl, rfl, rfl, rfl, rfl⟩
    · refine ⟨?_, ?_, ?_, ?_, rfl⟩ <;> dsimp only <;> split <;> rfl

theorem last_receive (c : Ctx) (pn : Nat) : (c.receive pn).last = max c.last pn := by
  cases h : c.largest <;> simp [Ctx.receive, Ctx.last, h]

theorem SameAct.last {c c' : Ctx} (h : SameAct c c') : c'.last = c.last := by
  simp [Ctx.last, h.2.2.2.2]

theorem setNeededPath_spec (c : Ctx) (now : Nat) (imm : Bool) :
    (c.setNeededPath now imm).act0.highest = c.act0.highest ∧ (c.setNeededPath now imm).last = c.last ∧
    (c.setNeededPath now imm).act0.needed = true ∧
    (c.setNeededPath now imm).act0.immediate = (c.act0.immediate || imm) ∧
    (c.setNeededPath now imm).act0.oldest = if c.act0.needed then c.act0.oldest else now := by
  unfold Ctx.setNeededPath
  dsimp only
  by_cases h : c.act0.needed = true
  · simp [h, Ctx.last]
  · simp [h, Ctx.mark, Ctx.last]

theorem setNeededCnx_spec (c : Ctx) (now : Nat) (imm : Bool) :
    (c.setNeededCnx now imm).act0.highest = c.act0.highest ∧ (c.setNeededCnx now imm).last = c.last ∧
    (c.setNeededCnx now imm).act0.needed = true ∧
    (c.setNeededCnx now imm).act0.immediate = (if c.act0.needed then c.act0.immediate else c.act0.immediate || imm) ∧
    (c.setNeededCnx now imm).act0.oldest = if c.act0.needed then c.act0.oldest else now := by
  unfold Ctx.setNeededCnx
  by_cases h : c.act0.needed = true
  · simp [h]
  · simp [h, Ctx.mark, Ctx.last]

theorem statusOnPaths_get (id : Nat) (b : Bool) (seq : Nat) : ∀ (ps : List Path) (j : Nat),
    (statusOnPaths id b seq ps)[j]? = ps[j]? ∨ (statusOnPaths id b seq ps)[j]? = ps[j]?.map (·.status b seq)
  | [], j => by simp [statusOnPaths]
  | p :: ps, 0 => by simp only [statusOnPaths]; split <;> simp
  | p :: ps, j + 1 => by
    simp only [statusOnPaths]
    split
    · simp
    · simpa using statusOnPaths_get id b seq ps j

theorem status_ctx (p : Path) (b : Bool) (seq : Nat) : (p.status b seq).ctx = p.ctx := by
  unfold Path.status; split <;> rfl

theorem setNeeded_space (s : State) (now j i : Nat) (imm : Bool) (c : Ctx) (hc : s.space i = some c) :
    ∃ c', (s.setNeeded now j imm).space i = some c' ∧ c'.act0.highest = c.act0.highest ∧ c'.last = c.last ∧
      (if spaceOf s.multipath j = spaceOf s.multipath i then c'.act0.needed = true ∧
          (c.act0.immediate = true → c'.act0.immediate = true) ∧
          (imm = false → c'.act0.immediate = c.act0.immediate) ∧
          (imm = true → s.multipath = true ∨ c.act0.needed = false → c'.act0.immediate = true) ∧
          c'.act0.oldest = if c.act0.needed then c.act0.oldest else now
        else SameAct c c') := by
  by_cases hm : s.multipath = true
  · simp only [State.space, State.setNeeded, hm, if_true] at hc ⊢
    cases hp : s.paths[i]? with
    | none => rw [hp] at hc; cases hc
    | some p =>
      rw [hp] at hc
      simp only [Option.map_some, Option.some.injEq] at hc
      subst hc
      rw [onPath_get, hp]
      by_cases hij : i = j
      · subst hij
        obtain ⟨h1, h2, h3, h4, h5⟩ := setNeededPath_spec p.ctx now imm
        refine ⟨_, by rw [if_pos rfl]; rfl, h1, h2, ?_⟩
        rw [if_pos rfl]
        refine ⟨h3, ?_, ?_, ?_, h5⟩ <;> rw [h4] <;> simp +contextual
      · have : ¬ spaceOf true j = spaceOf true i := by simp only [spaceOf, if_true]; omega
        refine ⟨p.ctx, by simp [hij], rfl, rfl, ?_⟩
        rw [if_neg this]
        exact .rfl' _
  · have hm' : s.multipath = false := by simpa using hm
    simp only [State.space, State.setNeeded, hm'] at hc ⊢
    simp only [Bool.false_eq_true, if_false, Option.some.injEq] at hc
    subst hc
    obtain ⟨h1, h2, h3, h4, h5⟩ := setNeededCnx_spec s.ctx now imm
    refine ⟨s.ctx.setNeededCnx now imm, by simp [hm'], h1, h2, ?_⟩
    simp only [spaceOf, Bool.false_eq_true, if_false, if_true]
    refine ⟨h3, ?_, ?_, ?_, h5⟩ <;> rw [h4] <;> split <;> simp_all

theorem step_space (s : State) (hn : s.negotiated = true) (ev : Event) (i : Nat) (c : Ctx) (hc : s.space i = some c) :
    ∃ c', (step s ev).space i = some c' ∧ CtxStep s.multipath i ev c c' := by
  have hsame : ∀ s' : State, s'.multipath = s.multipath → s'.paths = s.paths → s'.ctx = s.ctx →
      ∃ c', s'.space i = some c' ∧ SameAct c c' := by
    intro s' h1 h2 h3
    exact ⟨c, by simpa [State.space, h1, h2, h3] using hc, .rfl' _⟩
  cases ev with
  | ackFrequency seq p d t =>
    simp only [step, State.ackFrequency, CtxStep]
    (repeat' split) <;> exact hsame _ rfl rfl rfl
  | immediateAck now j last =>
    cases last with
    | true => simp only [step, State.immediateAck, CtxStep, if_true]; exact hsame _ rfl rfl rfl
    | false =>
      simp only [step, State.immediateAck, CtxStep, hn, Bool.false_eq_true, if_false, Bool.not_true]
      obtain ⟨c', h1, h2, h3, h4⟩ := setNeeded_space s now j i true c hc
      refine ⟨c', h1, h2, h3, ?_⟩
      by_cases hs : spaceOf s.multipath j = spaceOf s.multipath i
      · rw [if_pos hs] at h4 ⊢
        exact ⟨h4.1, h4.2.1, h4.2.2.2.1 rfl, h4.2.2.2.2⟩
      · rw [if_neg hs] at h4 ⊢
        exact h4
  | pathStatus id b seq =>
    simp only [step, State.pathStatus, CtxStep]
    split
    · exact hsame _ rfl rfl rfl
    · rename_i hm
      have hm' : s.multipath = true := by simpa using hm
      simp only [State.space, hm', if_true] at hc ⊢
      refine ⟨c, ?_, .rfl' _⟩
      rcases statusOnPaths_get id b seq s.paths i with h | h
      · rw [h]; exact hc
      · rw [h, ← hc, Option.map_map]
        congr 1
        funext p
        exact status_ctx ..
  | maxPathId m =>
    simp only [step, State.maxPathIdFrame, CtxStep]
    split <;> exact hsame _ rfl rfl rfl
  | recordPn j pn =>
    simp only [step, State.recordPn, CtxStep]
    by_cases hm : s.multipath = true
    · simp only [hm, if_true]
      have hc' := hc
      simp only [State.space, hm, if_true] at hc'
      cases hp : s.paths[i]? with
      | none => rw [hp] at hc'; cases hc'
      | some p =>
        rw [hp] at hc'
        simp only [Option.map_some, Option.some.injEq] at hc'
        subst hc'
        by_cases hij : i = j
        · subst hij
          simp only [hp, State.space, if_true, onPath_get, Option.map_some]
          exact ⟨_, rfl, rfl, rfl, rfl, rfl, last_receive ..⟩
        · have : ¬ spaceOf true j = spaceOf true i := by simp only [spaceOf, if_true]; omega
          rw [if_neg this]
          cases hpj : s.paths[j]? with
          | none => exact ⟨p.ctx, hc, rfl, rfl, rfl, rfl, rfl⟩
          | some q =>
            dsimp only [State.space]
            rw [if_pos rfl, onPath_get, if_neg hij, hp]
            exact ⟨p.ctx, rfl, rfl, rfl, rfl, rfl, rfl⟩
    · have hm' : s.multipath = false := by simpa using hm
      simp only [State.space, hm', Bool.false_eq_true, if_false, Option.some.injEq] at hc ⊢
      subst hc
      have hs := order_same s.ctx s.ctx.largest pn
      refine ⟨_, rfl, hs.1, hs.2.1, hs.2.2.1, hs.2.2.2.1, ?_⟩
      rw [last_receive, hs.last]
      simp [spaceOf]
  | eliciting now j =>
    simp only [step, CtxStep]
    obtain ⟨c', h1, h2, h3, h4⟩ := setNeeded_space s now j i false c hc
    refine ⟨c', h1, h2, h3, ?_⟩
    by_cases hs : spaceOf s.multipath j = spaceOf s.multipath i
    · rw [if_pos hs] at h4 ⊢
      exact ⟨h4.1, h4.2.2.1 rfl, h4.2.2.2.2⟩
    · rw [if_neg hs] at h4 ⊢
      exact h4
  | fin =>
    show ∃ c', (step s .fin).space i = some c' ∧ SameAct c c'
    by_cases hm : s.multipath = true
    · rw [space_mp s i hm] at hc
      rw [space_mp (step s .fin) i hm]
      exact ⟨c, hc, .rfl' _⟩
    · rw [space_single s i hm] at hc
      rw [space_single (step s .fin) i hm]
      cases hc
      exact ⟨_, rfl, rfl, rfl, rfl, rfl, rfl⟩
  | ask now y opp wake =>
    obtain ⟨c1, ps, h, h2, hp⟩ := isNeeded_state s now y opp wake
    show ∃ c', (s.isNeeded now y opp wake).2.2.space i = some c' ∧ SameAct c c'
    rw [h]
    by_cases hm : s.multipath = true
    · rw [space_mp s i hm] at hc
      rw [space_mp _ i (by exact hm)]
      rcases hp i with ⟨p, k1, c', k2, k3⟩ | ⟨k1, k2⟩
      · rw [k1] at hc
        simp only [Option.map_some, Option.some.injEq] at hc
        subst hc
        exact ⟨c', by rw [k2]; rfl, k3⟩
      · rw [k1] at hc; cases hc
    · rw [space_single s i hm] at hc
      rw [space_single _ i (by exact hm)]
      cases hc
      exact ⟨c1, rfl, h2⟩
  | ackSent now opp w =>
    simp only [step, State.sendAck]
    by_cases hm : s.multipath = true
    · simp only [hm, if_true]
      have hc' := hc
      simp only [State.space, hm, if_true] at hc'
      cases hp : s.paths[i]? with
      | none => rw [hp] at hc'; cases hc'
      | some p =>
        rw [hp] at hc'
        simp only [Option.map_some, Option.some.injEq] at hc'
        subst hc'
        dsimp only [State.space]
        rw [if_pos rfl, sentOnPaths_get, hp]
        refine ⟨_, rfl, ?_⟩
        cases opp with
        | true =>
          simp only [CtxStep, Ctx.sent]
          split <;> exact ⟨rfl, rfl, rfl, rfl, rfl⟩
        | false =>
          simp only [CtxStep, spaceOf, if_true]
          by_cases hw : w[i]? = some true
          · simp only [hw, if_true, Ctx.sent, Bool.false_eq_true, if_false]
            refine ⟨?_, ?_, ?_⟩ <;> first | trivial | rfl
          · simp only [hw, if_false]
            exact .rfl' _
    · have hm' : s.multipath = false := by simpa using hm
      have hc' := hc
      simp only [State.space, hm', Bool.false_eq_true, if_false, Option.some.injEq] at hc'
      subst hc'
      simp only [hm', Bool.false_eq_true, if_false]
      have hhead : (w.headD false = true ↔ w[0]? = some true) := by cases w <;> simp
      by_cases hw : w.headD false = true
      · rw [if_pos hw]
        refine ⟨s.ctx.sent now opp, by simp [State.space], ?_⟩
        cases opp with
        | true => exact ⟨rfl, rfl, rfl, rfl, rfl⟩
        | false =>
          simp only [CtxStep, spaceOf, Bool.false_eq_true, if_false, hhead.1 hw, if_true]
          exact ⟨rfl, rfl, rfl⟩
      · rw [if_neg hw]
        refine ⟨s.ctx, hc, ?_⟩
        cases opp with
        | true => exact .rfl' _
        | false =>
          simp only [CtxStep, spaceOf, Bool.false_eq_true, if_false]
          rw [if_neg (fun h => hw (hhead.2 h))]
          exact .rfl' _

/-! ## Histories -/

theorem follows_step {mp : Bool} {i : Nat} {ev : Event} {c c' : Ctx} {g : Seen} (h : Follows c g)
    (hs : CtxStep mp i ev c c') : Follows c' (g.step mp i ev) := by
  have same : SameAct c c' → Follows c' g := fun k =>
    ⟨k.last.trans h.largest, k.2.2.2.1.trans h.highest, k.1.trans h.needed⟩
  cases ev with
  | recordPn j pn =>
    obtain ⟨h1, h2, h3, h4, h5⟩ := hs
    simp only [Seen.step]
    split at h5
    · rename_i hj
      rw [if_pos hj]
      exact ⟨by rw [h5, h.largest], h4.trans h.highest, h1.trans h.needed⟩
    · rename_i hj
      rw [if_neg hj]
      exact ⟨by rw [h5, h.largest], h4.trans h.highest, h1.trans h.needed⟩
  | eliciting now j =>
    obtain ⟨h1, h2, h3⟩ := hs
    simp only [Seen.step]
    split at h3
    · rename_i hj
      rw [if_pos hj]
      exact ⟨h2.trans h.largest, h1.trans h.highest, h3.1⟩
    · rename_i hj
      rw [if_neg hj]
      exact same h3
  | immediateAck now j last =>
    cases last with
    | true => exact same hs
    | false =>
      obtain ⟨h1, h2, h3⟩ := hs
      simp only [Seen.step]
      split at h3
      · rename_i hj
        rw [if_pos hj]
        exact ⟨h2.trans h.largest, h1.trans h.highest, h3.1⟩
      · rename_i hj
        rw [if_neg hj]
        exact same h3
  | ackSent now opp w =>
    cases opp with
    | true => exact same hs
    | false =>
      simp only [CtxStep] at hs
      simp only [Seen.step]
      split at hs
      · rename_i hj
        rw [if_pos hj]
        exact ⟨hs.1.trans h.largest, hs.2.1.trans h.largest, hs.2.2⟩
      · rename_i hj
        rw [if_neg hj]
        exact same hs
  | ackFrequency seq p d t => exact same hs
  | pathStatus id b seq => exact same hs
  | maxPathId m => exact same hs
  | fin => exact same hs
  | ask now y opp wake => exact same hs

theorem run_cons (s : State) (ev : Event) (evs : List Event) : run s (ev :: evs) = run (step s ev) evs := rfl

theorem run_append (s : State) (a b : List Event) : run s (a ++ b) = run (run s a) b := by
  simp [run, List.foldl_append]

theorem run_follows (i : Nat) (mp : Bool) : ∀ (evs : List Event) (s : State) (c : Ctx) (g : Seen), s.multipath = mp →
    s.negotiated = true → s.space i = some c → Follows c g →
    ∃ c', (run s evs).space i = some c' ∧ Follows c' (evs.foldl (Seen.step mp i) g)
  | [], s, c, g, _, _, hc, hf => ⟨c, hc, hf⟩
  | ev :: evs, s, c, g, hm, hn, hc, hf => by
    obtain ⟨c1, h1, h2⟩ := step_space s hn ev i c hc
    obtain ⟨k1, k2, -, -⟩ := step_fixed s ev
    rw [hm] at h2
    exact run_follows i mp evs _ c1 _ (k1.trans hm) (k2.trans hn) h1 (follows_step hf h2)

/-- The oldest unacknowledged packet arrived no later than `T`. -/
def Old (c : Ctx) (T : Nat) : Prop := c.act0.needed = true → c.act0.oldest ≤ T

theorem old_step {mp : Bool} {i : Nat} {ev : Event} {c c' : Ctx} {T : Nat} (h : Old c T)
    (ht : ∀ a, arrival ev = some a → a ≤ T) (hs : CtxStep mp i ev c c') : Old c' T := by
  have same : SameAct c c' → Old c' T := fun k hn => by
    rw [k.2.2.1]; exact h (k.1 ▸ hn)
  have mark : ∀ now, now ≤ T → c'.act0.oldest = (if c.act0.needed then c.act0.oldest else now) → Old c' T := by
    intro now hnow ho _
    rw [ho]
    by_cases hc : c.act0.needed = true
    · rw [if_pos hc]; exact h hc
    · rw [if_neg hc]; exact hnow
  cases ev with
  | recordPn j pn =>
    obtain ⟨h1, h2, h3, h4, h5⟩ := hs
    intro hn
    rw [h3]; exact h (h1 ▸ hn)
  | eliciting now j =>
    obtain ⟨h1, h2, h3⟩ := hs
    split at h3
    · exact mark now (ht now rfl) h3.2.2
    · exact same h3
  | immediateAck now j last =>
    cases last with
    | true => exact same hs
    | false =>
      obtain ⟨h1, h2, h3⟩ := hs
      split at h3
      · exact mark now (ht now rfl) h3.2.2.2
      · exact same h3
  | ackSent now opp w =>
    cases opp with
    | true => exact same hs
    | false =>
      simp only [CtxStep] at hs
      split at hs
      · intro hn; rw [hs.2.2] at hn; cases hn
      · exact same hs
  | ackFrequency seq p d t => exact same hs
  | pathStatus id b seq => exact same hs
  | maxPathId m => exact same hs
  | fin => exact same hs
  | ask now y opp wake => exact same hs

theorem run_old (i T : Nat) : ∀ (evs : List Event) (s : State) (c : Ctx), s.negotiated = true → s.space i = some c →
    Old c T → (∀ a ∈ evs.filterMap arrival, a ≤ T) → ∃ c', (run s evs).space i = some c' ∧ Old c' T
  | [], s, c, _, hc, ho, _ => ⟨c, hc, ho⟩
  | ev :: evs, s, c, hn, hc, ho, ht => by
    obtain ⟨c1, h1, h2⟩ := step_space s hn ev i c hc
    obtain ⟨k1, k2, -, -⟩ := step_fixed s ev
    refine run_old i T evs _ c1 (k2.trans hn) h1 (old_step ho ?_ h2) ?_
    · intro a ha
      exact ht a (List.mem_filterMap.2 ⟨ev, List.mem_cons_self .., ha⟩)
    · intro a ha
      obtain ⟨e, he, hea⟩ := List.mem_filterMap.1 ha
      exact ht a (List.mem_filterMap.2 ⟨e, List.mem_cons_of_mem _ he, hea⟩)

/-- Once an acknowledgement is needed, it remains so, with the same deadline, until it is sent. -/
theorem keep_step {mp : Bool} {i : Nat} {ev : Event} {c c' : Ctx} (hn : c.act0.needed = true)
    (ha : ¬ Acknowledges mp i ev) (hs : CtxStep mp i ev c c') :
    c'.act0.needed = true ∧ c'.act0.oldest = c.act0.oldest ∧
      (c.act0.immediate = true → c'.act0.immediate = true) := by
  have same : SameAct c c' → c'.act0.needed = true ∧ c'.act0.oldest = c.act0.oldest ∧
      (c.act0.immediate = true → c'.act0.immediate = true) := fun k =>
    ⟨k.1.trans hn, k.2.2.1, fun h => k.2.1.trans h⟩
  cases ev with
  | recordPn j pn =>
    obtain ⟨h1, h2, h3, h4, h5⟩ := hs
    exact ⟨h1.trans hn, h3, fun h => h2.trans h⟩
  | eliciting now j =>
    obtain ⟨h1, h2, h3⟩ := hs
    split at h3
    · refine ⟨h3.1, ?_, fun h => h3.2.1.trans h⟩
      simpa [hn] using h3.2.2
    · exact same h3
  | immediateAck now j last =>
    cases last with
    | true => exact same hs
    | false =>
      obtain ⟨h1, h2, h3⟩ := hs
      split at h3
      · refine ⟨h3.1, ?_, h3.2.1⟩
        simpa [hn] using h3.2.2.2
      · exact same h3
  | ackSent now opp w =>
    cases opp with
    | true => exact same hs
    | false =>
      simp only [CtxStep] at hs
      rw [if_neg (by exact ha)] at hs
      exact same hs
  | ackFrequency seq p d t => exact same hs
  | pathStatus id b seq => exact same hs
  | maxPathId m => exact same hs
  | fin => exact same hs
  | ask now y opp wake => exact same hs

theorem run_keep (i : Nat) (mp : Bool) : ∀ (evs : List Event) (s : State) (c : Ctx), s.multipath = mp →
    s.negotiated = true → s.space i = some c → c.act0.needed = true → (∀ ev ∈ evs, ¬ Acknowledges mp i ev) →
    ∃ c', (run s evs).space i = some c' ∧ c'.act0.needed = true ∧ c'.act0.oldest = c.act0.oldest ∧
      (c.act0.immediate = true → c'.act0.immediate = true)
  | [], s, c, _, _, hc, ho, _ => ⟨c, hc, ho, rfl, id⟩
  | ev :: evs, s, c, hm, hn, hc, ho, ha => by
    obtain ⟨c1, h1, h2⟩ := step_space s hn ev i c hc
    obtain ⟨k1, k2, -, -⟩ := step_fixed s ev
    rw [hm] at h2
    obtain ⟨j1, j2, j3⟩ := keep_step ho (ha ev (List.mem_cons_self ..)) h2
    obtain ⟨c2, l1, l2, l3, l4⟩ := run_keep i mp evs _ c1 (k1.trans hm) (k2.trans hn) h1 j1
      (fun e he => ha e (List.mem_cons_of_mem _ he))
    exact ⟨c2, l1, l2, l3.trans j2, fun h => l4 (j3 h)⟩

/-! ## The decision -/

theorem neededInCtx_wake (s : State) (c : Ctx) (now : Nat) (y opp : Bool) (wake : Nat) :
    (s.neededInCtx c now y opp wake).2.1 ≤ wake := by
  unfold State.neededInCtx
  dsimp only
  (repeat' split) <;> dsimp only <;> omega

theorem neededInCtx_false (s : State) (c : Ctx) (now : Nat) (y : Bool) (wake : Nat) (hn : c.act0.needed = true)
    (h : (s.neededInCtx c now y false wake).1 = false) :
    c.act0.immediate = false ∧ now < c.act0.oldest + s.delay ∧ c.last < c.act0.highest + max 2 s.gap ∧
      (s.neededInCtx c now y false wake).2.1 ≤ c.act0.oldest + s.delay := by
  unfold State.neededInCtx at h ⊢
  simp only [Ctx.act, Bool.false_eq_true, if_false, hn, if_true] at h ⊢
  by_cases h1 : c.act0.immediate = true
  · rw [if_pos h1] at h; cases h
  · rw [if_neg h1] at h ⊢
    by_cases h2 : c.act0.afterFin = true
    · rw [if_pos h2] at h; cases h
    · rw [if_neg h2] at h ⊢
      by_cases h3 : (c.act0.outOfOrder && !s.ignoreOrder) = true
      · rw [if_pos h3] at h; cases h
      · rw [if_neg h3] at h ⊢
        by_cases h4 : c.act0.highest + (if y = true then 2 else s.gap) ≤ c.last ∨ c.act0.oldest + s.delay ≤ now
        · rw [if_pos h4] at h; cases h
        · rw [if_neg h4]
          have hy : (if y = true then 2 else s.gap) ≤ max 2 s.gap := by split <;> omega
          refine ⟨by simpa using h1, by omega, by omega, ?_⟩
          split <;> dsimp only <;> omega

theorem neededOnPaths_wake (s : State) (now : Nat) (y : Nat → Bool) (opp : Bool) : ∀ (ps : List Path) (k wake : Nat),
    (s.neededOnPaths now y opp k ps wake).2.1 ≤ wake
  | [], k, wake => Nat.le_refl _
  | p :: ps, k, wake => by
    have hw := neededInCtx_wake s p.ctx now (y k) opp wake
    unfold State.neededOnPaths
    generalize s.neededInCtx p.ctx now (y k) opp wake = r at hw
    obtain ⟨b, w, c⟩ := r
    cases b with
    | true => exact hw
    | false => exact Nat.le_trans (neededOnPaths_wake s now y opp ps (k + 1) w) hw

theorem neededOnPaths_false (s : State) (now : Nat) (y : Nat → Bool) : ∀ (ps : List Path) (k wake j : Nat) (p : Path),
    ps[j]? = some p → p.ctx.act0.needed = true → (s.neededOnPaths now y false k ps wake).1 = false →
    p.ctx.act0.immediate = false ∧ now < p.ctx.act0.oldest + s.delay ∧ p.ctx.last < p.ctx.act0.highest + max 2 s.gap ∧
      (s.neededOnPaths now y false k ps wake).2.1 ≤ p.ctx.act0.oldest + s.delay
  | [], k, wake, j, p, hj, _, _ => by simp at hj
  | q :: ps, k, wake, j, p, hj, hn, hf => by
    have hq := neededInCtx_false s q.ctx now (y k) wake
    unfold State.neededOnPaths at hf ⊢
    generalize s.neededInCtx q.ctx now (y k) false wake = r at hq hf
    obtain ⟨b, w, c⟩ := r
    cases b with
    | true => cases hf
    | false =>
      dsimp only at hf hq ⊢
      cases j with
      | zero =>
        simp only [List.getElem?_cons_zero, Option.some.injEq] at hj
        subst hj
        obtain ⟨h1, h2, h3, h4⟩ := hq hn rfl
        exact ⟨h1, h2, h3, Nat.le_trans (neededOnPaths_wake s now y false ps (k + 1) w) h4⟩
      | succ j => exact neededOnPaths_false s now y ps (k + 1) w j p hj hn hf

theorem isNeeded_false (s : State) (now : Nat) (y : Nat → Bool) (wake i : Nat) (c : Ctx) (hc : s.space i = some c)
    (hn : c.act0.needed = true) (hf : (s.isNeeded now y false wake).1 = false) :
    c.act0.immediate = false ∧ now < c.act0.oldest + s.delay ∧ c.last < c.act0.highest + max 2 s.gap ∧
      (s.isNeeded now y false wake).2.1 ≤ c.act0.oldest + s.delay := by
  have hq := neededInCtx_false s s.ctx now (y 0) wake
  unfold State.isNeeded at hf ⊢
  generalize s.neededInCtx s.ctx now (y 0) false wake = r at hq hf
  obtain ⟨b, w, c'⟩ := r
  cases b with
  | true => cases hf
  | false =>
    dsimp only at hf hq ⊢
    by_cases hm : s.multipath = true
    · rw [if_pos hm] at hf ⊢
      rw [space_mp s i hm] at hc
      cases hp : s.paths[i]? with
      | none => rw [hp] at hc; cases hc
      | some p =>
        rw [hp] at hc
        simp only [Option.map_some, Option.some.injEq] at hc
        subst hc
        exact neededOnPaths_false s now y s.paths 0 w i p hp hn hf
    · rw [if_neg hm]
      rw [space_single s i hm] at hc
      cases hc
      exact hq hn rfl

/-! ## Settings -/

theorem step_settings (s : State) (ev : Event) (h : ∀ a b c d, ev ≠ .ackFrequency a b c d) :
    (step s ev).seq = s.seq ∧ (step s ev).gap = s.gap ∧ (step s ev).delay = s.delay ∧
      (step s ev).ignoreOrder = s.ignoreOrder ∧ (step s ev).threshold = s.threshold := by
  have hset : ∀ (s : State) now i imm, (s.setNeeded now i imm).seq = s.seq ∧ (s.setNeeded now i imm).gap = s.gap ∧
      (s.setNeeded now i imm).delay = s.delay ∧ (s.setNeeded now i imm).ignoreOrder = s.ignoreOrder ∧
      (s.setNeeded now i imm).threshold = s.threshold := by
    intro s now i imm
    unfold State.setNeeded
    by_cases h : s.multipath = true
    · simp [h]
    · simp [h]
  cases ev with
  | ackFrequency seq p d t => exact absurd rfl (h seq p d t)
  | immediateAck now i last =>
    simp only [step, State.immediateAck]; (repeat' split) <;> first | exact hset .. | simp
  | pathStatus id b seq => simp only [step, State.pathStatus]; split <;> simp
  | maxPathId m => simp only [step, State.maxPathIdFrame]; split <;> simp
  | recordPn i pn =>
    simp only [step, State.recordPn]; split
    · split <;> simp
    · simp
  | eliciting now i => exact hset ..
  | fin => simp [step]
  | ask now y opp wake =>
    obtain ⟨c, ps, h, -, hp⟩ := isNeeded_state s now y opp wake
    simp [step, h]
  | ackSent now opp w => simp only [step, State.sendAck]; (repeat' split) <;> simp

/-- The settings are those of the frame `f`. -/
def InForce (s : State) (f : Nat × Nat × Nat × Nat) : Prop :=
  s.seq = f.1 ∧ s.gap = f.2.1 ∧ s.delay = f.2.2.1 ∧ s.threshold = f.2.2.2 ∧ s.ignoreOrder = (f.2.2.2 == 0)

/-- The frames are within the limits which were negotiated. -/
def AcceptableFreq (minDelay : Nat) (f : Nat × Nat × Nat × Nat) : Prop := f.1 < 2 ^ 62 ∧ f.2.1 ≠ 0 ∧ minDelay ≤ f.2.2.1

theorem ackFrequency_newer (s : State) (hn : s.negotiated = true) (f : Nat × Nat × Nat × Nat)
    (ha : AcceptableFreq s.minDelay f) (hs : s.seq = 2 ^ 64 - 1 ∨ s.seq < f.1) :
    (s.ackFrequency f.1 f.2.1 f.2.2.1 f.2.2.2).1 = true ∧
      InForce (s.ackFrequency f.1 f.2.1 f.2.2.1 f.2.2.2).2 f := by
  obtain ⟨h1, h2, h3⟩ := ha
  unfold State.ackFrequency
  have hc : (!s.negotiated || decide (f.2.2.1 < s.minDelay) || f.2.1 == 0) = false := by
    simp only [hn, Bool.not_true, Bool.false_or, Bool.or_eq_false_iff, decide_eq_false_iff_not, beq_eq_false_iff_ne]
    exact ⟨by omega, h2⟩
  rw [hc]
  rw [if_neg (by simp), if_pos (by simp only [newer, decide_eq_true_eq]; omega)]
  exact ⟨rfl, rfl, rfl, rfl, rfl, rfl⟩

theorem ackFrequency_older (s : State) (hn : s.negotiated = true) (f : Nat × Nat × Nat × Nat)
    (ha : AcceptableFreq s.minDelay f) (hs : f.1 ≤ s.seq ∧ s.seq < 2 ^ 62) :
    s.ackFrequency f.1 f.2.1 f.2.2.1 f.2.2.2 = (true, s) := by
  obtain ⟨h1, h2, h3⟩ := ha
  unfold State.ackFrequency
  have hc : (!s.negotiated || decide (f.2.2.1 < s.minDelay) || f.2.1 == 0) = false := by
    simp only [hn, Bool.not_true, Bool.false_or, Bool.or_eq_false_iff, decide_eq_false_iff_not, beq_eq_false_iff_ne]
    exact ⟨by omega, h2⟩
  rw [hc]
  rw [if_neg (by simp), if_neg (by simp only [newer, decide_eq_true_eq]; omega)]

def freqOf : Event → List (Nat × Nat × Nat × Nat)
  | .ackFrequency s p d t => [(s, p, d, t)]
  | _ => []

theorem frequencyFrames_cons (ev : Event) (evs : List Event) : frequencyFrames (ev :: evs) =
    freqOf ev ++ frequencyFrames evs := by
  cases ev <;> simp [frequencyFrames, freqOf]

theorem run_keeps_settings : ∀ (evs : List Event) (s : State) (f : Nat × Nat × Nat × Nat), s.negotiated = true →
    InForce s f → f.1 < 2 ^ 62 → (∀ g ∈ frequencyFrames evs, AcceptableFreq s.minDelay g ∧ g.1 ≤ f.1) →
    InForce (run s evs) f
  | [], s, f, _, h, _, _ => h
  | ev :: evs, s, f, hn, h, hf, ha => by
    rw [frequencyFrames_cons] at ha
    obtain ⟨_, k2, k3, _⟩ := step_fixed s ev
    have ih := run_keeps_settings evs (step s ev) f (k2.trans hn)
    rw [run_cons]
    refine ih ?_ hf ?_
    · by_cases hev : ∃ a b c d, ev = .ackFrequency a b c d
      · obtain ⟨a, b, c, d, rfl⟩ := hev
        obtain ⟨h1, h2⟩ := ha (a, b, c, d) (by simp [freqOf])
        show InForce (s.ackFrequency a b c d).2 f
        rw [ackFrequency_older s hn (a, b, c, d) h1 ⟨by rw [h.1]; exact h2, by rw [h.1]; exact hf⟩]
        exact h
      · obtain ⟨e1, e2, e3, e4, e5⟩ := step_settings s ev (fun a b c d he => hev ⟨a, b, c, d, he⟩)
        exact ⟨e1.trans h.1, e2.trans h.2.1, e3.trans h.2.2.1, e5.trans h.2.2.2.1, e4.trans h.2.2.2.2⟩
    · intro g hg
      rw [k3]
      exact ha g (List.mem_append_right _ hg)

theorem ackFrequency_seq (s : State) (a b c d : Nat) :
    (s.ackFrequency a b c d).2.seq = s.seq ∨ (s.ackFrequency a b c d).2.seq = a := by
  unfold State.ackFrequency
  split
  · exact .inl rfl
  · split
    · exact .inr rfl
    · exact .inl rfl

theorem run_settings (f : Nat × Nat × Nat × Nat) : ∀ (evs : List Event) (s : State), s.negotiated = true →
    (s.seq = 2 ^ 64 - 1 ∨ s.seq < f.1) → (∀ g ∈ frequencyFrames evs, AcceptableFreq s.minDelay g) →
    Newest (·.1) (frequencyFrames evs) f → InForce (run s evs) f
  | [], s, _, _, _, hn => by
    obtain ⟨b, a, h, _⟩ := hn
    simp [frequencyFrames] at h
  | ev :: evs, s, hneg, hs, ha, hnew => by
    obtain ⟨_, k2, k3, _⟩ := step_fixed s ev
    rw [run_cons]
    rw [frequencyFrames_cons] at ha hnew
    have ha' : ∀ g ∈ frequencyFrames evs, AcceptableFreq (step s ev).minDelay g := by
      intro g hg; rw [k3]; exact ha g (List.mem_append_right _ hg)
    by_cases hev : ∃ a b c d, ev = .ackFrequency a b c d
    · obtain ⟨a, b, c, d, rfl⟩ := hev
      have h1 := ha (a, b, c, d) (by simp [freqOf])
      obtain ⟨before, after, he, hb, haf⟩ := hnew
      cases before with
      | nil =>
        simp only [freqOf, List.nil_append, List.cons_append, List.cons.injEq] at he
        obtain ⟨he, he2⟩ := he
        subst he
        refine run_keeps_settings evs _ (a, b, c, d) (k2.trans hneg) ?_ h1.1 ?_
        · exact (ackFrequency_newer s hneg (a, b, c, d) h1 hs).2
        · intro g hg
          exact ⟨ha' g hg, haf g (by rw [← he2]; exact hg)⟩
      | cons x before =>
        simp only [freqOf, List.nil_append, List.cons_append, List.cons.injEq] at he
        obtain ⟨he, he2⟩ := he
        subst he
        have hlt := hb (a, b, c, d) (List.mem_cons_self ..)
        refine run_settings f evs _ (k2.trans hneg) ?_ ha' ⟨before, after, he2,
          fun g hg => hb g (List.mem_cons_of_mem _ hg), haf⟩
        have hseq : (step s (.ackFrequency a b c d)).seq = s.seq ∨ (step s (.ackFrequency a b c d)).seq = a :=
          ackFrequency_seq s a b c d
        rcases hseq with h | h
        · rw [h]; exact hs
        · rw [h]; exact .inr hlt
    · have hne : freqOf ev = [] := by
        cases ev <;> first | rfl | exact absurd ⟨_, _, _, _, rfl⟩ hev
      rw [hne] at hnew
      refine run_settings f evs _ (k2.trans hneg) ?_ ha' hnew
      rw [(step_settings s ev (fun a b c d he => hev ⟨a, b, c, d, he⟩)).1]
      exact hs

theorem run_no_settings : ∀ (evs : List Event) (s : State), frequencyFrames evs = [] →
    (run s evs).gap = s.gap ∧ (run s evs).delay = s.delay ∧ (run s evs).ignoreOrder = s.ignoreOrder
  | [], s, _ => ⟨rfl, rfl, rfl⟩
  | ev :: evs, s, h => by
    rw [frequencyFrames_cons, List.append_eq_nil_iff] at h
    obtain ⟨h1, h2, h3⟩ := run_no_settings evs (step s ev) h.2
    obtain ⟨e1, e2, e3, e4, e5⟩ := step_settings s ev (fun a b c d he => by rw [he] at h; simp [freqOf] at h)
    exact ⟨h1.trans e2, h2.trans e3, h3.trans e4⟩

/-! ## Status of paths -/

/-- The path with identifier `id` after an event, except for its context. -/
def statusAfter (id : Nat) (p : Path) : Event → Path
  | .pathStatus i b n => if i = id then p.status b n else p
  | _ => p

/-- What the events leave unchanged of the paths. -/
theorem step_find (s : State) (ev : Event) (id : Nat) (p : Path) (hp : s.paths.find? (fun p => p.id = id) = some p)
    (hm : s.multipath = true) :
    ∃ c, (step s ev).paths.find? (fun p => p.id = id) =
      some { statusAfter id p ev with ctx := c } := by
  have gen : ∀ (ps qs : List Path) (p : Path), ps.find? (fun p => p.id = id) = some p → ps.length = qs.length →
      (∀ j : Nat, ∀ q : Path, ps[j]? = some q → ∃ c, qs[j]? = some { q with ctx := c }) →
      ∃ c, qs.find? (fun p => p.id = id) = some { p with ctx := c } := by
    intro ps
    induction ps with
    | nil => intro qs p h; simp at h
    | cons q ps ih =>
      intro qs p h hl hg
      obtain ⟨c, hc⟩ := hg 0 q rfl
      cases qs with
      | nil => simp at hl
      | cons r qs =>
        simp only [List.getElem?_cons_zero, Option.some.injEq] at hc
        subst hc
        rw [List.find?_cons] at h ⊢
        by_cases hq : q.id = id
        · simp only [hq, decide_true, Option.some.injEq] at h
          subst h
          exact ⟨c, by simp [hq]⟩
        · simp only [hq, decide_false] at h ⊢
          exact ih qs p h (by simpa using hl) (fun j q' hq' => hg (j + 1) q' hq')
  have hself : ∀ j : Nat, ∀ q : Path, s.paths[j]? = some q → ∃ c, s.paths[j]? = some { q with ctx := c } :=
    fun j q hq => ⟨q.ctx, hq⟩
  have hon : ∀ (f : Path → Ctx) (i : Nat), ∀ j : Nat, ∀ q : Path, s.paths[j]? = some q →
      ∃ c, (onPath i (fun p => { p with ctx := f p }) s.paths)[j]? = some { q with ctx := c } := by
    intro f i j q hq
    rw [onPath_get, hq]
    by_cases hj : j = i
    · exact ⟨f q, by rw [if_pos hj]; rfl⟩
    · exact ⟨q.ctx, by rw [if_neg hj]⟩
  have hl := (step_fixed s ev).2.2.2
  cases ev with
  | ackFrequency seq pk d t =>
    refine gen s.paths _ p hp hl.symm ?_
    simp only [step, State.ackFrequency]
    (repeat' split) <;> exact hself
  | immediateAck now i last =>
    refine gen s.paths _ p hp hl.symm ?_
    simp only [step, State.immediateAck]
    (repeat' split)
    · exact hself
    · exact hself
    · simp only [State.setNeeded, hm, if_true]; exact hon _ i
  | pathStatus i b n =>
    simp only [step, State.pathStatus, hm, Bool.not_true, Bool.false_eq_true, if_false]
    have key : ∀ (ps : List Path) (p : Path), ps.find? (fun p => p.id = id) = some p →
        (statusOnPaths i b n ps).find? (fun p => p.id = id) = some (if i = id then p.status b n else p) := by
      have hid : ∀ q : Path, (q.status b n).id = q.id := by
        intro q; unfold Path.status; split <;> rfl
      intro ps
      induction ps with
      | nil => intro p h; simp at h
      | cons q ps ih =>
        intro p h
        rw [List.find?_cons] at h
        simp only [statusOnPaths]
        by_cases hq : q.id = id
        · simp only [hq, decide_true, Option.some.injEq] at h
          subst h
          by_cases hi : i = id
          · subst hi
            rw [if_pos hq, if_pos rfl, List.find?_cons]
            simp [hid, hq]
          · rw [if_neg (by omega), if_neg hi, List.find?_cons]
            simp [hq]
        · simp only [hq, decide_false] at h
          by_cases hi : q.id = i
          · rw [if_pos hi, if_neg (by omega), List.find?_cons]
            simp [hid, hq, h]
          · rw [if_neg hi, List.find?_cons]
            simp [hq, ih p h]
    exact ⟨(statusAfter id p (.pathStatus i b n)).ctx, key _ p hp⟩
  | maxPathId m =>
    refine gen s.paths _ p hp hl.symm ?_
    simp only [step, State.maxPathIdFrame]
    split <;> exact hself
  | recordPn i pn =>
    refine gen s.paths _ p hp hl.symm ?_
    simp only [step, State.recordPn, hm, if_true]
    split
    · exact hself
    · exact hon _ i
  | eliciting now i =>
    refine gen s.paths _ p hp hl.symm ?_
    simp only [step, State.setNeeded, hm, if_true]; exact hon _ i
  | fin => exact gen s.paths _ p hp hl.symm hself
  | ask now y opp wake =>
    refine gen s.paths _ p hp hl.symm ?_
    obtain ⟨c, ps, h, -, hps⟩ := isNeeded_state s now y opp wake
    simp only [step, h]
    intro j q hq
    rcases hps j with ⟨q', k1, c', k2, _⟩ | ⟨k1, k2⟩
    · rw [hq] at k1; cases k1; exact ⟨c', k2⟩
    · rw [hq] at k1; cases k1
  | ackSent now opp w =>
    refine gen s.paths _ p hp hl.symm ?_
    simp only [step, State.sendAck, hm, if_true]
    intro j q hq
    rw [sentOnPaths_get, hq]
    exact ⟨_, rfl⟩

def statusOf (id : Nat) : Event → List (Nat × Bool)
  | .pathStatus i b n => if i = id then [(n, b)] else []
  | _ => []

theorem statusFrames_cons (id : Nat) (ev : Event) (evs : List Event) : statusFrames id (ev :: evs) =
    statusOf id ev ++ statusFrames id evs := by
  cases ev with
  | pathStatus i b n => by_cases h : i = id <;> simp [statusFrames, statusOf, h]
  | _ => simp [statusFrames, statusOf]

theorem run_keeps_status (id : Nat) (f : Nat × Bool) : ∀ (evs : List Event) (s : State) (p : Path), s.multipath = true →
    s.paths.find? (fun p => p.id = id) = some p → p.nextStatus = f.1 + 1 → p.backup = f.2 →
    (∀ g ∈ statusFrames id evs, g.1 ≤ f.1) →
    ∃ q, (run s evs).paths.find? (fun p => p.id = id) = some q ∧ q.backup = f.2
  | [], s, p, _, hp, _, hb, _ => ⟨p, hp, hb⟩
  | ev :: evs, s, p, hm, hp, hn, hb, ha => by
    obtain ⟨c, hc⟩ := step_find s ev id p hp hm
    rw [statusFrames_cons] at ha
    have hm' := (step_fixed s ev).1.trans hm
    have ha' : ∀ g ∈ statusFrames id evs, g.1 ≤ f.1 := fun g hg => ha g (List.mem_append_right _ hg)
    refine run_keeps_status id f evs (step s ev) _ hm' hc ?_ ?_ ha'
    all_goals
      cases ev with
      | pathStatus i b n =>
        dsimp only [statusAfter]
        by_cases hi : i = id
        · have := ha (n, b) (by simp [statusOf, hi])
          dsimp only at this
          rw [if_pos hi, Path.status, if_pos (by omega)]
          assumption
        · rw [if_neg hi]; assumption
      | _ => assumption

theorem run_status (id : Nat) (f : Nat × Bool) : ∀ (evs : List Event) (s : State) (p : Path), s.multipath = true →
    s.paths.find? (fun p => p.id = id) = some p → p.nextStatus ≤ f.1 → Newest (·.1) (statusFrames id evs) f →
    ∃ q, (run s evs).paths.find? (fun p => p.id = id) = some q ∧ q.backup = f.2
  | [], s, p, _, hp, _, hn => by
    obtain ⟨b, a, h, _⟩ := hn
    simp [statusFrames] at h
  | ev :: evs, s, p, hm, hp, hle, hnew => by
    obtain ⟨c, hc⟩ := step_find s ev id p hp hm
    rw [statusFrames_cons] at hnew
    have hm' := (step_fixed s ev).1.trans hm
    by_cases hev : ∃ b n, ev = .pathStatus id b n
    · obtain ⟨b, n, rfl⟩ := hev
      simp only [statusOf, if_true, List.singleton_append] at hnew
      simp only [statusAfter, if_true] at hc
      obtain ⟨before, after, he, hb, haf⟩ := hnew
      cases before with
      | nil =>
        simp only [List.nil_append, List.cons.injEq] at he
        obtain ⟨he, he2⟩ := he
        subst he
        refine run_keeps_status id (n, b) evs _ _ hm' hc ?_ ?_ (fun g hg => haf g (by rw [← he2]; exact hg))
        · show (p.status b n).nextStatus = n + 1
          rw [Path.status, if_neg (by dsimp only at hle; omega)]
        · show (p.status b n).backup = b
          rw [Path.status, if_neg (by dsimp only at hle; omega)]
      | cons x before =>
        simp only [List.cons_append, List.cons.injEq] at he
        obtain ⟨he, he2⟩ := he
        subst he
        have hlt := hb (n, b) (List.mem_cons_self ..)
        dsimp only at hlt
        refine run_status id f evs _ _ hm' hc ?_ ⟨before, after, he2,
          fun g hg => hb g (List.mem_cons_of_mem _ hg), haf⟩
        show (p.status b n).nextStatus ≤ f.1
        unfold Path.status
        split
        · exact hle
        · exact hlt
    · have hne : statusOf id ev = [] := by
        cases ev with
        | pathStatus i b n =>
          dsimp only [statusOf]
          rw [if_neg (fun h => hev ⟨b, n, by rw [h]⟩)]
        | _ => rfl
      rw [hne] at hnew
      refine run_status id f evs _ _ hm' hc ?_ hnew
      cases ev with
      | pathStatus i b n =>
        dsimp only [statusAfter]
        rw [if_neg (fun h => hev ⟨b, n, by rw [h]⟩)]
        exact hle
      | _ => exact hle

/-! ## MAX_PATH_ID -/

theorem step_maxPathId (s : State) (hm : s.multipath = true) (ev : Event) : (step s ev).maxPathId =
    (match ev with | .maxPathId m => max s.maxPathId m | _ => s.maxPathId) := by
  cases ev with
  | ackFrequency seq p d t => simp only [step, State.ackFrequency]; (repeat' split) <;> rfl
  | immediateAck now i last =>
    simp only [step, State.immediateAck, State.setNeeded, hm, if_true]; (repeat' split) <;> rfl
  | pathStatus id b seq => simp only [step, State.pathStatus]; split <;> rfl
  | maxPathId m =>
    simp only [step, State.maxPathIdFrame, hm, Bool.not_true, Bool.false_eq_true, if_false]
    split <;> omega
  | recordPn i pn =>
    simp only [step, State.recordPn, hm, if_true]; split <;> rfl
  | eliciting now i => simp only [step, State.setNeeded, hm, if_true]
  | fin => rfl
  | ask now y opp wake =>
    obtain ⟨c, ps, h, -, hp⟩ := isNeeded_state s now y opp wake
    simp [step, h]
  | ackSent now opp w => simp only [step, State.sendAck]; (repeat' split) <;> rfl

theorem run_maxPathId : ∀ (evs : List Event) (s : State), s.multipath = true →
    (run s evs).maxPathId = (pathLimits evs).foldl max s.maxPathId
  | [], s, _ => rfl
  | ev :: evs, s, hm => by
    have ih := run_maxPathId evs (step s ev) ((step_fixed s ev).1.trans hm)
    rw [run_cons, ih, step_maxPathId s hm]
    cases ev <;> rfl

end Picoquic.AckSched
