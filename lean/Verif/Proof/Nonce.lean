import Verif.Model.Nonce

/-! # Lemmas on packet numbers and nonces -/

namespace Picoquic.Nonce
open Picoquic.Spec

theorem bump_map (i : Nat) (l : List Path) : (bumpPath i l).map (·.uid) = l.map (·.uid) := by
  apply List.ext_getElem?
  intro j
  simp only [bumpPath, List.getElem?_map, List.getElem?_modify]
  cases l[j]? with
  | none => simp
  | some p => by_cases h : i = j <;> simp [h]

theorem bump_mem {i : Nat} {l : List Path} {q : Path} (h : q ∈ bumpPath i l) :
    (∃ j, j ≠ i ∧ l[j]? = some q) ∨ ∃ p, l[i]? = some p ∧ q = { p with seq := p.seq + 1 } := by
  obtain ⟨j, hj⟩ := List.mem_iff_getElem?.1 h
  rw [bumpPath, List.getElem?_modify] at hj
  by_cases e : i = j
  · subst e
    cases hl : l[i]? with
    | none => rw [hl] at hj; simp at hj
    | some p =>
      rw [hl] at hj
      simp at hj
      exact Or.inr ⟨p, rfl, hj.symm⟩
  · refine Or.inl ⟨j, fun h => e h.symm, ?_⟩
    cases hl : l[j]? with
    | none => rw [hl] at hj; simp at hj
    | some p => rw [hl] at hj; simpa [e] using hj

theorem bump_le {i : Nat} {l : List Path} {q : Path} (h : q ∈ bumpPath i l) :
    ∃ p ∈ l, p.uid = q.uid ∧ p.seq ≤ q.seq ∧ q.seq ≤ p.seq + 1 := by
  rcases bump_mem h with ⟨j, _, hj⟩ | ⟨p, hp, e⟩
  · exact ⟨q, List.mem_of_getElem? hj, rfl, Nat.le_refl _, Nat.le_succ _⟩
  · subst e
    exact ⟨p, List.mem_of_getElem? hp, rfl, Nat.le_succ _, Nat.le_refl _⟩

/-- The path on which a packet is sent is the only one with its identifier. -/
theorem bump_self {i : Nat} {l : List Path} {p q : Path} (hn : (l.map (·.uid)).Nodup)
    (hp : l[i]? = some p) (h : q ∈ bumpPath i l) (e : q.uid = p.uid) : q.seq = p.seq + 1 := by
  rcases bump_mem h with ⟨j, hj, hq⟩ | ⟨p', hp', e'⟩
  · exfalso
    apply hj
    have hlt : j < (l.map (·.uid)).length := by
      rw [List.length_map]
      rcases Nat.lt_or_ge j l.length with h | h
      · exact h
      · rw [List.getElem?_eq_none h] at hq; exact nomatch hq
    refine (List.getElem?_inj hlt hn).1 ?_
    rw [List.getElem?_map, List.getElem?_map, hq, hp]
    simp [e]
  · rw [hp] at hp'
    injection hp' with hp'
    subst hp'
    rw [e']

theorem pick_mem {l : List (Nat × Bool)} {u : Nat} (h : pickStash l = some u) : (u, false) ∈ l := by
  induction l with
  | nil => exact nomatch h
  | cons s l ih =>
    rw [pickStash] at h
    by_cases e : s.2 = true ∨ s.1 = 0
    · rw [if_pos e] at h
      exact List.mem_cons_of_mem _ (ih h)
    · rw [if_neg e] at h
      injection h with h
      subst h
      have : s.2 = false := by
        cases hs : s.2 with
        | true => exact absurd (Or.inl hs) e
        | false => rfl
      rw [← this]
      exact List.mem_cons_self

/-- The numbers used so far are below the counters, and no path is created twice. -/
structure Inv (c : Cnx) : Prop where
  ini : ∀ s ∈ c.sent, ∀ k, s.key = .initial k → s.num < c.initialSeq
  hs : ∀ s ∈ c.sent, s.key = .handshake → s.num < c.handshakeSeq
  zer : c.phase = .before ∨ c.multipath = false →
    ∀ s ∈ c.sent, ∀ k, s.key = .zeroRtt k → s.num < c.appSeq
  one0 : c.multipath = false → ∀ s ∈ c.sent, ∀ k, s.key = .oneRtt k → s.num < c.appSeq
  oneM : c.multipath = true → ∀ s ∈ c.sent, ∀ k, s.key = .oneRtt k →
    s.path ∈ c.created ∧ ∀ p ∈ c.paths, p.uid = s.path → s.num < p.seq
  noOne : c.phase = .before → ∀ s ∈ c.sent, ∀ k, s.key ≠ .oneRtt k
  nodup : c.sent.Nodup
  live : ∀ p ∈ c.paths, p.uid ∈ c.created
  uids : (c.paths.map (·.uid)).Nodup
  loc : ∀ u ∈ c.locals, u ∈ c.created → u ∈ c.paths.map (·.uid)
  ltC : ∀ u ∈ c.created, u < c.nextLocal
  ltL : ∀ u ∈ c.locals, u < c.nextLocal

/-- What the proof needs of an operation. -/
def Fresh (c : Cnx) : NonceOp → Prop
  | .zeroRtt b => c.multipath = true → b = false
  | .probe _ => c.multipath = true → ∀ u, pickStash c.stashes = some u → u ∉ c.created ∧ u < c.nextLocal
  | _ => True

theorem nodup_snoc {l : List NonceUse} {a : NonceUse} (h : l.Nodup) (ha : a ∉ l) :
    (l ++ [a]).Nodup := by
  rw [List.nodup_append]
  refine ⟨h, by simp, ?_⟩
  intro x hx y hy e
  rw [List.mem_singleton] at hy
  subst hy e
  exact ha hx

theorem inv_create {c : Cnx} (h : Inv c) {u start : Nat} (hn : u ∉ c.created) (hl : u < c.nextLocal) :
    Inv (createPath c u start) where
  ini := h.ini
  hs := h.hs
  zer := h.zer
  one0 := h.one0
  oneM := by
    intro m s hs k e
    obtain ⟨h1, h2⟩ := h.oneM m s hs k e
    refine ⟨List.mem_append_left _ h1, ?_⟩
    intro p hp ep
    rcases List.mem_append.1 hp with hp | hp
    · exact h2 p hp ep
    · rw [List.mem_singleton] at hp
      subst hp
      exact absurd (show u ∈ c.created by rw [show u = s.path from ep]; exact h1) hn
  noOne := h.noOne
  nodup := h.nodup
  live := by
    intro p hp
    rcases List.mem_append.1 hp with hp | hp
    · exact List.mem_append_left _ (h.live p hp)
    · rw [List.mem_singleton] at hp
      subst hp
      exact List.mem_append_right _ (List.mem_singleton.2 rfl)
  uids := by
    simp only [createPath, List.map_append, List.map_cons, List.map_nil]
    rw [List.nodup_append]
    refine ⟨h.uids, by simp, ?_⟩
    intro x hx y hy e
    rw [List.mem_singleton] at hy
    subst hy e
    obtain ⟨p, hp, ep⟩ := List.mem_map.1 hx
    exact hn (ep ▸ h.live p hp)
  loc := by
    intro v hv hc
    simp only [createPath, List.map_append, List.map_cons, List.map_nil]
    rcases List.mem_append.1 hc with hc | hc
    · exact List.mem_append_left _ (h.loc v hv hc)
    · exact List.mem_append_right _ hc
  ltC := by
    intro v hv
    rcases List.mem_append.1 hv with hv | hv
    · exact h.ltC v hv
    · rw [List.mem_singleton] at hv
      subst hv
      exact hl
  ltL := h.ltL

theorem inv_phase {c : Cnx} (h : Inv c) {ph : Phase} (hp : ph ≠ .before) : Inv { c with phase := ph } where
  ini := h.ini
  hs := h.hs
  zer := fun a => h.zer (Or.inr (a.resolve_left hp))
  one0 := h.one0
  oneM := h.oneM
  noOne := fun a => absurd a hp
  nodup := h.nodup
  live := h.live
  uids := h.uids
  loc := h.loc
  ltC := h.ltC
  ltL := h.ltL

theorem inv_initial {c : Cnx} (h : Inv c) : Inv { c with
      initialSeq := c.initialSeq + 1
      sent := c.sent ++ [⟨.initial c.initialKey, 0, c.initialSeq⟩] } where
  ini := by
    intro s hs k e
    rcases List.mem_append.1 hs with hs | hs
    · exact Nat.lt_succ_of_lt (h.ini s hs k e)
    · rw [List.mem_singleton] at hs; subst hs; exact Nat.lt_succ_self _
  hs := by
    intro s hs e
    rcases List.mem_append.1 hs with hs | hs
    · exact h.hs s hs e
    · rw [List.mem_singleton] at hs; subst hs; exact nomatch e
  zer := by
    intro a s hs k e
    rcases List.mem_append.1 hs with hs | hs
    · exact h.zer a s hs k e
    · rw [List.mem_singleton] at hs; subst hs; exact nomatch e
  one0 := by
    intro a s hs k e
    rcases List.mem_append.1 hs with hs | hs
    · exact h.one0 a s hs k e
    · rw [List.mem_singleton] at hs; subst hs; exact nomatch e
  oneM := by
    intro a s hs k e
    rcases List.mem_append.1 hs with hs | hs
    · exact h.oneM a s hs k e
    · rw [List.mem_singleton] at hs; subst hs; exact nomatch e
  noOne := by
    intro a s hs k e
    rcases List.mem_append.1 hs with hs | hs
    · exact h.noOne a s hs k e
    · rw [List.mem_singleton] at hs; subst hs; exact nomatch e
  nodup := nodup_snoc h.nodup (fun hm => Nat.lt_irrefl _ (h.ini _ hm _ rfl))
  live := h.live
  uids := h.uids
  loc := h.loc
  ltC := h.ltC
  ltL := h.ltL

theorem inv_handshake {c : Cnx} (h : Inv c) : Inv { c with
      handshakeSeq := c.handshakeSeq + 1
      sent := c.sent ++ [⟨.handshake, 0, c.handshakeSeq⟩] } where
  ini := by
    intro s hs k e
    rcases List.mem_append.1 hs with hs | hs
    · exact h.ini s hs k e
    · rw [List.mem_singleton] at hs; subst hs; exact nomatch e
  hs := by
    intro s hs e
    rcases List.mem_append.1 hs with hs | hs
    · exact Nat.lt_succ_of_lt (h.hs s hs e)
    · rw [List.mem_singleton] at hs; subst hs; exact Nat.lt_succ_self _
  zer := by
    intro a s hs k e
    rcases List.mem_append.1 hs with hs | hs
    · exact h.zer a s hs k e
    · rw [List.mem_singleton] at hs; subst hs; exact nomatch e
  one0 := by
    intro a s hs k e
    rcases List.mem_append.1 hs with hs | hs
    · exact h.one0 a s hs k e
    · rw [List.mem_singleton] at hs; subst hs; exact nomatch e
  oneM := by
    intro a s hs k e
    rcases List.mem_append.1 hs with hs | hs
    · exact h.oneM a s hs k e
    · rw [List.mem_singleton] at hs; subst hs; exact nomatch e
  noOne := by
    intro a s hs k e
    rcases List.mem_append.1 hs with hs | hs
    · exact h.noOne a s hs k e
    · rw [List.mem_singleton] at hs; subst hs; exact nomatch e
  nodup := nodup_snoc h.nodup (fun hm => Nat.lt_irrefl _ (h.hs _ hm rfl))
  live := h.live
  uids := h.uids
  loc := h.loc
  ltC := h.ltC
  ltL := h.ltL

theorem inv_zero {c : Cnx} (h : Inv c) (ok : c.phase = .before ∨ c.multipath = false) : Inv { c with
      appSeq := c.appSeq + 1
      sent := c.sent ++ [⟨.zeroRtt c.zeroKey, 0, c.appSeq⟩] } where
  ini := by
    intro s hs k e
    rcases List.mem_append.1 hs with hs | hs
    · exact h.ini s hs k e
    · rw [List.mem_singleton] at hs; subst hs; exact nomatch e
  hs := by
    intro s hs e
    rcases List.mem_append.1 hs with hs | hs
    · exact h.hs s hs e
    · rw [List.mem_singleton] at hs; subst hs; exact nomatch e
  zer := by
    intro a s hs k e
    rcases List.mem_append.1 hs with hs | hs
    · exact Nat.lt_succ_of_lt (h.zer a s hs k e)
    · rw [List.mem_singleton] at hs; subst hs; exact Nat.lt_succ_self _
  one0 := by
    intro a s hs k e
    rcases List.mem_append.1 hs with hs | hs
    · exact Nat.lt_succ_of_lt (h.one0 a s hs k e)
    · rw [List.mem_singleton] at hs; subst hs; exact nomatch e
  oneM := by
    intro a s hs k e
    rcases List.mem_append.1 hs with hs | hs
    · exact h.oneM a s hs k e
    · rw [List.mem_singleton] at hs; subst hs; exact nomatch e
  noOne := by
    intro a s hs k e
    rcases List.mem_append.1 hs with hs | hs
    · exact h.noOne a s hs k e
    · rw [List.mem_singleton] at hs; subst hs; exact nomatch e
  nodup := nodup_snoc h.nodup (fun hm => Nat.lt_irrefl _ (h.zer ok _ hm _ rfl))
  live := h.live
  uids := h.uids
  loc := h.loc
  ltC := h.ltC
  ltL := h.ltL

theorem inv_one0 {c : Cnx} (h : Inv c) (hp : c.phase = .after) (m : c.multipath = false) : Inv { c with
      appSeq := c.appSeq + 1
      sent := c.sent ++ [⟨.oneRtt c.oneKey, 0, c.appSeq⟩] } where
  ini := by
    intro s hs k e
    rcases List.mem_append.1 hs with hs | hs
    · exact h.ini s hs k e
    · rw [List.mem_singleton] at hs; subst hs; exact nomatch e
  hs := by
    intro s hs e
    rcases List.mem_append.1 hs with hs | hs
    · exact h.hs s hs e
    · rw [List.mem_singleton] at hs; subst hs; exact nomatch e
  zer := by
    intro a s hs k e
    rcases List.mem_append.1 hs with hs | hs
    · exact Nat.lt_succ_of_lt (h.zer a s hs k e)
    · rw [List.mem_singleton] at hs; subst hs; exact nomatch e
  one0 := by
    intro a s hs k e
    rcases List.mem_append.1 hs with hs | hs
    · exact Nat.lt_succ_of_lt (h.one0 a s hs k e)
    · rw [List.mem_singleton] at hs; subst hs; exact Nat.lt_succ_self _
  oneM := fun a => nomatch a.symm.trans m
  noOne := fun a => nomatch a.symm.trans hp
  nodup := nodup_snoc h.nodup (fun hm => Nat.lt_irrefl _ (h.one0 m _ hm _ rfl))
  live := h.live
  uids := h.uids
  loc := h.loc
  ltC := h.ltC
  ltL := h.ltL

theorem inv_bump {c : Cnx} (h : Inv c) (i : Nat) : Inv { c with paths := bumpPath i c.paths } where
  ini := h.ini
  hs := h.hs
  zer := h.zer
  one0 := h.one0
  oneM := by
    intro m s hs k e
    obtain ⟨h1, h2⟩ := h.oneM m s hs k e
    refine ⟨h1, ?_⟩
    intro q hq eq
    obtain ⟨p, hp, eu, hle, _⟩ := bump_le hq
    exact Nat.lt_of_lt_of_le (h2 p hp (eu.trans eq)) hle
  noOne := h.noOne
  nodup := h.nodup
  live := by
    intro q hq
    obtain ⟨p, hp, eu, _⟩ := bump_le hq
    exact eu ▸ h.live p hp
  uids := by rw [bump_map]; exact h.uids
  loc := by rw [bump_map]; exact h.loc
  ltC := h.ltC
  ltL := h.ltL

theorem inv_oneM {c : Cnx} (h : Inv c) (hp : c.phase = .after) (m : c.multipath = true) {i : Nat}
    {p : Path} (hi : c.paths[i]? = some p) : Inv { c with
      paths := bumpPath i c.paths
      sent := c.sent ++ [⟨.oneRtt c.oneKey, p.uid, p.seq⟩] } where
  ini := by
    intro s hs k e
    rcases List.mem_append.1 hs with hs | hs
    · exact h.ini s hs k e
    · rw [List.mem_singleton] at hs; subst hs; exact nomatch e
  hs := by
    intro s hs e
    rcases List.mem_append.1 hs with hs | hs
    · exact h.hs s hs e
    · rw [List.mem_singleton] at hs; subst hs; exact nomatch e
  zer := by
    intro a s hs k e
    rcases List.mem_append.1 hs with hs | hs
    · exact h.zer a s hs k e
    · rw [List.mem_singleton] at hs; subst hs; exact nomatch e
  one0 := fun a => nomatch a.symm.trans m
  oneM := by
    intro a s hs k e
    rcases List.mem_append.1 hs with hs | hs
    · exact (inv_bump h i).oneM a s hs k e
    · rw [List.mem_singleton] at hs
      subst hs
      refine ⟨h.live p (List.mem_of_getElem? hi), ?_⟩
      intro q hq eq
      rw [bump_self h.uids hi hq eq]
      exact Nat.lt_succ_self _
  noOne := fun a => nomatch a.symm.trans hp
  nodup := nodup_snoc h.nodup (fun hm => Nat.lt_irrefl _
    ((h.oneM m _ hm _ rfl).2 p (List.mem_of_getElem? hi) rfl))
  live := (inv_bump h i).live
  uids := (inv_bump h i).uids
  loc := (inv_bump h i).loc
  ltC := h.ltC
  ltL := h.ltL

theorem inv_skip0 {c : Cnx} (h : Inv c) : Inv { c with appSeq := c.appSeq + 1 } where
  ini := h.ini
  hs := h.hs
  zer := fun a s hs k e => Nat.lt_succ_of_lt (h.zer a s hs k e)
  one0 := fun a s hs k e => Nat.lt_succ_of_lt (h.one0 a s hs k e)
  oneM := h.oneM
  noOne := h.noOne
  nodup := h.nodup
  live := h.live
  uids := h.uids
  loc := h.loc
  ltC := h.ltC
  ltL := h.ltL

theorem inv_copy {c : Cnx} (h : Inv c) (hb : c.phase = .before) (m : c.multipath = true) {p : Path}
    {l : List Path} (e : c.paths = p :: l) (start : Nat) : Inv { c with
      phase := .almost
      paths := { p with seq := c.appSeq } :: l
      appSeq := start } where
  ini := h.ini
  hs := h.hs
  zer := by
    intro a
    rcases a with a | a
    · exact nomatch a
    · exact nomatch m.symm.trans a
  one0 := fun a => nomatch m.symm.trans a
  oneM := fun _ s hs k ek => absurd ek (h.noOne hb s hs k)
  noOne := fun a => nomatch a
  nodup := h.nodup
  live := by
    intro q hq
    have hl := h.live
    rw [e] at hl
    rcases List.mem_cons.1 hq with hq | hq
    · subst hq; exact hl p List.mem_cons_self
    · exact hl q (List.mem_cons_of_mem _ hq)
  uids := by have := h.uids; rw [e] at this; exact this
  loc := by have := h.loc; rw [e] at this; exact this
  ltC := h.ltC
  ltL := h.ltL

theorem inv_give {c : Cnx} (h : Inv c) : Inv { c with
      locals := c.locals ++ [c.nextLocal], nextLocal := c.nextLocal + 1 } where
  ini := h.ini
  hs := h.hs
  zer := h.zer
  one0 := h.one0
  oneM := h.oneM
  noOne := h.noOne
  nodup := h.nodup
  live := h.live
  uids := h.uids
  loc := by
    intro u hu hc
    rcases List.mem_append.1 hu with hu | hu
    · exact h.loc u hu hc
    · rw [List.mem_singleton] at hu
      subst hu
      exact absurd (h.ltC _ hc) (Nat.lt_irrefl _)
  ltC := fun u hu => Nat.lt_succ_of_lt (h.ltC u hu)
  ltL := by
    intro u hu
    rcases List.mem_append.1 hu with hu | hu
    · exact Nat.lt_succ_of_lt (h.ltL u hu)
    · rw [List.mem_singleton] at hu
      subst hu
      exact Nat.lt_succ_self _

theorem mem_eraseIdx_map {l : List Path} {i : Nat} {p q : Path} (hi : l[i]? = some p) (hq : q ∈ l)
    (hne : q.uid ≠ p.uid) : q ∈ l.eraseIdx i := by
  rw [List.mem_eraseIdx_iff_getElem?]
  obtain ⟨j, hj⟩ := List.mem_iff_getElem?.1 hq
  refine ⟨j, ?_, hj⟩
  intro e
  subst e
  rw [hi] at hj
  injection hj with hj
  subst hj
  exact hne rfl

theorem inv_abandon {c : Cnx} (h : Inv c) {i : Nat} {p : Path} (hi : c.paths[i]? = some p) : Inv { c with
      paths := c.paths.eraseIdx i
      stashes := c.stashes.filter (fun s => s.1 != p.uid)
      locals := c.locals.filter (fun u => u != p.uid) } where
  ini := h.ini
  hs := h.hs
  zer := h.zer
  one0 := h.one0
  oneM := by
    intro m s hs k e
    obtain ⟨h1, h2⟩ := h.oneM m s hs k e
    exact ⟨h1, fun q hq => h2 q (List.mem_of_mem_eraseIdx hq)⟩
  noOne := h.noOne
  nodup := h.nodup
  live := fun q hq => h.live q (List.mem_of_mem_eraseIdx hq)
  uids := h.uids.sublist ((List.eraseIdx_sublist _ _).map _)
  loc := by
    intro u hu hc
    rw [List.mem_filter] at hu
    obtain ⟨q, hq, e⟩ := List.mem_map.1 (h.loc u hu.1 hc)
    refine List.mem_map.2 ⟨q, mem_eraseIdx_map hi hq ?_, e⟩
    rw [e]
    simpa using hu.2
  ltC := h.ltC
  ltL := fun u hu => h.ltL u (List.mem_filter.1 hu).1

theorem inv_step {c c' : Cnx} {op : NonceOp} (h : Inv c) (f : Fresh c op) (hs : step c op = some c') :
    Inv c' := by
  cases op with
  | initial =>
    simp only [step, Option.some.injEq] at hs
    subst hs
    exact inv_initial h
  | handshake =>
    simp only [step, Option.some.injEq] at hs
    subst hs
    exact inv_handshake h
  | zeroRtt b =>
    simp only [step] at hs
    split at hs
    · rename_i hc
      injection hs with hs
      subst hs
      refine inv_zero h ?_
      rcases hc.2 with hb | hb
      · exact Or.inl hb
      · cases hm : c.multipath with
        | false => exact Or.inr rfl
        | true => exact nomatch hb.2.symm.trans (f hm)
    · injection hs with hs; exact hs ▸ h
  | oneRtt i =>
    simp only [step] at hs
    split at hs
    · rename_i hp
      split at hs
      · injection hs with hs; exact hs ▸ h
      · rename_i p hi
        split at hs
        · split at hs
          · rename_i m
            injection hs with hs
            subst hs
            exact inv_oneM h hp m hi
          · rename_i m
            injection hs with hs
            subst hs
            exact inv_one0 h hp (by simpa using m)
        · exact nomatch hs
    · injection hs with hs; exact hs ▸ h
  | skip i =>
    simp only [step] at hs
    split at hs
    · split at hs
      · injection hs with hs; exact hs ▸ inv_bump h i
      · injection hs with hs; exact hs ▸ inv_skip0 h
    · injection hs with hs; exact hs ▸ h
  | retry =>
    simp only [step] at hs
    split at hs
    · injection hs with hs
      subst hs
      exact ⟨h.ini, h.hs, h.zer, h.one0, h.oneM, h.noOne, h.nodup, h.live, h.uids, h.loc, h.ltC, h.ltL⟩
    · injection hs with hs; exact hs ▸ h
  | complete start =>
    simp only [step] at hs
    split at hs
    · rename_i hb
      split at hs
      · split at hs
        · rename_i m
          split at hs
          · exact nomatch hs
          · rename_i p l e
            injection hs with hs
            exact hs ▸ inv_copy h hb m e start
        · injection hs with hs
          exact hs ▸ inv_phase h (fun a => nomatch a)
      · injection hs with hs
        exact hs ▸ inv_phase h (fun a => nomatch a)
    · injection hs with hs; exact hs ▸ h
  | ready =>
    simp only [step] at hs
    split at hs
    · injection hs with hs
      exact hs ▸ inv_phase h (fun a => nomatch a)
    · injection hs with hs; exact hs ▸ h
  | rotate =>
    simp only [step, Option.some.injEq] at hs
    subst hs
    exact ⟨h.ini, h.hs, h.zer, h.one0, h.oneM, h.noOne, h.nodup, h.live, h.uids, h.loc, h.ltC, h.ltL⟩
  | giveIds =>
    simp only [step] at hs
    split at hs
    · injection hs with hs; exact hs ▸ inv_give h
    · injection hs with hs; exact hs ▸ h
  | getIds u =>
    simp only [step] at hs
    split at hs
    · split at hs
      · injection hs with hs; exact hs ▸ h
      · injection hs with hs
        subst hs
        exact ⟨h.ini, h.hs, h.zer, h.one0, h.oneM, h.noOne, h.nodup, h.live, h.uids, h.loc, h.ltC, h.ltL⟩
    · injection hs with hs; exact hs ▸ h
  | arrive u start =>
    simp only [step] at hs
    split at hs
    · rename_i hc
      injection hs with hs
      exact hs ▸ inv_create h (fun hm => hc.2.2.2.1 (h.loc u hc.2.2.1 hm)) (h.ltL u hc.2.2.1)
    · injection hs with hs; exact hs ▸ h
  | probe start =>
    simp only [step] at hs
    split at hs
    · rename_i hc
      split at hs
      · injection hs with hs; exact hs ▸ h
      · rename_i u hu
        injection hs with hs
        exact hs ▸ inv_create h (f hc.1 u hu).1 (f hc.1 u hu).2
    · injection hs with hs; exact hs ▸ h
  | abandon i =>
    simp only [step] at hs
    split at hs
    · injection hs with hs; exact hs ▸ h
    · rename_i p hi
      split at hs
      · injection hs with hs; exact hs ▸ inv_abandon h hi
      · injection hs with hs; exact hs ▸ h

theorem inv_init (cl m : Bool) (ml mr s1 s2 s3 s4 : Nat) : Inv (init cl m ml mr s1 s2 s3 s4) where
  ini := fun _ hs => absurd hs List.not_mem_nil
  hs := fun _ hs => absurd hs List.not_mem_nil
  zer := fun _ _ hs => absurd hs List.not_mem_nil
  one0 := fun _ _ hs => absurd hs List.not_mem_nil
  oneM := fun _ _ hs => absurd hs List.not_mem_nil
  noOne := fun _ _ hs => absurd hs List.not_mem_nil
  nodup := List.nodup_nil
  live := by intro p hp; simp [init] at hp ⊢; subst hp; rfl
  uids := by simp [init]
  loc := by intro u hu _; simpa [init] using hu
  ltC := by intro u hu; simp [init] at hu ⊢; omega
  ltL := by intro u hu; simp [init] at hu ⊢; omega

/-! ## Bounds -/

/-- The numbers and identifiers fit the nonce after `k` operations. -/
structure Bnd (k : Nat) (c : Cnx) : Prop where
  b1 : c.initialSeq ≤ 2 ^ 32 + k
  b2 : c.handshakeSeq ≤ 2 ^ 32 + k
  b3 : c.appSeq ≤ 2 ^ 32 + k
  bp : ∀ p ∈ c.paths, p.seq ≤ 2 ^ 32 + k ∧ p.uid < 2 ^ 32
  bs : ∀ s ∈ c.stashes, s.1 < 2 ^ 32
  bl : ∀ u ∈ c.locals, u < 2 ^ 32
  ml : c.maxLocal < 2 ^ 32
  mr : c.maxRemote < 2 ^ 32
  bt : ∀ s ∈ c.sent, s.num ≤ 2 ^ 32 + k ∧ s.path < 2 ^ 32

theorem bnd_mono {k : Nat} {c : Cnx} (h : Bnd k c) : Bnd (k + 1) c where
  b1 := Nat.le_succ_of_le h.b1
  b2 := Nat.le_succ_of_le h.b2
  b3 := Nat.le_succ_of_le h.b3
  bp := fun p hp => ⟨Nat.le_succ_of_le (h.bp p hp).1, (h.bp p hp).2⟩
  bs := h.bs
  bl := h.bl
  ml := h.ml
  mr := h.mr
  bt := fun s hs => ⟨Nat.le_succ_of_le (h.bt s hs).1, (h.bt s hs).2⟩

theorem bnd_send {k : Nat} {l : List NonceUse} (h : ∀ s ∈ l, s.num ≤ 2 ^ 32 + k ∧ s.path < 2 ^ 32)
    {a : NonceUse} (h1 : a.num ≤ 2 ^ 32 + k) (h2 : a.path < 2 ^ 32) :
    ∀ s ∈ l ++ [a], s.num ≤ 2 ^ 32 + (k + 1) ∧ s.path < 2 ^ 32 := by
  intro s hs
  rcases List.mem_append.1 hs with hs | hs
  · exact ⟨Nat.le_succ_of_le (h s hs).1, (h s hs).2⟩
  · rw [List.mem_singleton] at hs
    subst hs
    exact ⟨Nat.le_succ_of_le h1, h2⟩

theorem bnd_bump {k : Nat} {l : List Path} (h : ∀ p ∈ l, p.seq ≤ 2 ^ 32 + k ∧ p.uid < 2 ^ 32) (i : Nat) :
    ∀ p ∈ bumpPath i l, p.seq ≤ 2 ^ 32 + (k + 1) ∧ p.uid < 2 ^ 32 := by
  intro q hq
  obtain ⟨p, hp, eu, _, hle⟩ := bump_le hq
  have := h p hp
  exact ⟨by omega, by omega⟩

theorem bnd_create {k : Nat} {c : Cnx} (h : Bnd k c) {u start : Nat} (hu : u < 2 ^ 32)
    (hs : start < 2 ^ 32) : Bnd k (createPath c u start) where
  b1 := h.b1
  b2 := h.b2
  b3 := h.b3
  bp := by
    intro p hp
    rcases List.mem_append.1 hp with hp | hp
    · exact h.bp p hp
    · rw [List.mem_singleton] at hp
      subst hp
      exact ⟨by show start ≤ _; omega, hu⟩
  bs := by
    intro s hs
    obtain ⟨t, ht, e⟩ := List.mem_map.1 hs
    have := h.bs t ht
    by_cases et : t.1 = u
    · rw [if_pos et] at e; rw [← e]; exact this
    · rw [if_neg et] at e; rw [← e]; exact this
  bl := h.bl
  ml := h.ml
  mr := h.mr
  bt := h.bt

theorem bnd_step {k : Nat} {c c' : Cnx} {op : NonceOp} (h : Bnd k c) (hb : op.start < 2 ^ 32)
    (hs : step c op = some c') : Bnd (k + 1) c' := by
  have h' := bnd_mono h
  cases op with
  | initial =>
    simp only [step, Option.some.injEq] at hs
    subst hs
    exact ⟨Nat.succ_le_succ h.b1, h'.b2, h'.b3, h'.bp, h'.bs, h'.bl, h'.ml, h'.mr,
      bnd_send h.bt h.b1 (by show 0 < 2 ^ 32; decide)⟩
  | handshake =>
    simp only [step, Option.some.injEq] at hs
    subst hs
    exact ⟨h'.b1, Nat.succ_le_succ h.b2, h'.b3, h'.bp, h'.bs, h'.bl, h'.ml, h'.mr,
      bnd_send h.bt h.b2 (by show 0 < 2 ^ 32; decide)⟩
  | zeroRtt b =>
    simp only [step] at hs
    split at hs
    · injection hs with hs
      subst hs
      exact ⟨h'.b1, h'.b2, Nat.succ_le_succ h.b3, h'.bp, h'.bs, h'.bl, h'.ml, h'.mr,
        bnd_send h.bt h.b3 (by show 0 < 2 ^ 32; decide)⟩
    · injection hs with hs; exact hs ▸ h'
  | oneRtt i =>
    simp only [step] at hs
    split at hs
    · split at hs
      · injection hs with hs; exact hs ▸ h'
      · rename_i p hi
        have hp := h.bp p (List.mem_of_getElem? hi)
        split at hs
        · split at hs
          · injection hs with hs
            subst hs
            exact ⟨h'.b1, h'.b2, h'.b3, bnd_bump h.bp i, h'.bs, h'.bl, h'.ml, h'.mr,
              bnd_send h.bt hp.1 hp.2⟩
          · injection hs with hs
            subst hs
            exact ⟨h'.b1, h'.b2, Nat.succ_le_succ h.b3, h'.bp, h'.bs, h'.bl, h'.ml, h'.mr,
              bnd_send h.bt h.b3 (by show 0 < 2 ^ 32; decide)⟩
        · exact nomatch hs
    · injection hs with hs; exact hs ▸ h'
  | skip i =>
    simp only [step] at hs
    split at hs
    · split at hs
      · injection hs with hs
        subst hs
        exact ⟨h'.b1, h'.b2, h'.b3, bnd_bump h.bp i, h'.bs, h'.bl, h'.ml, h'.mr, h'.bt⟩
      · injection hs with hs
        subst hs
        exact ⟨h'.b1, h'.b2, Nat.succ_le_succ h.b3, h'.bp, h'.bs, h'.bl, h'.ml, h'.mr, h'.bt⟩
    · injection hs with hs; exact hs ▸ h'
  | retry =>
    simp only [step] at hs
    split at hs
    · injection hs with hs
      subst hs
      exact ⟨h'.b1, h'.b2, h'.b3, h'.bp, h'.bs, h'.bl, h'.ml, h'.mr, h'.bt⟩
    · injection hs with hs; exact hs ▸ h'
  | complete start =>
    have hst : start < 2 ^ 32 := hb
    simp only [step] at hs
    split at hs
    · split at hs
      · split at hs
        · split at hs
          · exact nomatch hs
          · rename_i p l e
            injection hs with hs
            subst hs
            refine ⟨h'.b1, h'.b2, by show start ≤ _; omega, ?_, h'.bs, h'.bl, h'.ml, h'.mr, h'.bt⟩
            have hl := h'.bp
            rw [e] at hl
            intro q hq
            rcases List.mem_cons.1 hq with hq | hq
            · subst hq; exact ⟨h'.b3, (hl p List.mem_cons_self).2⟩
            · exact hl q (List.mem_cons_of_mem _ hq)
        · injection hs with hs
          subst hs
          exact ⟨h'.b1, h'.b2, h'.b3, h'.bp, h'.bs, h'.bl, h'.ml, h'.mr, h'.bt⟩
      · injection hs with hs
        subst hs
        exact ⟨h'.b1, h'.b2, h'.b3, h'.bp, h'.bs, h'.bl, h'.ml, h'.mr, h'.bt⟩
    · injection hs with hs; exact hs ▸ h'
  | ready =>
    simp only [step] at hs
    split at hs
    · injection hs with hs
      subst hs
      exact ⟨h'.b1, h'.b2, h'.b3, h'.bp, h'.bs, h'.bl, h'.ml, h'.mr, h'.bt⟩
    · injection hs with hs; exact hs ▸ h'
  | rotate =>
    simp only [step, Option.some.injEq] at hs
    subst hs
    exact ⟨h'.b1, h'.b2, h'.b3, h'.bp, h'.bs, h'.bl, h'.ml, h'.mr, h'.bt⟩
  | giveIds =>
    simp only [step] at hs
    split at hs
    · rename_i hc
      injection hs with hs
      subst hs
      refine ⟨h'.b1, h'.b2, h'.b3, h'.bp, h'.bs, ?_, h'.ml, h'.mr, h'.bt⟩
      intro u hu
      rcases List.mem_append.1 hu with hu | hu
      · exact h.bl u hu
      · rw [List.mem_singleton] at hu
        subst hu
        exact Nat.lt_of_le_of_lt hc.2 h.mr
    · injection hs with hs; exact hs ▸ h'
  | getIds u =>
    simp only [step] at hs
    split at hs
    · rename_i hc
      split at hs
      · injection hs with hs; exact hs ▸ h'
      · injection hs with hs
        subst hs
        refine ⟨h'.b1, h'.b2, h'.b3, h'.bp, ?_, h'.bl, h'.ml, h'.mr, h'.bt⟩
        intro s hs
        rcases List.mem_append.1 hs with hs | hs
        · exact h.bs s hs
        · rw [List.mem_singleton] at hs
          subst hs
          exact Nat.lt_of_le_of_lt hc.2 h.ml
    · injection hs with hs; exact hs ▸ h'
  | arrive u start =>
    simp only [step] at hs
    split at hs
    · rename_i hc
      injection hs with hs
      exact hs ▸ bnd_create h' (h.bl u hc.2.2.1) hb
    · injection hs with hs; exact hs ▸ h'
  | probe start =>
    simp only [step] at hs
    split at hs
    · split at hs
      · injection hs with hs; exact hs ▸ h'
      · rename_i u hu
        injection hs with hs
        exact hs ▸ bnd_create h' (h.bs _ (pick_mem hu)) hb
    · injection hs with hs; exact hs ▸ h'
  | abandon i =>
    simp only [step] at hs
    split at hs
    · injection hs with hs; exact hs ▸ h'
    · rename_i p hi
      split at hs
      · injection hs with hs
        subst hs
        exact ⟨h'.b1, h'.b2, h'.b3, fun q hq => h'.bp q (List.mem_of_mem_eraseIdx hq),
          fun s hs => h.bs s (List.mem_filter.1 hs).1, fun u hu => h.bl u (List.mem_filter.1 hu).1,
          h'.ml, h'.mr, h'.bt⟩
      · injection hs with hs; exact hs ▸ h'

theorem bnd_run {ops : List NonceOp} : ∀ {k : Nat} {c c' : Cnx}, Bnd k c →
    (∀ op ∈ ops, op.start < 2 ^ 32) → run c ops = some c' → Bnd (k + ops.length) c' := by
  induction ops with
  | nil =>
    intro k c c' h _ hr
    injection hr with hr
    exact hr ▸ h
  | cons op ops ih =>
    intro k c c' h hb hr
    rw [run] at hr
    cases hs : step c op with
    | none => rw [hs] at hr; exact nomatch hr
    | some c1 =>
      rw [hs] at hr
      have := ih (bnd_step h (hb op List.mem_cons_self) hs) (fun o ho => hb o (List.mem_cons_of_mem _ ho)) hr
      rw [List.length_cons, Nat.add_comm ops.length 1, ← Nat.add_assoc]
      exact this

theorem bnd_init (cl m : Bool) {ml mr s1 s2 s3 s4 : Nat} (hl : ml < 2 ^ 32) (hr : mr < 2 ^ 32)
    (h1 : s1 < 2 ^ 32) (h2 : s2 < 2 ^ 32) (h3 : s3 < 2 ^ 32) (h4 : s4 < 2 ^ 32) :
    Bnd 0 (init cl m ml mr s1 s2 s3 s4) where
  b1 := Nat.le_of_lt h1
  b2 := Nat.le_of_lt h2
  b3 := Nat.le_of_lt h3
  bp := by
    intro p hp
    simp only [init, List.mem_singleton] at hp
    subst hp
    exact ⟨Nat.le_of_lt h4, by show 0 < 2 ^ 32; decide⟩
  bs := by
    intro s hs
    simp only [init, List.mem_singleton] at hs
    subst hs
    decide
  bl := by
    intro u hu
    simp only [init, List.mem_singleton] at hu
    subst hu
    decide
  ml := hl
  mr := hr
  bt := fun _ hs => absurd hs List.not_mem_nil

/-- Different uses have different nonces as long as the numbers fit. -/
theorem unique_of_nodup {l : List NonceUse} (h : l.Nodup) (hb : ∀ s ∈ l, s.num < 2 ^ 64 ∧ s.path < 2 ^ 32) :
    NonceUnique l := by
  rw [NonceUnique, List.Nodup, List.pairwise_map]
  refine List.Pairwise.imp_of_mem ?_ h
  intro a b ha hb' hne e
  apply hne
  have h1 := hb a ha
  have h2 := hb b hb'
  simp only [Prod.mk.injEq, NonceUse.nonce] at e
  obtain ⟨e1, e2⟩ := e
  rw [Nat.mod_eq_of_lt h1.1, Nat.mod_eq_of_lt h1.2, Nat.mod_eq_of_lt h2.1, Nat.mod_eq_of_lt h2.2] at e2
  obtain ⟨k, p, n⟩ := a
  obtain ⟨k', p', n'⟩ := b
  simp only at e1 e2 h1 h2
  have : p = p' := by omega
  have : n = n' := by omega
  subst_vars
  rfl

/-! ## Histories -/

/-- All operations of a history are as the proof needs them. -/
def FreshRun (c : Cnx) : List NonceOp → Prop
  | [] => True
  | op :: ops => Fresh c op ∧ ∀ c', step c op = some c' → FreshRun c' ops

theorem inv_run {ops : List NonceOp} : ∀ {c c' : Cnx}, Inv c → FreshRun c ops → run c ops = some c' →
    Inv c' := by
  induction ops with
  | nil =>
    intro c c' h _ hr
    injection hr with hr
    exact hr ▸ h
  | cons op ops ih =>
    intro c c' h f hr
    rw [run] at hr
    cases hs : step c op with
    | none => rw [hs] at hr; exact nomatch hr
    | some c1 =>
      rw [hs] at hr
      exact ih (inv_step h f.1 hs) (f.2 c1 hs) hr

theorem mp_step {c c' : Cnx} {op : NonceOp} (hs : step c op = some c') : c'.multipath = c.multipath := by
  cases op <;> simp only [step] at hs <;> repeat' split at hs
  all_goals first
    | (injection hs with hs; subst hs; rfl)
    | cases hs

/-- Stashes that are not in use are of paths that never were. -/
def StashOk (c : Cnx) : Prop := ∀ u, (u, false) ∈ c.stashes → u ∉ c.created ∧ u < c.nextLocal

theorem useStash_false {l : List (Nat × Bool)} {u v : Nat} (h : (v, false) ∈ useStash u l) :
    (v, false) ∈ l ∧ v ≠ u := by
  obtain ⟨t, ht, e⟩ := List.mem_map.1 h
  by_cases et : t.1 = u
  · rw [if_pos et] at e; exact nomatch (Prod.mk.inj e).2
  · rw [if_neg et] at e
    subst e
    exact ⟨ht, et⟩

theorem stash_create {c : Cnx} (h : StashOk c) (u start : Nat) : StashOk (createPath c u start) := by
  intro v hv
  obtain ⟨h1, h2⟩ := useStash_false hv
  obtain ⟨h3, h4⟩ := h v h1
  refine ⟨?_, h4⟩
  intro hm
  rcases List.mem_append.1 hm with hm | hm
  · exact h3 hm
  · exact h2 (List.mem_singleton.1 hm)

theorem stash_step {c c' : Cnx} {op : NonceOp} (h : StashOk c)
    (f : ∀ u, op = .getIds u → u ∈ c.stashes.map (·.1) ∨ (u ∉ c.created ∧ u < c.nextLocal))
    (hs : step c op = some c') : StashOk c' := by
  cases op with
  | arrive u start =>
    simp only [step] at hs
    split at hs
    · injection hs with hs; exact hs ▸ stash_create h u start
    · injection hs with hs; exact hs ▸ h
  | probe start =>
    simp only [step] at hs
    split at hs
    · split at hs
      · injection hs with hs; exact hs ▸ h
      · injection hs with hs; exact hs ▸ stash_create h _ start
    · injection hs with hs; exact hs ▸ h
  | getIds u =>
    simp only [step] at hs
    split at hs
    · split at hs
      · injection hs with hs; exact hs ▸ h
      · rename_i hn
        injection hs with hs
        subst hs
        intro v hv
        rcases List.mem_append.1 hv with hv | hv
        · exact h v hv
        · rw [List.mem_singleton] at hv
          injection hv with hv _
          subst hv
          exact (f v rfl).resolve_left hn
    · injection hs with hs; exact hs ▸ h
  | abandon i =>
    simp only [step] at hs
    split at hs
    · injection hs with hs; exact hs ▸ h
    · split at hs
      · injection hs with hs
        subst hs
        intro v hv
        exact h v (List.mem_filter.1 hv).1
      · injection hs with hs; exact hs ▸ h
  | giveIds =>
    simp only [step] at hs
    split at hs
    · injection hs with hs
      subst hs
      intro v hv
      exact ⟨(h v hv).1, Nat.lt_succ_of_lt (h v hv).2⟩
    · injection hs with hs; exact hs ▸ h
  | _ =>
    simp only [step] at hs
    repeat' split at hs
    all_goals first
      | (injection hs with hs; subst hs; exact h)
      | cases hs

theorem stash_init (cl m : Bool) (ml mr s1 s2 s3 s4 : Nat) : StashOk (init cl m ml mr s1 s2 s3 s4) := by
  intro u hu
  simp [init] at hu

/-! ## Path 0 given up -/

theorem no_stash0_step {c c' : Cnx} {op : NonceOp} (h : 0 ∉ c.stashes.map (·.1)) (f : op ≠ .getIds 0)
    (hs : step c op = some c') : 0 ∉ c'.stashes.map (·.1) := by
  have hc : ∀ u start, 0 ∉ (createPath c u start).stashes.map (·.1) := by
    intro u start hm
    apply h
    simp only [createPath, useStash, List.map_map] at hm
    obtain ⟨t, ht, e⟩ := List.mem_map.1 hm
    refine List.mem_map.2 ⟨t, ht, ?_⟩
    simp only [Function.comp] at e
    by_cases et : t.1 = u
    · rw [if_pos et] at e; exact e
    · rw [if_neg et] at e; exact e
  cases op with
  | arrive u start =>
    simp only [step] at hs
    split at hs
    · injection hs with hs; exact hs ▸ hc u start
    · injection hs with hs; exact hs ▸ h
  | probe start =>
    simp only [step] at hs
    split at hs
    · split at hs
      · injection hs with hs; exact hs ▸ h
      · injection hs with hs; exact hs ▸ hc _ start
    · injection hs with hs; exact hs ▸ h
  | getIds u =>
    simp only [step] at hs
    split at hs
    · split at hs
      · injection hs with hs; exact hs ▸ h
      · injection hs with hs
        subst hs
        simp only [List.map_append, List.map_cons, List.map_nil, List.mem_append, List.mem_singleton]
        rintro (hm | hm)
        · exact h hm
        · subst hm; exact f rfl
    · injection hs with hs; exact hs ▸ h
  | abandon i =>
    simp only [step] at hs
    split at hs
    · injection hs with hs; exact hs ▸ h
    · split at hs
      · injection hs with hs
        subst hs
        intro hm
        obtain ⟨t, ht, e⟩ := List.mem_map.1 hm
        exact h (List.mem_map.2 ⟨t, (List.mem_filter.1 ht).1, e⟩)
      · injection hs with hs; exact hs ▸ h
  | _ =>
    simp only [step] at hs
    repeat' split at hs
    all_goals first
      | (injection hs with hs; subst hs; exact h)
      | cases hs

theorem no_stash0_run {ops : List NonceOp} : ∀ {c c' : Cnx}, 0 ∉ c.stashes.map (·.1) →
    .getIds 0 ∉ ops → run c ops = some c' → 0 ∉ c'.stashes.map (·.1) := by
  induction ops with
  | nil =>
    intro c c' h _ hr
    injection hr with hr
    exact hr ▸ h
  | cons op ops ih =>
    intro c c' h f hr
    rw [run] at hr
    cases hs : step c op with
    | none => rw [hs] at hr; exact nomatch hr
    | some c1 =>
      rw [hs] at hr
      exact ih (no_stash0_step h (fun e => f (e ▸ List.mem_cons_self)) hs)
        (fun hm => f (List.mem_cons_of_mem _ hm)) hr

end Picoquic.Nonce
