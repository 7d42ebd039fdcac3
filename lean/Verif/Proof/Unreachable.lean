import Verif.Spec.Unreachable
import Verif.Proof.MultiPath

/-!
# Proofs about addresses and destinations that cannot be reached
-/

namespace Picoquic.Unreachable
open Picoquic.MultiPath Picoquic.Spec

theorem compare_iff {a b : Sock} {n : NetAddr} (h : netAddr b = some n) :
    compareAddr a b = true ↔ netAddr a = some n := by
  obtain ⟨fa, pa, a4, a6⟩ := a
  obtain ⟨fb, pb, b4, b6⟩ := b
  unfold netAddr at h
  unfold compareAddr compareIp netAddr INET6
  by_cases h2 : fb = 2
  · subst h2
    simp only [if_true, Option.some.injEq] at h
    subst h
    by_cases hf : fa = 2
    · subst hf; simp
    · by_cases hf' : fa = 10
      · subst hf'; simp
      · simp [hf, hf']
  · by_cases h10 : fb = 10
    · subst h10
      simp at h
      subst h
      by_cases hf : fa = 10
      · subst hf; simp
      · by_cases hf' : fa = 2
        · subst hf'; simp
        · simp [hf, hf']
    · simp [h2, h10] at h

theorem netAddr_family {a : Sock} {n : NetAddr} (h : netAddr a = some n) : a.family ≠ 0 := by
  intro hf
  unfold netAddr at h
  rw [hf] at h
  simp at h

/-- With both addresses: the first path that joins them. -/
theorem findLoop_both {loc peer : Sock} {l p : NetAddr} (hl : netAddr loc = some l) (hp : netAddr peer = some p)
    (ts : List Tuple) : ∀ (i : Nat) (part : Option Nat),
    (∃ k t, ts[k]? = some t ∧ Joins t l p ∧ (∀ j t', j < k → ts[j]? = some t' → ¬ Joins t' l p) ∧
      (findLoop loc peer false i ts none part).1 = some (i + k)) ∨
    ((∀ t ∈ ts, ¬ Joins t l p) ∧ (findLoop loc peer false i ts none part).1 = none) := by
  induction ts with
  | nil => intro i part; right; simp [findLoop]
  | cons t ts ih =>
    intro i part
    have key : (compareAddr t.peer peer = true ∧ t.loc.family ≠ 0 ∧ compareAddr t.loc loc = true) ↔ Joins t l p := by
      rw [compare_iff hp, compare_iff hl]
      constructor
      · rintro ⟨h1, _, h3⟩; exact ⟨h3, h1⟩
      · rintro ⟨h1, h2⟩; exact ⟨h2, netAddr_family h1, h1⟩
    by_cases hj : Joins t l p
    · left
      refine ⟨0, t, rfl, hj, by intro j t' h; omega, ?_⟩
      simp only [findLoop]
      rw [if_pos (key.2 hj)]
      rfl
    · have hstep : ∃ part', findLoop loc peer false i (t :: ts) none part =
          findLoop loc peer false (i + 1) ts none part' := by
        simp only [findLoop]
        rw [if_neg (fun h => hj (key.1 h)), if_neg (by simp)]
        exact ⟨_, rfl⟩
      obtain ⟨part', hs⟩ := hstep
      rw [hs]
      rcases ih (i + 1) part' with ⟨k, t', hk, hjt, hfirst, hr⟩ | ⟨hn, hr⟩
      · left
        refine ⟨k + 1, t', by simpa using hk, hjt, ?_, by rw [hr]; congr 1; omega⟩
        intro j u hlt hu
        cases j with
        | zero => simp at hu; subst hu; exact hj
        | succ j => exact hfirst j u (by omega) (by simpa using hu)
      · right
        refine ⟨?_, hr⟩
        intro u hu
        rcases List.mem_cons.1 hu with rfl | hu
        · exact hj
        · exact hn u hu

/-- Once a path was taken for want of a local address, it is kept. -/
theorem findLoop_kept {peer : Sock} (ts : List Tuple) : ∀ (i : Nat) (k : Nat) (part : Option Nat),
    (findLoop {} peer true i ts (some k) part).1 = some k := by
  induction ts with
  | nil => intro i k part; rfl
  | cons t ts ih =>
    intro i k part
    have hn : ¬ (compareAddr t.peer peer = true ∧ t.loc.family ≠ 0 ∧ compareAddr t.loc {} = true) := by
      rintro ⟨_, h2, h3⟩
      unfold compareAddr compareIp at h3
      simp [h2] at h3
    simp only [findLoop]
    rw [if_neg hn, if_neg (by simp)]
    exact ih _ _ _

/-- Without local address: the first path to the peer whose local address is not known. -/
theorem findLoop_peer {peer : Sock} {p : NetAddr} (hp : netAddr peer = some p) (ts : List Tuple) : ∀ (i : Nat),
    (∃ k t, ts[k]? = some t ∧ LeadsTo t p ∧ (∀ j t', j < k → ts[j]? = some t' → ¬ LeadsTo t' p) ∧
      (findLoop {} peer true i ts none none).1 = some (i + k)) ∨
    ((∀ t ∈ ts, ¬ LeadsTo t p) ∧ (findLoop {} peer true i ts none none).1 = none) := by
  induction ts with
  | nil => intro i; right; simp [findLoop]
  | cons t ts ih =>
    intro i
    have hn : ¬ (compareAddr t.peer peer = true ∧ t.loc.family ≠ 0 ∧ compareAddr t.loc {} = true) := by
      rintro ⟨_, h2, h3⟩
      unfold compareAddr compareIp at h3
      simp [h2] at h3
    have key : (compareAddr t.peer peer = true ∧ t.loc.family = 0) ↔ LeadsTo t p := by
      rw [compare_iff hp]
      exact And.comm
    by_cases hj : LeadsTo t p
    · left
      refine ⟨0, t, rfl, hj, by intro j t' h; omega, ?_⟩
      simp only [findLoop]
      rw [if_neg hn, if_pos (key.2 hj), if_pos ⟨trivial, trivial⟩]
      exact findLoop_kept _ _ _ _
    · have hs : findLoop {} peer true i (t :: ts) none none = findLoop {} peer true (i + 1) ts none none := by
        simp only [findLoop]
        rw [if_neg hn, if_neg (fun h => hj (key.1 h)), if_pos ⟨trivial, trivial⟩]
      rw [hs]
      rcases ih (i + 1) with ⟨k, t', hk, hjt, hfirst, hr⟩ | ⟨hno, hr⟩
      · left
        refine ⟨k + 1, t', by simpa using hk, hjt, ?_, by rw [hr]; congr 1; omega⟩
        intro j u hlt hu
        cases j with
        | zero => simp at hu; subst hu; exact hj
        | succ j => exact hfirst j u (by omega) (by simpa using hu)
      · right
        refine ⟨?_, hr⟩
        intro u hu
        rcases List.mem_cons.1 hu with rfl | hu
        · exact hj
        · exact hno u hu

/-- What `demote` does to a path that was not demoted. -/
theorem demote_act (multi : Bool) (now : Nat) (ps : List PathX) (i : Nat) (p : PathX)
    (hp : ps[i]? = some p) (hd : p.demoted = false) :
    ∃ q, q.id = p.id ∧ q.demoted = true ∧ now + 3 * p.timer ≤ q.demotionTime ∧
      (demote multi now ps i).Perm (ps.set i q) := by
  unfold demote
  rw [hp]
  dsimp only
  simp only [hd, Bool.false_eq_true, if_false]
  generalize ht : now + 3 * (if p.timer < 1000000 ∧ multi = false then 1000000 else p.timer) = t
  have hle : now + 3 * p.timer ≤ t := by
    subst ht
    split <;> omega
  have hlt : i < ps.length := (List.getElem?_eq_some_iff.1 hp).1
  cases multi with
  | false => exact ⟨{ p with demoted := true, demotionTime := t }, rfl, rfl, hle, by simp⟩
  | true =>
    simp only [if_true]
    cases hsw : (decide (i = 0) && decide ((ps.set i { p with demoted := true, demotionTime := t }).length > 1) &&
        p.hasCid) with
    | false =>
      simp only [Bool.false_eq_true, if_false]
      by_cases hi : i = 0
      · rw [if_pos hi]; exact ⟨{ p with demoted := true, demotionTime := t }, rfl, rfl, hle, List.Perm.refl _⟩
      · rw [if_neg hi]
        cases ha : p.abandonSent with
        | true => exact ⟨{ p with demoted := true, demotionTime := t, abandonSent := true }, rfl, rfl, hle, by simp⟩
        | false =>
          refine ⟨{ p with demoted := true, demotionTime := t, hasCid := false, abandonSent := true },
            rfl, rfl, hle, ?_⟩
          simp only [Bool.false_eq_true, if_false]
          apply List.Perm.of_eq
          apply List.ext_getElem?
          intro n
          rw [List.getElem?_modify, List.getElem?_set, List.getElem?_set]
          by_cases hn : i = n
          · subst hn; simp [hlt]
          · simp [hn]
    | true =>
      simp only [Bool.and_eq_true, decide_eq_true_eq] at hsw
      obtain ⟨⟨hi, hl⟩, _⟩ := hsw
      subst hi
      match ps, hp, hl with
      | a :: b :: l, hp, _ =>
        simp only [List.getElem?_cons_zero, Option.some.injEq] at hp
        subst hp
        cases ha : a.abandonSent with
        | true =>
          refine ⟨{ a with demoted := true, demotionTime := t, abandonSent := true }, rfl, rfl, hle, ?_⟩
          simpa using List.Perm.swap _ _ _
        | false =>
          refine ⟨{ a with demoted := true, demotionTime := t, hasCid := false, abandonSent := true },
            rfl, rfl, hle, ?_⟩
          simpa [List.modify] using List.Perm.swap _ _ _
      | [a], _, hl => simp at hl

theorem demote_same (multi : Bool) (now : Nat) (ps : List PathX) (i : Nat) (p : PathX)
    (hp : ps[i]? = some p) (hd : p.demoted = true) : demote multi now ps i = ps := by
  unfold demote
  rw [hp]
  simp [hd]

end Picoquic.Unreachable
