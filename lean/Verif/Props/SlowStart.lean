import Verif.Proof.SlowStart

/-!
# C108: slow start is left for a lasting increase of the delay
-/

namespace Picoquic.Props
open Picoquic.Spec Picoquic.SlowStart

/-- After each delay that is taken, the least and the greatest value kept are those of the last seven delays taken (of
all of them if there are fewer). -/
theorem C108_window (ms : List (Nat × Nat)) (rtt now : Nat) (ht : now > (slowRun ms).last + 1000) :
    let y := slowRun (ms ++ [(rtt, now)])
    y.taken = (slowRun ms).taken ++ [rtt] ∧
    (y.track.min ∈ lastSeven y.taken ∧ ∀ x ∈ lastSeven y.taken, y.track.min ≤ x) ∧
    (y.track.max ∈ lastSeven y.taken ∧ ∀ x ∈ lastSeven y.taken, x ≤ y.track.max) := by
  have hinv := inv_run ms
  have he : slowRun (ms ++ [(rtt, now)]) = slowStep (slowRun ms) (rtt, now) := by
    unfold slowRun; rw [List.foldl_append]; rfl
  simp only [he]
  rw [step_taken _ _ hinv.time ht]
  obtain ⟨w1, w2, w3, w4⟩ := filter_window hinv.ring rtt
  have hk : ∀ t : Track, (judge t).2.min = t.min ∧ (judge t).2.max = t.max := by
    intro t
    cases hi : t.init with
    | false => unfold judge; simp [hi]
    | true =>
      obtain ⟨fm, _, ⟨_, h⟩ | ⟨_, _, h⟩ | ⟨_, h⟩⟩ := judge_cases t hi <;> rw [h] <;> exact ⟨rfl, rfl⟩
  simp only [(hk _).1, (hk _).2]
  exact ⟨trivial, ⟨w1, w2⟩, w3, w4⟩

example : (slowRun [(50, 2000), (40, 3500), (60, 5000)]).taken = [50, 40, 60] ∧
    (slowRun [(50, 2000), (40, 3500), (60, 5000)]).track.min = 40 := by decide +kernel

/-- A measurement less than a millisecond after the last one that was taken has no effect. -/
theorem C108_too_soon (ms : List (Nat × Nat)) (rtt now : Nat) (ht : now ≤ (slowRun ms).last + 1000) :
    slowRun (ms ++ [(rtt, now)]) = { slowRun ms with leave := false } := by
  have he : slowRun (ms ++ [(rtt, now)]) = slowStep (slowRun ms) (rtt, now) := by
    unfold slowRun; rw [List.foldl_append]; rfl
  rw [he]
  exact step_skipped _ _ (inv_run ms).time (by simp only; omega)

/-- Slow start is only left for the delay after fourteen delays were taken at least, when the last seven of them are all
more than a quarter above the greatest of seven delays that were measured one after the other. -/
theorem C108_not_early (ms : List (Nat × Nat)) (hl : (slowRun ms).leave = true) :
    14 ≤ (slowRun ms).taken.length ∧
    ∃ w base, SevenOf (slowRun ms).taken w ∧ base ∈ w ∧ (∀ x ∈ w, x ≤ base) ∧
      ∀ x ∈ lastSeven (slowRun ms).taken, base + base / 4 < x := by
  have h := inv_run ms
  obtain ⟨hi, he, ha⟩ := h.ans hl
  have hc := h.count hi
  obtain ⟨w, hw, hm, hw'⟩ := h.base hi
  exact ⟨by omega, w, _, hw, hm, hw', ha⟩

/-- Seven delays of 40, then thirteen of 60. -/
def exDelays : List (Nat × Nat) :=
  (List.range 20).map fun i => (if i < 7 then 40 else 60, 2000 * (i + 1))

example : (slowRun exDelays).leave = true ∧ (slowRun (exDelays.take 19)).leave = false := by decide +kernel

/-- While all delays are within a quarter of each other, slow start is not left for them. -/
theorem C108_stable (ms : List (Nat × Nat)) (low : Nat)
    (hs : ∀ x ∈ (slowRun ms).taken, low ≤ x ∧ x ≤ low + low / 4) : (slowRun ms).leave = false := by
  cases hl : (slowRun ms).leave with
  | false => rfl
  | true =>
    obtain ⟨h14, w, base, hw, hm, _, ha⟩ := C108_not_early ms hl
    obtain ⟨hwl, a, b, he⟩ := hw
    have hb : base ∈ (slowRun ms).taken := by
      rw [he]; exact List.mem_append_left _ (List.mem_append_right _ hm)
    have hlen := lastSeven_length (h := (slowRun ms).taken) (by omega)
    obtain ⟨x, hx⟩ := List.exists_mem_of_length_pos (l := lastSeven (slowRun ms).taken) (by omega)
    have h1 := ha x hx
    have h2 := (hs x (List.mem_of_mem_drop hx)).2
    have h3 := (hs base hb).1
    omega

/-- The state after more delays that are all high and all taken. -/
theorem high_run (F : Nat) (ns : List (Nat × Nat)) : ∀ (y : SlowSys) (hs : List Nat), Inv y →
    (∃ h, y.taken = h ++ hs) → (∀ x ∈ hs, F + F / 4 < x) → hs.length ≤ y.track.excess + 6 →
    (∃ w, SevenOf y.taken w ∧ ∀ x ∈ w, x ≤ F) → (∀ x ∈ y.taken, 0 < x) →
    (∀ n ∈ ns, F + F / 4 < n.1) → (ns.foldl slowStep y).taken = y.taken ++ ns.map Prod.fst → ns ≠ [] →
    13 ≤ hs.length + ns.length → (ns.foldl slowStep y).leave = true := by
  induction ns with
  | nil => intro y hs _ _ _ _ _ _ _ _ hne; exact absurd rfl hne
  | cons n ns ih =>
    intro y hs hinv hh hhigh hcnt hw hpos hn htk hne hlen
    have hgrow : ∀ (l : List (Nat × Nat)) (z : SlowSys), (l.foldl slowStep z).taken.length ≤ z.taken.length + l.length := by
      intro l
      induction l with
      | nil => intro z; exact Nat.le_refl _
      | cons m l ihl =>
        intro z
        rw [List.foldl_cons, List.length_cons]
        have h1 := ihl (slowStep z m)
        have h2 : (slowStep z m).taken.length ≤ z.taken.length + 1 := by
          unfold slowStep
          simp only
          split <;> simp
        omega
    have hm : n.2 > y.last + 1000 := by
      by_cases hm : n.2 > y.last + 1000
      · exact hm
      · exfalso
        rw [List.foldl_cons, step_skipped y n hinv.time hm] at htk
        have h1 := hgrow ns { y with leave := false }
        rw [htk] at h1
        simp at h1
        omega
    have hst := step_taken y n hinv.time hm
    have hinv' := inv_step hinv n
    have htk' : (slowStep y n).taken = y.taken ++ [n.1] := by rw [hst]
    have hn1 := hn n List.mem_cons_self
    have hpos' : ∀ x ∈ (slowStep y n).taken, 0 < x := by
      rw [htk']
      intro x hx
      rcases List.mem_append.1 hx with hx | hx
      · exact hpos x hx
      · rw [List.mem_singleton.1 hx]; omega
    obtain ⟨w, hw1, hw2⟩ := hw
    have hw' : SevenOf (slowStep y n).taken w := by rw [htk']; exact seven_mono _ hw1
    have hlen7 := seven_length hw1
    have hyi : y.track.init = true := by
      cases ho : y.track.init with
      | true => rfl
      | false =>
        have h2 := (hinv.ring.start ho).1
        have h3 := hinv.ring.cur
        omega
    -- the counter
    have hstep : (hs ++ [n.1]).length ≤ (slowStep y n).track.excess + 6 ∧
        (13 ≤ hs.length + 1 → (slowStep y n).leave = true) := by
      obtain ⟨w1, w2, w3, w4⟩ := filter_window hinv.ring n.1
      have hi := filter_init y.track n.1 hyi
      have hex : (filterMinMax y.track n.1).excess = y.track.excess := rfl
      have hlowinv := hinv'.low hpos'
      rw [hst] at hlowinv ⊢
      generalize filterMinMax y.track n.1 = t at *
      obtain ⟨fm, _, hcase⟩ := judge_cases { t with lastTime := n.2 } hi
      by_cases h6 : hs.length + 1 ≤ 6
      · rw [List.length_append, List.length_singleton]
        exact ⟨by omega, by omega⟩
      · -- the last seven are all high
        obtain ⟨h0, hh0⟩ := hh
        have hall : ∀ x ∈ lastSeven (y.taken ++ [n.1]), F + F / 4 < x := by
          intro x hx
          unfold lastSeven at hx
          rw [hh0, List.append_assoc, List.drop_append] at hx
          rcases List.mem_append.1 hx with hx | hx
          · rw [List.drop_of_length_le (by simp; omega)] at hx
            cases hx
          · have hx := List.mem_of_mem_drop hx
            rcases List.mem_append.1 hx with hx | hx
            · exact hhigh x hx
            · rw [List.mem_singleton.1 hx]; exact hn1
        have hmin := hall _ w1
        have hfmF : fm ≤ F := by
          rcases hcase with ⟨_, hj⟩ | ⟨_, _, hj⟩ | ⟨_, hj⟩ <;>
          · rw [hj] at hlowinv
            obtain ⟨x, hx, hx'⟩ := (hlowinv hi).2 w (by rw [htk'] at hw'; exact hw')
            have := hw2 x hx
            simp only at hx'
            omega
        rcases hcase with ⟨h1, hj⟩ | ⟨h1, h2, hj⟩ | ⟨h1, hj⟩
        · rw [hj]
          simp only [List.length_append, List.length_singleton, decide_eq_true_eq, hex]
          exact ⟨by omega, fun _ => by omega⟩
        · simp only at h2; omega
        · simp only at h1; omega
    rw [List.foldl_cons]
    cases hns : ns with
    | nil =>
      rw [hns] at hlen
      simp only [List.length_cons, List.length_nil] at hlen
      exact hstep.2 (by omega)
    | cons k ks =>
      rw [← hns]
      refine ih (slowStep y n) (hs ++ [n.1]) hinv' ?_ ?_ hstep.1 ⟨w, hw', hw2⟩ hpos'
        (fun x hx => hn x (List.mem_cons_of_mem _ hx)) ?_ ?_ ?_
      · obtain ⟨h0, hh0⟩ := hh
        exact ⟨h0, by rw [htk', hh0, List.append_assoc]⟩
      · intro x hx
        rcases List.mem_append.1 hx with hx | hx
        · exact hhigh x hx
        · rw [List.mem_singleton.1 hx]; exact hn1
      · rw [List.foldl_cons] at htk
        rw [htk, htk']; simp
      · rw [hns]; simp
      · rw [List.length_append, List.length_singleton]
        rw [List.length_cons] at hlen
        omega

/-- A lasting increase is found: once seven delays one after the other were at most `F`, thirteen or more delays that
follow each other and are all more than a quarter above `F` make the connection leave slow start. -/
theorem C108_found (ms ns : List (Nat × Nat)) (F : Nat) (hw : ∃ w, SevenOf (slowRun ms).taken w ∧ ∀ x ∈ w, x ≤ F)
    (hpos : ∀ x ∈ (slowRun ms).taken, 0 < x) (hhigh : ∀ n ∈ ns, F + F / 4 < n.1)
    (htaken : (slowRun (ms ++ ns)).taken = (slowRun ms).taken ++ ns.map Prod.fst) (hl : 13 ≤ ns.length) :
    (slowRun (ms ++ ns)).leave = true := by
  have he : slowRun (ms ++ ns) = ns.foldl slowStep (slowRun ms) := by unfold slowRun; rw [List.foldl_append]
  rw [he] at htaken ⊢
  refine high_run F ns (slowRun ms) [] (inv_run ms) ⟨_, (List.append_nil _).symm⟩ (by simp) (by simp) hw hpos hhigh htaken ?_ (by simpa using hl)
  intro hn; rw [hn] at hl; simp at hl

example : (slowRun (exDelays.take 7)).taken = List.replicate 7 40 ∧
    (slowRun exDelays).taken = (slowRun (exDelays.take 7)).taken ++ (exDelays.drop 7).map Prod.fst ∧
    (exDelays.drop 7).length = 13 := by decide +kernel

theorem volumeRun_snoc (rs : List VolumeReport) (r : VolumeReport) :
    volumeRun (rs ++ [r]) = (lossVolumeTest (volumeRun rs) r.1 r.2.1 r.2.2).2 := by
  unfold volumeRun; rw [List.foldl_append]; rfl

/-- A property of the state that each report keeps holds after all reports. -/
theorem volumeRun_ind (P : LossTrack → Prop) (Q : VolumeReport → Prop) (h0 : P {})
    (hs : ∀ t r, P t → Q r → P (lossVolumeTest t r.1 r.2.1 r.2.2).2) (rs : List VolumeReport) (hq : ∀ r ∈ rs, Q r) :
    P (volumeRun rs) := by
  have : ∀ (rs : List VolumeReport) (t : LossTrack), P t → (∀ r ∈ rs, Q r) →
      P (rs.foldl (fun t r => (lossVolumeTest t r.1 r.2.1 r.2.2).2) t) := by
    intro rs
    induction rs with
    | nil => intro t ht _; exact ht
    | cons r rs ih =>
      intro t ht hq
      exact ih _ (hs t r ht (hq r List.mem_cons_self)) (fun x hx => hq x (List.mem_cons_of_mem _ hx))
  exact this rs {} h0 hq

/-- The estimated volume of losses is never more than the estimated volume of bytes sent, so that the rate of losses is
never above one; and if no report is of more than `V` bytes, both stay below sixteen times that, plus 16. -/
theorem C108_loss_bounds (rs : List VolumeReport) (V : Nat) (hv : ∀ r ∈ rs, r.2.1 + r.2.2 ≤ V) :
    (volumeRun rs).lost ≤ (volumeRun rs).sent ∧ (volumeRun rs).sent < 16 * V + 16 := by
  refine volumeRun_ind (fun t => t.lost ≤ t.sent ∧ t.sent < 16 * V + 16) (fun r => r.2.1 + r.2.2 ≤ V) ?_ ?_ rs hv
  · exact ⟨Nat.le_refl _, by show 0 < _; omega⟩
  · rintro t ⟨e, a, l⟩ ⟨h1, h2⟩ hq
    simp only [lossVolumeTest] at hq ⊢
    omega

example : volumeRun [(.acknowledgement, 3000, 1500), (.acknowledgement, 4500, 0)] = { sent := 8719, lost := 1407 } := by
  decide +kernel

/-- Without losses, acknowledgements never make the connection leave slow start; a timeout always does; other events
never do. -/
theorem C108_loss_answers (rs : List VolumeReport) (acked lost : Nat) :
    ((∀ r ∈ rs, r.2.2 = 0) → volumeAnswer rs (.acknowledgement, acked, 0) = false) ∧
    volumeAnswer rs (.timeout, acked, lost) = true ∧ volumeAnswer rs (.other, acked, lost) = false := by
  refine ⟨?_, rfl, rfl⟩
  intro hz
  have h : (volumeRun rs).lost = 0 := by
    refine volumeRun_ind (fun t => t.lost = 0) (fun r => r.2.2 = 0) rfl ?_ rs hz
    rintro t ⟨e, a, l⟩ h1 hq
    simp only [lossVolumeTest] at hq ⊢
    omega
  simp only [volumeAnswer, lossVolumeTest, h]
  rw [decide_eq_false_iff_not]
  omega

/-- When a sixth of the bytes or more are lost in each report, an acknowledgement makes the connection leave slow start.
-/
theorem C108_loss_found (rs : List VolumeReport) (acked lost : Nat) (hr : ∀ r ∈ rs, r.2.1 + r.2.2 ≤ 6 * r.2.2)
    (h : acked + lost ≤ 6 * lost) (hp : 0 < lost) : volumeAnswer rs (.acknowledgement, acked, lost) = true := by
  have hi : (volumeRun rs).sent ≤ 6 * (volumeRun rs).lost := by
    refine volumeRun_ind (fun t => t.sent ≤ 6 * t.lost) (fun r => r.2.1 + r.2.2 ≤ 6 * r.2.2) (by decide) ?_ rs hr
    rintro t ⟨e, a, l⟩ h3 hq
    simp only [lossVolumeTest] at hq ⊢
    omega
  simp only [volumeAnswer, lossVolumeTest]
  rw [decide_eq_true_eq]
  omega

example : volumeAnswer [(.acknowledgement, 1000, 1500)] (.acknowledgement, 1500, 1500) = true ∧
    volumeAnswer [(.acknowledgement, 15000, 1500)] (.acknowledgement, 15000, 1500) = false := by decide +kernel

/-- The only use of the test of losses, in the start-up phase of BBR on links of long delay, gives it an event for which
the answer is always no: whatever is lost, the phase is left for the delay or for marks only. -/
theorem C108_loss_unused_violated (delay marks : Bool) (rs : List VolumeReport) (acked lost : Nat) :
    (longStartup delay marks (volumeRun rs) acked lost).1 = (delay || marks) := by
  cases delay <;> cases marks <;> rfl

example : (longStartup false false (volumeRun [(.repeated, 0, 15000), (.repeated, 0, 15000)]) 0 15000).1 = false ∧
    volumeAnswer [(.repeated, 0, 15000), (.repeated, 0, 15000)] (.acknowledgement, 0, 15000) = true := by decide +kernel

end Picoquic.Props
