import Verif.Proof.AckSchedule
/-!
# C40, C66: settings received from the peer, and the deadline of acknowledgements

`run s evs` executes the frames received, the packets recorded, the questions whether an acknowledgement is needed and
the acknowledgements sent, in any order and number, from the state `s` of a connection on which nothing was
received (`NothingReceived`), with or without multipath. `isNeeded now young false wake` is the decision taken when a packet is
prepared at time `now` on the nominal path: whether it has an acknowledgement, and otherwise when to try again.
-/

namespace Picoquic.Props
open Picoquic Picoquic.Spec Picoquic.AckSched

/-- The frame respects what was negotiated: it is accepted, see `C40_accepted`. -/
def ValidFrequency (minDelay : Nat) (f : Nat × Nat × Nat × Nat) : Prop := f.1 < 2 ^ 62 ∧ f.2.1 ≠ 0 ∧ minDelay ≤ f.2.2.1

/-- Some update is the newest one. -/
theorem exists_newest {α : Type} (number : α → Nat) : ∀ l : List α, l ≠ [] → ∃ f, Newest number l f
  | [], h => absurd rfl h
  | a :: l, _ => by
    cases l with
    | nil => exact ⟨a, [], [], rfl, by simp, by simp⟩
    | cons b l =>
      obtain ⟨f, before, after, he, h1, h2⟩ := exists_newest number (b :: l) (by simp)
      by_cases h : number a < number f
      · refine ⟨f, a :: before, after, by rw [he]; rfl, ?_, h2⟩
        intro g hg
        rcases List.mem_cons.1 hg with h3 | h3
        · subst h3; exact h
        · exact h1 g h3
      · refine ⟨a, [], b :: l, rfl, by simp, ?_⟩
        intro g hg
        rw [he] at hg
        rcases List.mem_append.1 hg with h3 | h3
        · have := h1 g h3; omega
        · rcases List.mem_cons.1 h3 with h4 | h4
          · subst h4; omega
          · have := h2 g h4; omega

/-- An update above all others is the newest one, in whatever order they are received. -/
theorem newest_of_highest {α : Type} (number : α → Nat) (l : List α) (f : α) (hf : f ∈ l)
    (h : ∀ g ∈ l, g = f ∨ number g < number f) : Newest number l f := by
  induction l with
  | nil => simp at hf
  | cons a l ih =>
    have ha := h a (List.mem_cons_self ..)
    rcases ha with ha | ha
    · subst ha
      refine ⟨[], l, rfl, by simp, ?_⟩
      intro g hg
      rcases h g (List.mem_cons_of_mem _ hg) with h1 | h1
      · subst h1; omega
      · omega
    · rcases List.mem_cons.1 hf with h1 | h1
      · subst h1; omega
      · obtain ⟨before, after, he, h2, h3⟩ := ih h1 (fun g hg => h g (List.mem_cons_of_mem _ hg))
        refine ⟨a :: before, after, by rw [he]; rfl, ?_, h3⟩
        intro g hg
        rcases List.mem_cons.1 hg with h4 | h4
        · subst h4; exact ha
        · exact h2 g h4

/-! ## C40 -/

/-- C40, ACK_FREQUENCY: for all histories the settings in force are those of the frame with the highest number
received, the first one received if several have this number. -/
theorem C40_ack_frequency (s : State) (hs : NothingReceived s) (evs : List Event)
    (hv : ∀ g ∈ frequencyFrames evs, ValidFrequency s.minDelay g) (f : Nat × Nat × Nat × Nat)
    (hf : Newest (fun g => g.1) (frequencyFrames evs) f) :
    (run s evs).gap = f.2.1 ∧ (run s evs).delay = f.2.2.1 ∧ (run s evs).threshold = f.2.2.2 ∧
      ((run s evs).ignoreOrder = true ↔ f.2.2.2 = 0) := by
  obtain ⟨-, h2, h3, h4, h5⟩ := run_settings f evs s hs.1 (.inl hs.2.1) hv hf
  exact ⟨h2, h3, h4, by rw [h5]; simp⟩

/-- C40, ACK_FREQUENCY: the order in which the frames arrive, and repetitions, do not matter. -/
theorem C40_ack_frequency_any_order (s : State) (hs : NothingReceived s) (evs : List Event)
    (hv : ∀ g ∈ frequencyFrames evs, ValidFrequency s.minDelay g) (f : Nat × Nat × Nat × Nat)
    (hf : f ∈ frequencyFrames evs) (hm : ∀ g ∈ frequencyFrames evs, g = f ∨ g.1 < f.1) :
    (run s evs).gap = f.2.1 ∧ (run s evs).delay = f.2.2.1 ∧ (run s evs).threshold = f.2.2.2 ∧
      ((run s evs).ignoreOrder = true ↔ f.2.2.2 = 0) :=
  C40_ack_frequency s hs evs hv f (newest_of_highest _ _ f hf hm)

/-- C40, ACK_FREQUENCY: without such a frame the settings do not change. -/
theorem C40_no_frame (s : State) (evs : List Event) (h : frequencyFrames evs = []) :
    (run s evs).gap = s.gap ∧ (run s evs).delay = s.delay ∧ (run s evs).ignoreOrder = s.ignoreOrder :=
  run_no_settings evs s h

/-- C40: which ACK_FREQUENCY frames are accepted, in all states. -/
theorem C40_accepted (s : State) (f : Nat × Nat × Nat × Nat) (h : f.1 < 2 ^ 62) :
    (s.ackFrequency f.1 f.2.1 f.2.2.1 f.2.2.2).1 = true ↔ s.negotiated = true ∧ ValidFrequency s.minDelay f := by
  have key : (s.ackFrequency f.1 f.2.1 f.2.2.1 f.2.2.2).1 =
      !(!s.negotiated || decide (f.2.2.1 < s.minDelay) || f.2.1 == 0) := by
    unfold State.ackFrequency
    generalize (!s.negotiated || decide (f.2.2.1 < s.minDelay) || f.2.1 == 0) = b
    generalize newer _ _ = n
    cases b with
    | true => rfl
    | false =>
      cases n <;> rfl
  rw [key]
  unfold ValidFrequency
  simp only [Bool.not_or, Bool.not_not, Bool.and_eq_true, Bool.not_eq_true', decide_eq_false_iff_not,
    beq_eq_false_iff_ne, Nat.not_lt]
  exact ⟨fun ⟨⟨h1, h2⟩, h3⟩ => ⟨h1, h, h3, h2⟩, fun ⟨h1, _, h3, h2⟩ => ⟨⟨h1, h2⟩, h3⟩⟩

/-- C40, PATH_AVAILABLE and PATH_BACKUP: the status of each path is that of the frame for this path with the highest
number received. -/
theorem C40_path_status (s : State) (hs : NothingReceived s) (hm : s.multipath = true) (evs : List Event) (id : Nat)
    (hp : ∃ p ∈ s.paths, p.id = id) (f : Nat × Bool) (hf : Newest (fun g => g.1) (statusFrames id evs) f) :
    ∃ q, (run s evs).paths.find? (fun p => p.id = id) = some q ∧ q.backup = f.2 := by
  obtain ⟨p, hp1, hp2⟩ := hp
  cases hq : s.paths.find? (fun p => p.id = id) with
  | none =>
    rw [List.find?_eq_none] at hq
    exact absurd hp2 (by simpa using hq p hp1)
  | some q =>
    have := (hs.2.2.2 q (List.mem_of_find?_eq_some hq)).2
    exact run_status id f evs s q hm hq (by omega) hf

/-- C40, MAX_PATH_ID: the limit in force is the largest received, or the initial one. -/
theorem C40_max_path_id (s : State) (hm : s.multipath = true) (evs : List Event) :
    ((run s evs).maxPathId = s.maxPathId ∨ (run s evs).maxPathId ∈ pathLimits evs) ∧
      s.maxPathId ≤ (run s evs).maxPathId ∧ ∀ m ∈ pathLimits evs, m ≤ (run s evs).maxPathId := by
  rw [run_maxPathId evs s hm]
  generalize pathLimits evs = l
  generalize s.maxPathId = a
  induction l generalizing a with
  | nil => simp
  | cons b l ih =>
    obtain ⟨h1, h2, h3⟩ := ih (max a b)
    rw [List.foldl_cons]
    refine ⟨?_, by omega, ?_⟩
    · rcases h1 with h1 | h1
      · rcases Nat.le_total a b with h | h
        · right; rw [h1, Nat.max_eq_right h]; exact List.mem_cons_self ..
        · left; rw [h1, Nat.max_eq_left h]
      · right; exact List.mem_cons_of_mem _ h1
    · intro m hm
      rcases List.mem_cons.1 hm with h | h
      · subst h; omega
      · exact h3 m h

theorem fresh_space (s : State) (hs : NothingReceived s) (i : Nat) (hi : PathExists s i) : s.space i = some {} := by
  by_cases hm : s.multipath = true
  · rw [space_mp s i hm, List.getElem?_eq_getElem (hi hm), Option.map_some,
      (hs.2.2.2 _ (List.getElem_mem _)).1]
  · rw [space_single s i hm, hs.2.2.1]

/-- C40, IMMEDIATE_ACK, in part: after such a frame which is not the last of its packet, received on path `i` when no
acknowledgement is pending or in multipath, an acknowledgement is sent in the next packet prepared, whatever
happens before. Missing: the frame ends the packet, see `C40_immediate_last_violated`, or an acknowledgement is already
pending, see `C40_immediate_pending_violated`. -/
theorem C40_immediate_partial (s : State) (hs : NothingReceived s) (before after : List Event) (t i : Nat) (hi : PathExists s i)
    (hp : s.multipath = true ∨ (seen s.multipath i before).pending = false)
    (ha : ∀ ev ∈ after, ¬ Acknowledges s.multipath i ev) (now : Nat) (young : Nat → Bool) (wake : Nat) :
    ((run s (before ++ .immediateAck t i false :: after)).isNeeded now young false wake).1 = true := by
  obtain ⟨c0, h1, h2⟩ := run_follows i s.multipath before s {} {} rfl hs.1 (fresh_space s hs i hi) ⟨rfl, rfl, rfl⟩
  obtain ⟨f1, f2, -, -⟩ := run_fixed before s
  obtain ⟨c1, h3, h4⟩ := step_space (run s before) (f2.trans hs.1) (.immediateAck t i false) i c0 h1
  obtain ⟨g1, g2, -, -⟩ := step_fixed (run s before) (.immediateAck t i false)
  rw [f1] at h4
  obtain ⟨-, -, h6⟩ := h4
  rw [if_pos rfl] at h6
  obtain ⟨c2, h7, h8, -, h9⟩ := run_keep i s.multipath after _ c1 (g1.trans f1) (g2.trans (f2.trans hs.1)) h3 h6.1 ha
  rw [run_append, run_cons]
  cases hr : ((run (step (run s before) (.immediateAck t i false)) after).isNeeded now young false wake).1 with
  | true => rfl
  | false =>
    have hf := (isNeeded_false _ now young wake i c2 h7 h8 hr).1
    rw [h9 (h6.2.2.1 (hp.imp id (fun h => h2.needed.trans h)))] at hf
    cases hf

/-- C40, IMMEDIATE_ACK: the frame is accepted wherever it stands in the packet. -/
theorem C40_immediate_accepted (s : State) (h : s.negotiated = true) (t i : Nat) (last : Bool) :
    (s.immediateAck t i last).1 = true := by
  unfold State.immediateAck
  cases last <;> simp [h]

/-- Settings requested by the peer: acknowledge every tenth packet, and within 25 milliseconds. -/
def slowAcks : Event := .ackFrequency 0 10 25000 0

/-- C40 is violated: without multipath the frame has no effect when an acknowledgement is pending. An ack-eliciting
packet arrives, then a packet which has IMMEDIATE_ACK; 2 microseconds later no acknowledgement is sent, and the
next attempt is 25 milliseconds after the first packet. -/
theorem C40_immediate_pending_violated :
    let s := run {} [slowAcks, .recordPn 0 0, .ackSent 0 false [true], .recordPn 0 1, .eliciting 10 0,
      .immediateAck 20 0 false, .eliciting 20 0, .recordPn 0 2]
    (s.isNeeded 22 (fun _ => false) false 1000000).1 = false ∧
      (s.isNeeded 22 (fun _ => false) false 1000000).2.1 = 25010 := by decide +kernel

/-- C40 is violated: the frame has no effect when it is the last one of the packet. -/
theorem C40_immediate_last_violated :
    let s := run {} [slowAcks, .recordPn 0 0, .ackSent 0 false [true], .immediateAck 20 0 true, .eliciting 20 0,
      .recordPn 0 1]
    (s.isNeeded 22 (fun _ => false) false 1000000).1 = false ∧
      (s.isNeeded 22 (fun _ => false) false 1000000).2.1 = 25020 := by decide +kernel

/-- C40 is violated: in multipath, once an IMMEDIATE_ACK frame was answered, all ack-eliciting packets are acknowledged
at once, although the settings in force ask for one acknowledgement per 10 packets or 25 milliseconds, because the
request remains recorded for the connection. -/
theorem C40_multipath_violated :
    let evs := [slowAcks, .immediateAck 20 0 false, .eliciting 20 0, .recordPn 0 0, .ackSent 21 false [true],
      .eliciting 100 0, .recordPn 0 1]
    let s := run { multipath := true, paths := [{ id := 0 }] } evs
    s.gap = 10 ∧ s.delay = 25000 ∧ s.ignoreOrder = true ∧ (seen true 0 evs).largest = (seen true 0 evs).acked + 1 ∧
      (s.isNeeded 101 (fun _ => false) false 1000000).1 = true := by decide +kernel

/-! ## C66 -/

/-- C66, for all histories, with and without multipath: an ack-eliciting packet which arrived at time `t` and was not
acknowledged since is acknowledged at the latest `delay` after `t`, where `delay` is the delay in force: if the packet
prepared now has no acknowledgement, then it is earlier, and the wake time is no later than this. -/
theorem C66_deadline (s : State) (hs : NothingReceived s) (before after : List Event) (t i : Nat) (hi : PathExists s i)
    (hc : Chronological (before ++ .eliciting t i :: after)) (ha : ∀ ev ∈ after, ¬ Acknowledges s.multipath i ev)
    (now : Nat) (young : Nat → Bool) (wake : Nat) :
    let s' := run s (before ++ .eliciting t i :: after)
    (t + s'.delay ≤ now → (s'.isNeeded now young false wake).1 = true) ∧
      ((s'.isNeeded now young false wake).1 = true ∨ (s'.isNeeded now young false wake).2.1 ≤ t + s'.delay) := by
  intro s'
  have hct : ∀ a ∈ before.filterMap arrival, a ≤ t := by
    unfold Chronological at hc
    rw [List.filterMap_append, List.pairwise_append] at hc
    intro a h
    exact hc.2.2 a h t (List.mem_filterMap.2 ⟨_, List.mem_cons_self .., rfl⟩)
  obtain ⟨c0, h1, h2⟩ := run_old i t before s {} hs.1 (fresh_space s hs i hi) (fun h => by cases h) hct
  obtain ⟨f1, f2, -, -⟩ := run_fixed before s
  obtain ⟨c1, h3, h4⟩ := step_space (run s before) (f2.trans hs.1) (.eliciting t i) i c0 h1
  obtain ⟨g1, g2, -, -⟩ := step_fixed (run s before) (.eliciting t i)
  have h5 : Old c1 t := old_step h2 (fun a h => by cases h; exact Nat.le_refl _) h4
  obtain ⟨-, -, h6⟩ := h4
  rw [if_pos rfl] at h6
  obtain ⟨c2, h7, h8, h9, -⟩ := run_keep i s.multipath after _ c1 (g1.trans f1) (g2.trans (f2.trans hs.1)) h3 h6.1 ha
  have hr : s' = run (step (run s before) (.eliciting t i)) after := by rw [← run_cons, ← run_append]
  rw [← hr] at h7
  have ho := h5 h6.1
  rw [← h9] at ho
  cases hb : (s'.isNeeded now young false wake).1 with
  | true => exact ⟨fun _ => rfl, .inl rfl⟩
  | false =>
    obtain ⟨-, k2, -, k4⟩ := isNeeded_false s' now young wake i c2 h7 h8 hb
    exact ⟨fun h => by omega, .inr (by omega)⟩

/-- C66, for all histories: when an ack-eliciting packet was received since the last acknowledgement, and the largest
packet number received exceeds the largest one known at the last acknowledgement by the gap in force (at
least 2), an acknowledgement is sent in the packet being prepared. -/
theorem C66_gap (s : State) (hs : NothingReceived s) (evs : List Event) (i : Nat) (hi : PathExists s i)
    (hp : (seen s.multipath i evs).pending = true)
    (hg : (seen s.multipath i evs).acked + max 2 (run s evs).gap ≤ (seen s.multipath i evs).largest)
    (now : Nat) (young : Nat → Bool) (wake : Nat) : ((run s evs).isNeeded now young false wake).1 = true := by
  obtain ⟨c, h1, h2⟩ := run_follows i s.multipath evs s {} {} rfl hs.1 (fresh_space s hs i hi) ⟨rfl, rfl, rfl⟩
  cases hb : ((run s evs).isNeeded now young false wake).1 with
  | true => rfl
  | false =>
    obtain ⟨-, -, k3, -⟩ := isNeeded_false _ now young wake i c h1 (h2.needed.trans hp) hb
    rw [h2.largest, h2.highest] at k3
    have hg' : (evs.foldl (Seen.step s.multipath i) {}).acked + max 2 (run s evs).gap ≤
      (evs.foldl (Seen.step s.multipath i) {}).largest := hg
    omega

/-! ## Concrete cases -/

/-- A connection with two paths. -/
def twoPaths : State := { multipath := true, paths := [{ id := 0 }, { id := 4 }] }

example : NothingReceived {} := ⟨rfl, rfl, rfl, by simp⟩
example : NothingReceived twoPaths := ⟨rfl, rfl, rfl, by simp [twoPaths]⟩
example : PathExists twoPaths 1 := fun _ => by decide

/-- Frames 3, 7, 5 are received: those of frame 7 are in force. -/
example : Newest (fun g => g.1) (frequencyFrames [.ackFrequency 3 4 5000 1, .eliciting 1 0, .ackFrequency 7 10 25000 0,
    .ackFrequency 5 2 1000 1]) (7, 10, 25000, 0) := ⟨[(3, 4, 5000, 1)], [(5, 2, 1000, 1)], rfl, by simp, by simp⟩
example : (run {} [.ackFrequency 3 4 5000 1, .eliciting 1 0, .ackFrequency 7 10 25000 0, .ackFrequency 5 2 1000 1]).delay
    = 25000 := by decide +kernel
example : ValidFrequency 1000 (7, 10, 25000, 0) := by simp [ValidFrequency]

/-- PATH_BACKUP with number 6 then PATH_AVAILABLE with number 2 for path 4. -/
example : Newest (fun g => g.1) (statusFrames 4 [.pathStatus 4 true 6, .pathStatus 0 true 9, .pathStatus 4 false 2]) (6, true) :=
  ⟨[], [(2, false)], rfl, by simp, by simp⟩
example : ((run twoPaths [.pathStatus 4 true 6, .pathStatus 0 true 9, .pathStatus 4 false 2]).paths.find?
    (fun p => p.id = 4)).map (·.backup) = some true := by decide +kernel

/-- The conditions of the deadline are met by a history with two packets, and the decision is then not immediate. -/
example : Chronological ([.eliciting 5 0] ++ .eliciting 9 1 :: [.ackSent 20 false [true, false]]) ∧
    ∀ ev ∈ [Event.ackSent 20 false [true, false]], ¬ Acknowledges true 1 ev := by
  refine ⟨by unfold Chronological; decide, ?_⟩
  intro ev h
  simp only [List.mem_singleton] at h
  subst h
  simp [Acknowledges, spaceOf]
example : let s := run twoPaths [slowAcks, .recordPn 0 0, .eliciting 5 0, .recordPn 1 0, .eliciting 9 1, .ackSent 20 false [true, false]]
    (s.isNeeded 21 (fun _ => false) false 1000000).1 = false ∧ (s.isNeeded 21 (fun _ => false) false 1000000).2.1 = 25005 ∧
    (s.isNeeded 25009 (fun _ => false) false 1000000).1 = true := by decide +kernel

/-- The condition on the gap is met. -/
example : let evs := [slowAcks, .recordPn 0 0, .ackSent 1 false [true], .eliciting 5 0, .recordPn 0 10]
    (seen false 0 evs).pending = true ∧ (seen false 0 evs).acked + max 2 (run {} evs).gap ≤ (seen false 0 evs).largest := by
  decide +kernel

end Picoquic.Props
