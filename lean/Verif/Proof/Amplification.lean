import Verif.Spec.Amplification
/-!
# The limit of amplification: proofs
-/

namespace Picoquic.Amplification
open Picoquic.Spec

theorem segment_cids (c : Amp) (len : Nat) (first : Bool) (s : Seg) :
    (segment c len first s).initialCid = c.initialCid ∧ (segment c len first s).localCid = c.localCid := by
  unfold segment
  split
  · split <;> exact ⟨rfl, rfl⟩
  · exact ⟨rfl, rfl⟩
  · exact ⟨rfl, rfl⟩
  · exact ⟨rfl, rfl⟩

theorem segment_sent (c : Amp) (len : Nat) (first : Bool) (s : Seg) : (segment c len first s).sent = c.sent := by
  unfold segment
  split
  · split <;> rfl
  · rfl
  · rfl
  · rfl

theorem segment_late (c : Amp) (len : Nat) (s : Seg) : (segment c len false s).received = c.received := by
  unfold segment
  split
  · split <;> rfl
  · rfl
  · rfl
  · rfl

theorem segment_first (c : Amp) (len : Nat) (s : Seg) : (segment c len true s).received ≤ c.received + len := by
  have : u64 (c.received + len) ≤ c.received + len := Nat.mod_le _ _
  unfold segment
  split
  · split
    · rw [if_pos rfl]; exact this
    · omega
  · rw [if_pos rfl]; exact this
  · dsimp only; omega
  · omega

/-- A packet without a destination is not counted. -/
theorem segment_null {c : Amp} (hi : c.initialCid ≠ []) (hl : c.localCid ≠ []) (len : Nat) (first : Bool) {s : Seg} (hs : s.dcid = [])
    (hz : ∀ d, s = .zeroRtt d → d ≠ []) : (segment c len first s).received = c.received := by
  unfold segment
  split
  · rename_i d r
    have hd : d = [] := hs
    rw [if_neg]
    rintro (q | q)
    · exact hi (q.symm.trans hd)
    · exact hl (q.symm.trans hd)
  · rename_i d
    exact absurd hs (hz d rfl)
  · rfl
  · rfl

/-- The length of a datagram is counted once. -/
theorem segments_received (len : Nat) (ss : List Seg) : ∀ (c : Amp) (prev : Cid), c.initialCid ≠ [] → c.localCid ≠ [] →
    (∀ d, Seg.zeroRtt d ∈ ss → d ≠ []) →
    (segments len c prev ss).received ≤ c.received + len ∧ (prev ≠ [] → (segments len c prev ss).received = c.received) := by
  induction ss with
  | nil => intro c prev _ _ _; exact ⟨Nat.le_add_right _ _, fun _ => rfl⟩
  | cons s ss ih =>
    intro c prev hi hl hz
    have hz' : ∀ d, Seg.zeroRtt d ∈ ss → d ≠ [] := fun d h => hz d (List.mem_cons_of_mem _ h)
    unfold segments
    by_cases hp : prev = []
    · rw [if_pos hp]
      refine ⟨?_, fun h => absurd hp h⟩
      obtain ⟨e1, e2⟩ := segment_cids c len true s
      obtain ⟨r1, r2⟩ := ih (segment c len true s) s.dcid (by rw [e1]; exact hi) (by rw [e2]; exact hl) hz'
      by_cases hd : s.dcid = []
      · rw [segment_null hi hl len true hd (fun d h => hz d (by rw [h]; exact List.mem_cons_self))] at r1
        exact r1
      · rw [r2 hd]
        exact segment_first c len s
    · rw [if_neg hp]
      by_cases hd : s.dcid = prev
      · rw [if_pos hd]
        obtain ⟨e1, e2⟩ := segment_cids c len false s
        obtain ⟨r1, r2⟩ := ih (segment c len false s) prev (by rw [e1]; exact hi) (by rw [e2]; exact hl) hz'
        have := r2 hp
        rw [segment_late] at this
        exact ⟨by omega, fun _ => this⟩
      · rw [if_neg hd]
        exact ⟨Nat.le_add_right _ _, fun _ => rfl⟩

theorem segments_keep (len : Nat) (ss : List Seg) : ∀ (c : Amp) (prev : Cid), (segments len c prev ss).sent = c.sent ∧
    (segments len c prev ss).initialCid = c.initialCid ∧ (segments len c prev ss).localCid = c.localCid := by
  induction ss with
  | nil => intro c prev; exact ⟨rfl, rfl, rfl⟩
  | cons s ss ih =>
    intro c prev
    unfold segments
    split
    · obtain ⟨e1, e2⟩ := segment_cids c len true s
      obtain ⟨r1, r2, r3⟩ := ih (segment c len true s) s.dcid
      exact ⟨r1.trans (segment_sent ..), r2.trans e1, r3.trans e2⟩
    · split
      · obtain ⟨e1, e2⟩ := segment_cids c len false s
        obtain ⟨r1, r2, r3⟩ := ih (segment c len false s) prev
        exact ⟨r1.trans (segment_sent ..), r2.trans e1, r3.trans e2⟩
      · exact ⟨rfl, rfl, rfl⟩

theorem segment_validated (c : Amp) (len : Nat) (first : Bool) (s : Seg) :
    (segment c len first s).validated = true → c.validated = true ∨ ProvesAddress c.localCid s := by
  unfold segment
  split
  · rename_i d r
    split
    · intro h
      dsimp only at h
      rw [Bool.or_eq_true, Bool.or_eq_true, Bool.and_eq_true, decide_eq_true_eq, decide_eq_true_eq] at h
      rcases h with (h | h) | h
      · exact .inl h
      · refine .inr (.inl ⟨h.2, ?_⟩)
        intro q
        rw [q] at h
        exact absurd h.1 (by simp)
      · exact .inr (.inr h)
    · exact .inl
  · exact .inl
  · exact fun _ => .inr trivial
  · exact .inl

theorem segment_stays (c : Amp) (len : Nat) (first : Bool) (s : Seg) (h : c.validated = true) : (segment c len first s).validated = true := by
  unfold segment
  split
  · split
    · dsimp only; rw [h]; rfl
    · exact h
  · exact h
  · rfl
  · exact h

theorem segments_validated (len : Nat) (ss : List Seg) : ∀ (c : Amp) (prev : Cid), (segments len c prev ss).validated = true →
    c.validated = true ∨ ∃ s ∈ ss, ProvesAddress c.localCid s := by
  induction ss with
  | nil => intro c prev h; exact .inl h
  | cons s ss ih =>
    intro c prev h
    have key : ∀ first p, (segments len (segment c len first s) p ss).validated = true →
        c.validated = true ∨ ∃ s' ∈ s :: ss, ProvesAddress c.localCid s' := by
      intro first p h
      rcases ih _ _ h with h | ⟨s', h1, h2⟩
      · rcases segment_validated _ _ _ _ h with h | h
        · exact .inl h
        · exact .inr ⟨s, List.mem_cons_self, h⟩
      · rw [(segment_cids _ _ _ _).2] at h2
        exact .inr ⟨s', List.mem_cons_of_mem _ h1, h2⟩
    unfold segments at h
    split at h
    · exact key _ _ h
    · split at h
      · exact key _ _ h
      · exact .inl h

theorem segments_stays (len : Nat) (ss : List Seg) : ∀ (c : Amp) (prev : Cid), c.validated = true →
    (segments len c prev ss).validated = true := by
  induction ss with
  | nil => intro c prev h; exact h
  | cons s ss ih =>
    intro c prev h
    unfold segments
    split
    · exact ih _ _ (segment_stays _ _ _ _ h)
    · split
      · exact ih _ _ (segment_stays _ _ _ _ h)
      · exact h

theorem prepare_keep (c : Amp) (b m : Nat) (f : Nat → Nat) : (prepare c b m f).1.validated = c.validated ∧
    (prepare c b m f).1.received = c.received ∧ (prepare c b m f).1.initialCid = c.initialCid ∧
    (prepare c b m f).1.localCid = c.localCid := by
  unfold prepare
  generalize (if b > m then m else b) = room
  dsimp only
  split
  · exact ⟨rfl, rfl, rfl, rfl⟩
  · split <;> exact ⟨rfl, rfl, rfl, rfl⟩

/-- The limit holds for each packet. -/
theorem prepare_limit {c : Amp} {b m : Nat} {f : Nat → Nat} (hv : c.validated = false) (hm : m < 65536) (hf : ∀ room, f room ≤ room)
    (hr : c.received < 2 ^ 62) (hs : c.sent ≤ 3 * c.received) :
    (prepare c b m f).1.sent = c.sent + (prepare c b m f).2 ∧ c.sent + (prepare c b m f).2 ≤ 3 * c.received := by
  unfold prepare
  have e : ∀ n, n < 2 ^ 64 → u64 n = n := by intro n hn; unfold u64; omega
  have hroom : (if b > m then m else b) ≤ m := by split <;> omega
  generalize (if b > m then m else b) = room at hroom
  dsimp only
  have hfr := hf room
  rw [e _ (by omega), e _ (by omega)]
  by_cases c1 : (!c.validated) = true ∧ c.sent + room > 3 * c.received
  · rw [if_pos c1]
    exact ⟨rfl, by dsimp only; omega⟩
  · rw [if_neg c1]
    dsimp only
    have c2 : c.sent + room ≤ 3 * c.received := by
      apply Nat.le_of_not_lt
      intro q
      exact c1 ⟨by rw [hv]; rfl, q⟩
    rw [if_pos (by rw [hv]; rfl)]
    dsimp only
    rw [e _ (by omega)]
    exact ⟨rfl, by omega⟩

/-- The invariant of the events. -/
structure AmpInv (initialCid localCid : Cid) (a : AmpSeen) : Prop where
  initial : a.cnx.initialCid = initialCid
  localId : a.cnx.localCid = localCid
  received : a.cnx.received ≤ a.received
  closing : a.closing ≤ a.sent
  sent : a.cnx.validated = false → a.cnx.sent = a.sent - a.closing ∧ a.cnx.sent ≤ 3 * a.cnx.received

theorem ampStep_received (a : AmpSeen) (e : AmpEvent) : a.received ≤ (ampStep a e).received := by
  cases e <;> unfold ampStep <;> dsimp only <;> omega

theorem foldl_received (es : List AmpEvent) : ∀ a : AmpSeen, a.received ≤ (es.foldl ampStep a).received := by
  induction es with
  | nil => intro a; exact Nat.le_refl _
  | cons e es ih => intro a; exact Nat.le_trans (ampStep_received a e) (ih _)

theorem segment_mono (c : Amp) (len : Nat) (first : Bool) (s : Seg) (h : c.received + len < 2 ^ 64) :
    c.received ≤ (segment c len first s).received ∧ (segment c len first s).received ≤ c.received + (if first then len else 0) := by
  have e : u64 (c.received + len) = c.received + len := by unfold u64; omega
  unfold segment
  rw [e]
  split
  · split
    · dsimp only; split <;> omega
    · omega
  · dsimp only; split <;> omega
  · dsimp only; omega
  · omega

theorem segments_mono (len : Nat) (ss : List Seg) : ∀ (c : Amp) (prev : Cid), c.initialCid ≠ [] → c.localCid ≠ [] →
    (∀ d, Seg.zeroRtt d ∈ ss → d ≠ []) → c.received + len < 2 ^ 64 →
    c.received ≤ (segments len c prev ss).received := by
  induction ss with
  | nil => intro c prev _ _ _ _; exact Nat.le_refl _
  | cons s ss ih =>
    intro c prev hi hl hz h
    have hz' : ∀ d, Seg.zeroRtt d ∈ ss → d ≠ [] := fun d h => hz d (List.mem_cons_of_mem _ h)
    unfold segments
    split
    · obtain ⟨e1, e2⟩ := segment_cids c len true s
      by_cases hd : s.dcid = []
      · have e := segment_null hi hl len true hd (fun d h => hz d (by rw [h]; exact List.mem_cons_self))
        have := ih (segment c len true s) s.dcid (by rw [e1]; exact hi) (by rw [e2]; exact hl) hz' (by rw [e]; exact h)
        omega
      · have := (segments_received len ss (segment c len true s) s.dcid (by rw [e1]; exact hi) (by rw [e2]; exact hl) hz').2 hd
        rw [this]
        exact (segment_mono c len true s h).1
    · split
      · obtain ⟨e1, e2⟩ := segment_cids c len false s
        have e := segment_late c len s
        have := ih (segment c len false s) prev (by rw [e1]; exact hi) (by rw [e2]; exact hl) hz' (by rw [e]; exact h)
        omega
      · exact Nat.le_refl _

theorem ampStep_inv {i l : Cid} (hi : i ≠ []) (hl : l ≠ []) {a : AmpSeen} (h : AmpInv i l a) {e : AmpEvent} (he : e.Fits)
    (hb : (ampStep a e).received < 2 ^ 62) : AmpInv i l (ampStep a e) := by
  cases e with
  | receive len ss =>
    have hb' : a.received + len < 2 ^ 62 := hb
    have hci : a.cnx.initialCid ≠ [] := by rw [h.initial]; exact hi
    have hcl : a.cnx.localCid ≠ [] := by rw [h.localId]; exact hl
    obtain ⟨k1, k2, k3⟩ := segments_keep len ss a.cnx []
    have r1 := (segments_received len ss a.cnx [] hci hcl he).1
    have h1 := h.received
    have r2 := segments_mono len ss a.cnx [] hci hcl he (by omega)
    refine ⟨k2.trans h.initial, k3.trans h.localId, ?_, h.closing, ?_⟩
    · show (segments len a.cnx [] ss).received ≤ a.received + len
      omega
    · intro hv
      have hv' : a.cnx.validated = false := by
        cases hq : a.cnx.validated
        · rfl
        · have := segments_stays len ss a.cnx [] hq
          exact absurd (this.symm.trans hv) (by decide)
      obtain ⟨s1, s2⟩ := h.sent hv'
      show (segments len a.cnx [] ss).sent = a.sent - a.closing ∧ (segments len a.cnx [] ss).sent ≤ 3 * (segments len a.cnx [] ss).received
      rw [k1]
      exact ⟨s1, by omega⟩
  | send b m f =>
    obtain ⟨k1, k2, k3, k4⟩ := prepare_keep a.cnx b m f
    have h1 := h.received
    have h2 := h.closing
    have hb' : a.received < 2 ^ 62 := hb
    refine ⟨k3.trans h.initial, k4.trans h.localId, ?_, ?_, ?_⟩
    · show (prepare a.cnx b m f).1.received ≤ a.received
      rw [k2]; exact h1
    · show a.closing ≤ a.sent + _
      omega
    · intro hv
      have hv' : a.cnx.validated = false := k1.symm.trans hv
      obtain ⟨s1, s2⟩ := h.sent hv'
      obtain ⟨p1, p2⟩ := prepare_limit (b := b) hv' he.1 he.2 (by omega) s2
      show (prepare a.cnx b m f).1.sent = a.sent + (prepare a.cnx b m f).2 - a.closing ∧ (prepare a.cnx b m f).1.sent ≤
        3 * (prepare a.cnx b m f).1.received
      rw [k2]
      omega
  | close b m f =>
    have h2 := h.closing
    refine ⟨h.initial, h.localId, h.received, ?_, ?_⟩
    · show a.closing + (prepareClosing a.cnx b m f).2 ≤ a.sent + (prepareClosing a.cnx b m f).2
      omega
    · intro hv
      obtain ⟨s1, s2⟩ := h.sent hv
      show a.cnx.sent = a.sent + (prepareClosing a.cnx b m f).2 - (a.closing + (prepareClosing a.cnx b m f).2) ∧ _
      exact ⟨by omega, s2⟩

theorem run_inv {i l : Cid} (hi : i ≠ []) (hl : l ≠ []) (es : List AmpEvent) : ∀ a : AmpSeen, AmpInv i l a → (∀ e ∈ es, e.Fits) →
    (es.foldl ampStep a).received < 2 ^ 62 → AmpInv i l (es.foldl ampStep a) := by
  induction es with
  | nil => intro a h _ _; exact h
  | cons e es ih =>
    intro a h hf hb
    refine ih _ (ampStep_inv hi hl h (hf e List.mem_cons_self) ?_) (fun e' h' => hf e' (List.mem_cons_of_mem _ h')) hb
    exact Nat.lt_of_le_of_lt (foldl_received es _) hb

theorem run_validated (l : Cid) (es : List AmpEvent) : ∀ a : AmpSeen, a.cnx.localCid = l →
    (es.foldl ampStep a).cnx.validated = true →
    a.cnx.validated = true ∨ ∃ len ss s, AmpEvent.receive len ss ∈ es ∧ s ∈ ss ∧ ProvesAddress l s := by
  induction es with
  | nil => intro a _ h; exact .inl h
  | cons e es ih =>
    intro a hl h
    have hl' : (ampStep a e).cnx.localCid = l := by
      cases e with
      | receive len ss => exact (segments_keep len ss a.cnx []).2.2.trans hl
      | send b m f => exact (prepare_keep a.cnx b m f).2.2.2.trans hl
      | close b m f => exact hl
    rcases ih _ hl' h with h | ⟨len, ss, s, h1, h2, h3⟩
    · cases e with
      | receive len ss =>
        rcases segments_validated len ss a.cnx [] h with h | ⟨s, h1, h2⟩
        · exact .inl h
        · rw [hl] at h2
          exact .inr ⟨len, ss, s, List.mem_cons_self, h1, h2⟩
      | send b m f => exact .inl ((prepare_keep a.cnx b m f).1.symm.trans h)
      | close b m f => exact .inl h
    · exact .inr ⟨len, ss, s, List.mem_cons_of_mem _ h1, h2, h3⟩

end Picoquic.Amplification
