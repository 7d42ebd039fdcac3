import Verif.Proof.StreamLimits
/-! Proofs about the limits of streams over histories. -/

namespace Picoquic.StreamLimits
open Picoquic Picoquic.Spec

/-! ## Creation -/

theorem createLoop_next (fuel : Nat) (c : Conn) (id : Nat) (evs : List Event) (hI : InvA c evs) :
    ∀ t, c.nextStreamId t ≤ (createLoop fuel c id).1.nextStreamId t := by
  induction fuel generalizing c evs with
  | zero => intro t; exact Nat.le_refl _
  | succ fuel ih =>
    intro t'
    by_cases hge : id ≥ c.nextStreamId (streamTypeFromId id)
    · have hI' := createLoop_inv 1 c id evs hI
      simp only [createLoop, if_pos hge] at hI' ⊢
      obtain ⟨t, ht⟩ : ∃ t, streamTypeFromId id = t := ⟨_, rfl⟩
      rw [ht] at hI' ⊢
      have ht4 : t < 4 := by rw [← ht]; unfold streamTypeFromId; omega
      obtain ⟨n, hn, _⟩ := hI.cr t ht4
      refine Nat.le_trans ?_ (ih _ _ hI' t')
      rw [hn, createStream_next c t ht4 n hn]
      simp only [setN]
      split
      · rename_i h; rw [h, hn]; omega
      · exact Nat.le_refl _
    · simp only [createLoop, if_neg hge]
      exact Nat.le_refl _

theorem createLoop_past (fuel : Nat) (c : Conn) (id : Nat) (evs : List Event) (hI : InvA c evs)
    (hf : id < fuel + c.nextStreamId (id % 4)) : id < (createLoop fuel c id).1.nextStreamId (id % 4) := by
  induction fuel generalizing c evs with
  | zero => simpa [createLoop] using hf
  | succ fuel ih =>
    by_cases hge : id ≥ c.nextStreamId (streamTypeFromId id)
    · have hI' := createLoop_inv 1 c id evs hI
      simp only [createLoop, if_pos hge] at hI' ⊢
      obtain ⟨t, ht⟩ : ∃ t, id % 4 = t := ⟨_, rfl⟩
      rw [show streamTypeFromId id = t from ht] at hI' ⊢
      have ht4 : t < 4 := by omega
      obtain ⟨n, hn, _⟩ := hI.cr t ht4
      refine ih _ _ hI' ?_
      rw [hn, createStream_next c t ht4 n hn, ht]
      rw [ht, hn] at hf
      simp [setN]; omega
    · simp only [createLoop, if_neg hge]
      unfold streamTypeFromId at hge; omega

/-- The streams after the loop: those before it and new ones. -/
theorem createLoop_streams (fuel : Nat) (c : Conn) (id : Nat) (evs : List Event) (hI : InvA c evs) :
    ∀ s ∈ (createLoop fuel c id).1.streams, s ∈ c.streams ∨
      (s = newStream c s.id ∧ c.nextStreamId (s.id % 4) ≤ s.id) := by
  induction fuel generalizing c evs with
  | zero => intro s hs; exact .inl hs
  | succ fuel ih =>
    intro s hs
    by_cases hge : id ≥ c.nextStreamId (streamTypeFromId id)
    · have hI' := createLoop_inv 1 c id evs hI
      simp only [createLoop, if_pos hge] at hI' hs
      obtain ⟨t, ht⟩ : ∃ t, streamTypeFromId id = t := ⟨_, rfl⟩
      rw [ht] at hI' hs
      have ht4 : t < 4 := by rw [← ht]; unfold streamTypeFromId; omega
      obtain ⟨n, hn, _⟩ := hI.cr t ht4
      rcases ih _ _ hI' s hs with h | ⟨h1, h2⟩
      · rw [hn, createStream_next c t ht4 n hn] at h
        simp only [List.mem_append, List.mem_singleton] at h
        rcases h with h | h
        · exact .inl h
        · right
          rw [h, newStream_id]
          refine ⟨rfl, ?_⟩
          rw [show (4 * n + t) % 4 = t by omega, hn]; omega
      · right
        rw [hn, createStream_next c t ht4 n hn] at h1 h2
        refine ⟨h1, ?_⟩
        simp only [setN] at h2
        split at h2
        · rename_i h; rw [h, hn]; omega
        · exact h2
    · simp only [createLoop, if_neg hge] at hs
      exact .inl hs

theorem newStream_eq (c : Conn) (id : Nat) :
    newStream c id = ⟨id, initialReceiveLimit c.client c.localTp id, initialSendLimit c.client c.remoteTp id, false⟩ := by
  unfold newStream initialReceiveLimit initialSendLimit isLocalStreamId isUnidirStreamId
  dsimp only
  have h : ((id + c.client.toNat) % 2 == 1) = ((id % 2 == 0) == c.client) := by
    cases c.client
    · simp only [Bool.toNat_false, Nat.add_zero]
      rcases Nat.mod_two_eq_zero_or_one id with h | h <;> rw [h] <;> rfl
    · simp only [Bool.toNat_true]
      rcases Nat.mod_two_eq_zero_or_one id with h | h
      · rw [show (id + 1) % 2 = 1 by omega, h]; rfl
      · rw [show (id + 1) % 2 = 0 by omega, h]; rfl
  rw [h]
  by_cases h1 : (id % 2 == 0) = c.client
  · simp only [h1, beq_self_eq_true, if_true]
    split <;> rfl
  · have : ((id % 2 == 0) == c.client) = false := by simpa using h1
    simp only [this, if_neg h1, Bool.false_eq_true, if_false]
    split <;> rfl

/-- What creation on demand does to streams. -/
theorem createMissing_streams {c : Conn} {evs : List Event} (hI : InvA c evs) (id : Nat) (r : Bool) :
    (∀ t, c.nextStreamId t ≤ (createMissingStreams c id r).1.nextStreamId t) ∧
    (∀ s ∈ (createMissingStreams c id r).1.streams, s ∈ c.streams ∨
      (s = newStream c s.id ∧ c.nextStreamId (s.id % 4) ≤ s.id)) ∧
    ((createMissingStreams c id r).1.error = none → id < (createMissingStreams c id r).1.nextStreamId (id % 4)) := by
  unfold createMissingStreams
  dsimp only
  split
  · rename_i h
    exact ⟨fun _ => Nat.le_refl _, fun s hs => .inl hs, fun _ => h.2⟩
  · split
    · exact ⟨fun _ => Nat.le_refl _, fun s hs => .inl hs, fun h => by simp [setError] at h⟩
    · split
      · exact ⟨fun _ => Nat.le_refl _, fun s hs => .inl hs, fun h => by simp [setError] at h⟩
      · split
        · exact ⟨fun _ => Nat.le_refl _, fun s hs => .inl hs, fun h => by simp [setError] at h⟩
        · exact ⟨createLoop_next _ _ _ _ hI, createLoop_streams _ _ _ _ hI,
            fun _ => createLoop_past _ _ _ _ hI (by omega)⟩

theorem findStream_some {c : Conn} {id : Nat} {s : Stream} (h : findStream c id = some s) :
    s ∈ c.streams ∧ s.id = id := by
  unfold findStream at h
  exact ⟨List.mem_of_find?_eq_some h, by simpa using List.find?_some h⟩

theorem findOrCreate_streams {c : Conn} {evs : List Event} (hI : InvA c evs) (id : Nat) (r : Bool) :
    (∀ t, c.nextStreamId t ≤ (findOrCreateStream c id r).1.nextStreamId t) ∧
    (∀ s ∈ (findOrCreateStream c id r).1.streams, s ∈ c.streams ∨
      (s = newStream c s.id ∧ c.nextStreamId (s.id % 4) ≤ s.id)) ∧
    ((findOrCreateStream c id r).1.error = none → id < (findOrCreateStream c id r).1.nextStreamId (id % 4)) := by
  unfold findOrCreateStream
  split
  · rename_i s h
    obtain ⟨h1, h2⟩ := findStream_some h
    have := hI.st s h1
    rw [h2] at this
    exact ⟨fun _ => Nat.le_refl _, fun s hs => .inl hs, fun _ => this⟩
  · exact createMissing_streams hI id r

/-! ## One step, stream by stream -/

/-- The effect of one operation on the streams. -/
structure StepStreams (c : Conn) (op : Op) (c' : Conn) (evs : List Event) : Prop where
  next : ∀ t, c.nextStreamId t ≤ c'.nextStreamId t
  from_ : ∀ s' ∈ c'.streams, ∃ s, (s ∈ c.streams ∨ (s = newStream c s.id ∧ c.nextStreamId (s.id % 4) ≤ s.id)) ∧
    s'.id = s.id ∧ s'.maxdataRemote = largest s.maxdataRemote (maxStreamDataReceived s.id [op]) ∧
    s'.maxdataLocal = latest s.maxdataLocal (maxStreamDataSent s.id evs)
  known : c'.error = none → ∀ id, maxStreamDataReceived id [op] ≠ [] → id < c'.nextStreamId (id % 4)
  sent : ∀ id, maxStreamDataSent id evs = [] ∨
    ∃ v, maxStreamDataSent id evs = [v] ∧ ∃ s ∈ c.streams, s.id = id ∧
      (SaneOp op → s.maxdataLocal ≤ v ∧ v < 2 ^ 61)

theorem maxStreamDataReceived_one (id j v : Nat) :
    maxStreamDataReceived id [.maxStreamData j v] = if j = id then [v] else [] := by
  simp [maxStreamDataReceived]

/-- Operations that do not touch the limits of streams. -/
theorem StepStreams.plain {c c' : Conn} {op : Op} {evs : List Event}
    (hr : ∀ id, maxStreamDataReceived id [op] = []) (hs : ∀ id, maxStreamDataSent id evs = [])
    (hn : ∀ t, c.nextStreamId t ≤ c'.nextStreamId t)
    (h : ∀ s' ∈ c'.streams, ∃ s, (s ∈ c.streams ∨ (s = newStream c s.id ∧ c.nextStreamId (s.id % 4) ≤ s.id)) ∧
      s'.id = s.id ∧ s'.maxdataRemote = s.maxdataRemote ∧ s'.maxdataLocal = s.maxdataLocal) :
    StepStreams c op c' evs := by
  refine ⟨hn, ?_, ?_, fun id => .inl (hs id)⟩
  · intro s' hs'
    obtain ⟨s, h1, h2, h3, h4⟩ := h s' hs'
    exact ⟨s, h1, h2, by rw [hr]; exact h3, by rw [hs]; exact h4⟩
  · intro _ id hid
    exact absurd (hr id) hid

theorem mem_map_update {c : Conn} {id : Nat} {f : Stream → Stream} {s' : Stream}
    (h : s' ∈ (updateStream c id f).streams) :
    ∃ s ∈ c.streams, (s.id = id ∧ s' = f s) ∨ (s.id ≠ id ∧ s' = s) := by
  unfold updateStream at h
  simp only [List.mem_map] at h
  obtain ⟨s, h1, h2⟩ := h
  refine ⟨s, h1, ?_⟩
  split at h2
  · rename_i hid; exact .inl ⟨hid, h2.symm⟩
  · rename_i hid; exact .inr ⟨hid, h2.symm⟩

theorem StepStreams.format {c : Conn} {op : Op} {id v room : Nat} {s : Stream} (hs : findStream c id = some s)
    (hr : ∀ id, maxStreamDataReceived id [op] = []) (hv : SaneOp op → s.maxdataLocal ≤ v ∧ v < 2 ^ 61) :
    StepStreams c op (formatMaxStreamData c id v room).1 (formatMaxStreamData c id v room).2 := by
  obtain ⟨h1, h2⟩ := findStream_some hs
  rcases formatMaxStreamData_cases c id v room with h | h <;> rw [h]
  · exact .plain hr (fun _ => rfl) (fun _ => Nat.le_refl _) (fun s hs => ⟨s, .inl hs, rfl, rfl, rfl⟩)
  · refine ⟨fun _ => Nat.le_refl _, ?_, fun _ j hj => absurd (hr j) hj, ?_⟩
    · intro s' hs'
      obtain ⟨s0, h0, h3⟩ := mem_map_update hs'
      rcases h3 with ⟨h3, rfl⟩ | ⟨h3, rfl⟩
      · refine ⟨s0, .inl h0, rfl, by rw [hr]; rfl, ?_⟩
        simp [maxStreamDataSent, h3, latest]
      · refine ⟨s', .inl h0, rfl, by rw [hr]; rfl, ?_⟩
        simp [maxStreamDataSent, Ne.symm h3, latest]
    · intro j
      by_cases hj : id = j
      · exact .inr ⟨v, by simp [maxStreamDataSent, hj], s, h1, by rw [h2, hj], hv⟩
      · exact .inl (by simp [maxStreamDataSent, hj])

theorem formatMaxData_streams (c : Conn) (i room : Nat) :
    (formatMaxData c i room).1.streams = c.streams ∧ (formatMaxData c i room).1.nextStreamId = c.nextStreamId ∧
    (formatMaxData c i room).1.error = c.error ∧
    ∀ j, maxStreamDataSent j (formatMaxData c i room).2 = [] := by
  rcases formatMaxData_cases c i room with h | h <;> rw [h] <;> exact ⟨rfl, rfl, rfl, fun _ => rfl⟩

theorem stepOk_streams {c : Conn} {evs : List Event} (hI : InvA c evs) (op : Op) :
    StepStreams c op (stepOk c op).1 (stepOk c op).2 := by
  have refl : ∀ t, c.nextStreamId t ≤ c.nextStreamId t := fun _ => Nat.le_refl _
  have keep : ∀ s' ∈ c.streams, ∃ s, (s ∈ c.streams ∨ (s = newStream c s.id ∧ c.nextStreamId (s.id % 4) ≤ s.id)) ∧
      s'.id = s.id ∧ s'.maxdataRemote = s.maxdataRemote ∧ s'.maxdataLocal = s.maxdataLocal :=
    fun s hs => ⟨s, .inl hs, rfl, rfl, rfl⟩
  cases op with
  | peerFrame id =>
    obtain ⟨h1, h2, _⟩ := findOrCreate_streams hI id true
    exact .plain (fun _ => rfl) (findOrCreate_frame c id true).2.maxStreamData h1
      (fun s hs => ⟨s, h2 s hs, rfl, rfl, rfl⟩)
  | maxStreamData id v =>
    obtain ⟨h1, h2, h3⟩ := findOrCreate_streams hI id true
    have hq := (findOrCreate_frame c id true).2.maxStreamData
    refine ⟨h1, ?_, ?_, fun j => .inl (hq j)⟩
    · intro s' hs'
      obtain ⟨s, h0, h4⟩ := mem_map_update hs'
      rcases h4 with ⟨h4, h5⟩ | ⟨h4, h5⟩
      · refine ⟨s, h2 s h0, ?_, ?_, ?_⟩
        · rw [h5]; split <;> rfl
        · rw [maxStreamDataReceived_one, if_pos h4.symm, h5]
          simp only [largest, List.foldl]
          split
          · dsimp only; omega
          · omega
        · rw [show (stepOk c (.maxStreamData id v)).2 = (findOrCreateStream c id true).2 from rfl, hq, h5]
          split <;> rfl
      · refine ⟨s, h2 s h0, by rw [h5], ?_, ?_⟩
        · rw [maxStreamDataReceived_one, if_neg (Ne.symm h4), h5]; rfl
        · rw [show (stepOk c (.maxStreamData id v)).2 = (findOrCreateStream c id true).2 from rfl, hq, h5]
          rfl
    · intro he j hj
      rw [maxStreamDataReceived_one] at hj
      by_cases hij : id = j
      · subst hij; exact h3 he
      · simp [hij] at hj
  | maxData v =>
    simp only [stepOk, decodeMaxData]
    split <;> exact .plain (fun _ => rfl) (fun _ => rfl) refl keep
  | maxStreams u n =>
    obtain ⟨_, _, _, _, _, _, _, _, k1, k2, _⟩ := decodeMaxStreams_fields c u n
    refine .plain (fun _ => rfl) (fun _ => rfl) ?_ ?_
    · rw [show (stepOk c (.maxStreams u n)).1 = decodeMaxStreams c u n from rfl, k2]; exact refl
    · rw [show (stepOk c (.maxStreams u n)).1 = decodeMaxStreams c u n from rfl, k1]; exact keep
  | streamsBlocked u n =>
    simp only [stepOk, decodeStreamsBlocked]
    split <;> exact .plain (fun _ => rfl) (fun _ => rfl) refl keep
  | write id =>
    simp only [stepOk, findStreamForWriting]
    split
    · exact .plain (fun _ => rfl) (fun _ => rfl) refl keep
    · split
      · exact .plain (fun _ => rfl) (fun _ => rfl) refl keep
      · obtain ⟨h1, h2, _⟩ := createMissing_streams hI id false
        exact .plain (fun _ => rfl) (createMissing_frame c id false).2.maxStreamData h1
          (fun s hs => ⟨s, h2 s hs, rfl, rfl, rfl⟩)
  | complete id =>
    simp only [stepOk, updateMaxStreamIdLocal]
    split
    · exact .plain (fun _ => rfl) (fun _ => rfl) refl keep
    · split
      · refine .plain (fun _ => rfl) (fun _ => rfl) refl (fun s' hs' => ?_)
        obtain ⟨s, h0, h4⟩ := mem_map_update (c := c) (id := id)
          (f := fun s => { s with maxStreamUpdated := true }) hs'
        rcases h4 with ⟨_, rfl⟩ | ⟨_, rfl⟩
        · exact ⟨s, .inl h0, rfl, rfl, rfl⟩
        · exact ⟨s', .inl h0, rfl, rfl, rfl⟩
      · exact .plain (fun _ => rfl) (fun _ => rfl) refl keep
  | delete id =>
    exact .plain (fun _ => rfl) (fun _ => rfl) refl (fun s' hs' => keep s' (List.mem_filter.1 hs').1)
  | prepareMaxData d l w r =>
    rw [show stepOk c (.prepareMaxData d l w r) = prepareMaxData c d l w r from rfl]
    rcases prepareMaxData_cases c d l w r with h | ⟨i, h⟩ <;> rw [h]
    · exact .plain (fun _ => rfl) (fun _ => rfl) refl keep
    · obtain ⟨k1, k2, _, k3⟩ := formatMaxData_streams c i r
      exact .plain (fun _ => rfl) k3 (by rw [k2]; exact refl) (by rw [k1]; exact keep)
  | requiredMaxStreamData id k w r =>
    simp only [stepOk, requiredMaxStreamData]
    split
    · exact .plain (fun _ => rfl) (fun _ => rfl) refl keep
    · rename_i s hs
      split
      · rename_i hgt
        refine .format hs (fun _ => rfl) ?_
        intro hsane
        have hk : k < 2 ^ 57 := hsane
        have e1 : u64 (2 * k) = 2 * k := Nat.mod_eq_of_lt (by omega)
        rw [e1] at hgt
        have hw : increasedWindow w s.maxdataLocal ≤ 7 * s.maxdataLocal := by unfold increasedWindow; omega
        have e2 : u64 (s.maxdataLocal + increasedWindow w s.maxdataLocal) =
            s.maxdataLocal + increasedWindow w s.maxdataLocal := Nat.mod_eq_of_lt (by omega)
        rw [e2]
        omega
      · exact .plain (fun _ => rfl) (fun _ => rfl) refl keep
  | openFlowControl id k e =>
    simp only [stepOk, openFlowControl]
    split
    · exact .plain (fun _ => rfl) (fun _ => rfl) refl keep
    · rename_i s hs
      split
      · rename_i hgt
        have hf : StepStreams c (.openFlowControl id k e) (formatMaxStreamData c id (u64 (k + e)) 512).1
            (formatMaxStreamData c id (u64 (k + e)) 512).2 := by
          refine .format hs (fun _ => rfl) ?_
          intro hsane
          obtain ⟨hk, he⟩ : k < 2 ^ 57 ∧ e < 2 ^ 57 := hsane
          have e1 : u64 (k + e) = k + e := Nat.mod_eq_of_lt (by omega)
          rw [e1] at hgt ⊢
          omega
        obtain ⟨k1, k2, k3, k4⟩ := formatMaxData_streams (formatMaxStreamData c id (u64 (k + e)) 512).1 e (512 - 17)
        have hev : ∀ j, maxStreamDataSent j ((formatMaxStreamData c id (u64 (k + e)) 512).2 ++
            (formatMaxData (formatMaxStreamData c id (u64 (k + e)) 512).1 e (512 - 17)).2) =
            maxStreamDataSent j (formatMaxStreamData c id (u64 (k + e)) 512).2 := by
          intro j; rw [maxStreamDataSent_append, k4, List.append_nil]
        refine ⟨?_, ?_, fun _ j hj => absurd rfl hj, ?_⟩
        · rw [k2]; exact hf.next
        · rw [k1]; intro s' hs'
          obtain ⟨s, a1, a2, a3, a4⟩ := hf.from_ s' hs'
          exact ⟨s, a1, a2, a3, by rw [hev]; exact a4⟩
        · intro j; rw [hev]; exact hf.sent j
      · exact .plain (fun _ => rfl) (fun _ => rfl) refl keep
  | prepareMaxStreams r =>
    have h1 := half_frame c false r
    have h2 := half_frame (formatMaxStreamsHalf c false r).1 true (formatMaxStreamsHalf c false r).2.2
    rw [show stepOk c (.prepareMaxStreams r) = ((formatMaxStreamsHalf (formatMaxStreamsHalf c false r).1 true
      (formatMaxStreamsHalf c false r).2.2).1, (formatMaxStreamsHalf c false r).2.1 ++
      (formatMaxStreamsHalf (formatMaxStreamsHalf c false r).1 true
      (formatMaxStreamsHalf c false r).2.2).2.1) from rfl]
    obtain ⟨_, _, _, _, _, _, _, a1, a2, _, _, a3⟩ := h1
    obtain ⟨_, _, _, _, _, _, _, b1, b2, _, _, b3⟩ := h2
    refine .plain (fun _ => rfl) ?_ ?_ ?_
    · intro j; rw [maxStreamDataSent_append, a3, b3]; rfl
    · dsimp only; rw [b2, a2]; exact refl
    · dsimp only; rw [b1, a1]; exact keep

/-! ## Limits of streams over histories -/

/-- Limits learned from the peer. -/
structure InvR (client : Bool) (peer : Tp) (ops : List Op) (c : Conn) : Prop where
  eq : ∀ s ∈ c.streams, s.maxdataRemote =
    largest (initialSendLimit client peer s.id) (maxStreamDataReceived s.id ops)
  none : ∀ id, c.nextStreamId (id % 4) ≤ id → maxStreamDataReceived id ops = []

theorem run_invR (client : Bool) (l r : Tp) (p : Bool → Option Nat) (ops : List Op)
    (h : (run (initial client l r p) ops).1.error = none) :
    InvR client r ops (run (initial client l r p) ops).1 := by
  induction ops using StreamInput.snoc_induction with
  | h0 => exact ⟨fun s hs => by simp [run, initial] at hs, fun _ _ => rfl⟩
  | h1 ops op ih =>
    have hn := run_error_none h
    have hI := ih hn
    have hA := run_invA client l r p ops
    have hc := run_const (initial client l r p) ops
    rw [run_snoc, step_of_none hn] at h ⊢
    have hs := stepOk_streams hA op
    refine ⟨fun s' hs' => ?_, fun id hid => ?_⟩
    · obtain ⟨s, h1, h2, h3, _⟩ := hs.from_ s' hs'
      rw [h3, h2, maxStreamDataReceived_append, largest_append]
      rcases h1 with h1 | ⟨h1, h4⟩
      · rw [hI.eq s h1]
      · rw [hI.none s.id h4, h1, newStream_eq]
        rw [hc.1, hc.2.2]
        rfl
    · dsimp only at hid
      rw [maxStreamDataReceived_append, hI.none id (Nat.le_trans (hs.next _) hid), List.nil_append]
      refine Classical.byContradiction fun hne => ?_
      have := hs.known h id hne
      omega

/-- Limits sent to the peer. -/
structure InvL (client : Bool) (tp : Tp) (c : Conn) (evs : List Event) : Prop where
  sorted : ∀ id, (maxStreamDataSent id evs).Pairwise (· ≤ ·) ∧
    ∀ v ∈ maxStreamDataSent id evs, initialReceiveLimit client tp id ≤ v ∧ v < 2 ^ 62
  cur : ∀ s ∈ c.streams, initialReceiveLimit client tp s.id ≤ s.maxdataLocal ∧
    ∀ v ∈ maxStreamDataSent s.id evs, v ≤ s.maxdataLocal
  none : ∀ id, c.nextStreamId (id % 4) ≤ id → maxStreamDataSent id evs = []

theorem run_invL (client : Bool) (l r : Tp) (p : Bool → Option Nat) (ops : List Op)
    (hsane : ∀ op ∈ ops, SaneOp op) :
    InvL client l (run (initial client l r p) ops).1 (run (initial client l r p) ops).2 := by
  induction ops using StreamInput.snoc_induction with
  | h0 => exact ⟨fun _ => ⟨List.Pairwise.nil, by simp [run, maxStreamDataSent]⟩,
      fun s hs => by simp [run, initial] at hs, fun _ _ => rfl⟩
  | h1 ops op ih =>
    have hI := ih (fun o ho => hsane o (by simp [ho]))
    have hA := run_invA client l r p ops
    have hc := run_const (initial client l r p) ops
    rw [run_snoc]
    cases hn : (run (initial client l r p) ops).1.error with
    | some e =>
      rw [show step (run (initial client l r p) ops).1 op = ((run (initial client l r p) ops).1, []) by
        unfold step; rw [hn]]
      simpa using hI
    | none =>
      rw [step_of_none hn]
      have hs := stepOk_streams hA op
      have hso : SaneOp op := hsane op (by simp)
      refine ⟨fun id => ?_, fun s' hs' => ?_, fun id hid => ?_⟩
      · rw [maxStreamDataSent_append]
        rcases hs.sent id with h | ⟨v, h, s, h1, h2, h3⟩
        · rw [h, List.append_nil]; exact hI.sorted id
        · rw [h]
          obtain ⟨g1, g2⟩ := h3 hso
          obtain ⟨k1, k2⟩ := hI.cur s h1
          rw [h2] at k1 k2
          refine ⟨List.pairwise_append.2 ⟨(hI.sorted id).1, List.pairwise_singleton _ _, ?_⟩, ?_⟩
          · intro a ha b hb
            rw [List.mem_singleton] at hb
            have := k2 a ha
            omega
          · intro w hw
            rw [List.mem_append, List.mem_singleton] at hw
            rcases hw with hw | hw
            · exact (hI.sorted id).2 w hw
            · omega
      · obtain ⟨s, h1, h2, _, h4⟩ := hs.from_ s' hs'
        rw [h2, h4, maxStreamDataSent_append]
        have base : initialReceiveLimit client l s.id ≤ s.maxdataLocal ∧
            ∀ v ∈ maxStreamDataSent s.id (run (initial client l r p) ops).2, v ≤ s.maxdataLocal := by
          rcases h1 with h1 | ⟨h1, h5⟩
          · exact hI.cur s h1
          · constructor
            · rw [h1, newStream_eq, hc.1, hc.2.1]; exact Nat.le_refl _
            · rw [hI.none s.id h5]; simp
        rcases hs.sent s.id with h | ⟨v, h, s0, g1, g2, g3⟩
        · rw [h, List.append_nil]; exact base
        · rw [h]
          obtain ⟨k1, k2⟩ := hI.cur s0 g1
          rw [g2] at k1 k2
          obtain ⟨q1, q2⟩ := g3 hso
          simp only [latest, List.foldl]
          refine ⟨by omega, fun w hw => ?_⟩
          rw [List.mem_append, List.mem_singleton] at hw
          rcases hw with hw | hw
          · have := k2 w hw; omega
          · omega
      · dsimp only at hid
        rw [maxStreamDataSent_append, hI.none id (Nat.le_trans (hs.next _) hid), List.nil_append]
        rcases hs.sent id with h | ⟨v, _, s, h1, h2, _⟩
        · exact h
        · have := hA.st s h1
          rw [h2] at this
          have := hs.next (id % 4)
          omega

/-! ## The connection limit sent to the peer -/

/-- The effect of one operation on the connection limit. -/
theorem stepOk_maxData (c : Conn) (op : Op) :
    (maxDataSent (stepOk c op).2 = [] ∧ (stepOk c op).1.maxdataLocal = c.maxdataLocal) ∨
    ∃ v, maxDataSent (stepOk c op).2 = [v] ∧ (stepOk c op).1.maxdataLocal = v ∧
      ∀ b, SaneOp op → c.maxdataLocal ≤ 2 ^ 61 + b → b ≤ 2 ^ 61 →
        c.maxdataLocal ≤ v ∧ v ≤ 2 ^ 61 + (b + expectedTotal [op]) := by
  have same : ∀ c', Same c c' → c'.maxdataLocal = c.maxdataLocal := fun c' h => h.maxdataLocal
  cases op with
  | peerFrame id =>
    exact .inl ⟨(findOrCreate_frame c id true).2.maxData, same _ (findOrCreate_frame c id true).1⟩
  | maxStreamData id v =>
    exact .inl ⟨(findOrCreate_frame c id true).2.maxData,
      same _ ((findOrCreate_frame c id true).1.trans (updateStream_same _ _ _))⟩
  | maxData v =>
    simp only [stepOk, decodeMaxData]
    split <;> exact .inl ⟨rfl, rfl⟩
  | maxStreams u n => exact .inl ⟨rfl, (decodeMaxStreams_fields c u n).2.2.2.2.2.1⟩
  | streamsBlocked u n =>
    simp only [stepOk, decodeStreamsBlocked]
    split <;> exact .inl ⟨rfl, rfl⟩
  | write id => exact .inl ⟨(findForWriting_frame c id).2.maxData, same _ (findForWriting_frame c id).1⟩
  | complete id =>
    simp only [stepOk, updateMaxStreamIdLocal]
    repeat' split
    all_goals exact .inl ⟨rfl, rfl⟩
  | delete id => exact .inl ⟨rfl, rfl⟩
  | prepareMaxData d l w r =>
    rw [show stepOk c (.prepareMaxData d l w r) = prepareMaxData c d l w r from rfl]
    have key : ∀ i, (∀ b, SaneOp (.prepareMaxData d l w r) → c.maxdataLocal ≤ 2 ^ 61 + b → b ≤ 2 ^ 61 →
          c.maxdataLocal ≤ u64 (c.maxdataLocal + i) ∧ u64 (c.maxdataLocal + i) ≤ 2 ^ 61 + (b + 0)) →
        (maxDataSent (formatMaxData c i r).2 = [] ∧ (formatMaxData c i r).1.maxdataLocal = c.maxdataLocal) ∨
        ∃ v, maxDataSent (formatMaxData c i r).2 = [v] ∧ (formatMaxData c i r).1.maxdataLocal = v ∧
          ∀ b, SaneOp (.prepareMaxData d l w r) → c.maxdataLocal ≤ 2 ^ 61 + b → b ≤ 2 ^ 61 →
            c.maxdataLocal ≤ v ∧ v ≤ 2 ^ 61 + (b + expectedTotal [.prepareMaxData d l w r]) := by
      intro i hi
      rcases formatMaxData_cases c i r with h | h <;> rw [h]
      · exact .inl ⟨rfl, rfl⟩
      · exact .inr ⟨_, rfl, rfl, hi⟩
    unfold prepareMaxData
    by_cases hl : l ≠ 0
    · rw [if_pos hl]
      split
      · rename_i hgt
        refine key _ ?_
        intro b hs hb _
        obtain ⟨hd, hl'⟩ : d < 2 ^ 57 ∧ l < 2 ^ 57 := hs
        have e1 : u64 (3 * l) = 3 * l := Nat.mod_eq_of_lt (by omega)
        have e2 : u64 (d + 3 * l / 4) = d + 3 * l / 4 := Nat.mod_eq_of_lt (by omega)
        have e3 : u64 (d + l) = d + l := Nat.mod_eq_of_lt (by omega)
        rw [e1, e2] at hgt
        rw [e3]
        have e4 : u64 (d + l + 18446744073709551616 - c.maxdataLocal) = d + l - c.maxdataLocal := by
          unfold u64; omega
        rw [e4]
        have e5 : u64 (c.maxdataLocal + (d + l - c.maxdataLocal)) = d + l := by unfold u64; omega
        rw [e5]
        omega
      · exact .inl ⟨rfl, rfl⟩
    · rw [if_neg hl]
      split
      · rename_i hgt
        refine key _ ?_
        intro b hs hb _
        obtain ⟨hd, hl'⟩ : d < 2 ^ 57 ∧ l < 2 ^ 57 := hs
        have e1 : u64 (2 * d) = 2 * d := Nat.mod_eq_of_lt (by omega)
        rw [e1] at hgt
        have hw : increasedWindow w c.maxdataLocal ≤ 7 * c.maxdataLocal := by unfold increasedWindow; omega
        have e2 : u64 (c.maxdataLocal + increasedWindow w c.maxdataLocal) =
            c.maxdataLocal + increasedWindow w c.maxdataLocal := Nat.mod_eq_of_lt (by omega)
        rw [e2]
        omega
      · exact .inl ⟨rfl, rfl⟩
  | requiredMaxStreamData id k w r =>
    simp only [stepOk, requiredMaxStreamData]
    split
    · exact .inl ⟨rfl, rfl⟩
    · split
      · rename_i s _ _
        rcases formatMaxStreamData_cases c id (u64 (s.maxdataLocal + increasedWindow w s.maxdataLocal)) r with h | h <;> rw [h] <;>
          exact .inl ⟨rfl, rfl⟩
      · exact .inl ⟨rfl, rfl⟩
  | openFlowControl id k e =>
    simp only [stepOk, openFlowControl]
    split
    · exact .inl ⟨rfl, rfl⟩
    · split
      · have hm : (formatMaxStreamData c id (u64 (k + e)) 512).1.maxdataLocal = c.maxdataLocal ∧
            maxDataSent (formatMaxStreamData c id (u64 (k + e)) 512).2 = [] := by
          rcases formatMaxStreamData_cases c id (u64 (k + e)) 512 with h | h <;> rw [h] <;> exact ⟨rfl, rfl⟩
        generalize formatMaxStreamData c id (u64 (k + e)) 512 = f at hm
        rw [maxDataSent_append, hm.2, List.nil_append]
        rcases formatMaxData_cases f.1 e (512 - 17) with h | h <;> rw [h]
        · exact .inl ⟨rfl, hm.1⟩
        · refine .inr ⟨_, rfl, rfl, ?_⟩
          intro b hs hb hb'
          obtain ⟨hk, he⟩ : k < 2 ^ 57 ∧ e < 2 ^ 57 := hs
          rw [hm.1]
          have e1 : u64 (c.maxdataLocal + e) = c.maxdataLocal + e := Nat.mod_eq_of_lt (by omega)
          rw [e1]
          simp only [expectedTotal]
          omega
      · exact .inl ⟨rfl, rfl⟩
  | prepareMaxStreams r =>
    have h1 := half_frame c false r
    have h2 := half_frame (formatMaxStreamsHalf c false r).1 true (formatMaxStreamsHalf c false r).2.2
    rw [show stepOk c (.prepareMaxStreams r) = ((formatMaxStreamsHalf (formatMaxStreamsHalf c false r).1 true
      (formatMaxStreamsHalf c false r).2.2).1, (formatMaxStreamsHalf c false r).2.1 ++
      (formatMaxStreamsHalf (formatMaxStreamsHalf c false r).1 true
      (formatMaxStreamsHalf c false r).2.2).2.1) from rfl]
    obtain ⟨_, _, _, a1, _, _, _, _, _, _, a2, _⟩ := h1
    obtain ⟨_, _, _, b1, _, _, _, _, _, _, b2, _⟩ := h2
    left
    rw [maxDataSent_append, a2, b2]
    exact ⟨rfl, b1.trans a1⟩

/-- The connection limit over histories. -/
structure InvM (tp : Tp) (ops : List Op) (c : Conn) (evs : List Event) : Prop where
  sorted : (maxDataSent evs).Pairwise (· ≤ ·)
  le : ∀ v ∈ maxDataSent evs, tp.maxData ≤ v ∧ v ≤ c.maxdataLocal
  init : tp.maxData ≤ c.maxdataLocal
  bound : c.maxdataLocal ≤ 2 ^ 61 + expectedTotal ops

theorem run_invM (client : Bool) (l r : Tp) (p : Bool → Option Nat) (ops : List Op)
    (hsane : ∀ op ∈ ops, SaneOp op) (ht : expectedTotal ops ≤ 2 ^ 60) (htp : l.maxData < 2 ^ 57) :
    InvM l ops (run (initial client l r p) ops).1 (run (initial client l r p) ops).2 := by
  induction ops using StreamInput.snoc_induction with
  | h0 => exact ⟨List.Pairwise.nil, by simp [run, maxDataSent], Nat.le_refl _, by
      simp only [run, initial, expectedTotal]; omega⟩
  | h1 ops op ih =>
    rw [expectedTotal_append] at ht
    have hI := ih (fun o ho => hsane o (by simp [ho])) (by omega)
    rw [run_snoc]
    cases hn : (run (initial client l r p) ops).1.error with
    | some e =>
      rw [show step (run (initial client l r p) ops).1 op = ((run (initial client l r p) ops).1, []) by
        unfold step; rw [hn], List.append_nil]
      exact ⟨hI.sorted, hI.le, hI.init, by rw [expectedTotal_append]; exact Nat.le_trans hI.bound (by omega)⟩
    | none =>
      rw [step_of_none hn]
      have hso : SaneOp op := hsane op (by simp)
      have hb := hI.bound
      have hi := hI.init
      rcases stepOk_maxData (run (initial client l r p) ops).1 op with ⟨h1, h2⟩ | ⟨v, h1, h2, h3⟩
      · constructor
        · rw [maxDataSent_append, h1, List.append_nil]; exact hI.sorted
        · rw [maxDataSent_append, h1, List.append_nil, h2]; exact hI.le
        · rw [h2]; exact hI.init
        · rw [h2, expectedTotal_append]; omega
      · obtain ⟨g1, g2⟩ := h3 (expectedTotal ops) hso hI.bound (by omega)
        constructor
        · rw [maxDataSent_append, h1]
          refine List.pairwise_append.2 ⟨hI.sorted, List.pairwise_singleton _ _, ?_⟩
          intro a ha b hb
          rw [List.mem_singleton] at hb
          have := hI.le a ha
          omega
        · rw [maxDataSent_append, h1, h2]
          intro w hw
          rw [List.mem_append, List.mem_singleton] at hw
          rcases hw with hw | hw
          · have := hI.le w hw; omega
          · omega
        · rw [h2]; omega
        · rw [h2, expectedTotal_append]; exact g2

/-! ## The stream limits sent to the peer -/

theorem toNat_le_one (b : Bool) : b.toNat ≤ 1 := by cases b <;> decide

theorem streamIdFromRank_pos (n : Nat) (client u : Bool) (h1 : 1 ≤ n) (h2 : n ≤ 2 ^ 62) :
    streamIdFromRank n client u = 4 * (n - 1) + 2 * u.toNat + (!client).toNat := by
  unfold streamIdFromRank
  have e1 : u64 (n + 18446744073709551615) = n - 1 := by unfold u64; omega
  have e2 : u64 ((n - 1) * 4) = (n - 1) * 4 := Nat.mod_eq_of_lt (by omega)
  rw [e1, e2]
  omega

theorem streamIdFromRank_zero (client u : Bool) :
    streamIdFromRank 0 client u = 18446744073709551612 + 2 * u.toNat + (!client).toNat := by
  unfold streamIdFromRank
  rfl

/-- The effect of half of the function on the announced count, when the limit is that of count `k`. -/
theorem half_spec (c : Conn) (u : Bool) (r k b : Nat) (hk : 1 ≤ k) (hk' : k < 2 ^ 56)
    (hl : c.maxStreamIdLocal u = 4 * (k - 1) + 2 * u.toNat + (!c.client).toNat)
    (hN : c.localTp.maxStreams u < 2 ^ 50) (hc : c.maxStreamIdLocalComputed u ≤ 3 + 4 * b) (hb : b < 2 ^ 50) :
    ((formatMaxStreamsHalf c u r).2.1 = [] ∧ (formatMaxStreamsHalf c u r).1.maxStreamIdLocal = c.maxStreamIdLocal) ∨
    ((formatMaxStreamsHalf c u r).2.1 = [.maxStreams u (k + c.localTp.maxStreams u)] ∧
      k + c.localTp.maxStreams u ≤ b + 2 * c.localTp.maxStreams u + 2 ∧
      ∀ v, (formatMaxStreamsHalf c u r).1.maxStreamIdLocal v =
        if v = u then 4 * (k + c.localTp.maxStreams u - 1) + 2 * u.toNat + (!c.client).toNat
        else c.maxStreamIdLocal v) := by
  have hu := toNat_le_one u
  have hcl := toNat_le_one (!c.client)
  obtain ⟨N, hNe⟩ : ∃ N, c.localTp.maxStreams u = N := ⟨_, rfl⟩
  obtain ⟨q, hq⟩ : ∃ q, c.maxStreamIdLocalComputed u = q := ⟨_, rfl⟩
  rw [hNe] at hN ⊢
  rw [hq] at hc
  have e1 : u64 (2 * N) = 2 * N := Nat.mod_eq_of_lt (by omega)
  have e2 : u64 (q + 2 * N) = q + 2 * N := Nat.mod_eq_of_lt (by omega)
  have e3 : u64 (4 * N) = 4 * N := Nat.mod_eq_of_lt (by omega)
  have e4 : u64 (4 * (k - 1) + 2 * u.toNat + (!c.client).toNat + 4 * N) =
      4 * (k + N - 1) + 2 * u.toNat + (!c.client).toNat := by unfold u64; omega
  have e5 : streamRankFromId (4 * (k + N - 1) + 2 * u.toNat + (!c.client).toNat) = k + N := by
    unfold streamRankFromId u64; omega
  unfold formatMaxStreamsHalf
  rw [hNe, hq, hl, e1, e2, e3, e4]
  dsimp only
  rw [e5]
  by_cases h : q + 2 * N > 4 * (k - 1) + 2 * u.toNat + (!c.client).toNat
  · rw [if_pos h]
    split
    · right
      refine ⟨rfl, by omega, fun v => ?_⟩
      simp only [setB]
    · exact .inl ⟨rfl, rfl⟩
  · rw [if_neg h]
    exact .inl ⟨rfl, rfl⟩

theorem half_other (c : Conn) (u v : Bool) (r : Nat) (h : v ≠ u) :
    maxStreamsSent v (formatMaxStreamsHalf c u r).2.1 = [] ∧
    (formatMaxStreamsHalf c u r).1.maxStreamIdLocal v = c.maxStreamIdLocal v := by
  unfold formatMaxStreamsHalf
  dsimp only
  repeat' split
  · exact ⟨by simp [maxStreamsSent, Ne.symm h], by simp [setB, h]⟩
  · exact ⟨rfl, rfl⟩
  · exact ⟨rfl, rfl⟩

theorem half_zero (c : Conn) (u : Bool) (r b : Nat)
    (hl : c.maxStreamIdLocal u = 18446744073709551612 + 2 * u.toNat + (!c.client).toNat)
    (hN : c.localTp.maxStreams u = 0) (hc : c.maxStreamIdLocalComputed u ≤ 3 + 4 * b) (hb : b < 2 ^ 50) :
    (formatMaxStreamsHalf c u r).2.1 = [] ∧ (formatMaxStreamsHalf c u r).1.maxStreamIdLocal = c.maxStreamIdLocal := by
  unfold formatMaxStreamsHalf
  rw [hN, hl]
  have e2 : u64 (c.maxStreamIdLocalComputed u + u64 (2 * 0)) = c.maxStreamIdLocalComputed u := by
    unfold u64; omega
  rw [e2, if_neg (by omega)]
  exact ⟨rfl, rfl⟩

/-- Operations other than preparing MAX_STREAMS frames. -/
theorem stepOk_streamsLocal (c : Conn) (op : Op) (hop : ∀ r, op ≠ .prepareMaxStreams r) :
    (∀ u, maxStreamsSent u (stepOk c op).2 = []) ∧ (stepOk c op).1.maxStreamIdLocal = c.maxStreamIdLocal ∧
    ∀ u, (stepOk c op).1.maxStreamIdLocalComputed u ≤ c.maxStreamIdLocalComputed u + 4 := by
  have same : ∀ c', Same c c' → c'.maxStreamIdLocal = c.maxStreamIdLocal ∧
      ∀ u, c'.maxStreamIdLocalComputed u ≤ c.maxStreamIdLocalComputed u + 4 :=
    fun c' h => ⟨h.maxStreamIdLocal, fun u => by rw [h.computed]; omega⟩
  have triv : ∀ u, c.maxStreamIdLocalComputed u ≤ c.maxStreamIdLocalComputed u + 4 := fun u => by omega
  have fms : ∀ id v r, Same c (formatMaxStreamData c id v r).1 ∧
      ∀ u, maxStreamsSent u (formatMaxStreamData c id v r).2 = [] := by
    intro id v r
    rcases formatMaxStreamData_cases c id v r with h | h <;> rw [h]
    · exact ⟨Same.rfl' c, fun _ => rfl⟩
    · exact ⟨updateStream_same c _ _, fun _ => rfl⟩
  have fmd : ∀ c i r, (formatMaxData c i r).1.maxStreamIdLocal = c.maxStreamIdLocal ∧
      (formatMaxData c i r).1.maxStreamIdLocalComputed = c.maxStreamIdLocalComputed ∧
      ∀ u, maxStreamsSent u (formatMaxData c i r).2 = [] := by
    intro c i r
    rcases formatMaxData_cases c i r with h | h <;> rw [h] <;> exact ⟨rfl, rfl, fun _ => rfl⟩
  cases op with
  | peerFrame id => exact ⟨(findOrCreate_frame c id true).2.maxStreams, same _ (findOrCreate_frame c id true).1⟩
  | maxStreamData id v =>
    exact ⟨(findOrCreate_frame c id true).2.maxStreams,
      same _ ((findOrCreate_frame c id true).1.trans (updateStream_same _ _ _))⟩
  | maxData v =>
    simp only [stepOk, decodeMaxData]
    split <;> exact ⟨fun _ => rfl, rfl, triv⟩
  | maxStreams u n =>
    obtain ⟨_, _, _, _, _, _, k1, k2, _⟩ := decodeMaxStreams_fields c u n
    refine ⟨fun _ => rfl, k1, ?_⟩
    rw [show (stepOk c (.maxStreams u n)).1 = decodeMaxStreams c u n from rfl, k2]
    exact triv
  | streamsBlocked u n =>
    simp only [stepOk, decodeStreamsBlocked]
    split <;> exact ⟨fun _ => rfl, rfl, triv⟩
  | write id => exact ⟨(findForWriting_frame c id).2.maxStreams, same _ (findForWriting_frame c id).1⟩
  | complete id =>
    simp only [stepOk, updateMaxStreamIdLocal]
    split
    · exact ⟨fun _ => rfl, rfl, triv⟩
    · split
      · refine ⟨fun _ => rfl, rfl, fun u => ?_⟩
        simp only [setB]
        split
        · rename_i h
          rw [h]
          exact Nat.mod_le _ _
        · exact triv u
      · exact ⟨fun _ => rfl, rfl, triv⟩
  | delete id => exact ⟨fun _ => rfl, rfl, triv⟩
  | prepareMaxData d l w r =>
    rw [show stepOk c (.prepareMaxData d l w r) = prepareMaxData c d l w r from rfl]
    rcases prepareMaxData_cases c d l w r with h | ⟨i, h⟩ <;> rw [h]
    · exact ⟨fun _ => rfl, rfl, triv⟩
    · obtain ⟨a, b, d⟩ := fmd c i r
      exact ⟨d, a, by rw [b]; exact triv⟩
  | requiredMaxStreamData id k w r =>
    simp only [stepOk, requiredMaxStreamData]
    split
    · exact ⟨fun _ => rfl, rfl, triv⟩
    · split
      · rename_i s _ _
        obtain ⟨a, b⟩ := fms id (u64 (s.maxdataLocal + increasedWindow w s.maxdataLocal)) r
        exact ⟨b, same _ a⟩
      · exact ⟨fun _ => rfl, rfl, triv⟩
  | openFlowControl id k e =>
    simp only [stepOk, openFlowControl]
    split
    · exact ⟨fun _ => rfl, rfl, triv⟩
    · split
      · obtain ⟨a, b⟩ := fms id (u64 (k + e)) 512
        generalize formatMaxStreamData c id (u64 (k + e)) 512 = f at a b
        obtain ⟨x, y, z⟩ := fmd f.1 e (512 - 17)
        refine ⟨fun u => by rw [maxStreamsSent_append, b, z]; rfl, x.trans (same _ a).1, ?_⟩
        rw [y]; exact (same _ a).2
      · exact ⟨fun _ => rfl, rfl, triv⟩
  | prepareMaxStreams r => exact absurd rfl (hop r)

/-- The stream limits over histories. -/
structure InvS (client : Bool) (tp : Tp) (ops : List Op) (c : Conn) (evs : List Event) (u : Bool) : Prop where
  computed : c.maxStreamIdLocalComputed u ≤ 3 + 4 * ops.length
  sorted : (maxStreamsSent u evs).Pairwise (· ≤ ·)
  le : ∀ v ∈ maxStreamsSent u evs, tp.maxStreams u ≤ v ∧ v ≤ latest (tp.maxStreams u) (maxStreamsSent u evs)
  init : tp.maxStreams u ≤ latest (tp.maxStreams u) (maxStreamsSent u evs)
  pos : 1 ≤ tp.maxStreams u → c.maxStreamIdLocal u =
    4 * (latest (tp.maxStreams u) (maxStreamsSent u evs) - 1) + 2 * u.toNat + (!client).toNat
  zero : tp.maxStreams u = 0 → c.maxStreamIdLocal u = 18446744073709551612 + 2 * u.toNat + (!client).toNat ∧
    maxStreamsSent u evs = []
  bound : latest (tp.maxStreams u) (maxStreamsSent u evs) ≤ ops.length + 2 * tp.maxStreams u + 2

/-- One half of the function keeps the invariant. -/
theorem InvS.half {client : Bool} {tp : Tp} {ops : List Op} {c : Conn} {evs : List Event} {u : Bool}
    (hI : InvS client tp ops c evs u) (hcl : c.client = client) (htp : c.localTp = tp)
    (hN : tp.maxStreams u < 2 ^ 50) (hlen : ops.length < 2 ^ 50) (w : Bool) (r : Nat) :
    InvS client tp ops (formatMaxStreamsHalf c w r).1 (evs ++ (formatMaxStreamsHalf c w r).2.1) u := by
  have hcomp := (half_frame c w r).2.2.2.2.2.1
  have hb := hI.bound
  by_cases hw : u = w
  · subst hw
    by_cases h0 : tp.maxStreams u = 0
    · obtain ⟨z1, z2⟩ := hI.zero h0
      obtain ⟨h1, h2⟩ := half_zero c u r ops.length (by rw [z1, hcl]) (by rw [htp, h0]) hI.computed hlen
      have e : maxStreamsSent u (evs ++ (formatMaxStreamsHalf c u r).2.1) = maxStreamsSent u evs := by
        rw [h1, List.append_nil]
      constructor
      · rw [hcomp]; exact hI.computed
      · rw [e]; exact hI.sorted
      · rw [e]; exact hI.le
      · rw [e]; exact hI.init
      · rw [e, h2]; exact hI.pos
      · rw [e, h2]; exact hI.zero
      · rw [e]; exact hb
    · obtain ⟨L, hL⟩ : ∃ L, latest (tp.maxStreams u) (maxStreamsSent u evs) = L := ⟨_, rfl⟩
      have hp := hI.pos (by omega)
      have hi := hI.init
      rw [hL] at hp hb hi
      rcases half_spec c u r L ops.length (by omega) (by omega) (by rw [hp, hcl]) (by rw [htp]; exact hN)
        hI.computed hlen with ⟨h1, h2⟩ | ⟨h1, h2, h3⟩
      · have e : maxStreamsSent u (evs ++ (formatMaxStreamsHalf c u r).2.1) = maxStreamsSent u evs := by
          rw [h1, List.append_nil]
        constructor
        · rw [hcomp]; exact hI.computed
        · rw [e]; exact hI.sorted
        · rw [e]; exact hI.le
        · rw [e]; exact hI.init
        · rw [e, h2]; exact hI.pos
        · rw [e, h2]; exact hI.zero
        · rw [e]; exact hI.bound
      · rw [htp] at h1 h2 h3
        have e : maxStreamsSent u (evs ++ (formatMaxStreamsHalf c u r).2.1) =
            maxStreamsSent u evs ++ [L + tp.maxStreams u] := by
          rw [maxStreamsSent_append, h1]; simp [maxStreamsSent]
        have e' : latest (tp.maxStreams u) (maxStreamsSent u evs ++ [L + tp.maxStreams u]) = L + tp.maxStreams u := by
          rw [latest_append]; rfl
        constructor
        · rw [hcomp]; exact hI.computed
        · rw [e]
          refine List.pairwise_append.2 ⟨hI.sorted, List.pairwise_singleton _ _, ?_⟩
          intro a ha b hb'
          rw [List.mem_singleton] at hb'
          have := (hI.le a ha).2
          omega
        · rw [e, e']
          intro v hv
          rw [List.mem_append, List.mem_singleton] at hv
          rcases hv with hv | hv
          · have := hI.le v hv; omega
          · omega
        · rw [e, e']; omega
        · rw [e, e', h3, if_pos rfl, hcl]; intro _; rfl
        · intro h; exact absurd h h0
        · rw [e, e']; exact h2
  · obtain ⟨h1, h2⟩ := half_other c w u r hw
    have e : maxStreamsSent u (evs ++ (formatMaxStreamsHalf c w r).2.1) = maxStreamsSent u evs := by
      rw [maxStreamsSent_append, h1, List.append_nil]
    constructor
    · rw [hcomp]; exact hI.computed
    · rw [e]; exact hI.sorted
    · rw [e]; exact hI.le
    · rw [e]; exact hI.init
    · rw [e, h2]; exact hI.pos
    · rw [e, h2]; exact hI.zero
    · rw [e]; exact hb

theorem InvS.more {client : Bool} {tp : Tp} {ops : List Op} {c c' : Conn} {evs evs' : List Event} {u : Bool} {op : Op}
    (hI : InvS client tp ops c evs u) (he : maxStreamsSent u evs' = []) (hl : c'.maxStreamIdLocal u = c.maxStreamIdLocal u)
    (hc : c'.maxStreamIdLocalComputed u ≤ c.maxStreamIdLocalComputed u + 4) :
    InvS client tp (ops ++ [op]) c' (evs ++ evs') u := by
  have e : maxStreamsSent u (evs ++ evs') = maxStreamsSent u evs := by
    rw [maxStreamsSent_append, he, List.append_nil]
  have hcomp := hI.computed
  have hb := hI.bound
  constructor
  · rw [List.length_append, List.length_singleton]; omega
  · rw [e]; exact hI.sorted
  · rw [e]; exact hI.le
  · rw [e]; exact hI.init
  · rw [e, hl]; exact hI.pos
  · rw [e, hl]; exact hI.zero
  · rw [e, List.length_append, List.length_singleton]; omega

theorem run_invS (client : Bool) (l r : Tp) (p : Bool → Option Nat) (ops : List Op) (u : Bool)
    (hlen : ops.length < 2 ^ 50) (hN : l.maxStreams u < 2 ^ 50) :
    InvS client l ops (run (initial client l r p) ops).1 (run (initial client l r p) ops).2 u := by
  induction ops using StreamInput.snoc_induction with
  | h0 =>
    refine ⟨?_, List.Pairwise.nil, by simp [run, maxStreamsSent], Nat.le_refl _, ?_, ?_, ?_⟩
    · simp only [run, initial, streamTypeFromId]; omega
    · intro h; exact streamIdFromRank_pos _ _ _ h (by omega)
    · intro h
      refine ⟨?_, rfl⟩
      rw [show (run (initial client l r p) []).1.maxStreamIdLocal u = streamIdFromRank (l.maxStreams u) client u from rfl,
        h, streamIdFromRank_zero]
    · simp only [run, maxStreamsSent, latest, List.foldl]; omega
  | h1 ops op ih =>
    rw [List.length_append, List.length_singleton] at hlen
    have hI := ih (by omega)
    have hc := run_const (initial client l r p) ops
    rw [run_snoc]
    cases hn : (run (initial client l r p) ops).1.error with
    | some e =>
      rw [show step (run (initial client l r p) ops).1 op = ((run (initial client l r p) ops).1, []) by
        unfold step; rw [hn]]
      exact hI.more rfl rfl (Nat.le_add_right _ _)
    | none =>
      rw [step_of_none hn]
      by_cases hop : ∃ r, op = .prepareMaxStreams r
      · obtain ⟨rm, rfl⟩ := hop
        rw [show stepOk (run (initial client l r p) ops).1 (.prepareMaxStreams rm) =
          formatMaxStreams (run (initial client l r p) ops).1 rm from rfl]
        generalize run (initial client l r p) ops = st at hI hc hn
        have hf := half_frame st.1 false rm
        have h1 := hI.half hc.1 hc.2.1 hN (by omega) false rm
        have h2 := h1.half (hf.1.trans hc.1) (hf.2.1.trans hc.2.1) hN (by omega) true (formatMaxStreamsHalf st.1 false rm).2.2
        have h3 := h2.more (op := .prepareMaxStreams rm) (evs' := []) (c' := (formatMaxStreamsHalf
          (formatMaxStreamsHalf st.1 false rm).1 true (formatMaxStreamsHalf st.1 false rm).2.2).1) rfl rfl (by omega)
        rw [List.append_nil, List.append_assoc] at h3
        exact h3
      · obtain ⟨k1, k2, k3⟩ := stepOk_streamsLocal (run (initial client l r p) ops).1 op (fun r h => hop ⟨r, h⟩)
        exact hI.more (k1 u) (by rw [k2]) (k3 u)

/-! ## Frames on streams of the peer -/

theorem createLoop_next_le (fuel : Nat) (c : Conn) (id : Nat) (evs : List Event) (hI : InvA c evs) :
    ∀ t, (t = id % 4 → (createLoop fuel c id).1.nextStreamId t ≤ max (c.nextStreamId t) (id + 4)) ∧
      (t ≠ id % 4 → (createLoop fuel c id).1.nextStreamId t = c.nextStreamId t) := by
  induction fuel generalizing c evs with
  | zero => intro t; exact ⟨fun _ => Nat.le_max_left _ _, fun _ => rfl⟩
  | succ fuel ih =>
    intro t'
    by_cases hge : id ≥ c.nextStreamId (streamTypeFromId id)
    · have hI' := createLoop_inv 1 c id evs hI
      simp only [createLoop, if_pos hge] at hI' ⊢
      obtain ⟨t, ht⟩ : ∃ t, streamTypeFromId id = t := ⟨_, rfl⟩
      have ht' : id % 4 = t := ht
      rw [ht] at hI' hge ⊢
      have ht4 : t < 4 := by rw [← ht]; unfold streamTypeFromId; omega
      obtain ⟨n, hn, _⟩ := hI.cr t ht4
      obtain ⟨a, b⟩ := ih _ _ hI' t'
      rw [hn, createStream_next c t ht4 n hn] at a b
      rw [hn, createStream_next c t ht4 n hn]
      simp only [setN] at a b
      rw [hn] at hge
      constructor
      · intro h
        have := a h
        rw [if_pos (h.trans ht')] at this
        omega
      · intro h
        rw [b h, if_neg (by omega)]
    · simp only [createLoop, if_neg hge]
      exact ⟨fun _ => Nat.le_max_left _ _, fun _ => trivial⟩

/-- Streams opened by the peer stay within the limit. -/
def InvK (client : Bool) (c : Conn) (u : Bool) : Prop :=
  c.nextStreamId (streamId (!client) u 0) ≤ c.maxStreamIdLocal u + 4

theorem createMissing_invK {c : Conn} {evs : List Event} {u : Bool} (hI : InvA c evs) (hK : InvK c.client c u)
    (id : Nat) (r : Bool) : InvK c.client (createMissingStreams c id r).1 u := by
  unfold createMissingStreams
  dsimp only
  split
  · exact hK
  · split
    · exact hK
    · split
      · exact hK
      · split
        · exact hK
        · rename_i h1 h2 h3 h4
          unfold InvK
          rw [(createLoop_frame (id + 1) c id).1.maxStreamIdLocal]
          obtain ⟨a, b⟩ := createLoop_next_le (id + 1) c id evs hI (streamId (!c.client) u 0)
          by_cases ht : streamId (!c.client) u 0 = id % 4
          · have ha := a ht
            have h2' : isClientStreamId id = xor c.client r := by
              simpa using h2
            have hr : r = true := by
              cases r with
              | true => rfl
              | false =>
                exfalso
                revert h2' ht
                cases c.client <;> cases u <;> simp [isClientStreamId, streamId] <;> omega
            have hu : isUnidirStreamId id = u := by
              revert ht
              cases c.client <;> cases u <;> simp [isUnidirStreamId, streamId] <;> omega
            rw [hu] at h3
            have : ¬ id > c.maxStreamIdLocal u := fun h => h3 ⟨hr, h⟩
            unfold InvK at hK
            omega
          · rw [b ht]; exact hK

theorem run_invK (client : Bool) (l r : Tp) (p : Bool → Option Nat) (ops : List Op) (u : Bool)
    (hlen : ops.length < 2 ^ 50) (hN : l.maxStreams u < 2 ^ 50) :
    InvK client (run (initial client l r p) ops).1 u := by
  induction ops using StreamInput.snoc_induction with
  | h0 =>
    unfold InvK
    simp only [run, initial]
    cases client <;> cases u <;> simp [streamId] <;> unfold streamIdFromRank <;> simp <;> omega
  | h1 ops op ih =>
    rw [List.length_append, List.length_singleton] at hlen
    have hK := ih (by omega)
    have hA := run_invA client l r p ops
    have hc := run_const (initial client l r p) ops
    have hS := run_invS client l r p ops u (by omega) hN
    have hS' := run_invS client l r p (ops ++ [op]) u (by rw [List.length_append, List.length_singleton]; omega) hN
    have mono : (run (initial client l r p) ops).1.maxStreamIdLocal u ≤
        (run (initial client l r p) (ops ++ [op])).1.maxStreamIdLocal u := by
      by_cases h0 : l.maxStreams u = 0
      · rw [(hS.zero h0).1, (hS'.zero h0).1]; exact Nat.le_refl _
      · rw [hS.pos (by omega), hS'.pos (by omega)]
        have : latest (l.maxStreams u) (maxStreamsSent u (run (initial client l r p) ops).2) ≤
            latest (l.maxStreams u) (maxStreamsSent u (run (initial client l r p) (ops ++ [op])).2) := by
          have e : (run (initial client l r p) (ops ++ [op])).2 =
            (run (initial client l r p) ops).2 ++ (step (run (initial client l r p) ops).1 op).2 := by
            rw [run_snoc]
          have hle := hS'.le
          have hso := hS'.sorted
          rw [e, maxStreamsSent_append] at hle hso ⊢
          cases hx : maxStreamsSent u (run (initial client l r p) ops).2 with
          | nil =>
            have := hS'.init
            rw [e, maxStreamsSent_append, hx] at this
            exact this
          | cons a t =>
            have hmem : latest (l.maxStreams u) (a :: t) ∈ a :: t := by
              rw [← List.dropLast_concat_getLast (l := a :: t) (by simp), latest_append]
              simp [latest]
            have := (hle _ (List.mem_append_left _ (hx ▸ hmem))).2
            rw [hx] at this
            exact this
        omega
    have hclient : (run (initial client l r p) ops).1.client = client := hc.1
    rw [run_snoc] at mono ⊢
    cases hn : (run (initial client l r p) ops).1.error with
    | some e =>
      rw [show step (run (initial client l r p) ops).1 op = ((run (initial client l r p) ops).1, []) by
        unfold step; rw [hn]]
      exact hK
    | none =>
      rw [step_of_none hn] at mono ⊢
      generalize run (initial client l r p) ops = st at *
      have hcr : ∀ id rr, InvK client (createMissingStreams st.1 id rr).1 u := by
        intro id rr
        have := createMissing_invK hA (u := u) (by rw [hclient]; exact hK) id rr
        rw [hclient] at this
        exact this
      have hfo : ∀ id rr, InvK client (findOrCreateStream st.1 id rr).1 u := by
        intro id rr
        unfold findOrCreateStream
        split
        · exact hK
        · exact hcr id rr
      have hsame : (stepOk st.1 op).1.nextStreamId = st.1.nextStreamId → InvK client (stepOk st.1 op).1 u := by
        intro h
        unfold InvK at hK ⊢
        dsimp only at mono
        rw [h]
        omega
      cases op with
      | peerFrame id => exact hfo id true
      | maxStreamData id v => exact hfo id true
      | write id =>
        show InvK client (findStreamForWriting st.1 id).1 u
        unfold findStreamForWriting
        split
        · exact hK
        · split
          · exact hK
          · exact hcr id false
      | maxData v =>
        refine hsame ?_
        simp only [stepOk, decodeMaxData]
        split <;> rfl
      | maxStreams v n => exact hsame (decodeMaxStreams_fields st.1 v n).2.2.2.2.2.2.2.2.2.1
      | streamsBlocked v n =>
        refine hsame ?_
        simp only [stepOk, decodeStreamsBlocked]
        split <;> rfl
      | complete id =>
        refine hsame ?_
        simp only [stepOk, updateMaxStreamIdLocal]
        repeat' split
        all_goals rfl
      | delete id => exact hsame rfl
      | prepareMaxData d l' w r' =>
        refine hsame ?_
        rw [show stepOk st.1 (.prepareMaxData d l' w r') = prepareMaxData st.1 d l' w r' from rfl]
        rcases prepareMaxData_cases st.1 d l' w r' with h | ⟨i, h⟩ <;> rw [h]
        exact (formatMaxData_streams st.1 i r').2.1
      | requiredMaxStreamData id k w r' =>
        refine hsame ?_
        simp only [stepOk, requiredMaxStreamData]
        split
        · rfl
        · split
          · rename_i s _ _
            rcases formatMaxStreamData_cases st.1 id (u64 (s.maxdataLocal + increasedWindow w s.maxdataLocal)) r'
              with h | h <;> rw [h] <;> rfl
          · rfl
      | openFlowControl id k e =>
        refine hsame ?_
        simp only [stepOk, openFlowControl]
        split
        · rfl
        · split
          · rw [(formatMaxData_streams _ e (512 - 17)).2.1]
            rcases formatMaxStreamData_cases st.1 id (u64 (k + e)) 512 with h | h <;> rw [h] <;> rfl
          · rfl
      | prepareMaxStreams r' =>
        refine hsame ?_
        have h1 := half_frame st.1 false r'
        have h2 := half_frame (formatMaxStreamsHalf st.1 false r').1 true (formatMaxStreamsHalf st.1 false r').2.2
        exact h2.2.2.2.2.2.2.2.2.1.trans h1.2.2.2.2.2.2.2.2.1

/-- What a frame does that refers to a stream is to find or create the stream. -/
theorem frame_step {c : Conn} {op : Op} {id : Nat} (hop : FrameOn op id) :
    (stepOk c op).1.error = (findOrCreateStream c id true).1.error ∧
    (stepOk c op).2 = (findOrCreateStream c id true).2 ∧
    (stepOk c op).1.nextStreamId = (findOrCreateStream c id true).1.nextStreamId := by
  rcases hop with rfl | ⟨v, rfl⟩ <;> exact ⟨rfl, rfl, rfl⟩

theorem frame_result (client : Bool) (l r : Tp) (p : Bool → Option Nat) (ops : List Op)
    (hlen : ops.length < 2 ^ 50) (htp : SaneTp l)
    (herr : (run (initial client l r p) ops).1.error = none) (u : Bool) (id k : Nat)
    (hid : id = 4 * k + (if u then 2 else 0) + (if client then 1 else 0)) (op : Op) (hop : FrameOn op id) :
    (id > (run (initial client l r p) ops).1.maxStreamIdLocal u →
      (run (initial client l r p) (ops ++ [op])).1.error = some STREAM_LIMIT_ERROR ∧
      createdIn (run (initial client l r p) (ops ++ [op])).2 = createdIn (run (initial client l r p) ops).2) ∧
    (id ≤ (run (initial client l r p) ops).1.maxStreamIdLocal u →
      (run (initial client l r p) (ops ++ [op])).1.error = none ∧
      ∀ i j, j ≤ k → i = 4 * j + (if u then 2 else 0) + (if client then 1 else 0) →
        i ∈ createdIn (run (initial client l r p) (ops ++ [op])).2) := by
  have hN : l.maxStreams u < 2 ^ 50 := by cases u; exact htp.2.2.2.2.1; exact htp.2.2.2.2.2
  have hA := run_invA client l r p ops
  have hA' := run_invA client l r p (ops ++ [op])
  have hK := run_invK client l r p ops u hlen hN
  have hc := (run_const (initial client l r p) ops).1
  rw [run_snoc, step_of_none herr] at hA' ⊢
  obtain ⟨f1, f2, f3⟩ := frame_step (c := (run (initial client l r p) ops).1) hop
  dsimp only
  rw [f1, f2]
  have f4 := (findOrCreate_streams hA id true).2.2
  generalize run (initial client l r p) ops = st at *
  rw [f2] at hA'
  have hclient : st.1.client = client := hc
  have ht : id % 4 = streamId (!client) u 0 := by
    rw [hid]; cases client <;> cases u <;> simp [streamId] <;> omega
  have hcl : isClientStreamId id = xor client true := by
    rw [hid]; cases client <;> cases u <;> simp [isClientStreamId] <;> omega
  have hu : isUnidirStreamId id = u := by
    rw [hid]; cases client <;> cases u <;> simp [isUnidirStreamId] <;> omega
  obtain ⟨n, hn, _⟩ := hA.cr (id % 4) (by omega)
  unfold InvK at hK
  rw [← ht] at hK
  constructor
  · intro hgt
    have hnlt : ¬ id < st.1.nextStreamId (id % 4) := by
      rw [hn] at hK ⊢; omega
    have hnone : findStream st.1 id = none := by
      cases hf : findStream st.1 id with
      | none => rfl
      | some s =>
        obtain ⟨h1, h2⟩ := findStream_some hf
        have := hA.st s h1
        rw [h2] at this
        exact absurd this hnlt
    have : findOrCreateStream st.1 id true = (setError st.1 STREAM_LIMIT_ERROR, []) := by
      unfold findOrCreateStream
      rw [hnone]
      dsimp only
      unfold createMissingStreams
      dsimp only
      rw [if_neg (fun h => hnlt h.2), if_neg (by rw [hcl, hclient]; simp), if_pos ⟨rfl, by rw [hu]; exact hgt⟩]
    rw [this]
    refine ⟨by simp [setError, herr], by simp⟩
  · intro hle
    have herr' : (findOrCreateStream st.1 id true).1.error = none := by
      unfold findOrCreateStream
      split
      · exact herr
      · unfold createMissingStreams
        dsimp only
        split
        · exact herr
        · rename_i h1
          rw [if_neg (by rw [hcl, hclient]; simp), if_neg (by rw [hu]; omega),
            if_neg (fun h => h1 ⟨rfl, h⟩)]
          rw [(createLoop_frame _ _ _).2.2, herr]
    refine ⟨herr', fun i j hj hi => ?_⟩
    have hlt := f4 herr'
    obtain ⟨m, hm, hcr⟩ := hA'.cr (id % 4) (by omega)
    rw [f3] at hm
    have hmem : i ∈ (createdIn (st.2 ++ (findOrCreateStream st.1 id true).2)).filter (fun x => x % 4 == id % 4) := by
      rw [hcr, List.mem_map]
      refine ⟨j, ?_, ?_⟩
      · rw [List.mem_range]; omega
      · rw [hi, hid]; cases client <;> cases u <;> simp <;> omega
    exact (List.mem_filter.1 hmem).1

theorem frame_local (client : Bool) (l r : Tp) (p : Bool → Option Nat) (ops : List Op)
    (herr : (run (initial client l r p) ops).1.error = none) (u : Bool) (id k : Nat)
    (hid : id = 4 * k + (if u then 2 else 0) + (if client then 0 else 1))
    (hk : id ∉ createdIn (run (initial client l r p) ops).2) (op : Op) (hop : FrameOn op id) :
    (run (initial client l r p) (ops ++ [op])).1.error = some STREAM_LIMIT_ERROR ∧
    createdIn (run (initial client l r p) (ops ++ [op])).2 = createdIn (run (initial client l r p) ops).2 := by
  have hA := run_invA client l r p ops
  have hc := (run_const (initial client l r p) ops).1
  rw [run_snoc, step_of_none herr]
  obtain ⟨f1, f2, f3⟩ := frame_step (c := (run (initial client l r p) ops).1) hop
  dsimp only
  rw [f1, f2]
  generalize run (initial client l r p) ops = st at *
  have hclient : st.1.client = client := hc
  have hcl : isClientStreamId id = client := by
    rw [hid]; cases client <;> cases u <;> simp [isClientStreamId] <;> omega
  obtain ⟨n, hn, hcr⟩ := hA.cr (id % 4) (by omega)
  have hnlt : ¬ id < st.1.nextStreamId (id % 4) := by
    intro hlt
    apply hk
    have hmem : id ∈ (createdIn st.2).filter (fun x => x % 4 == id % 4) := by
      rw [hcr, List.mem_map]
      exact ⟨id / 4, by rw [List.mem_range]; omega, by omega⟩
    exact (List.mem_filter.1 hmem).1
  have hnone : findStream st.1 id = none := by
    cases hf : findStream st.1 id with
    | none => rfl
    | some s =>
      obtain ⟨h1, h2⟩ := findStream_some hf
      have := hA.st s h1
      rw [h2] at this
      exact absurd this hnlt
  have : findOrCreateStream st.1 id true = (setError st.1 STREAM_LIMIT_ERROR, []) := by
    unfold findOrCreateStream
    rw [hnone]
    dsimp only
    unfold createMissingStreams
    dsimp only
    rw [if_neg (fun h => hnlt h.2), if_pos (by rw [hcl, hclient]; cases client <;> simp)]
  rw [this]
  exact ⟨by simp [setError, herr], by simp⟩

end Picoquic.StreamLimits
