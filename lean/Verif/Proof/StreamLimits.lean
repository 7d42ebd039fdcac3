import Verif.Spec.StreamLimits
import Verif.Proof.IntFormat
import Verif.Proof.StreamRun
/-! Proofs about stream creation and limits. -/

namespace Picoquic.StreamLimits
open Picoquic Picoquic.Spec

/-! ## Histories -/

theorem run_append (c : Conn) (a b : List Op) :
    run c (a ++ b) = ((run (run c a).1 b).1, (run c a).2 ++ (run (run c a).1 b).2) := by
  induction a generalizing c with
  | nil => simp [run]
  | cons op a ih => simp only [List.cons_append, run, ih, List.append_assoc]

theorem run_snoc (c : Conn) (a : List Op) (op : Op) :
    run c (a ++ [op]) = ((step (run c a).1 op).1, (run c a).2 ++ (step (run c a).1 op).2) := by
  rw [run_append]; simp [run]

theorem createdIn_append (a b : List Event) : createdIn (a ++ b) = createdIn a ++ createdIn b := by
  induction a with
  | nil => rfl
  | cons e a ih => cases e <;> simp [createdIn, ih]

theorem maxDataSent_append (a b : List Event) : maxDataSent (a ++ b) = maxDataSent a ++ maxDataSent b := by
  induction a with
  | nil => rfl
  | cons e a ih => cases e <;> simp [maxDataSent, ih]

theorem maxStreamDataSent_append (id : Nat) (a b : List Event) :
    maxStreamDataSent id (a ++ b) = maxStreamDataSent id a ++ maxStreamDataSent id b := by
  induction a with
  | nil => rfl
  | cons e a ih => cases e <;> simp [maxStreamDataSent, ih] <;> split <;> simp

theorem maxStreamsSent_append (u : Bool) (a b : List Event) :
    maxStreamsSent u (a ++ b) = maxStreamsSent u a ++ maxStreamsSent u b := by
  induction a with
  | nil => rfl
  | cons e a ih => cases e <;> simp [maxStreamsSent, ih] <;> split <;> simp

theorem maxDataReceived_append (a b : List Op) :
    maxDataReceived (a ++ b) = maxDataReceived a ++ maxDataReceived b := by
  induction a with
  | nil => rfl
  | cons e a ih => cases e <;> simp [maxDataReceived, ih]

theorem maxStreamDataReceived_append (id : Nat) (a b : List Op) :
    maxStreamDataReceived id (a ++ b) = maxStreamDataReceived id a ++ maxStreamDataReceived id b := by
  induction a with
  | nil => rfl
  | cons e a ih => cases e <;> simp [maxStreamDataReceived, ih] <;> split <;> simp

theorem maxStreamsReceived_append (u : Bool) (a b : List Op) :
    maxStreamsReceived u (a ++ b) = maxStreamsReceived u a ++ maxStreamsReceived u b := by
  induction a with
  | nil => rfl
  | cons e a ih => cases e <;> simp [maxStreamsReceived, ih] <;> split <;> simp

theorem expectedTotal_append (a b : List Op) : expectedTotal (a ++ b) = expectedTotal a + expectedTotal b := by
  induction a with
  | nil => simp [expectedTotal]
  | cons e a ih => cases e <;> simp [expectedTotal, ih]; omega

theorem largest_append (x : Nat) (a b : List Nat) : largest x (a ++ b) = largest (largest x a) b := by
  simp [largest]

theorem latest_append (x : Nat) (a b : List Nat) : latest x (a ++ b) = latest (latest x a) b := by
  simp [latest]

/-! ## Stream creation -/

/-- The streams created of each type are numbered from the first without gap, and the streams that
exist were created. -/
structure InvA (c : Conn) (evs : List Event) : Prop where
  cr : ∀ t, t < 4 → ∃ n, c.nextStreamId t = 4 * n + t ∧
    (createdIn evs).filter (fun i => i % 4 == t) = (List.range n).map (fun k => 4 * k + t)
  st : ∀ s ∈ c.streams, s.id < c.nextStreamId (s.id % 4)

theorem newStream_id (c : Conn) (id : Nat) : (newStream c id).id = id := by
  unfold newStream; split <;> split <;> rfl

theorem createStream_next (c : Conn) (t : Nat) (ht : t < 4) (n : Nat) (h : c.nextStreamId t = 4 * n + t) :
    createStream c (4 * n + t) =
      { c with streams := c.streams ++ [newStream c (4 * n + t)]
               nextStreamId := setN c.nextStreamId t (4 * (n + 1) + t) } := by
  have hm : streamTypeFromId (4 * n + t) = t := by unfold streamTypeFromId; omega
  unfold createStream
  rw [hm, h, if_pos (Nat.le_refl _), show nextStreamIdForType (4 * n + t) = 4 * (n + 1) + t by
    unfold nextStreamIdForType; omega]

theorem createLoop_inv (fuel : Nat) (c : Conn) (id : Nat) (evs : List Event) (hI : InvA c evs) :
    InvA (createLoop fuel c id).1 (evs ++ (createLoop fuel c id).2) := by
  induction fuel generalizing c evs with
  | zero => simpa [createLoop] using hI
  | succ fuel ih =>
    by_cases hge : id ≥ c.nextStreamId (streamTypeFromId id)
    · simp only [createLoop, if_pos hge]
      obtain ⟨t, ht⟩ : ∃ t, streamTypeFromId id = t := ⟨_, rfl⟩
      rw [ht]
      have ht4 : t < 4 := by rw [← ht]; unfold streamTypeFromId; omega
      obtain ⟨n, hn, hc⟩ := hI.cr t ht4
      have e1 := createStream_next c t ht4 n hn
      have := ih (createStream c (c.nextStreamId t)) (evs ++ [.created (c.nextStreamId t)]) ?_
      · simpa using this
      · rw [hn, e1]
        constructor
        · intro t' ht'
          by_cases htt : t' = t
          · subst htt
            refine ⟨n + 1, by simp [setN], ?_⟩
            rw [createdIn_append, List.filter_append, hc, List.range_succ, List.map_append]
            simp [createdIn]; omega
          · obtain ⟨m, hm, hmc⟩ := hI.cr t' ht'
            refine ⟨m, by simp [setN, htt, hm], ?_⟩
            rw [createdIn_append, List.filter_append, hmc]
            simp [createdIn]; omega
        · intro x hx
          simp only [List.mem_append, List.mem_singleton] at hx
          rcases hx with hx | hx
          · have := hI.st x hx
            simp only [setN]
            split
            · rename_i h; rw [h, hn] at this; omega
            · exact this
          · subst hx
            rw [newStream_id]
            have : (4 * n + t) % 4 = t := by omega
            simp [this, setN]
    · simpa only [createLoop, if_neg hge, List.append_nil] using hI

/-- What the loop does: it creates the streams of the type of `id` from the next one to `id`. -/
theorem createLoop_reaches (fuel : Nat) (c : Conn) (t n m : Nat) (ht : t < 4)
    (hn : c.nextStreamId t = 4 * n + t) (hnm : n ≤ m) (hf : m + 1 - n ≤ fuel) :
    (createLoop fuel c (4 * m + t)).2 = (List.range' n (m + 1 - n)).map (fun k => .created (4 * k + t)) := by
  induction fuel generalizing c n with
  | zero => omega
  | succ fuel ih =>
    have hty : streamTypeFromId (4 * m + t) = t := by unfold streamTypeFromId; omega
    have hge : 4 * m + t ≥ c.nextStreamId (streamTypeFromId (4 * m + t)) := by rw [hty, hn]; omega
    simp only [createLoop, if_pos hge]
    rw [hty, hn]
    rw [show m + 1 - n = (m - n) + 1 by omega, List.range'_succ]
    simp only [List.map_cons, List.cons.injEq, true_and]
    by_cases hm : n = m
    · subst hm
      simp only [Nat.sub_self, List.range'_zero, List.map_nil]
      cases fuel with
      | zero => rfl
      | succ fuel =>
        have : ¬ 4 * n + t ≥ (createStream c (4 * n + t)).nextStreamId (streamTypeFromId (4 * n + t)) := by
          rw [createStream_next c t ht n hn, hty]; simp [setN]
        simp only [createLoop, if_neg this]
    · have := ih (createStream c (4 * n + t)) (n + 1) (by rw [createStream_next c t ht n hn]; simp [setN])
        (by omega) (by omega)
      rw [this, show m + 1 - (n + 1) = m - n by omega]

/-- Everything but the streams and the error is the same. -/
structure Same (c c' : Conn) : Prop where
  client : c'.client = c.client
  localTp : c'.localTp = c.localTp
  remoteTp : c'.remoteTp = c.remoteTp
  maxdataLocal : c'.maxdataLocal = c.maxdataLocal
  maxdataRemote : c'.maxdataRemote = c.maxdataRemote
  maxStreamIdLocal : c'.maxStreamIdLocal = c.maxStreamIdLocal
  computed : c'.maxStreamIdLocalComputed = c.maxStreamIdLocalComputed
  maxStreamIdRemote : c'.maxStreamIdRemote = c.maxStreamIdRemote

theorem Same.rfl' (c : Conn) : Same c c := ⟨rfl, rfl, rfl, rfl, rfl, rfl, rfl, rfl⟩

theorem Same.trans {a b c : Conn} (h : Same a b) (g : Same b c) : Same a c :=
  ⟨g.1.trans h.1, g.2.trans h.2, g.3.trans h.3, g.4.trans h.4, g.5.trans h.5, g.6.trans h.6,
    g.7.trans h.7, g.8.trans h.8⟩

/-- No frame is sent by these events. -/
structure Quiet (evs : List Event) : Prop where
  maxData : maxDataSent evs = []
  maxStreamData : ∀ j, maxStreamDataSent j evs = []
  maxStreams : ∀ u, maxStreamsSent u evs = []

theorem Quiet.nil : Quiet [] := ⟨rfl, fun _ => rfl, fun _ => rfl⟩

theorem createStream_same (c : Conn) (id : Nat) : Same c (createStream c id) := by
  constructor <;> rfl

theorem createStream_error (c : Conn) (id : Nat) : (createStream c id).error = c.error := by
  rfl

theorem createLoop_frame (fuel : Nat) (c : Conn) (id : Nat) :
    Same c (createLoop fuel c id).1 ∧ Quiet (createLoop fuel c id).2 ∧
    (createLoop fuel c id).1.error = c.error := by
  induction fuel generalizing c with
  | zero => exact ⟨Same.rfl' c, Quiet.nil, rfl⟩
  | succ fuel ih =>
    by_cases h : id ≥ c.nextStreamId (streamTypeFromId id)
    · simp only [createLoop, if_pos h]
      obtain ⟨a, ⟨b, d, e⟩, f⟩ := ih (createStream c (c.nextStreamId (streamTypeFromId id)))
      exact ⟨(createStream_same _ _).trans a, ⟨b, d, e⟩, f.trans (createStream_error _ _)⟩
    · simp only [createLoop, if_neg h]
      exact ⟨Same.rfl' c, Quiet.nil, trivial⟩

theorem createMissing_cases (c : Conn) (id : Nat) (r : Bool) :
    createMissingStreams c id r = (c, []) ∨ (∃ e, createMissingStreams c id r = (setError c e, [])) ∨
    createMissingStreams c id r = createLoop (id + 1) c id := by
  unfold createMissingStreams
  dsimp only
  repeat' split
  · exact .inl rfl
  · exact .inr (.inl ⟨_, rfl⟩)
  · exact .inr (.inl ⟨_, rfl⟩)
  · exact .inr (.inl ⟨_, rfl⟩)
  · exact .inr (.inr rfl)

theorem createMissing_frame (c : Conn) (id : Nat) (r : Bool) :
    Same c (createMissingStreams c id r).1 ∧ Quiet (createMissingStreams c id r).2 := by
  rcases createMissing_cases c id r with h | ⟨e, h⟩ | h <;> rw [h]
  · exact ⟨Same.rfl' c, Quiet.nil⟩
  · exact ⟨⟨rfl, rfl, rfl, rfl, rfl, rfl, rfl, rfl⟩, Quiet.nil⟩
  · exact ⟨(createLoop_frame _ _ _).1, (createLoop_frame _ _ _).2.1⟩

theorem findOrCreate_frame (c : Conn) (id : Nat) (r : Bool) :
    Same c (findOrCreateStream c id r).1 ∧ Quiet (findOrCreateStream c id r).2 := by
  unfold findOrCreateStream
  split
  · exact ⟨Same.rfl' c, Quiet.nil⟩
  · exact createMissing_frame c id r

theorem findForWriting_frame (c : Conn) (id : Nat) :
    Same c (findStreamForWriting c id).1 ∧ Quiet (findStreamForWriting c id).2 := by
  unfold findStreamForWriting
  split
  · exact ⟨Same.rfl' c, Quiet.nil⟩
  · split
    · exact ⟨Same.rfl' c, Quiet.nil⟩
    · exact createMissing_frame c id false

theorem updateStream_same (c : Conn) (id : Nat) (f : Stream → Stream) : Same c (updateStream c id f) :=
  ⟨rfl, rfl, rfl, rfl, rfl, rfl, rfl, rfl⟩

theorem InvA.mono {c c' : Conn} {evs evs' : List Event} (h : InvA c evs)
    (hn : c'.nextStreamId = c.nextStreamId) (hs : ∀ s ∈ c'.streams, ∃ s0 ∈ c.streams, s0.id = s.id)
    (he : createdIn evs' = []) : InvA c' (evs ++ evs') := by
  constructor
  · intro t ht
    rw [hn, createdIn_append, he, List.append_nil]
    exact h.cr t ht
  · intro s hs'
    obtain ⟨s0, h0, h1⟩ := hs s hs'
    rw [hn, ← h1]
    exact h.st s0 h0

theorem InvA.createMissing {c : Conn} {evs : List Event} (hI : InvA c evs) (id : Nat) (r : Bool) :
    InvA (createMissingStreams c id r).1 (evs ++ (createMissingStreams c id r).2) := by
  rcases createMissing_cases c id r with h | ⟨e, h⟩ | h <;> rw [h]
  · exact hI.mono rfl (fun s hs => ⟨s, hs, rfl⟩) rfl
  · exact hI.mono rfl (fun s hs => ⟨s, hs, rfl⟩) rfl
  · exact createLoop_inv _ _ _ _ hI

theorem InvA.findOrCreate {c : Conn} {evs : List Event} (hI : InvA c evs) (id : Nat) (r : Bool) :
    InvA (findOrCreateStream c id r).1 (evs ++ (findOrCreateStream c id r).2) := by
  unfold findOrCreateStream
  split
  · exact hI.mono rfl (fun s hs => ⟨s, hs, rfl⟩) rfl
  · exact hI.createMissing id r

theorem mem_updateStream {c : Conn} {id : Nat} {f : Stream → Stream} (hf : ∀ s, (f s).id = s.id)
    {s : Stream} (hs : s ∈ (updateStream c id f).streams) : ∃ s0 ∈ c.streams, s0.id = s.id := by
  unfold updateStream at hs
  simp only [List.mem_map] at hs
  obtain ⟨s0, h0, h1⟩ := hs
  refine ⟨s0, h0, ?_⟩
  rw [← h1]
  split
  · exact (hf s0).symm
  · rfl

theorem formatMaxData_cases (c : Conn) (i room : Nat) :
    formatMaxData c i room = (c, []) ∨
    formatMaxData c i room =
      ({ c with maxdataLocal := u64 (c.maxdataLocal + i) }, [.maxData (u64 (c.maxdataLocal + i))]) := by
  unfold formatMaxData
  dsimp only
  split
  · exact .inr rfl
  · exact .inl rfl

theorem prepareMaxData_cases (c : Conn) (d l w r : Nat) :
    prepareMaxData c d l w r = (c, []) ∨ ∃ i, prepareMaxData c d l w r = formatMaxData c i r := by
  unfold prepareMaxData
  by_cases h1 : l ≠ 0
  · rw [if_pos h1]
    split
    · exact .inr ⟨_, rfl⟩
    · exact .inl rfl
  · rw [if_neg h1]
    split
    · exact .inr ⟨_, rfl⟩
    · exact .inl rfl

theorem formatMaxStreamData_cases (c : Conn) (id v room : Nat) :
    formatMaxStreamData c id v room = (c, []) ∨
    formatMaxStreamData c id v room =
      (updateStream c id (fun s => { s with maxdataLocal := v }), [.maxStreamData id v]) := by
  unfold formatMaxStreamData
  split
  · exact .inr rfl
  · exact .inl rfl

theorem stepOk_invA {c : Conn} {evs : List Event} (hI : InvA c evs) (op : Op) :
    InvA (stepOk c op).1 (evs ++ (stepOk c op).2) := by
  have triv : ∀ s ∈ c.streams, ∃ s0 ∈ c.streams, s0.id = s.id := fun s hs => ⟨s, hs, rfl⟩
  cases op with
  | peerFrame id => exact hI.findOrCreate id true
  | maxStreamData id v =>
    simp only [stepOk, decodeMaxStreamData]
    have h := (hI.findOrCreate id true).mono (c' := updateStream (findOrCreateStream c id true).1 id
      (fun s => if v > s.maxdataRemote then { s with maxdataRemote := v } else s)) (evs' := []) rfl
      (fun s hs => mem_updateStream (by intro s; split <;> rfl) hs) rfl
    simpa using h
  | maxData v =>
    simp only [stepOk, decodeMaxData]
    split <;> exact hI.mono rfl triv rfl
  | maxStreams u n =>
    simp only [stepOk, decodeMaxStreams]
    split <;> split <;> exact hI.mono rfl triv rfl
  | streamsBlocked u n =>
    simp only [stepOk, decodeStreamsBlocked]
    split <;> exact hI.mono rfl triv rfl
  | write id =>
    simp only [stepOk, findStreamForWriting]
    split
    · exact hI.mono rfl triv rfl
    · split
      · exact hI.mono rfl triv rfl
      · exact hI.createMissing id false
  | complete id =>
    simp only [stepOk, updateMaxStreamIdLocal]
    split
    · exact hI.mono rfl triv rfl
    · split
      · exact hI.mono rfl (fun s hs => mem_updateStream (c := c) (id := id)
          (f := fun s => { s with maxStreamUpdated := true }) (by intro s; rfl) hs) rfl
      · exact hI.mono rfl triv rfl
  | delete id =>
    simp only [stepOk, deleteStream]
    exact hI.mono rfl (fun s hs => ⟨s, (List.mem_filter.1 hs).1, rfl⟩) rfl
  | prepareMaxData d l w r =>
    simp only [stepOk]
    have key : ∀ i, InvA (formatMaxData c i r).1 (evs ++ (formatMaxData c i r).2) := by
      intro i
      rcases formatMaxData_cases c i r with h | h <;> rw [h] <;> exact hI.mono rfl triv rfl
    rcases prepareMaxData_cases c d l w r with h | ⟨i, h⟩ <;> rw [h]
    · exact hI.mono rfl triv rfl
    · exact key i
  | requiredMaxStreamData id k w r =>
    simp only [stepOk, requiredMaxStreamData]
    repeat' split
    · exact hI.mono rfl triv rfl
    · rename_i s _ _
      rcases formatMaxStreamData_cases c id (u64 (s.maxdataLocal + increasedWindow w s.maxdataLocal)) r with h | h <;> rw [h]
      · exact hI.mono rfl triv rfl
      · exact hI.mono rfl (fun s hs => mem_updateStream (by intro s; rfl) hs) rfl
    · exact hI.mono rfl triv rfl
  | openFlowControl id k e =>
    simp only [stepOk, openFlowControl]
    repeat' split
    · exact hI.mono rfl triv rfl
    · rcases formatMaxStreamData_cases c id (u64 (k + e)) 512 with h | h <;> rw [h]
      · rcases formatMaxData_cases c e (512 - 17) with g | g <;> rw [g] <;> exact hI.mono rfl triv rfl
      · dsimp only
        rcases formatMaxData_cases (updateStream c id (fun s => { s with maxdataLocal := u64 (k + e) })) e (512 - 17)
          with g | g <;> rw [g] <;>
          exact hI.mono rfl (fun s hs => mem_updateStream (f := fun s => { s with maxdataLocal := u64 (k + e) })
            (by intro s; rfl) hs) rfl
    · exact hI.mono rfl triv rfl
  | prepareMaxStreams r =>
    simp only [stepOk, formatMaxStreams]
    have h1 : ∀ (c : Conn) (evs : List Event) (u : Bool) (r : Nat), InvA c evs →
        InvA (formatMaxStreamsHalf c u r).1 (evs ++ (formatMaxStreamsHalf c u r).2.1) := by
      intro c evs u r hI
      have triv : ∀ s ∈ c.streams, ∃ s0 ∈ c.streams, s0.id = s.id := fun s hs => ⟨s, hs, rfl⟩
      unfold formatMaxStreamsHalf
      dsimp only
      repeat' split
      all_goals exact hI.mono rfl triv rfl
    rw [← List.append_assoc]
    exact h1 _ _ _ _ (h1 _ _ _ _ hI)

/-! ## Fields that only change in one place -/

theorem half_frame (c : Conn) (u : Bool) (r : Nat) :
    (formatMaxStreamsHalf c u r).1.client = c.client ∧ (formatMaxStreamsHalf c u r).1.localTp = c.localTp ∧
    (formatMaxStreamsHalf c u r).1.remoteTp = c.remoteTp ∧
    (formatMaxStreamsHalf c u r).1.maxdataLocal = c.maxdataLocal ∧
    (formatMaxStreamsHalf c u r).1.maxdataRemote = c.maxdataRemote ∧
    (formatMaxStreamsHalf c u r).1.maxStreamIdLocalComputed = c.maxStreamIdLocalComputed ∧
    (formatMaxStreamsHalf c u r).1.maxStreamIdRemote = c.maxStreamIdRemote ∧
    (formatMaxStreamsHalf c u r).1.streams = c.streams ∧
    (formatMaxStreamsHalf c u r).1.nextStreamId = c.nextStreamId ∧
    (formatMaxStreamsHalf c u r).1.error = c.error ∧
    maxDataSent (formatMaxStreamsHalf c u r).2.1 = [] ∧
    (∀ j, maxStreamDataSent j (formatMaxStreamsHalf c u r).2.1 = []) := by
  unfold formatMaxStreamsHalf
  dsimp only
  repeat' split
  all_goals exact ⟨rfl, rfl, rfl, rfl, rfl, rfl, rfl, rfl, rfl, rfl, rfl, fun _ => rfl⟩

theorem decodeMaxStreams_fields (c : Conn) (u : Bool) (n : Nat) :
    (∀ v, (decodeMaxStreams c u n).maxStreamIdRemote v =
      if v = u then max (c.maxStreamIdRemote v) (streamIdFromRank n c.client v) else c.maxStreamIdRemote v) ∧
    (decodeMaxStreams c u n).client = c.client ∧ (decodeMaxStreams c u n).localTp = c.localTp ∧
    (decodeMaxStreams c u n).remoteTp = c.remoteTp ∧ (decodeMaxStreams c u n).maxdataRemote = c.maxdataRemote ∧
    (decodeMaxStreams c u n).maxdataLocal = c.maxdataLocal ∧
    (decodeMaxStreams c u n).maxStreamIdLocal = c.maxStreamIdLocal ∧
    (decodeMaxStreams c u n).maxStreamIdLocalComputed = c.maxStreamIdLocalComputed ∧
    (decodeMaxStreams c u n).streams = c.streams ∧ (decodeMaxStreams c u n).nextStreamId = c.nextStreamId ∧
    ((decodeMaxStreams c u n).error = none ↔
      c.error = none ∧ streamIdFromRank n c.client u < 4611686018427387904) := by
  have hgen : ∀ (i : Nat) (d : Conn), d = (let c' := if i > c.maxStreamIdRemote u then
      { c with maxStreamIdRemote := setB c.maxStreamIdRemote u i } else c
      if i ≥ 4611686018427387904 then setError c' STREAM_LIMIT_ERROR else c') →
    (∀ v, d.maxStreamIdRemote v = if v = u then max (c.maxStreamIdRemote v) i else c.maxStreamIdRemote v) ∧
    d.client = c.client ∧ d.localTp = c.localTp ∧ d.remoteTp = c.remoteTp ∧ d.maxdataRemote = c.maxdataRemote ∧
    d.maxdataLocal = c.maxdataLocal ∧ d.maxStreamIdLocal = c.maxStreamIdLocal ∧
    d.maxStreamIdLocalComputed = c.maxStreamIdLocalComputed ∧ d.streams = c.streams ∧
    d.nextStreamId = c.nextStreamId ∧ (d.error = none ↔ c.error = none ∧ i < 4611686018427387904) := by
    intro i d hd
    by_cases h1 : i > c.maxStreamIdRemote u
    · simp only [if_pos h1] at hd
      by_cases h2 : i ≥ 4611686018427387904
      · rw [if_pos h2] at hd
        subst hd
        refine ⟨fun v => ?_, rfl, rfl, rfl, rfl, rfl, rfl, rfl, rfl, rfl, ?_⟩
        · simp only [setError, setB]
          by_cases hv : v = u
          · subst hv; simp only [if_true]; omega
          · simp only [if_neg hv]
        · constructor
          · intro h; simp [setError] at h
          · intro h; omega
      · rw [if_neg h2] at hd
        subst hd
        refine ⟨fun v => ?_, rfl, rfl, rfl, rfl, rfl, rfl, rfl, rfl, rfl, ?_⟩
        · simp only [setB]
          by_cases hv : v = u
          · subst hv; simp only [if_true]; omega
          · simp only [if_neg hv]
        · exact ⟨fun h => ⟨h, by omega⟩, fun h => h.1⟩
    · simp only [if_neg h1] at hd
      have h0 : ∀ v, c.maxStreamIdRemote v = if v = u then max (c.maxStreamIdRemote v) i else c.maxStreamIdRemote v := by
        intro v
        by_cases hv : v = u
        · subst hv; simp only [if_true]; omega
        · simp only [if_neg hv]
      by_cases h2 : i ≥ 4611686018427387904
      · rw [if_pos h2] at hd
        subst hd
        refine ⟨h0, rfl, rfl, rfl, rfl, rfl, rfl, rfl, rfl, rfl, ?_⟩
        constructor
        · intro h; simp [setError] at h
        · intro h; omega
      · rw [if_neg h2] at hd
        subst hd
        exact ⟨h0, rfl, rfl, rfl, rfl, rfl, rfl, rfl, rfl, rfl, ⟨fun h => ⟨h, by omega⟩, fun h => h.1⟩⟩
  obtain ⟨a, b⟩ := hgen (streamIdFromRank n c.client u) (decodeMaxStreams c u n) rfl
  refine ⟨fun v => ?_, b⟩
  rw [a v]
  by_cases hv : v = u
  · rw [hv]
  · simp only [if_neg hv]

/-- The fields no operation changes, and the connection limit learned from the peer. -/
theorem stepOk_const (c : Conn) (op : Op) :
    (stepOk c op).1.client = c.client ∧ (stepOk c op).1.localTp = c.localTp ∧
    (stepOk c op).1.remoteTp = c.remoteTp ∧
    (stepOk c op).1.maxdataRemote = largest c.maxdataRemote (maxDataReceived [op]) ∧
    (∀ u, (stepOk c op).1.maxStreamIdRemote u =
      (maxStreamsReceived u [op]).foldl (fun l n => max l (streamIdFromRank n c.client u)) (c.maxStreamIdRemote u)) := by
  have same : ∀ c', Same c c' → c'.client = c.client ∧ c'.localTp = c.localTp ∧ c'.remoteTp = c.remoteTp ∧
      c'.maxdataRemote = c.maxdataRemote ∧ (∀ u, c'.maxStreamIdRemote u = c.maxStreamIdRemote u) := by
    intro c' h
    exact ⟨h.client, h.localTp, h.remoteTp, h.maxdataRemote, fun u => by rw [h.maxStreamIdRemote]⟩
  have fmd : ∀ c i r, (formatMaxData c i r).1.client = c.client ∧ (formatMaxData c i r).1.localTp = c.localTp ∧
      (formatMaxData c i r).1.remoteTp = c.remoteTp ∧ (formatMaxData c i r).1.maxdataRemote = c.maxdataRemote ∧
      (∀ u, (formatMaxData c i r).1.maxStreamIdRemote u = c.maxStreamIdRemote u) := by
    intro c i r
    rcases formatMaxData_cases c i r with h | h <;> rw [h] <;> exact ⟨rfl, rfl, rfl, rfl, fun _ => rfl⟩
  have fms : ∀ id v r, Same c (formatMaxStreamData c id v r).1 := by
    intro id v r
    rcases formatMaxStreamData_cases c id v r with h | h <;> rw [h]
    · exact Same.rfl' c
    · exact updateStream_same c _ _
  cases op with
  | peerFrame id => exact same _ (findOrCreate_frame c id true).1
  | maxStreamData id v =>
    exact same _ ((findOrCreate_frame c id true).1.trans (updateStream_same _ _ _))
  | maxData v =>
    simp only [stepOk, decodeMaxData, maxDataReceived, largest, List.foldl, maxStreamsReceived]
    split
    · exact ⟨rfl, rfl, rfl, by dsimp only; omega, fun _ => rfl⟩
    · exact ⟨rfl, rfl, rfl, by omega, fun _ => rfl⟩
  | maxStreams u n =>
    obtain ⟨key, key2⟩ := decodeMaxStreams_fields c u n
    rw [show (stepOk c (.maxStreams u n)).1 = decodeMaxStreams c u n from rfl]
    generalize decodeMaxStreams c u n = d at key key2 ⊢
    refine ⟨key2.1, key2.2.1, key2.2.2.1, key2.2.2.2.1, fun v => ?_⟩
    simp only [key, maxStreamsReceived]
    by_cases hv : v = u
    · subst hv; simp
    · rw [if_neg hv, if_neg (fun h => hv h.symm)]; rfl
  | streamsBlocked u n =>
    simp only [stepOk, decodeStreamsBlocked]
    split <;> exact ⟨rfl, rfl, rfl, rfl, fun _ => rfl⟩
  | write id => exact same _ (findForWriting_frame c id).1
  | complete id =>
    simp only [stepOk, updateMaxStreamIdLocal]
    repeat' split
    all_goals exact ⟨rfl, rfl, rfl, rfl, fun _ => rfl⟩
  | delete id => exact ⟨rfl, rfl, rfl, rfl, fun _ => rfl⟩
  | prepareMaxData d l w r =>
    simp only [stepOk]
    rcases prepareMaxData_cases c d l w r with h | ⟨i, h⟩ <;> rw [h]
    · exact ⟨rfl, rfl, rfl, rfl, fun _ => rfl⟩
    · exact fmd c i r
  | requiredMaxStreamData id k w r =>
    simp only [stepOk, requiredMaxStreamData]
    repeat' split
    · exact ⟨rfl, rfl, rfl, rfl, fun _ => rfl⟩
    · exact same _ (fms id _ r)
    · exact ⟨rfl, rfl, rfl, rfl, fun _ => rfl⟩
  | openFlowControl id k e =>
    simp only [stepOk, openFlowControl]
    repeat' split
    · exact ⟨rfl, rfl, rfl, rfl, fun _ => rfl⟩
    · obtain ⟨a1, a2, a3, a4, a5⟩ := same _ (fms id (u64 (k + e)) 512)
      obtain ⟨b1, b2, b3, b4, b5⟩ := fmd (formatMaxStreamData c id (u64 (k + e)) 512).1 e (512 - 17)
      exact ⟨b1.trans a1, b2.trans a2, b3.trans a3, b4.trans a4, fun u => (b5 u).trans (a5 u)⟩
    · exact ⟨rfl, rfl, rfl, rfl, fun _ => rfl⟩
  | prepareMaxStreams r =>
    simp only [stepOk, formatMaxStreams]
    have h1 := half_frame c false r
    have h2 := half_frame (formatMaxStreamsHalf c false r).1 true (formatMaxStreamsHalf c false r).2.2
    refine ⟨h2.1.trans h1.1, h2.2.1.trans h1.2.1, h2.2.2.1.trans h1.2.2.1,
      h2.2.2.2.2.1.trans h1.2.2.2.2.1, fun u => ?_⟩
    rw [h2.2.2.2.2.2.2.1, h1.2.2.2.2.2.2.1]
    rfl

theorem step_error_none {c : Conn} {op : Op} (h : (step c op).1.error = none) : c.error = none := by
  unfold step at h
  split at h
  · exact h
  · assumption

theorem run_error_none {c : Conn} {a b : List Op} (h : (run c (a ++ b)).1.error = none) :
    (run c a).1.error = none := by
  induction b using StreamInput.snoc_induction with
  | h0 => simpa using h
  | h1 b op ih =>
    rw [← List.append_assoc, run_snoc] at h
    exact ih (step_error_none h)

theorem step_of_none {c : Conn} {op : Op} (h : c.error = none) : step c op = stepOk c op := by
  unfold step; rw [h]

theorem run_const (c : Conn) (ops : List Op) :
    (run c ops).1.client = c.client ∧ (run c ops).1.localTp = c.localTp ∧ (run c ops).1.remoteTp = c.remoteTp := by
  induction ops generalizing c with
  | nil => exact ⟨rfl, rfl, rfl⟩
  | cons op ops ih =>
    have h1 : (step c op).1.client = c.client ∧ (step c op).1.localTp = c.localTp ∧ (step c op).1.remoteTp = c.remoteTp := by
      unfold step
      split
      · exact ⟨rfl, rfl, rfl⟩
      · exact ⟨(stepOk_const c op).1, (stepOk_const c op).2.1, (stepOk_const c op).2.2.1⟩
    obtain ⟨a, b, d⟩ := ih (step c op).1
    exact ⟨a.trans h1.1, b.trans h1.2.1, d.trans h1.2.2⟩

theorem run_maxdataRemote (c : Conn) (ops : List Op) (h : (run c ops).1.error = none) :
    (run c ops).1.maxdataRemote = largest c.maxdataRemote (maxDataReceived ops) ∧
    ∀ u, (run c ops).1.maxStreamIdRemote u =
      (maxStreamsReceived u ops).foldl (fun l n => max l (streamIdFromRank n c.client u)) (c.maxStreamIdRemote u) := by
  induction ops using StreamInput.snoc_induction with
  | h0 => exact ⟨rfl, fun _ => rfl⟩
  | h1 ops op ih =>
    have hn := run_error_none h
    obtain ⟨i1, i2⟩ := ih hn
    rw [run_snoc, step_of_none hn]
    obtain ⟨_, _, _, k1, k2⟩ := stepOk_const (run c ops).1 op
    constructor
    · rw [k1, i1, maxDataReceived_append, largest_append]
    · intro u
      rw [k2, i2, (run_const c ops).1, maxStreamsReceived_append, List.foldl_append]

theorem initial_invA (client : Bool) (l r : Tp) (p : Bool → Option Nat) : InvA (initial client l r p) [] := by
  constructor
  · intro t ht
    exact ⟨0, by simp [initial], by simp [createdIn]⟩
  · intro s hs
    simp [initial] at hs

theorem run_invA (client : Bool) (l r : Tp) (p : Bool → Option Nat) (ops : List Op) :
    InvA (run (initial client l r p) ops).1 (run (initial client l r p) ops).2 := by
  induction ops using StreamInput.snoc_induction with
  | h0 => exact initial_invA client l r p
  | h1 ops op ih =>
    rw [run_snoc]
    unfold step
    split
    · exact ih.mono rfl (fun s hs => ⟨s, hs, rfl⟩) rfl
    · exact stepOk_invA ih op

end Picoquic.StreamLimits
