import Verif.Proof.StreamLimitsCredit
/-!
# C16, C33, C34: limits

`run (initial client tp peer peerStreams) ops` is a connection with the local transport parameters
`tp` and the peer's parameters `peer` and `peerStreams`, after the history `ops`, together with the
events (streams created, frames sent).
-/

namespace Picoquic.Props
open Picoquic Picoquic.Spec Picoquic.StreamLimits

/-! ## C16 -/

/-- C16, limits learned from the peer: after any history without a connection error, the connection
limit and the limit of each stream are the largest value received so far, whatever the order of the
frames. An old or reordered frame thus has no effect. -/
theorem C16_learned_limits (client : Bool) (tp peer : Tp) (peerStreams : Bool → Option Nat) (ops : List Op)
    (h : (run (initial client tp peer peerStreams) ops).1.error = none) :
    (run (initial client tp peer peerStreams) ops).1.maxdataRemote = largest peer.maxData (maxDataReceived ops) ∧
    (∀ s ∈ (run (initial client tp peer peerStreams) ops).1.streams, s.maxdataRemote =
      largest (initialSendLimit client peer s.id) (maxStreamDataReceived s.id ops)) ∧
    ∀ ops' u, (run (initial client tp peer peerStreams) (ops ++ ops')).1.error = none →
      (run (initial client tp peer peerStreams) ops).1.maxStreamIdRemote u ≤
        (run (initial client tp peer peerStreams) (ops ++ ops')).1.maxStreamIdRemote u := by
  refine ⟨(run_maxdataRemote _ ops h).1, (run_invR client tp peer peerStreams ops h).eq, ?_⟩
  intro ops' u h'
  rw [(run_maxdataRemote _ ops h).2 u, (run_maxdataRemote _ (ops ++ ops') h').2 u, maxStreamsReceived_append,
    List.foldl_append]
  generalize List.foldl _ _ (maxStreamsReceived u ops) = x
  have : ∀ (l : List Nat) (x : Nat),
      x ≤ l.foldl (fun l n => max l (streamIdFromRank n (initial client tp peer peerStreams).client u)) x := by
    intro l
    induction l with
    | nil => intro x; exact Nat.le_refl _
    | cons a l ih => intro x; exact Nat.le_trans (Nat.le_max_left _ _) (ih _)
  exact this _ x

/-- C16, limits sent to the peer: in any history within the bounds of `Sane`, the values of successive
MAX_DATA frames, of successive MAX_STREAM_DATA frames for the same stream and of successive MAX_STREAMS
frames of the same type never decrease, they are never below the limit announced in the transport
parameters, and they are values a frame can carry. -/
theorem C16_announced_limits (client : Bool) (tp peer : Tp) (peerStreams : Bool → Option Nat) (ops : List Op)
    (htp : SaneTp tp) (hs : Sane ops) :
    let evs := (run (initial client tp peer peerStreams) ops).2
    ((maxDataSent evs).Pairwise (· ≤ ·) ∧ ∀ v ∈ maxDataSent evs, tp.maxData ≤ v ∧ v < 2 ^ 62) ∧
    (∀ id, (maxStreamDataSent id evs).Pairwise (· ≤ ·) ∧
      ∀ v ∈ maxStreamDataSent id evs, initialReceiveLimit client tp id ≤ v ∧ v < 2 ^ 62) ∧
    (∀ u, (maxStreamsSent u evs).Pairwise (· ≤ ·) ∧
      ∀ v ∈ maxStreamsSent u evs, tp.maxStreams u ≤ v ∧ v ≤ 2 ^ 60) := by
  obtain ⟨h1, h2, h3⟩ := hs
  have hM := run_invM client tp peer peerStreams ops h1 h3 htp.1
  have hL := run_invL client tp peer peerStreams ops h1
  refine ⟨⟨hM.sorted, fun v hv => ?_⟩, hL.sorted, fun u => ?_⟩
  · have := hM.le v hv
    have := hM.bound
    exact ⟨by omega, by omega⟩
  · have hN : tp.maxStreams u < 2 ^ 50 := by cases u; exact htp.2.2.2.2.1; exact htp.2.2.2.2.2
    have hS := run_invS client tp peer peerStreams ops u h2 hN
    refine ⟨hS.sorted, fun v hv => ?_⟩
    have := hS.le v hv
    have := hS.bound
    exact ⟨by omega, by omega⟩

/-- Transport parameters used in examples. -/
def exampleTp (n : Nat) : Tp := ⟨1000, 100, 200, 300, fun _ => n⟩

/-- Frames in disorder: the largest value stays. -/
example : (run (initial true (exampleTp 3) (exampleTp 3) (fun _ => some 3))
    [.maxData 5000, .maxData 2000, .write 0, .maxStreamData 0 700, .maxStreamData 0 600]).1.error = none ∧
    (run (initial true (exampleTp 3) (exampleTp 3) (fun _ => some 3))
    [.maxData 5000, .maxData 2000, .write 0, .maxStreamData 0 700, .maxStreamData 0 600]).1.maxdataRemote = 5000 ∧
    ((run (initial true (exampleTp 3) (exampleTp 3) (fun _ => some 3))
    [.maxData 5000, .maxData 2000, .write 0, .maxStreamData 0 700, .maxStreamData 0 600]).1.streams.map
      (fun s => s.maxdataRemote)) = [700] := by decide +kernel

/-- A history that sends frames. -/
example : (run (initial false (exampleTp 1) (exampleTp 3) (fun _ => some 3))
    [.prepareMaxStreams 100, .peerFrame 0, .prepareMaxData 600 0 1000000 100, .requiredMaxStreamData 0 150 50 100,
      .openFlowControl 0 150 1000]).2 =
    [.maxStreams false 2, .maxStreams true 2, .created 0, .maxData 8000, .maxStreamData 0 250,
      .maxStreamData 0 1150, .maxData 9000] := by decide +kernel

example : SaneTp (exampleTp 1) ∧ Sane [.prepareMaxStreams 100, .peerFrame 0, .prepareMaxData 600 0 1000000 100,
    .requiredMaxStreamData 0 150 50 100, .openFlowControl 0 150 1000] := by
  refine ⟨by unfold SaneTp exampleTp; decide, ?_, by decide, by decide⟩
  intro op hop
  simp only [List.mem_cons, List.not_mem_nil, or_false] at hop
  rcases hop with rfl | rfl | rfl | rfl | rfl
  · trivial
  · show (0 : Nat) < 2 ^ 62; decide
  · show (600 : Nat) < 2 ^ 57 ∧ (0 : Nat) < 2 ^ 57; decide
  · show (150 : Nat) < 2 ^ 57; decide
  · show (150 : Nat) < 2 ^ 57 ∧ (1000 : Nat) < 2 ^ 57; decide

/-! ## C33 -/

/-- C33, creation: in any history, the streams of each of the four types are created in order, without
a gap, and no stream is created twice, so that a closed stream is never opened again. -/
theorem C33_streams_open_in_order (client : Bool) (tp peer : Tp) (peerStreams : Bool → Option Nat)
    (ops : List Op) :
    let created := createdIn (run (initial client tp peer peerStreams) ops).2
    (∀ byClient unidir, ∃ n, created.filter (fun id => id % 4 == streamId byClient unidir 0) =
      (List.range n).map (streamId byClient unidir)) ∧
    created.Nodup := by
  have hA := run_invA client tp peer peerStreams ops
  intro created
  constructor
  · intro b u
    obtain ⟨n, _, h⟩ := hA.cr (streamId b u 0) (by cases b <;> cases u <;> decide)
    refine ⟨n, h.trans ?_⟩
    apply List.map_congr_left
    intro k _
    unfold streamId
    split <;> split <;> omega
  · rw [List.nodup_iff_count]
    intro a
    obtain ⟨n, _, h⟩ := hA.cr (a % 4) (by omega)
    have h1 : List.count a created = List.count a (created.filter (fun i => i % 4 == a % 4)) :=
      (List.count_filter (by simp)).symm
    rw [h1, h]
    have : ((List.range n).map (fun k => 4 * k + a % 4)).Nodup := by
      apply List.Pairwise.map (R := fun x y => x ≠ y)
      · intro x y hxy; omega
      · exact List.nodup_range
    exact List.nodup_iff_count.1 this a

/-- The number of streams the peer may open: the count in the transport parameters, or in the last
MAX_STREAMS frame sent. -/
def announced (tp : Tp) (evs : List Event) (unidir : Bool) : Nat :=
  latest (tp.maxStreams unidir) (maxStreamsSent unidir evs)

/-- C33, the limit of a server: for a server that announced at least one stream of this type in its
transport parameters, and any history within the bounds of `Sane` and without error, a frame on stream
number `k` (from 0) of the client is refused with STREAM_LIMIT_ERROR and creates nothing if `k` is not
below the announced count; otherwise it is accepted and all the streams up to it have been created.
Missing for the full property: the limit of a client and an announced count of zero, which are wrong, see
the theorems below. -/
theorem C33_server_stream_limit_partial (tp peer : Tp) (peerStreams : Bool → Option Nat) (ops : List Op)
    (htp : SaneTp tp) (hs : Sane ops) (unidir : Bool) (hN : 1 ≤ tp.maxStreams unidir)
    (herr : (run (initial false tp peer peerStreams) ops).1.error = none) (k : Nat) (op : Op)
    (hop : FrameOn op (streamId true unidir k)) :
    let before := run (initial false tp peer peerStreams) ops
    let after := run (initial false tp peer peerStreams) (ops ++ [op])
    (announced tp before.2 unidir ≤ k →
      after.1.error = some STREAM_LIMIT_ERROR ∧ createdIn after.2 = createdIn before.2) ∧
    (k < announced tp before.2 unidir →
      after.1.error = none ∧ ∀ j ≤ k, streamId true unidir j ∈ createdIn after.2) := by
  obtain ⟨h1, h2, h3⟩ := hs
  have hN' : tp.maxStreams unidir < 2 ^ 50 := by
    cases unidir; exact htp.2.2.2.2.1; exact htp.2.2.2.2.2
  have hS := run_invS false tp peer peerStreams ops unidir h2 hN'
  have hp := hS.pos hN
  have hi := hS.init
  have hf := frame_result false tp peer peerStreams ops h2 htp herr unidir (streamId true unidir k) k
    (by cases unidir <;> simp [streamId]) op hop
  have hlim : (run (initial false tp peer peerStreams) ops).1.maxStreamIdLocal unidir =
      4 * (announced tp (run (initial false tp peer peerStreams) ops).2 unidir - 1) + (if unidir then 2 else 0) + 1 := by
    rw [hp]; unfold announced; cases unidir <;> simp
  have hann : 1 ≤ announced tp (run (initial false tp peer peerStreams) ops).2 unidir := by unfold announced; omega
  have hid : streamId true unidir k = 4 * k + (if unidir then 2 else 0) := by simp [streamId]
  dsimp only
  constructor
  · intro hk
    exact hf.1 (by rw [hlim, hid]; omega)
  · intro hk
    obtain ⟨g1, g2⟩ := hf.2 (by rw [hlim, hid]; omega)
    refine ⟨g1, fun j hj => ?_⟩
    exact g2 _ j hj (by cases unidir <;> simp [streamId])

/-- C33, the limit of a client is wrong: whatever count the client announced (here or later), the last
stream this count allows to the server is refused with STREAM_LIMIT_ERROR. -/
theorem C33_client_stream_limit_violated (tp peer : Tp) (peerStreams : Bool → Option Nat) (ops : List Op)
    (htp : SaneTp tp) (hs : Sane ops) (unidir : Bool) (hN : 1 ≤ tp.maxStreams unidir)
    (herr : (run (initial true tp peer peerStreams) ops).1.error = none) (k : Nat)
    (hk : k + 1 = announced tp (run (initial true tp peer peerStreams) ops).2 unidir) :
    (run (initial true tp peer peerStreams) (ops ++ [.peerFrame (streamId false unidir k)])).1.error =
      some STREAM_LIMIT_ERROR := by
  obtain ⟨h1, h2, h3⟩ := hs
  have hN' : tp.maxStreams unidir < 2 ^ 50 := by
    cases unidir; exact htp.2.2.2.2.1; exact htp.2.2.2.2.2
  have hS := run_invS true tp peer peerStreams ops unidir h2 hN'
  have hp := hS.pos hN
  have hf := frame_result true tp peer peerStreams ops h2 htp herr unidir (streamId false unidir k) k
    (by cases unidir <;> simp [streamId]) _ (.inl rfl)
  have hlim : (run (initial true tp peer peerStreams) ops).1.maxStreamIdLocal unidir =
      4 * (announced tp (run (initial true tp peer peerStreams) ops).2 unidir - 1) + (if unidir then 2 else 0) := by
    rw [hp]; unfold announced; cases unidir <;> simp
  have hid : streamId false unidir k = 4 * k + (if unidir then 2 else 0) + 1 := by simp [streamId]
  exact (hf.1 (by rw [hlim, hid]; omega)).1

/-- C33, the limit of a client, what holds: a stream above the announced count is refused and creates
nothing, and all the streams the count allows but the last one are accepted. -/
theorem C33_client_stream_limit_partial (tp peer : Tp) (peerStreams : Bool → Option Nat) (ops : List Op)
    (htp : SaneTp tp) (hs : Sane ops) (unidir : Bool) (hN : 1 ≤ tp.maxStreams unidir)
    (herr : (run (initial true tp peer peerStreams) ops).1.error = none) (k : Nat) (op : Op)
    (hop : FrameOn op (streamId false unidir k)) :
    let before := run (initial true tp peer peerStreams) ops
    let after := run (initial true tp peer peerStreams) (ops ++ [op])
    (announced tp before.2 unidir ≤ k →
      after.1.error = some STREAM_LIMIT_ERROR ∧ createdIn after.2 = createdIn before.2) ∧
    (k + 1 < announced tp before.2 unidir →
      after.1.error = none ∧ ∀ j ≤ k, streamId false unidir j ∈ createdIn after.2) := by
  obtain ⟨h1, h2, h3⟩ := hs
  have hN' : tp.maxStreams unidir < 2 ^ 50 := by
    cases unidir; exact htp.2.2.2.2.1; exact htp.2.2.2.2.2
  have hS := run_invS true tp peer peerStreams ops unidir h2 hN'
  have hp := hS.pos hN
  have hi := hS.init
  have hf := frame_result true tp peer peerStreams ops h2 htp herr unidir (streamId false unidir k) k
    (by cases unidir <;> simp [streamId]) op hop
  have hlim : (run (initial true tp peer peerStreams) ops).1.maxStreamIdLocal unidir =
      4 * (announced tp (run (initial true tp peer peerStreams) ops).2 unidir - 1) + (if unidir then 2 else 0) := by
    rw [hp]; unfold announced; cases unidir <;> simp
  have hann : 1 ≤ announced tp (run (initial true tp peer peerStreams) ops).2 unidir := by unfold announced; omega
  have hid : streamId false unidir k = 4 * k + (if unidir then 2 else 0) + 1 := by simp [streamId]
  dsimp only
  constructor
  · intro hk
    exact hf.1 (by rw [hlim, hid]; omega)
  · intro hk
    obtain ⟨g1, g2⟩ := hf.2 (by rw [hlim, hid]; omega)
    refine ⟨g1, fun j hj => ?_⟩
    exact g2 _ j hj (by cases unidir <;> simp [streamId])

/-- C33 with an announced count of zero: the peer may open any stream, and all the lower ones are created
(up to 2^60 of them from a single frame). -/
theorem C33_zero_limit_violated (client : Bool) (tp peer : Tp) (peerStreams : Bool → Option Nat)
    (htp : SaneTp tp) (unidir : Bool) (hN : tp.maxStreams unidir = 0) (k : Nat) (hk : k < 2 ^ 60) :
    let after := run (initial client tp peer peerStreams) [.peerFrame (streamId (!client) unidir k)]
    after.1.error = none ∧ ∀ j ≤ k, streamId (!client) unidir j ∈ createdIn after.2 := by
  have hS := run_invS client tp peer peerStreams [] unidir (by decide) (by rw [hN]; decide)
  have hz := (hS.zero hN).1
  have hf := frame_result client tp peer peerStreams [] (by decide) htp rfl unidir (streamId (!client) unidir k) k
    (by cases unidir <;> cases client <;> simp [streamId]) _ (.inl rfl)
  have hid : streamId (!client) unidir k ≤ 4 * k + 3 := by
    cases unidir <;> cases client <;> simp [streamId]
  obtain ⟨g1, g2⟩ := hf.2 (by rw [hz]; omega)
  exact ⟨g1, fun j hj => g2 _ j hj (by cases unidir <;> cases client <;> simp [streamId])⟩

/-- C33, locally initiated streams, what holds: a frame on a stream of the local endpoint that was not
opened is refused and creates nothing. -/
theorem C33_unopened_local_stream_partial (client : Bool) (tp peer : Tp) (peerStreams : Bool → Option Nat)
    (ops : List Op) (herr : (run (initial client tp peer peerStreams) ops).1.error = none) (unidir : Bool)
    (k : Nat) (hk : streamId client unidir k ∉ createdIn (run (initial client tp peer peerStreams) ops).2)
    (op : Op) (hop : FrameOn op (streamId client unidir k)) :
    let before := run (initial client tp peer peerStreams) ops
    let after := run (initial client tp peer peerStreams) (ops ++ [op])
    after.1.error = some STREAM_LIMIT_ERROR ∧ createdIn after.2 = createdIn before.2 :=
  frame_local client tp peer peerStreams ops herr unidir _ k
    (by cases unidir <;> cases client <;> simp [streamId]) hk op hop

/-- C33, locally initiated streams: the error is not STREAM_STATE_ERROR. -/
theorem C33_unopened_local_stream_violated :
    (run (initial true (exampleTp 3) (exampleTp 3) (fun _ => some 3)) [.peerFrame 0]).1.error ≠
      some STREAM_STATE_ERROR := by decide +kernel

/-- A server with limit 3: streams 0 and 8 are accepted, 12 is not; a closed stream is not reopened. -/
example : (run (initial false (exampleTp 3) (exampleTp 3) (fun _ => some 3)) [.peerFrame 8, .delete 4, .peerFrame 4]).2 =
      [.created 0, .created 4, .created 8] ∧
    (run (initial false (exampleTp 3) (exampleTp 3) (fun _ => some 3)) [.peerFrame 8, .delete 4, .peerFrame 4]).1.error =
      none ∧
    (run (initial false (exampleTp 3) (exampleTp 3) (fun _ => some 3)) [.peerFrame 12]).1.error = some 4 ∧
    (run (initial true (exampleTp 3) (exampleTp 3) (fun _ => some 3)) [.peerFrame 5]).1.error = none ∧
    (run (initial true (exampleTp 3) (exampleTp 3) (fun _ => some 3)) [.peerFrame 9]).1.error = some 4 := by
  decide +kernel

example : SaneTp (exampleTp 0) ∧ (exampleTp 0).maxStreams true = 0 ∧ 1 ≤ (exampleTp 3).maxStreams false ∧
    announced (exampleTp 3) [] false = 3 ∧ FrameOn (.peerFrame 12) (streamId true false 3) := by
  refine ⟨by unfold SaneTp exampleTp; decide, rfl, by decide, rfl, .inl rfl⟩

/-! ## C34 -/

/-- C34 when the peer announced at least one stream of this type: the transport parameter is a count from
1 to 2^60 other than 0xFFFFFFFF, and so are the counts of MAX_STREAMS frames. In any history without
error, stream number `k` (from 0) of the local endpoint may carry data exactly if `k` is below the
largest count received. Missing for the full property: a count of zero, see the theorems below. -/
theorem C34_stream_count_partial (client : Bool) (tp peer : Tp) (peerStreams : Bool → Option Nat) (ops : List Op)
    (unidir : Bool) (n : Nat) (htp : peerStreams unidir = some n) (hn : 1 ≤ n ∧ n ≤ 2 ^ 60 ∧ n ≠ 0xFFFFFFFF)
    (hf : ∀ m ∈ maxStreamsReceived unidir ops, 1 ≤ m ∧ m < 2 ^ 62)
    (herr : (run (initial client tp peer peerStreams) ops).1.error = none) (k : Nat) :
    maySendOn (run (initial client tp peer peerStreams) ops).1 (streamId client unidir k) = true ↔
      k < largest n (maxStreamsReceived unidir ops) := by
  have h := (run_maxdataRemote _ ops herr).2 unidir
  have hc := (run_const (initial client tp peer peerStreams) ops).1
  have hinit : (initial client tp peer peerStreams).maxStreamIdRemote unidir =
      4 * (n - 1) + 2 * unidir.toNat + (!client).toNat := by
    show limitOfTp client unidir (peerStreams unidir) = _
    rw [htp]
    show streamIdFromRank (if n = 0xFFFFFFFF then 0 else n) client unidir = _
    rw [if_neg hn.2.2]
    exact streamIdFromRank_pos _ _ _ hn.1 (by omega)
  rw [hinit] at h
  have key : ∀ (l : List Nat) (n : Nat), 1 ≤ n → (∀ m ∈ l, 1 ≤ m ∧ m < 2 ^ 62) →
      l.foldl (fun l n => max l (streamIdFromRank n (initial client tp peer peerStreams).client unidir))
        (4 * (n - 1) + 2 * unidir.toNat + (!client).toNat) =
      4 * (largest n l - 1) + 2 * unidir.toNat + (!client).toNat ∧ 1 ≤ largest n l := by
    intro l
    induction l with
    | nil => intro n hn _; exact ⟨rfl, hn⟩
    | cons a l ih =>
      intro n hn hl
      have ha := hl a (by simp)
      have e : streamIdFromRank a (initial client tp peer peerStreams).client unidir =
          4 * (a - 1) + 2 * unidir.toNat + (!client).toNat := streamIdFromRank_pos a client unidir ha.1 (by omega)
      have := ih (max n a) (by omega) (fun m hm => hl m (by simp [hm]))
      simp only [List.foldl]
      rw [e, show max (4 * (n - 1) + 2 * unidir.toNat + (!client).toNat)
        (4 * (a - 1) + 2 * unidir.toNat + (!client).toNat) =
        4 * (max n a - 1) + 2 * unidir.toNat + (!client).toNat by omega]
      exact this
  obtain ⟨k1, k2⟩ := key _ n hn.1 hf
  rw [k1] at h
  have e1 : isClientStreamId (streamId client unidir k) = client := by
    cases client <;> cases unidir <;> simp [isClientStreamId, streamId] <;> omega
  have e2 : isUnidirStreamId (streamId client unidir k) = unidir := by
    cases client <;> cases unidir <;> simp [isUnidirStreamId, streamId] <;> omega
  unfold maySendOn
  rw [hc, show (initial client tp peer peerStreams).client = client from rfl, e1, if_pos rfl, e2, h,
    decide_eq_true_iff]
  generalize largest n (maxStreamsReceived unidir ops) = L at *
  cases client <;> cases unidir <;> simp [streamId] <;> omega

/-- C34, bounds: a MAX_STREAMS frame with a count above 2^60 is a STREAM_LIMIT_ERROR, one with a count
from 1 to 2^60 is accepted. -/
theorem C34_count_bound (c : Conn) (herr : c.error = none) (unidir : Bool) (n : Nat) (hn : n < 2 ^ 62) :
    (2 ^ 60 < n → (step c (.maxStreams unidir n)).1.error = some STREAM_LIMIT_ERROR) ∧
    (1 ≤ n → n ≤ 2 ^ 60 → (step c (.maxStreams unidir n)).1.error = none) := by
  rw [step_of_none herr, show (stepOk c (.maxStreams unidir n)).1 = decodeMaxStreams c unidir n from rfl]
  have h1 := toNat_le_one unidir
  have h2 := toNat_le_one (!c.client)
  constructor
  · intro h
    have e := streamIdFromRank_pos n c.client unidir (by omega) (by omega)
    unfold decodeMaxStreams
    generalize streamIdFromRank n c.client unidir = i at e
    simp only [ge_iff_le, if_pos (show 4611686018427387904 ≤ i by omega)]
    split <;> simp [setError, herr]
  · intro h h'
    have e := streamIdFromRank_pos n c.client unidir (by omega) (by omega)
    exact (decodeMaxStreams_fields c unidir n).2.2.2.2.2.2.2.2.2.2.2 ⟨herr, by rw [e]; omega⟩

/-- C34 at zero, transport parameter: with `initial_max_streams` present and equal to zero, or to
0xFFFFFFFF, data may be sent on every stream. -/
theorem C34_zero_parameter_violated (client : Bool) (tp peer : Tp) (unidir : Bool) (n : Nat)
    (hn : n = 0 ∨ n = 0xFFFFFFFF) (k : Nat) (hk : k < 2 ^ 60) :
    maySendOn (initial client tp peer (fun _ => some n)) (streamId client unidir k) = true := by
  have e1 : isClientStreamId (streamId client unidir k) = client := by
    cases client <;> cases unidir <;> simp [isClientStreamId, streamId] <;> omega
  have e2 : (initial client tp peer (fun _ => some n)).maxStreamIdRemote (isUnidirStreamId (streamId client unidir k)) =
      streamIdFromRank 0 client (isUnidirStreamId (streamId client unidir k)) := by
    rcases hn with rfl | rfl <;> rfl
  unfold maySendOn
  rw [show (initial client tp peer (fun _ => some n)).client = client from rfl, e1, if_pos rfl, e2,
    streamIdFromRank_zero, decide_eq_true_iff]
  have : streamId client unidir k ≤ 4 * k + 3 := by cases unidir <;> cases client <;> simp [streamId]
  omega

/-- C34 at zero, absent parameter: with no `initial_max_streams_bidi` parameter, a client may send on its
first bidirectional stream. -/
theorem C34_absent_parameter_violated (tp peer : Tp) :
    maySendOn (initial true tp peer (fun _ => none)) (streamId true false 0) = true := rfl

/-- C34 at zero, MAX_STREAMS: a frame with a count of zero, which has no effect in the protocol, closes the
connection with STREAM_LIMIT_ERROR. -/
theorem C34_zero_frame_violated (c : Conn) (herr : c.error = none) (unidir : Bool) :
    (step c (.maxStreams unidir 0)).1.error = some STREAM_LIMIT_ERROR := by
  rw [step_of_none herr, show (stepOk c (.maxStreams unidir 0)).1 = decodeMaxStreams c unidir 0 from rfl]
  have e := streamIdFromRank_zero c.client unidir
  unfold decodeMaxStreams
  generalize streamIdFromRank 0 c.client unidir = i at e
  simp only [ge_iff_le, if_pos (show 4611686018427387904 ≤ i by omega)]
  split <;> simp [setError, herr]

/-- Stream 2 (the third one) may be used once the count is 3. -/
example : maySendOn (run (initial true (exampleTp 3) (exampleTp 3) (fun _ => some 2))
      [.maxStreams false 3, .maxStreams false 1]).1 (streamId true false 2) = true ∧
    maySendOn (run (initial true (exampleTp 3) (exampleTp 3) (fun _ => some 2))
      [.maxStreams true 3, .maxStreams false 1]).1 (streamId true false 2) = false ∧
    (run (initial true (exampleTp 3) (exampleTp 3) (fun _ => some 2))
      [.maxStreams false 3, .maxStreams false 1]).1.error = none := by decide +kernel

/-! ## C45 -/

/-- C45, the announced limit: after any history within the bounds of `Sane` and without error, once MAX_STREAMS frames
were prepared in a packet with 18 bytes of room, the number of streams announced to the peer exceeds the number of
completed streams of the peer by half of the initial allowance, rounded up. So the peer may open a new stream as soon
as streams complete.

`C45_credit_partial` says which streams are completed. -/
theorem C45_announced_partial (client : Bool) (tp peer : Tp) (peerStreams : Bool → Option Nat) (ops : List Op)
    (htp : SaneTp tp) (hs : Sane ops) (unidir : Bool) (hN : 1 ≤ tp.maxStreams unidir)
    (herr : (run (initial client tp peer peerStreams) ops).1.error = none) (room : Nat) (hroom : 18 ≤ room) :
    ∃ L : List Nat, L.Nodup ∧
      (∀ id, id ∈ L ↔ (∃ k, id = streamId (!client) unidir k) ∧
        CompletedIn (initial client tp peer peerStreams) ops id) ∧
      L.length + (tp.maxStreams unidir + 1) / 2 ≤
        announced tp (run (initial client tp peer peerStreams) (ops ++ [.prepareMaxStreams room])).2 unidir :=
  announced_room client tp peer peerStreams ops unidir room hs.2.1
    (by cases unidir; exact htp.2.2.2.2.1; exact htp.2.2.2.2.2) hN herr hroom

/-- The client opens streams 0, 4 and 8 of a server that allows three; two of them complete, and the server announces
six. -/
example : (run (initial false (exampleTp 3) (exampleTp 3) (fun _ => some 3))
      [.peerFrame 8, .complete 4, .complete 4, .complete 0]).1.error = none ∧
    announced (exampleTp 3) (run (initial false (exampleTp 3) (exampleTp 3) (fun _ => some 3))
      ([.peerFrame 8, .complete 4, .complete 4, .complete 0] ++ [.prepareMaxStreams 18])).2 false = 6 ∧
    Sane [.peerFrame 8, .complete 4, .complete 4, .complete 0] ∧ SaneTp (exampleTp 3) := by
  refine ⟨by decide +kernel, by decide +kernel, ⟨?_, by decide, by decide⟩, by unfold SaneTp exampleTp; decide⟩
  intro op h
  simp at h
  rcases h with rfl | rfl | rfl | rfl <;> simp [SaneOp]

end Picoquic.Props
