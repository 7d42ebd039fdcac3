import Verif.Proof.LostObsolete
/-!
# C29, C67: frames of lost packets and frames of acknowledged packets

`run (start client l) es` is the connection after the events `es`, in any order and number. `lost s e payload` is what
the loss of a packet does: the frames to send again, and whether stream data has to be repeated. `acked s e payload` is
what its acknowledgement does.
-/

namespace Picoquic.Props
open Picoquic Picoquic.Spec Picoquic.Lost

/-! ## C29 -/

/-- A frame of a lost packet which is still needed is sent again, as it was. Partial: the frames RESET_STREAM,
MAX_PATH_ID, PATHS_BLOCKED and ACK_FREQUENCY are not in `StillNeeded`, see the theorems `_violated`; the history has no
acknowledgement of a packet with one of the frames `Misplaced`, see C67. -/
theorem C29_needed_partial (client : Bool) (l : Limits) (es : List Event) (hes : Regular es) (e : Epoch)
    (payload : Bytes) (fs : List Frame) (hp : IsPayload payload fs) (f : Frame) (hf : f ∈ fs)
    (hn : StillNeeded l es e f) :
    ∃ bs ∈ (lost (run (start client l) es) e payload).again, IsFrame bs f := by
  obtain ⟨cut, h1, h2⟩ := cut_of_payload hp
  rw [lost_eq _ e h1]
  rw [← h2] at hf
  obtain ⟨x, hx, rfl⟩ := List.mem_map.1 hf
  refine ⟨x.1, List.mem_map.2 ⟨x, List.mem_filter.2 ⟨hx, ?_⟩, rfl⟩, cut_frame h1 x hx⟩
  have hst : ∃ b r, StartsWith b x.2 r := payload_mem hp (by rw [← h2]; exact hf)
  rw [needed_frame hes hst hn]
  cases hc : x.2 with
  | stream _ _ _ _ _ => rw [hc] at hn; exact absurd hn id
  | _ => rfl

/-- Stream data: if one of the positions of a lost STREAM frame was not acknowledged, the packet is queued for its data to
be repeated, unless the stream is closed or reset. Partial: see `C29_needed_partial`; then C21 says what is repeated. -/
theorem C29_stream_partial (client : Bool) (l : Limits) (es : List Event) (hes : Regular es) (e : Epoch)
    (payload : Bytes) (fs : List Frame) (hp : IsPayload payload fs) (hlen : payload.length < 65536)
    (id offset : Nat) (fin : Bool) (data : Bytes) (x : Bool) (hf : Frame.stream id offset fin data x ∈ fs)
    (hlive : LiveStream es id) (hreset : ∀ a b, Event.sent (.resetStream id a b) ∉ es)
    (position : Nat) (h1 : offset ≤ position)
    (h2 : position < offset + data.length ∨ (fin = true ∧ position = offset + data.length))
    (hn : ¬ StreamAcked es id position) :
    (lost (run (start client l) es) e payload).repeatData = true := by
  obtain ⟨cut, h3, h4⟩ := cut_of_payload hp
  rw [lost_eq _ e h3]
  have hfit : Fits (.stream id offset fin data x) := by
    refine fits_of hp hlen hf ?_
    rintro ⟨rfl, rfl⟩
    rcases h2 with h2 | h2
    · simp only [List.length_nil] at h2; omega
    · exact Bool.false_ne_true h2.1
  rw [← h4] at hf
  obtain ⟨y, hy, he⟩ := List.mem_map.1 hf
  refine List.any_eq_true.2 ⟨y, hy, ?_⟩
  rw [he, stream_needed hes hfit.1 hlive hreset hn h1 h2]
  rfl

/-- What is sent again are frames of the lost packet, each as it was, in the same order. -/
theorem C29_only (s : State) (e : Epoch) (payload : Bytes) (fs : List Frame) (hp : IsPayload payload fs) :
    (lost s e payload).ok = true ∧
    ∃ cut : List (Bytes × Frame), (lost s e payload).again = cut.map (·.1) ∧ List.Sublist (cut.map (·.2)) fs ∧
      ∀ x ∈ cut, IsFrame x.1 x.2 := by
  obtain ⟨cut, h1, h2⟩ := cut_of_payload hp
  rw [lost_eq _ e h1]
  refine ⟨rfl, cut.filter fun x => !frameNoNeed s e x.2 && !Repeat.isStream x.2, rfl, ?_, ?_⟩
  · rw [← h2]
    exact List.Sublist.map _ List.filter_sublist
  · intro x hx
    exact cut_frame h1 x (List.mem_filter.1 hx).1

/-- A lost frame whose content was acknowledged, or whose stream or path is gone, is not sent again. -/
theorem C29_obsolete (client : Bool) (l : Limits) (es : List Event) (hes : Regular es) (e : Epoch)
    (payload : Bytes) (f : Frame) (hp : IsPayload payload [f]) (hn : Obsolete es f) :
    lost (run (start client l) es) e payload = ⟨[], false, true⟩ :=
  lost_none hp (obsolete_frame hes hn e)

/-- RESET_STREAM: unless stream 4 was opened, no lost RESET_STREAM is ever sent again. -/
theorem C29_reset_violated (client : Bool) (l : Limits) (es : List Event) (hes : Regular es)
    (h4 : ∀ a b, Event.opened 4 a b ∉ es) (e : Epoch) (payload : Bytes) (id err final : Nat)
    (hp : IsPayload payload [.resetStream id err final]) :
    lost (run (start client l) es) e payload = ⟨[], false, true⟩ := by
  refine lost_none hp ?_
  simp only [frameNoNeed, no_stream hes h4]

/-- MAX_PATH_ID: the newest one, when lost, is never sent again. -/
theorem C29_max_path_id_violated (client : Bool) (l : Limits) (before after : List Event) (v : Nat)
    (hes : Regular (before ++ Event.sent (.maxPathId v) :: after)) (hn : ∀ w, Event.sent (.maxPathId w) ∉ after)
    (e : Epoch) (payload : Bytes) (hp : IsPayload payload [.maxPathId v]) :
    lost (run (start client l) (before ++ Event.sent (.maxPathId v) :: after)) e payload = ⟨[], false, true⟩ := by
  refine lost_none hp ?_
  simp only [frameNoNeed, last_maxPathId (s := start client l) hes rfl hn]
  simp

/-- PATHS_BLOCKED: it states the limit of the peer, and when lost is never sent again. -/
theorem C29_paths_blocked_violated (client : Bool) (l : Limits) (es : List Event) (hes : Regular es) (e : Epoch)
    (v : Nat) (hv : v ∈ peerPathIds l.peerPathId es) (payload : Bytes) (hp : IsPayload payload [.pathsBlocked v]) :
    lost (run (start client l) es) e payload = ⟨[], false, true⟩ := by
  refine lost_none hp ?_
  have := maxPathIdRemote_ge (s := start client l) hes hv
  simp only [frameNoNeed, Bool.or_eq_true, decide_eq_true_eq]
  exact .inl this

/-- ACK_FREQUENCY: the newest one, when lost, is never sent again. -/
theorem C29_ack_frequency_violated (client : Bool) (l : Limits) (before after : List Event) (seq x y z : Nat)
    (hes : Regular (before ++ Event.sent (.ackFrequency seq x y z) :: after))
    (hn : ∀ m x y z, Event.sent (.ackFrequency m x y z) ∉ after)
    (e : Epoch) (payload : Bytes) (hp : IsPayload payload [.ackFrequency seq x y z]) :
    lost (run (start client l) (before ++ Event.sent (.ackFrequency seq x y z) :: after)) e payload =
      ⟨[], false, true⟩ := by
  refine lost_none hp ?_
  simp only [frameNoNeed, last_ackFrequency (s := start client l) hes rfl hn]
  simp

/-! ## C67 -/

/-- The acknowledgement of a packet does not change what happens to lost frames about something else than its frames.
Partial: not if it has one of the frames `Misplaced`, see `C67_violated`. -/
theorem C67_unrelated_partial (s : State) (e e' : Epoch) (bs payload : Bytes) (fs : List Frame) (g : Frame)
    (hbs : IsPayload bs fs) (hm : ∀ f ∈ fs, ¬ Misplaced f) (hp : IsPayload payload [g])
    (hg : ∀ f ∈ fs, ¬ SameSubject f g) : lost (acked s e bs) e' payload = lost s e' payload := by
  obtain ⟨cut, h1, h2⟩ := cut_of_payload hp
  rw [acked_eq s e hbs fun f hf => readable_of (hm f hf), lost_eq _ e' h1, lost_eq _ e' h1]
  have hsame : ∀ x ∈ cut, x.2 = g := by
    intro x hx
    have : x.2 ∈ cut.map (·.2) := List.mem_map.2 ⟨x, hx, rfl⟩
    rw [h2] at this
    exact List.mem_singleton.1 this
  have hfold : ∀ s : State, frameNoNeed (fs.foldl (ackFrame e) s) e' g = frameNoNeed s e' g := by
    clear hbs hm
    induction fs with
    | nil => intro s; rfl
    | cons f fs ih =>
      intro s
      rw [List.foldl_cons, ih (fun f hf => hg f (List.mem_cons_of_mem _ hf)),
        unrelated e e' s f g (hg f (List.mem_cons_self ..))]
  have hx : ∀ x ∈ cut, frameNoNeed (fs.foldl (ackFrame e) s) e' x.2 = frameNoNeed s e' x.2 := by
    intro x hx
    rw [hsame x hx]
    exact hfold s
  congr 1
  · congr 1
    exact List.filter_congr fun x h => by rw [hx x h]
  · exact any_congr fun x h => by rw [hx x h]

/-- After the acknowledgement of a packet, its frames are not sent again, if they are lost in another packet. Partial: the
other frames than `Tracked`, and packets with frames `Misplaced` or `SaysNothing`. -/
theorem C67_acked_partial (client : Bool) (l : Limits) (es : List Event) (e : Epoch) (bs payload : Bytes)
    (hes : Regular (es ++ [Event.acked e bs])) (fs : List Frame) (hbs : IsPayload bs fs) (f : Frame) (hf : f ∈ fs)
    (ht : Tracked f) (hp : IsPayload payload [f]) :
    lost (run (start client l) (es ++ [Event.acked e bs])) e payload = ⟨[], false, true⟩ := by
  refine lost_none hp ?_
  obtain ⟨h0, gs, h1, h2⟩ := hes e bs (List.mem_append.2 (.inr (List.mem_singleton.2 rfl)))
  have : fs = gs := Repeat.payload_unique hbs h1
  subst this
  rw [run_append]
  show frameNoNeed (acked (run (start client l) es) e bs) e f = true
  rw [acked_eq _ e hbs fun g hg => readable_of (h2 g hg).1]
  exact tracked_acked hf ht (fun g hg => fits_of hbs h0 hg (h2 g hg).2) _
    (good_run (regular_mono hes fun x hx => List.mem_append.2 (.inl hx)))

/-- Limits for the examples. -/
def exLimits : Limits := ⟨1000, 10, 10, 2, 1000, 10, 10, 2⟩

/-- A packet: MAX_PATH_ID 8, and RESET_STREAM of stream 0. -/
def misreadPayload : Bytes := [0x95, 0x22, 0x8c, 0x0c, 0x08, 0x04, 0x00, 0x00, 0x00]

theorem misreadPayload_frames : IsPayload misreadPayload [.maxPathId 8, .resetStream 0 0 0] :=
  .cons ((Frames.parseFrame_iff _ [0x04, 0x00, 0x00, 0x00] _).1 (by decide +kernel))
    (.cons ((Frames.parseFrame_iff _ [] _).1 (by decide +kernel)) .nil)

/-- STREAM frame of stream 4, with the bytes 7 and 8 at offset 0. -/
def lostData : Bytes := [0x0a, 4, 2, 7, 8]

theorem lostData_frames : IsPayload lostData [.stream 4 0 false [7, 8] true] :=
  .cons ((Frames.parseFrame_iff _ [] _).1 (by decide +kernel)) .nil

/-- The acknowledgement of a packet with MAX_PATH_ID and RESET_STREAM of stream 0 is taken for the acknowledgement of
data of stream 4: that data, lost, was to be repeated before, and is not repeated after. -/
theorem C67_violated :
    let es := [Event.opened 4 100 100, .sent (.stream 4 0 false [7, 8] true), .sent (.maxPathId 8)]
    IsPayload misreadPayload [.maxPathId 8, .resetStream 0 0 0] ∧ IsPayload lostData [.stream 4 0 false [7, 8] true] ∧
    (∀ f ∈ [Frame.maxPathId 8, .resetStream 0 0 0], ¬ SameSubject f (.stream 4 0 false [7, 8] true)) ∧
    (lost (run (start true exLimits) es) .oneRtt lostData).repeatData = true ∧
    (lost (run (start true exLimits) (es ++ [.acked .oneRtt misreadPayload])) .oneRtt lostData).repeatData = false := by
  refine ⟨misreadPayload_frames, lostData_frames, ?_, by decide +kernel, by decide +kernel⟩
  intro f hf
  rcases List.mem_cons.1 hf with h | h
  · subst h; exact id
  · rw [List.mem_singleton.1 h]; exact id

/-! ## Examples -/

/-- MAX_DATA 2000, NEW_CONNECTION_ID, PING. -/
def exLost : Bytes := [0x10, 0x47, 0xd0, 0x18, 1, 0, 1, 9] ++ List.replicate 16 5 ++ [0x01]

theorem exLost_frames :
    IsPayload exLost [.maxData 2000, .newConnectionId none 1 0 [9] (List.replicate 16 5), .ping 0] :=
  .cons ((Frames.parseFrame_iff _ ([0x18, 1, 0, 1, 9] ++ List.replicate 16 5 ++ [0x01]) _).1 (by decide +kernel))
    (.cons ((Frames.parseFrame_iff _ [0x01] _).1 (by decide +kernel))
      (.cons ((Frames.parseFrame_iff _ [] _).1 (by decide +kernel)) .nil))

/-- HANDSHAKE_DONE. -/
theorem done_frames : IsPayload [0x1e] [.handshakeDone] :=
  .cons ((Frames.parseFrame_iff _ [] _).1 (by decide +kernel)) .nil

/-- A history: a packet with HANDSHAKE_DONE is acknowledged, a packet with the frames above is lost. -/
def exHistory : List Event :=
  [.sent .handshakeDone, .cidCreated 0 1, .sent (.maxData 2000), .acked .oneRtt [0x1e], .maxData 3000]

theorem exHistory_acked {e : Epoch} {bs : Bytes} (h : Event.acked e bs ∈ exHistory) : e = .oneRtt ∧ bs = [0x1e] := by
  simp only [exHistory, List.mem_cons, reduceCtorEq, false_or, Event.acked.injEq, List.not_mem_nil, or_false] at h
  exact h

theorem exHistory_regular : Regular exHistory := by
  intro e bs h
  obtain ⟨-, rfl⟩ := exHistory_acked h
  refine ⟨by decide, [.handshakeDone], done_frames, ?_⟩
  intro f hf
  rw [List.mem_singleton.1 hf]
  exact ⟨id, id⟩

theorem exHistory_frame {f : Frame} (h : AckedIn exHistory f) : f = .handshakeDone := by
  obtain ⟨e, bs, fs, h1, h2, h3⟩ := h
  obtain ⟨-, rfl⟩ := exHistory_acked h1
  rw [Repeat.payload_unique h2 done_frames] at h3
  exact List.mem_singleton.1 h3

example : Regular exHistory ∧ IsPayload exLost [.maxData 2000, .newConnectionId none 1 0 [9] (List.replicate 16 5), .ping 0] ∧
    StillNeeded exLimits exHistory .oneRtt (.maxData 2000) ∧
    StillNeeded exLimits exHistory .oneRtt (.newConnectionId none 1 0 [9] (List.replicate 16 5)) ∧
    StillNeeded exLimits exHistory .oneRtt (.ping 0) ∧ Obsolete exHistory .handshakeDone := by
  refine ⟨exHistory_regular, exLost_frames, ⟨by decide, ?_, ?_⟩, ⟨?_, ?_, ?_⟩, trivial, ?_⟩
  · intro v h
    simp only [exHistory, List.mem_cons, reduceCtorEq, false_or, Event.sent.injEq, Frame.maxData.injEq,
      List.not_mem_nil, or_false] at h
    omega
  · intro v h; cases exHistory_frame h
  · simp [exHistory, pathOf]
  · simp [exHistory, pathOf]
  · intro p a b c _ h; cases exHistory_frame h
  · exact ⟨.oneRtt, _, _, by simp [exHistory], done_frames, List.mem_singleton.2 rfl⟩

/-- Data of stream 4 was acknowledged, but not its FIN: the FIN has to be repeated. -/
example : let es := [Event.opened 4 100 100, .acked .oneRtt lostData]
    Regular es ∧ LiveStream es 4 ∧ ¬ StreamAcked es 4 2 ∧
    IsPayload [0x0b, 4, 2, 7, 8] [.stream 4 0 true [7, 8] true] ∧
    (lost (run (start true exLimits) es) .oneRtt [0x0b, 4, 2, 7, 8]).repeatData = true := by
  refine ⟨?_, ⟨⟨100, 100, by simp⟩, by simp⟩, ?_,
    .cons ((Frames.parseFrame_iff _ [] _).1 (by decide +kernel)) .nil, by decide +kernel⟩
  · intro e bs h
    simp only [List.mem_cons, reduceCtorEq, false_or, Event.acked.injEq, List.not_mem_nil, or_false] at h
    obtain ⟨-, rfl⟩ := h
    refine ⟨by decide, _, lostData_frames, ?_⟩
    intro f hf
    rw [List.mem_singleton.1 hf]
    exact ⟨id, fun h => by cases h.1⟩
  · rintro ⟨o, fin, d, x, ⟨e, bs, fs, h, h2, h3⟩, h4, h5⟩
    simp only [List.mem_cons, reduceCtorEq, false_or, Event.acked.injEq, List.not_mem_nil, or_false] at h
    obtain ⟨-, rfl⟩ := h
    rw [Repeat.payload_unique h2 lostData_frames] at h3
    cases List.mem_singleton.1 h3
    rcases h5 with h5 | h5
    · simp at h5
    · exact Bool.false_ne_true h5.1

/-- The three frames are sent again; HANDSHAKE_DONE is not. -/
example : lost (run (start false exLimits) exHistory) .oneRtt exLost =
      ⟨[[0x10, 0x47, 0xd0], [0x18, 1, 0, 1, 9] ++ List.replicate 16 5, [0x01]], false, true⟩ ∧
    lost (run (start false exLimits) exHistory) .oneRtt [0x1e] = ⟨[], false, true⟩ := by decide +kernel

/-- The hypotheses of `C29_reset_violated`, `C29_max_path_id_violated`, `C29_paths_blocked_violated` and
`C29_ack_frequency_violated`: the frames are sent, nothing is acknowledged. -/
example : Regular [.opened 0 10 10, .resetRequested 0, .sent (.resetStream 0 3 5)] ∧
    Regular ([] ++ Event.sent (.maxPathId 8) :: []) ∧ Regular ([] ++ Event.sent (.ackFrequency 1 2 3 4) :: []) ∧
    2 ∈ peerPathIds exLimits.peerPathId [.sent (.pathsBlocked 2)] ∧
    IsPayload [0x04, 0x00, 0x03, 0x05] [.resetStream 0 3 5] ∧
    IsPayload [0x95, 0x22, 0x8c, 0x0c, 0x08] [.maxPathId 8] ∧
    IsPayload [0x95, 0x22, 0x8c, 0x0d, 0x02] [.pathsBlocked 2] ∧
    IsPayload [0x40, 0xaf, 1, 2, 3, 4] [.ackFrequency 1 2 3 4] :=
  ⟨fun e bs h => by simp at h, fun e bs h => by simp at h, fun e bs h => by simp at h, by simp [peerPathIds, exLimits],
    .cons ((Frames.parseFrame_iff _ [] _).1 (by decide +kernel)) .nil,
    .cons ((Frames.parseFrame_iff _ [] _).1 (by decide +kernel)) .nil,
    .cons ((Frames.parseFrame_iff _ [] _).1 (by decide +kernel)) .nil,
    .cons ((Frames.parseFrame_iff _ [] _).1 (by decide +kernel)) .nil⟩

/-- Other frames still needed: STREAMS_BLOCKED, the status of a path, STREAM_DATA_BLOCKED, RETIRE_CONNECTION_ID. -/
example :
    StillNeeded exLimits [.sent (.streamsBlocked true 10), .maxStreams true 9] .oneRtt (.streamsBlocked true 10) ∧
    StillNeeded exLimits [.pathCreated 1, .sent (.pathStatus true 1 0), .sent (.pathStatus false 1 1)] .oneRtt
      (.pathStatus false 1 1) ∧
    StillNeeded exLimits [.opened 4 10 20, .sent (.streamDataBlocked 4 20)] .oneRtt (.streamDataBlocked 4 20) ∧
    StillNeeded exLimits [.cidReceived 0 3] .oneRtt (.retireConnectionId none 3) := by
  refine ⟨⟨[], [.maxStreams true 9], rfl, ?_, ?_, ?_⟩,
    ⟨[.pathCreated 1, .sent (.pathStatus true 1 0)], [], rfl, ?_, ?_, ?_, ?_, ?_⟩,
    ⟨[.opened 4 10 20], [], rfl, ⟨⟨10, 20, ?_⟩, ?_⟩, ?_, ?_, ?_, ?_, ?_, ?_, ?_⟩, ?_, ?_, ?_⟩
  all_goals first
    | simp [exLimits, GreatestOf, peerStreams, pathOf]; done
    | simp; omega
    | skip
  · rintro p _ ⟨e, bs, fs, h, _⟩
    simp at h

end Picoquic.Props
