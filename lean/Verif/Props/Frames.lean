import Verif.Proof.FrameRun
/-!
# C19, C53-C57: the frames of a packet

`Frame`, `StartsWith bs f rest` and `IsPayload bs fs` are the frame formats of RFC 9000 and of the extensions
(Spec/Frames.lean). `Handler` is what frames and errors do to a connection; the theorems hold for all handlers.
`decodeFrames` processes the payload of a packet, `skipFrame` looks for the end of a frame.
-/

namespace Picoquic.Props
open Picoquic Picoquic.Spec Picoquic.Frames

variable {σ : Type}

/-! ## Examples -/

/-- A connection that only records. -/
structure Rec where
  frames : List Frame := []
  errors : List (Nat × Nat) := []
deriving DecidableEq, Repr

/-- A handler that records frames and errors; the path 0 only is known. -/
def recorder : Handler Rec where
  frame s f := (true, { s with frames := s.frames ++ [f] })
  error s code type := { s with errors := s.errors ++ [(code, type)] }
  broken s _ := s
  pathKnown _ p := p == 0

/-- The same, with all paths known. -/
def recorderAll : Handler Rec := { recorder with pathKnown := fun _ _ => true }

/-- A 1-RTT packet received by a client, without extensions. -/
def plainCfg : Cfg := ⟨.oneRtt, true, false, false, false, false, false, 0, 1500⟩

/-- The same, with all extensions. -/
def fullCfg : Cfg := ⟨.oneRtt, true, true, true, true, true, true, 0, 1500⟩

theorem recorder_closed : IsClosed recorderAll (fun s => s.errors ≠ []) :=
  ⟨by intro s c t; simp [recorderAll, recorder], by intro s f h; exact h, by intro s bs h; exact h⟩

/-- MAX_DATA 100, STREAM 4 with data 7 8 9, PING. -/
def samplePayload : Bytes := [0x10, 0x40, 100, 0x0a, 4, 3, 7, 8, 9, 1]

theorem samplePayload_frames :
    IsPayload samplePayload [.maxData 100, .stream 4 0 false [7, 8, 9] true, .ping 0] :=
  .cons ((parseFrame_iff _ [0x0a, 4, 3, 7, 8, 9, 1] _).1 (by decide +kernel))
    (.cons ((parseFrame_iff _ [1] _).1 (by decide +kernel))
      (.cons ((parseFrame_iff _ [] _).1 (by decide +kernel)) .nil))

/-! ## C19: skipping frames -/

/-- C19, for every byte string: a frame that is skipped has at least one byte and ends within the bytes;
otherwise the function fails. (`none` would be a read outside.) -/
theorem C19_skip_in_bounds (bs : Bytes) (hne : bs ≠ []) :
    ∃ x, skipFrame bs = some x ∧ (x.ret = true → 0 < x.consumed ∧ x.consumed ≤ bs.length) ∧
      (x.ret = false → x.consumed = bs.length) := by
  cases bs with
  | nil => exact absurd rfl hne
  | cons b t =>
    have : ∃ x, skipFrame (b :: t) = some x := by
      unfold skipFrame
      dsimp only
      cases (skipSwitch b t).1 <;> exact ⟨_, rfl⟩
    obtain ⟨x, hx⟩ := this
    obtain ⟨h1, h2⟩ := skipFrame_sound hx
    exact ⟨x, hx, fun hr => ⟨(h2 hr).1, (h2 hr).2.1⟩, h1⟩

/-- C19: every frame of the specification is skipped, up to its end exactly. -/
theorem C19_skip_exact (bs rest : Bytes) (f : Frame) (hf : StartsWith bs f rest) :
    ∃ x, skipFrame bs = some x ∧ x.ret = true ∧ bs.drop x.consumed = rest := by
  obtain ⟨x, h1, h2, h3, _⟩ := skipFrame_complete hf
  exact ⟨x, h1, h2, h3⟩

example : StartsWith samplePayload (.maxData 100) [0x0a, 4, 3, 7, 8, 9, 1] :=
  (parseFrame_iff _ _ _).1 (by decide +kernel)

/-- C19: what is skipped is a frame, but for ACK and BDP frames, whose content is not all checked. -/
theorem C19_skip_sound (bs : Bytes) (x : Skip) (h : skipFrame bs = some x) (hr : x.ret = true) (hl : ¬ Loose bs) :
    ∃ f, StartsWith bs f (bs.drop x.consumed) := by
  rcases ((skipFrame_sound h).2 hr).2.2 with ⟨f, hf, _⟩ | h
  · exact ⟨f, hf⟩
  · exact absurd h hl

example : ∃ x, skipFrame samplePayload = some x ∧ x.ret = true ∧ x.consumed = 3 ∧ ¬ Loose samplePayload := by
  refine ⟨⟨true, 3, false⟩, by decide +kernel, rfl, rfl, ?_⟩
  rintro ⟨type, r, hi, ht⟩
  have h1 : framesVarintDecode samplePayload = some (16, samplePayload.drop 1) := by decide +kernel
  rw [intAt_decode hi] at h1
  have := (Prod.mk.inj (Option.some.inj h1)).1
  omega

/-- C19: when the decoder accepts what starts at `b :: t` and goes on at `rest`, the skipper ends there too.
The exception is the frame of an extension that is not negotiated, which the decoder refuses and of which it
reads only the type (see `C53_frames_in_order_violated`). -/
theorem C19_skip_agrees_with_decoder (cfg : Cfg) (h : Handler σ) (s s' : σ) (b : UInt8) (t rest : Bytes) (ack probing : Bool)
    (hc : decodeOne cfg h s b t = .cont s' rest ack probing)
    (hl : ¬ (cfg.epoch = .oneRtt ∧ ∃ type r, IntAt (b :: t) type r ∧ UnnegotiatedType cfg type)) :
    ∃ x, skipFrame (b :: t) = some x ∧ x.ret = true ∧ (b :: t).drop x.consumed = rest := by
  have h1 := skipSwitch_agrees hl hc
  obtain ⟨p, _, hp⟩ := decodeOne_shorter hc
  refine ⟨⟨true, (b :: t).length - rest.length, !ack⟩, ?_, rfl, ?_⟩
  · unfold skipFrame
    dsimp only
    rw [h1]
  · dsimp only
    rw [hp, List.length_append, Nat.add_sub_cancel, List.drop_left]

example : decodeOne plainCfg recorder {} 0x10 (samplePayload.drop 1) =
    .cont ⟨[.maxData 100], []⟩ (samplePayload.drop 3) true false := rfl

/-- C19: the search of a close frame in a packet terminates, for every byte string; in a packet made of frames
it finds it exactly if there is one. -/
theorem C19_closing_scan (bs : Bytes) :
    (∃ r, decodeClosingFrames bs = some r) ∧
    ∀ fs, IsPayload bs fs → decodeClosingFrames bs = some (fs.any IsClose) :=
  ⟨closingLoop_total _ _ (Nat.le_refl _), fun _ hp => closingLoop_payload hp _ (Nat.le_refl _)⟩

example : decodeClosingFrames (samplePayload ++ [0x1d, 5, 0]) = some true := by decide +kernel

/-! ## C53: the frames of a packet are processed in order -/

/-- C53: a byte string is a sequence of frames in one way only. -/
theorem C53_payload_unique (bs : Bytes) (fs fs' : List Frame) (h : IsPayload bs fs) (h' : IsPayload bs fs') : fs = fs' :=
  payload_unique h h'

/-- C53: the processing of any payload terminates. -/
theorem C53_decode_terminates (cfg : Cfg) (h : Handler σ) (s : σ) (bs : Bytes) : ∃ r, decodeFrames cfg h s bs = some r :=
  decodeLoop_total cfg h _ _ _ _ _ (Nat.le_refl _)

/-- C53: a payload made of acceptable frames is processed frame by frame, in order, up to the first one whose
processing fails. An IMMEDIATE_ACK at the end is excluded, as nothing is done for it. -/
theorem C53_payload_processed (cfg : Cfg) (h : Handler σ) (hk : ∀ s p, h.pathKnown s p = true) (s : σ) (bs : Bytes)
    (fs : List Frame) (hp : IsPayload bs fs) (ha : ∀ f ∈ fs, Acceptable cfg f)
    (hl : fs.getLast? ≠ some .immediateAck) :
    ∃ r, decodeFrames cfg h s bs = some r ∧ (r.accepted, r.state) = runFrames h s fs := by
  obtain ⟨r, h1, _, h3⟩ := decodeLoop_payload hk hp ha bs.length s false true (Nat.le_refl _)
  exact ⟨r, h1, h3 hl⟩

example : decodeFrames plainCfg recorderAll {} samplePayload =
    some ⟨⟨[.maxData 100, .stream 4 0 false [7, 8, 9] true, .ping 0], []⟩, true, true, false⟩ := by decide +kernel

example : ∀ f ∈ [Frame.maxData 100, .stream 4 0 false [7, 8, 9] true, .ping 0], Acceptable plainCfg f := by
  intro f hf
  simp at hf
  rcases hf with rfl | rfl | rfl <;> simp [Acceptable, AllowedIn, Negotiated, ValidFields, plainCfg]

/-- C53, for every byte string, acceptable or not: frames are processed in order from the start of the payload;
then either the end is reached and the payload is accepted, or a frame is refused, found wrong or malformed and
nothing more is done, or the code goes astray (the two cases of `GoesAstray`, shown below). Missing: what is
done in these cases, where bytes that are not frames may be processed. -/
theorem C53_frames_in_order_partial (cfg : Cfg) (h : Handler σ) (s : σ) (bs : Bytes) (r : Result σ)
    (hr : decodeFrames cfg h s bs = some r) :
    ∃ fs s1 bs1, Processed cfg h s bs fs s1 bs1 ∧
      ((bs1 = [] ∧ IsPayload bs fs ∧ r.accepted = true ∧ r.state = s1) ∨
       (r.accepted = false ∧ Halt cfg h s1 bs1 r.state) ∨
       GoesAstray cfg h s1 bs1) := by
  obtain ⟨fs, s1, bs1, h1, h2⟩ := decodeLoop_spec cfg h _ _ _ _ _ _ hr
  refine ⟨fs, s1, bs1, h1, ?_⟩
  rcases h2 with ⟨rfl, rfl⟩ | h2
  · exact .inl ⟨rfl, processed_payload h1, rfl, rfl⟩
  · exact .inr h2

/-- C53 holds in full for Initial, Handshake and 0-RTT packets, and for 1-RTT packets when the multipath and
address discovery extensions are negotiated and the paths exist. -/
theorem C53_frames_in_order (cfg : Cfg) (h : Handler σ) (s : σ) (bs : Bytes) (r : Result σ)
    (hcfg : cfg.epoch ≠ .oneRtt ∨
      (cfg.multipath = true ∧ cfg.addressDiscovery = true ∧ ∀ s p, h.pathKnown s p = true))
    (hr : decodeFrames cfg h s bs = some r) :
    ∃ fs s1 bs1, Processed cfg h s bs fs s1 bs1 ∧
      ((bs1 = [] ∧ IsPayload bs fs ∧ r.accepted = true ∧ r.state = s1) ∨
       (r.accepted = false ∧ Halt cfg h s1 bs1 r.state)) := by
  obtain ⟨fs, s1, bs1, h1, h2⟩ := C53_frames_in_order_partial cfg h s bs r hr
  refine ⟨fs, s1, bs1, h1, ?_⟩
  rcases h2 with h2 | h2 | h2
  · exact .inl h2
  · exact .inr h2
  · exfalso
    rcases h2 with ⟨he, type, _, _, hu⟩ | ⟨⟨he, _, hu⟩, _⟩
    · rcases hcfg with hc | ⟨hm, ha, _⟩
      · exact hc he
      · rcases hu with ⟨_, h3⟩ | ⟨_, h3⟩
        · rw [hm] at h3; cases h3
        · rw [ha] at h3; cases h3
    · rcases hcfg with hc | ⟨_, _, hk⟩
      · exact hc he
      · rcases hu with ⟨_, h3⟩ | ⟨_, _, _, _, _, _, _, h3⟩
        · rw [hk] at h3; cases h3
        · rw [hk] at h3; cases h3

example : decodeFrames fullCfg recorderAll {} [1, 0x10, 5, 0x10, 0x40] =
    some ⟨⟨[.ping 0, .maxData 5], [(7, 0x10)]⟩, false, true, false⟩ := by decide +kernel

/-- C53 is violated: the packet starts with the frame PATH_ABANDON 1 1, of an extension that is not negotiated;
an error is raised, then the fields of this frame are processed as if they were two PING frames. No sequence of
frames starts with the frames processed. -/
theorem C53_frames_in_order_violated :
    ∃ bs r, decodeFrames plainCfg recorderAll {} bs = some r ∧ StartsWith bs (.pathAbandon 1 1) [] ∧
      r.accepted = true ∧ r.state.frames = [.ping 1] ∧ r.state.errors ≠ [] :=
  ⟨[0x95, 0x22, 0x8c, 0x05, 1, 1], ⟨⟨[.ping 1], [(0xA, 0x15228c05)]⟩, true, true, false⟩, by decide +kernel,
    (parseFrame_iff _ _ _).1 (by decide +kernel), rfl, rfl, by decide⟩

/-- C53 is violated: a packet with a PATH_ACK frame for a path that is not known, the ranges of which are not
valid (packets 0 to 5 below), is accepted, although it is not a sequence of frames. -/
theorem C53_malformed_ack_accepted_violated :
    ∃ bs r, decodeFrames fullCfg recorder {} bs = some r ∧ Malformed bs ∧ r.accepted = true ∧ r.state.errors = [] := by
  refine ⟨[0x95, 0x22, 0x8c, 0x00, 7, 0, 0, 0, 5], ⟨⟨[], []⟩, true, false, false⟩, by decide +kernel, ?_, rfl, rfl⟩
  intro f rest hf
  rw [← parseFrame_iff] at hf
  have : parseFrame [0x95, 0x22, 0x8c, 0x00, 7, 0, 0, 0, 5] = none := by decide +kernel
  rw [this] at hf
  cases hf

/-! ## C54: which frames are admitted -/

/-- C54: when the frames before it are processed and a frame comes that may not be in this kind of packet, is of
an extension that is not negotiated, comes from the wrong side or has invalid fields, the connection is closed,
and the packet is accepted only for the frames of `UnnegotiatedType`. Missing: an IMMEDIATE_ACK at the end of the
packet, for which nothing is checked. -/
theorem C54_inadmissible_frame_closes_partial (cfg : Cfg) (h : Handler σ) (hk : ∀ s p, h.pathKnown s p = true)
    (closed : σ → Prop) (hc : IsClosed h closed) (s s1 : σ) (bs bs1 rest : Bytes) (fs : List Frame) (f : Frame)
    (hp : Processed cfg h s bs fs s1 bs1) (hf : StartsWith bs1 f rest) (ha : ¬ Acceptable cfg f)
    (hi : ¬ (f = .immediateAck ∧ rest = [])) :
    ∃ r, decodeFrames cfg h s bs = some r ∧ closed r.state ∧
      ((¬ ∃ type r, IntAt bs1 type r ∧ UnnegotiatedType cfg type) → r.accepted = false ∧ Errors h s1 r.state) := by
  cases bs1 with
  | nil => exact absurd hf not_startsWith_nil
  | cons b t =>
    obtain ⟨m, a', p', hm, he⟩ := loop_prefix hk hp (by simp) bs.length false true (Nat.le_refl _)
    obtain ⟨r, hr⟩ := decodeLoop_total cfg h m s1 a' p' (b :: t) hm
    refine ⟨r, (by rw [decodeFrames, he, hr]), ?_, ?_⟩
    · refine loop_step_closed hc ?_ hr
      by_cases hl : AllowedIn cfg.epoch f ∧ Lenient cfg f
      · obtain ⟨type, r', h1, h2⟩ := lenient_type hf hl.2
        have he : cfg.epoch = .oneRtt := by
          have := hl.2
          cases f <;> first | exact this.elim | exact hl.1
        obtain ⟨p, h3⟩ := decodeOne_lenient (h := h) (s := s1) he (intAt_decode h1) h2
        exact .inr ⟨_, _, _, _, h3, hc.error _ _ _⟩
      · obtain ⟨s', h1, h2⟩ := decodeOne_refused (h := h) (s := s1) hf ha (fun h1 h2 => hl ⟨h1, h2⟩)
          (fun h1 _ h2 => hi ⟨h1, h2⟩)
        exact .inl ⟨s', h1, errors_closed hc h2⟩
    · intro hl
      obtain ⟨s', h1, h2⟩ := decodeOne_refused (h := h) (s := s1) hf ha (fun _ h2 => hl (lenient_type hf h2))
          (fun h1 _ h2 => hi ⟨h1, h2⟩)
      cases m with
      | zero => cases hr
      | succ m =>
        rw [decodeLoop, h1] at hr
        have hr := Option.some.inj hr
        subst hr
        exact ⟨rfl, h2⟩

example : decodeFrames ⟨.initial, true, false, false, false, false, false, 0, 0⟩ recorderAll {} samplePayload =
    some ⟨⟨[], [(0xA, 0x10)]⟩, false, false, true⟩ := by decide +kernel

example : ¬ Acceptable ⟨.initial, true, false, false, false, false, false, 0, 0⟩ (.maxData 100) := by
  simp [Acceptable, AllowedIn]

/-- C54, the kind of packet: a frame that may not be in this kind of packet is refused with the error
PROTOCOL_VIOLATION (0xA), and neither it nor what follows it is processed. -/
theorem C54_wrong_packet_refused (cfg : Cfg) (h : Handler σ) (s : σ) (b : UInt8) (t rest : Bytes) (f : Frame)
    (hf : StartsWith (b :: t) f rest) (ha : ¬ AllowedIn cfg.epoch f) :
    decodeFrames cfg h s (b :: t) = some ⟨h.error s 0xA b.toNat, false, false, true⟩ := by
  rw [decodeFrames, List.length_cons, decodeLoop, decodeOne_notAllowed hf ha]

/-- C54 is violated: an IMMEDIATE_ACK frame, at the end of a packet, when the extension is not negotiated. -/
theorem C54_inadmissible_frame_closes_violated :
    ∃ bs r, decodeFrames plainCfg recorderAll {} bs = some r ∧ StartsWith bs .immediateAck [] ∧
      ¬ Acceptable plainCfg .immediateAck ∧ r.accepted = true ∧ r.state.errors = [] :=
  ⟨[0x1f], ⟨⟨[], []⟩, true, true, false⟩, by decide +kernel, (parseFrame_iff _ _ _).1 (by decide +kernel),
    by simp [Acceptable, Negotiated, plainCfg], rfl, rfl⟩

/-! ## C55: which packets are acknowledged, which are probes -/

/-- C55: a packet accepted, with packet number `pn`: an ACK is scheduled if there is an ack eliciting frame other
than PATH_CHALLENGE and PATH_RESPONSE, and only if there is an ack eliciting frame or a close. Missing:
PATH_CHALLENGE and PATH_RESPONSE ask for an acknowledgement too. -/
theorem C55_ack_scheduled_partial (cfg : Cfg) (h : Handler σ) (hk : ∀ s p, h.pathKnown s p = true) (s : σ) (bs : Bytes)
    (fs : List Frame) (hp : IsPayload bs fs) (ha : ∀ f ∈ fs, Acceptable cfg f) (r : Result σ)
    (hr : decodeFrames cfg h s bs = some r) (hacc : r.accepted = true) (pn last : Nat) :
    ((∃ f ∈ fs, AckEliciting f = true ∧ (∀ d, f ≠ .pathChallenge d ∧ f ≠ .pathResponse d)) →
      (afterLoop cfg r pn last).1 = true) ∧
    ((afterLoop cfg r pn last).1 = true → ∃ f ∈ fs, AckEliciting f = true ∨ IsClose f = true) := by
  obtain ⟨r', h1, h2, _⟩ := decodeLoop_payload hk hp ha bs.length s false true (Nat.le_refl _)
  rw [decodeFrames, h1] at hr
  have hr := Option.some.inj hr
  subst hr
  have h3 : (afterLoop cfg r' pn last).1 = fs.any (fun f => !pureAck f) := by
    unfold afterLoop
    rw [if_pos hacc]
    simpa using (h2 hacc).1
  rw [h3, List.any_eq_true]
  constructor
  · rintro ⟨f, hf, h4, h5⟩
    refine ⟨f, hf, ?_⟩
    cases f <;> first | rfl | exact absurd rfl (h5 _).1 | exact absurd rfl (h5 _).2 | cases h4
  · rintro ⟨f, hf, h4⟩
    refine ⟨f, hf, ?_⟩
    cases f <;> first | exact .inl rfl | exact .inr rfl | cases h4

example : afterLoop plainCfg ⟨(⟨[.maxData 100, .stream 4 0 false [7, 8, 9] true, .ping 0], []⟩ : Rec), true, true, false⟩
    12 7 = (true, 12) := by decide

/-- C55 is violated: no ACK is scheduled for a packet with a PATH_CHALLENGE only. -/
theorem C55_ack_scheduled_violated :
    ∃ bs data r, decodeFrames plainCfg recorderAll {} bs = some r ∧ IsPayload bs [.pathChallenge data] ∧
      Acceptable plainCfg (.pathChallenge data) ∧ AckEliciting (.pathChallenge data) = true ∧ r.accepted = true ∧
      (afterLoop plainCfg r 5 3).1 = false :=
  ⟨[0x1a, 0, 0, 0, 0, 0, 0, 0, 9], 9, ⟨⟨[.pathChallenge 9], []⟩, true, false, true⟩, by decide +kernel,
    .cons ((parseFrame_iff _ [] _).1 (by decide +kernel)) .nil,
    by simp [Acceptable, AllowedIn, Negotiated, ValidFields, plainCfg], rfl, rfl, rfl⟩

/-- C55, probing packets: the largest packet number of a packet that is not a probe, by which the migration of the
peer is recognized, takes the number of a 1-RTT packet exactly if it has a frame that is not a probing frame and
its number is larger. -/
theorem C55_probing_packets (cfg : Cfg) (h : Handler σ) (hk : ∀ s p, h.pathKnown s p = true) (s : σ) (bs : Bytes)
    (fs : List Frame) (hp : IsPayload bs fs) (ha : ∀ f ∈ fs, Acceptable cfg f) (r : Result σ)
    (hr : decodeFrames cfg h s bs = some r) (hacc : r.accepted = true) (pn last : Nat) :
    ((cfg.epoch = .oneRtt ∧ (∃ f ∈ fs, Probing f = false)) → (afterLoop cfg r pn last).2 = max pn last) ∧
    (¬ (cfg.epoch = .oneRtt ∧ (∃ f ∈ fs, Probing f = false)) → (afterLoop cfg r pn last).2 = last) := by
  obtain ⟨r', h1, h2, _⟩ := decodeLoop_payload hk hp ha bs.length s false true (Nat.le_refl _)
  rw [decodeFrames, h1] at hr
  have hr := Option.some.inj hr
  subst hr
  have h3 : r'.probing = false ↔ ∃ f ∈ fs, Probing f = false := by
    rw [(h2 hacc).2]
    simp
  unfold afterLoop
  rw [if_pos hacc]
  dsimp only
  rw [← h3]
  constructor
  · rintro ⟨h4, h5⟩
    by_cases hgt : pn > last
    · rw [if_pos ⟨h4, h5, hgt⟩]; omega
    · rw [if_neg (fun hh => hgt hh.2.2)]; omega
  · intro h4
    rw [if_neg (fun hh => h4 ⟨hh.1, hh.2.1⟩)]

/-- C55: a packet that is not accepted has neither effect. -/
theorem C55_refused_packet (cfg : Cfg) (r : Result σ) (hr : r.accepted = false) (pn last : Nat) :
    afterLoop cfg r pn last = (false, last) := by
  unfold afterLoop
  rw [hr]
  rfl

example : afterLoop plainCfg ⟨(⟨[.pathChallenge 9], []⟩ : Rec), true, false, true⟩ 12 7 = (false, 7) := by decide

/-! ## C56: writing frames -/

/-- C56: each formatter writes, if it fits in the space left, one frame, with the given content; otherwise it
writes nothing. -/
theorem C56_formatter_writes_frame (f : Frame) (e : Enc) (he : formatOf f = some e) (hw : Writable f) :
    ∃ w, IsFrame w f ∧ ∀ room, e room = if w.length ≤ room then some w else none :=
  writes_frame he hw

/-- C56: a frame written by a formatter, received in a packet in which it is acceptable, is processed with the
same content, and is skipped as a whole. An IMMEDIATE_ACK that is the only frame is excluded. -/
theorem C56_written_frame_received (f : Frame) (e : Enc) (he : formatOf f = some e) (hw : Writable f) (room : Nat)
    (w : Bytes) (hr : e room = some w) (cfg : Cfg) (ha : Acceptable cfg f) (hi : f ≠ .immediateAck) (h : Handler σ)
    (hk : ∀ s p, h.pathKnown s p = true) (s : σ) :
    w.length ≤ room ∧
    (∃ r, decodeFrames cfg h s w = some r ∧ (r.accepted, r.state) = h.frame s f) ∧
    (∃ x, skipFrame w = some x ∧ x.ret = true ∧ x.consumed = w.length) := by
  obtain ⟨w', h1, h2⟩ := writes_frame he hw
  rw [h2] at hr
  by_cases hl : w'.length ≤ room
  · rw [if_pos hl] at hr
    have hr := Option.some.inj hr
    subst hr
    have hs : StartsWith w' f [] := ⟨w', by simp, h1, endsWith_nil f⟩
    refine ⟨hl, ?_, ?_⟩
    · obtain ⟨r, h3, h4⟩ := C53_payload_processed cfg h hk s w' [f] (.cons hs .nil) (by simpa using ha)
        (by simpa using hi)
      refine ⟨r, h3, ?_⟩
      rw [h4]
      cases hh : h.frame s f with
      | mk ok s' => cases ok <;> simp [runFrames, hh]
    · obtain ⟨x, h3, h4, h5⟩ := C19_skip_exact _ _ _ hs
      refine ⟨x, h3, h4, ?_⟩
      have := ((skipFrame_sound h3).2 h4).2.1
      have h6 := congrArg List.length h5
      rw [List.length_drop] at h6
      simp at h6
      omega
  · rw [if_neg hl] at hr
    cases hr

example : Writable (.newConnectionId (some 3) 7 5 [1, 2, 3, 4] (List.replicate 16 9)) ∧
    formatNewCid (some 3) 7 5 [1, 2, 3, 4] (List.replicate 16 9) 28 =
      some ([0x95, 0x22, 0x8c, 0x09, 3, 7, 5, 4, 1, 2, 3, 4] ++ List.replicate 16 9) := by
  refine ⟨⟨?_, by simp [SizesOk], by simp⟩, by decide +kernel⟩
  intro x hx
  simp [layout] at hx
  rcases hx with rfl | rfl | rfl | rfl | rfl | rfl | rfl <;> simp [Fits]

/-- C56, CRYPTO: what is written fits in the space, is nothing or a CRYPTO frame with the first bytes queued, at
the offset of the stream, and these bytes are the ones taken from the queue. With 18 bytes of space there is
progress. -/
theorem C56_crypto_frame (offset room : Nat) (queued w : Bytes) (n : Nat) (ho : offset < 2 ^ 62)
    (hq : queued.length < 2 ^ 62) (h : formatCrypto offset queued room = (w, n)) :
    n ≤ queued.length ∧ w.length ≤ room ∧ (w = [] → n = 0) ∧
      (w ≠ [] → IsFrame w (.crypto offset (queued.take n))) ∧ (queued ≠ [] → 18 ≤ room → 0 < n) :=
  formatCrypto_spec ho hq h

example : formatCrypto 100 [1, 2, 3, 4, 5] 8 = ([6, 0x40, 100, 4, 1, 2, 3, 4], 4) := by decide +kernel

/-! ## C57: malformed packets -/

/-- C57: when the frames before are processed and no frame follows, although there are bytes, the connection is
closed with an error. Missing: the types listed in `Silent`. -/
theorem C57_malformed_frame_closes_partial (cfg : Cfg) (h : Handler σ) (hk : ∀ s p, h.pathKnown s p = true)
    (closed : σ → Prop) (hc : IsClosed h closed) (s s1 : σ) (bs bs1 : Bytes) (fs : List Frame)
    (hp : Processed cfg h s bs fs s1 bs1) (hne : bs1 ≠ []) (hm : Malformed bs1) (hs : ¬ Silent bs1) :
    ∃ r, decodeFrames cfg h s bs = some r ∧ closed r.state := by
  cases bs1 with
  | nil => exact absurd rfl hne
  | cons b t =>
    obtain ⟨m, a', p', hl, he⟩ := loop_prefix hk hp (by simp) bs.length false true (Nat.le_refl _)
    obtain ⟨r, hr⟩ := decodeLoop_total cfg h m s1 a' p' (b :: t) hl
    refine ⟨r, (by rw [decodeFrames, he, hr]), loop_step_closed hc ?_ hr⟩
    by_cases hl : cfg.epoch = .oneRtt ∧ ∃ type r, IntAt (b :: t) type r ∧ UnnegotiatedType cfg type
    · obtain ⟨he, type, r', h1, h2⟩ := hl
      obtain ⟨p, h3⟩ := decodeOne_lenient (h := h) (s := s1) he (intAt_decode h1) h2
      exact .inr ⟨_, _, _, _, h3, hc.error _ _ _⟩
    · obtain ⟨s', h1, h2⟩ := decodeOne_malformed (h := h) (s := s1) hm (by
        rintro ⟨_, _, ⟨_, h3⟩ | ⟨_, _, _, _, _, _, _, h3⟩⟩
        · rw [hk] at h3; cases h3
        · rw [hk] at h3; cases h3) hl
      exact .inl ⟨s', h1, dropped_closed hc (.inr hs) h2⟩

example : decodeFrames plainCfg recorderAll {} [0x10, 5, 0x10, 0x40] =
    some ⟨⟨[.maxData 5], [(7, 0x10)]⟩, false, true, false⟩ := by decide +kernel

/-- C57: the packet is not accepted, unless the frame has a type of `UnnegotiatedType`. -/
theorem C57_malformed_frame_not_accepted (cfg : Cfg) (h : Handler σ) (hk : ∀ s p, h.pathKnown s p = true) (s s1 : σ)
    (bs bs1 : Bytes) (fs : List Frame) (hp : Processed cfg h s bs fs s1 bs1) (hne : bs1 ≠ []) (hm : Malformed bs1)
    (hl : ¬ (cfg.epoch = .oneRtt ∧ ∃ type r, IntAt bs1 type r ∧ UnnegotiatedType cfg type)) :
    ∃ r, decodeFrames cfg h s bs = some r ∧ r.accepted = false := by
  cases bs1 with
  | nil => exact absurd rfl hne
  | cons b t =>
    obtain ⟨m, a', p', hb, he⟩ := loop_prefix hk hp (by simp) bs.length false true (Nat.le_refl _)
    obtain ⟨s', h1, h2⟩ := decodeOne_malformed (h := h) (s := s1) hm (by
        rintro ⟨_, _, ⟨_, h3⟩ | ⟨_, _, _, _, _, _, _, h3⟩⟩
        · rw [hk] at h3; cases h3
        · rw [hk] at h3; cases h3) hl
    cases m with
    | zero => simp at hb
    | succ m =>
      rw [decodeFrames, he, decodeLoop, h1]
      exact ⟨_, rfl, rfl⟩

/-- C57 is violated: a packet with a truncated STREAM frame is dropped, and nothing is reported, whatever the
handler does. -/
theorem C57_malformed_frame_closes_violated :
    ∃ bs, Malformed bs ∧ ∀ (σ : Type) (h : Handler σ) (s : σ),
      decodeFrames plainCfg h s bs = some ⟨s, false, false, true⟩ := by
  refine ⟨[0x0a, 4, 3, 7], ?_, fun σ h s => rfl⟩
  intro f rest hf
  rw [← parseFrame_iff] at hf
  have : parseFrame [0x0a, 4, 3, 7] = none := by decide +kernel
  rw [this] at hf
  cases hf

end Picoquic.Props
