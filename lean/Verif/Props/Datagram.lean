import Verif.Props.Frames
import Verif.Proof.Datagram
/-!
# C36, C38, C64, C65: queued frames and datagrams

`run { remoteMax := m } evs` executes calls of `picoquic_queue_misc_frame`, `picoquic_queue_datagram_frame`,
`picoquic_mark_datagram_ready` and preparations of packets, in any order, on a connection whose peer announced
`max_datagram_frame_size = m`. The log has for each event the code returned and the pieces placed in the packet;
`payload pieces` is what the packet contains.
-/

namespace Picoquic.Props
open Picoquic Picoquic.Spec Picoquic.Frames Picoquic.Dgram

theorem start_ok (m : Nat) : Ok { remoteMax := m } := ⟨by simp, by simp⟩

/-! ## C36 -/

/-- C36, for all histories: the payload of each packet is a sequence of whole frames, whose DATAGRAM frames have
exactly, and in the same order, the contents placed in this packet from the queue or by the application. -/
theorem C36_content_exact (m : Nat) (evs : List Event) (hl : ∀ ev ∈ evs, LegitEvent ev) (room : Nat) (segs : List Seg)
    (code : Nat) (pieces : List Piece) (h : (Event.packet room segs, code, pieces) ∈ (run { remoteMax := m } evs).2) :
    (payload pieces).length ≤ room ∧
      ∃ fs, IsPayload (payload pieces) fs ∧ datagramsOf fs = handedOver pieces := by
  obtain ⟨⟨fs, h1, h2, h3, _⟩, _⟩ := run_packets evs _ (start_ok m) hl room segs code pieces h
  exact ⟨h3, fs, h1, h2⟩

/-- C36, the receiver: of such a payload the application gets exactly these contents, if they are within its
limit and the other frames are acceptable. -/
theorem C36_received (m : Nat) (evs : List Event) (hl : ∀ ev ∈ evs, LegitEvent ev) (room : Nat) (segs : List Seg)
    (code : Nat) (pieces : List Piece) (h : (Event.packet room segs, code, pieces) ∈ (run { remoteMax := m } evs).2)
    (cfg : Cfg) (he : cfg.epoch = .oneRtt) (hd : ∀ d ∈ handedOver pieces, d.length ≤ cfg.maxDatagram)
    (hf : ∀ fs, IsPayload (payload pieces) fs →
      fs.getLast? ≠ some .immediateAck ∧ ∀ f ∈ fs, (∀ d e, f ≠ .datagram d e) → Acceptable cfg f) :
    ∃ r, decodeFrames cfg recorderAll {} (payload pieces) = some r ∧ r.accepted = true ∧
      datagramsOf r.state.frames = handedOver pieces := by
  obtain ⟨_, fs, h1, h2⟩ := C36_content_exact m evs hl room segs code pieces h
  obtain ⟨hi, ho⟩ := hf fs h1
  have hmem : ∀ (fs : List Frame) d e, Frame.datagram d e ∈ fs → d ∈ datagramsOf fs := by
    intro fs d e
    induction fs with
    | nil => intro h; simp at h
    | cons f fs ih =>
      intro h
      rcases List.mem_cons.1 h with h1 | h1
      · subst h1; exact List.mem_cons_self ..
      · cases f with
        | datagram d' e' => exact List.mem_cons_of_mem _ (ih h1)
        | _ => exact ih h1
  obtain ⟨r, h3, h4⟩ := C53_payload_processed cfg recorderAll (fun _ _ => rfl) {} _ fs h1 (by
    intro f hf
    by_cases hx : ∃ d e, f = .datagram d e
    · obtain ⟨d, e, rfl⟩ := hx
      exact ⟨.inr he, trivial, hd d (by rw [← h2]; exact hmem fs d e hf)⟩
    · exact ho f hf (fun d e hde => hx ⟨d, e, hde⟩)) hi
  have hrun : ∀ (fs : List Frame) (s : Rec), runFrames recorderAll s fs = (true, { s with frames := s.frames ++ fs }) := by
    intro fs
    induction fs with
    | nil => intro s; simp [runFrames]
    | cons f fs ih =>
      intro s
      simp only [runFrames, recorderAll, recorder, if_true] at ih ⊢
      rw [ih]; simp
  rw [hrun] at h4
  have h5 := Prod.mk.inj h4
  exact ⟨r, h3, h5.1, by rw [h5.2]; simpa using h2⟩

/-- Datagrams of the queue and written by the application, with and without a length. -/
def sampleDatagrams : List Event :=
  [.queueDatagram [1, 2, 3], .queueMisc 0 [0x10, 5], .ready false true,
   .packet 50 [.other [1], .misc 0, .datagrams [], .datagrams [⟨[7, 7], 1⟩, ⟨List.replicate 33 9, 0⟩]],
   .packet 50 [.other [1], .misc 0, .datagrams [⟨[7, 7], 1⟩]], .ready false true,
   .packet 50 [.datagrams [⟨List.replicate 29 8, 1⟩, ⟨List.replicate 18 9, 0⟩]]]

example : (run { remoteMax := 1200 } sampleDatagrams).2.map (fun r => handedOver r.2.2) =
    [[], [], [], [[1, 2, 3], [7, 7], List.replicate 33 9], [], [], [List.replicate 29 8, List.replicate 18 9]] := by
  decide +kernel

example : ((run { remoteMax := 1200 } sampleDatagrams).2.map fun r => payload r.2.2)[6]? =
    some (0x31 :: 29 :: (List.replicate 29 8 ++ (0x30 :: List.replicate 18 9))) := by decide +kernel

theorem ping_closed : ClosedWithoutDatagram [1] :=
  ⟨[.ping 0], payload_singleton ⟨⟨[], rfl, rfl⟩, trivial⟩, rfl, by intro f hf; simp at hf; subst hf; trivial⟩

theorem maxData_closed : ClosedWithoutDatagram [0x10, 5] :=
  ⟨[.maxData 5], .cons ((parseFrame_iff _ [] _).1 (by decide +kernel)) .nil, rfl,
    by intro f hf; simp at hf; subst hf; trivial⟩

example : ∀ ev ∈ sampleDatagrams, LegitEvent ev := by
  intro ev h
  simp [sampleDatagrams] at h
  rcases h with rfl | rfl | rfl | rfl | rfl | rfl | rfl
  · trivial
  · exact maxData_closed
  · trivial
  · refine ⟨by decide, ?_⟩
    intro g hg
    simp at hg
    rcases hg with rfl | rfl | rfl | rfl
    · exact ping_closed
    all_goals trivial
  · refine ⟨by decide, ?_⟩
    intro g hg
    simp at hg
    rcases hg with rfl | rfl | rfl
    · exact ping_closed
    all_goals trivial
  · trivial
  · refine ⟨by decide, ?_⟩
    intro g hg
    simp at hg
    subst hg; trivial

/-- C36, the queue, for all histories: the datagrams accepted are placed in packets in order, each once; those not
yet placed wait. -/
theorem C36_queue_in_order (m : Nat) (evs : List Event) (hl : ∀ ev ∈ evs, LegitEvent ev) :
    takenFromQueue (allPieces (run { remoteMax := m } evs).2) ++
      waitingDatagrams (run { remoteMax := m } evs).1.queue = acceptedDatagrams (run { remoteMax := m } evs).2 :=
  run_datagrams evs _ (start_ok m) hl

example : acceptedDatagrams (run { remoteMax := 1200 } sampleDatagrams).2 = [[1, 2, 3]] := by decide +kernel

/-- C36: a datagram is accepted if it has at most 1200 bytes; otherwise the call fails and nothing changes. -/
theorem C36_accepted_iff (s : State) (data : Bytes) :
    (data.length ≤ 1200 → (step s (.queueDatagram data)).2.1 = 0) ∧
    (1200 < data.length → (step s (.queueDatagram data)).2.1 = 0x43B ∧ (step s (.queueDatagram data)).1 = s) := by
  unfold step
  dsimp only
  rw [queueDatagram_spec]
  constructor
  · intro h; rw [if_pos h]
  · intro h; rw [if_neg (by omega)]; exact ⟨rfl, rfl⟩

/-- C36: a datagram larger than the local limit is not processed: the packet is refused and an error is reported. -/
theorem C36_too_large_rejected {σ : Type} (cfg : Cfg) (h : Handler σ) (hk : ∀ s p, h.pathKnown s p = true) (s s1 : σ)
    (bs bs1 rest data : Bytes) (explicit : Bool) (fs : List Frame) (hp : Processed cfg h s bs fs s1 bs1)
    (hf : StartsWith bs1 (.datagram data explicit) rest) (hl : cfg.maxDatagram < data.length) :
    ∃ r, decodeFrames cfg h s bs = some r ∧ r.accepted = false ∧ Errors h s1 r.state := by
  obtain ⟨r, h1, _, h2⟩ := C54_inadmissible_frame_closes_partial cfg h hk (fun _ => True)
    ⟨fun _ _ _ => trivial, fun _ _ _ => trivial, fun _ _ _ => trivial⟩ s s1 bs bs1 rest fs _ hp hf
    (fun ha => by have : data.length ≤ cfg.maxDatagram := ha.2.2; omega) (by rintro ⟨h, _⟩; cases h)
  refine ⟨r, h1, h2 ?_⟩
  rintro ⟨type, r', ⟨p, hp', hv⟩, hu⟩
  have hd := Ack.varint_decode hv r'
  rw [← hp'] at hd
  obtain ⟨q, hq, hfr, _⟩ := hf
  have : type < 64 := by
    cases explicit with
    | true =>
      obtain ⟨⟨t, ht, _⟩, _⟩ := hfr
      rw [hq, ht] at hd
      simp only [List.cons_append, List.nil_append] at hd
      rw [decode_short (by decide)] at hd
      cases hd; decide
    | false =>
      obtain ⟨⟨t, ht, _⟩, _⟩ := hfr
      rw [hq, ht] at hd
      simp only [List.cons_append, List.nil_append] at hd
      rw [decode_short (by decide)] at hd
      cases hd; decide
  rcases hu with ⟨hu, _⟩ | ⟨hu, _⟩ <;> omega

example : decodeFrames { plainCfg with maxDatagram := 2 } recorderAll {} [1, 0x31, 3, 5, 5, 5] =
    some ⟨⟨[.ping 0], [(7, 0x31)]⟩, false, true, false⟩ := by decide +kernel

/-- C36: what is reported to the application when a datagram is lost, or acknowledged, is its content. The frame
may be followed by others, if it has a length. -/
theorem C36_reported_exact (bs data rest : Bytes) (explicit : Bool) (h : StartsWith bs (.datagram data explicit) rest) :
    reported bs = some data := by
  obtain ⟨p, rfl, ⟨hf, _⟩, he⟩ := h
  cases explicit with
  | false =>
    have : rest = [] := he rfl
    subst this
    obtain ⟨t, rfl, t', rfl, ht⟩ := hf
    have ht : t' = [] := ht
    subst ht
    simp only [List.cons_append, List.nil_append, List.append_nil, reported]
    rw [if_pos (by decide)]
  | true =>
    obtain ⟨t, rfl, l, u, rfl, hv, t', rfl, ht⟩ := hf
    have ht : t' = [] := ht
    subst ht
    simp only [List.cons_append, List.nil_append, List.append_nil, List.append_assoc, reported]
    rw [if_neg (by decide), Ack.varint_decode hv]
    simp

/-! ## C38 -/

/-- C38, for all histories and all packet sizes: the frames queued for a packet context are placed in packets in
the order queued, unmodified, each once; those not yet placed wait. For the other contexts, until the connection is
ready. -/
theorem C38_in_order (m pc : Nat) (evs : List Event) (hp : pc = 0 ∨ Event.purge ∉ evs) :
    miscPlaced pc (allPieces (run { remoteMax := m } evs).2) ++ waitingMisc pc (run { remoteMax := m } evs).1.misc =
      queuedMisc pc evs :=
  run_misc pc evs _ hp

/-- C38: the bytes of a frame placed in a packet are in its payload. -/
theorem C38_in_payload (pc : Nat) (pieces : List Piece) (b : Bytes) (h : b ∈ miscPlaced pc pieces) :
    ∃ pre post, payload pieces = pre ++ b ++ post := by
  induction pieces with
  | nil => simp [miscPlaced] at h
  | cons p ps ih =>
    have hcons : payload (p :: ps) = p.bytes ++ payload ps := by simp [payload]
    have go : b ∈ miscPlaced pc ps → ∃ pre post, payload (p :: ps) = pre ++ b ++ post := by
      intro h
      obtain ⟨pre, post, h⟩ := ih h
      exact ⟨p.bytes ++ pre, post, by rw [hcons, h]; simp⟩
    cases p with
    | misc q x =>
      by_cases hq : q = pc
      · simp only [miscPlaced, hq, if_true] at h
        rcases List.mem_cons.1 h with rfl | h
        · exact ⟨[], payload ps, by rw [hcons]; rfl⟩
        · exact go h
      · simp only [miscPlaced, if_neg hq] at h
        exact go h
    | _ => exact go h

/-- C38: all that waits for the context is placed in a packet which has room for it. -/
theorem C38_placed (s : State) (room pc : Nat) (hne : ∀ b ∈ waitingMisc pc s.misc, b ≠ [])
    (hr : (waitingMisc pc s.misc).flatten.length ≤ room) :
    miscPlaced pc (step s (.packet room [.misc pc])).2.2 = waitingMisc pc s.misc ∧
      waitingMisc pc (step s (.packet room [.misc pc])).1.misc = [] := by
  have h := formatMisc_all pc s.misc.length s.misc room (Nat.le_refl _) hne hr
  have h2 := formatMisc_order pc pc s.misc.length s.misc room
  rw [h, List.append_nil] at h2
  have hb : build s room [.misc pc] = ((segment s room (.misc pc)).1, (segment s room (.misc pc)).2) := by
    simp [build]
  unfold step
  dsimp only
  rw [hb]
  exact ⟨h2, h⟩

def sampleMisc : List Event :=
  [.queueMisc 0 [0x10, 5], .queueMisc 1 [1], .queueMisc 0 [0x14, 6], .packet 3 [.misc 0], .packet 9 [.misc 1],
   .queueMisc 0 [1], .packet 9 [.other [1], .misc 0]]

example : (run {} sampleMisc).2.map (fun r => payload r.2.2) =
    [[], [], [], [0x10, 5], [1], [], [1, 0x14, 6, 1]] := by decide +kernel

/-- C38, no progress: a frame longer than the packets is accepted, and then no frame queued behind it for the same
context is ever placed in a packet, whatever happens. -/
theorem C38_blocked_violated (m : Nat) (b : Bytes) (evs : List Event)
    (hr : ∀ room segs, Event.packet room segs ∈ evs → room < b.length) :
    (step { remoteMax := m } (.queueMisc 0 b)).2.1 = 0 ∧
      miscPlaced 0 (allPieces (run (step { remoteMax := m } (.queueMisc 0 b)).1 evs).2) = [] :=
  ⟨rfl, run_blocked evs _ [] (by simp [step, queueMisc, waitingMisc]) hr⟩

example : ∀ room segs, Event.packet room segs ∈ [Event.queueMisc 0 [1], .packet 1400 [.misc 0]] →
    room < (List.replicate 1500 (1 : UInt8)).length := by
  intro room segs h
  rw [List.length_replicate]
  rcases List.mem_cons.1 h with h | h
  · cases h
  · rw [List.mem_singleton] at h
    cases h; omega

/-! ## C64: the limit announced by the peer -/

/-- C64, in part: a datagram written by the application in the packet has at most as many bytes as the peer
announced. Missing: the type and the length of the frame are not counted, and the datagrams of the queue are not
checked. -/
theorem C64_written_partial (m : Nat) (evs : List Event) (hl : ∀ ev ∈ evs, LegitEvent ev) (room : Nat) (segs : List Seg)
    (code : Nat) (pieces : List Piece) (h : (Event.packet room segs, code, pieces) ∈ (run { remoteMax := m } evs).2)
    (d : Bytes) (hd : d ∈ writtenByApp pieces) : d.length ≤ m :=
  (run_packets evs _ (start_ok m) hl room segs code pieces h).2 d hd

/-- C64 is violated: when the peer does not accept datagrams (it announced 0), one is accepted for sending and is
sent. -/
theorem C64_queued_violated :
    ∃ pieces, (Event.packet 100 [.datagrams []], 0, pieces) ∈
        (run { remoteMax := 0 } [.queueDatagram [1, 2, 3], .packet 100 [.datagrams []]]).2 ∧
      IsPayload (payload pieces) [.datagram [1, 2, 3] true] :=
  ⟨[.queued (some [1, 2, 3]) [0x31, 3, 1, 2, 3]], by decide +kernel,
    .cons ((parseFrame_iff _ [] _).1 (by decide +kernel)) .nil⟩

/-- C64 is violated for the datagrams written by the application, by the type and length of the frame (RFC 9221
section 3 counts them): the peer accepts frames of 20 bytes, one of 22 is sent. -/
theorem C64_written_violated :
    ∃ pieces, (Event.packet 100 [.datagrams [⟨List.replicate 20 5, 0⟩]], 0, pieces) ∈
        (run { remoteMax := 20 } [.ready false true, .packet 100 [.datagrams [⟨List.replicate 20 5, 0⟩]]]).2 ∧
      IsFrame (payload pieces) (.datagram (List.replicate 20 5) true) ∧ (payload pieces).length = 22 := by
  refine ⟨[.written (List.replicate 20 5) (0x31 :: 20 :: List.replicate 20 5)], by decide +kernel, ?_, by decide +kernel⟩
  exact datagram_true_frame (data := List.replicate 20 5) (by decide)

/-! ## C65: the queue of datagrams makes progress -/

/-- C65, in part: the first datagram of the queue is placed in a packet which has room for it, with up to 3 bytes
for the type and the length. Missing: the packets may be too small for it, see below. -/
theorem C65_sent_partial (s : State) (d : Bytes) (rest : List Item) (room : Nat) (replies : List Reply)
    (hq : s.queue = (step { s with queue := [] } (.queueDatagram d)).1.queue ++ rest) (hd : d.length ≤ 1200)
    (hr : d.length + 3 ≤ room) :
    handedOver (step s (.packet room [.datagrams replies])).2.2 = [d] ∧
      (step s (.packet room [.datagrams replies])).1.queue = rest := by
  unfold step at hq
  dsimp only at hq
  rw [queueDatagram_spec, if_pos hd] at hq
  have hl : (0x31 :: (varintBytes d.length ++ d) : Bytes).length ≤ room := by
    have : encodeVarintLength d.length ≤ 2 := by
      unfold encodeVarintLength; split <;> split <;> omega
    simp only [List.length_cons, List.length_append, varintBytes_length]; omega
  have hq' : s.queue = { pc := 0, bytes := 0x31 :: (varintBytes d.length ++ d), content := some d } :: rest := by
    rw [hq]; rfl
  have hs : segment s room (.datagrams replies) =
      ({ s with queue := rest }, [.queued (some d) (0x31 :: (varintBytes d.length ++ d))]) := by
    unfold segment
    dsimp only
    unfold prepareDatagrams
    rw [hq']
    dsimp only
    rw [if_neg (by omega)]
  have hb : build s room [.datagrams replies] = ({ s with queue := rest }, [.queued (some d) (0x31 :: (varintBytes d.length ++ d))]) := by
    simp [build, hs]
  unfold step
  dsimp only
  rw [hb]
  exact ⟨rfl, rfl⟩

/-- C65 is violated: a datagram of 1200 bytes is accepted; if the packets have room for 1202 bytes (as on a path with
the minimum MTU), no datagram is ever sent, neither this one, nor one queued or written later. -/
theorem C65_blocked_violated (m : Nat) (d : Bytes) (hd : d.length = 1200) (evs : List Event)
    (hr : ∀ room segs, Event.packet room segs ∈ evs → room ≤ 1202) :
    (step { remoteMax := m } (.queueDatagram d)).2.1 = 0 ∧
      handedOver (allPieces (run (step { remoteMax := m } (.queueDatagram d)).1 evs).2) = [] := by
  unfold step
  dsimp only
  rw [queueDatagram_spec, if_pos (by omega)]
  refine ⟨rfl, run_queue_blocked evs _ [] rfl ?_⟩
  intro room segs h
  have := hr room segs h
  have h2 : encodeVarintLength 1200 = 2 := by decide
  simp only [List.length_cons, List.length_append, varintBytes_length, hd, h2]
  omega

end Picoquic.Props
