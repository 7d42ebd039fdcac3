import Verif.Proof.StreamSendFin
import Verif.Proof.StreamSendLoop
import Verif.Props.StreamFrame
/-!
# C15, C39, C46 to C50: sending stream data

`run (initial client maxdata limit) ops` is a connection with the peer's limit `maxdata` on data and `limit`
on stream identifiers, after the history `ops`, together with the events: data accepted from the
application, frames written. A history is any list of calls of the API, frames received and packets
prepared (`Op`).
-/

namespace Picoquic.Props
open Picoquic Picoquic.Spec Picoquic.StreamSend Picoquic.StreamFrame
open Picoquic.StreamLimits (streamIdFromRank)

/-- A connection of a client whose peer allows 5 streams of each type and 1000 bytes. -/
def exampleConn : Conn := initial true 1000 fun u => streamIdFromRank 5 true u

/-- An application that has no data when it is polled. -/
def noAnswer : Nat → Answer := fun _ => ⟨[], false, false⟩

/-! ## C15 -/

/-- C15: after every history, each STREAM frame ever sent ends at or below the largest limit given by the
peer so far for its stream, and the total of the bytes sent on all streams is at most the largest limit
given so far for the connection. -/
theorem C15_flow_control (client : Bool) (maxdata : Nat) (limit : Bool → Nat) (ops : List Op) :
    let ev := (run (initial client maxdata limit) ops).2
    (∀ id offset fin data raw, Event.stream id offset fin data raw ∈ ev →
      offset + data.length ≤ peerStreamLimit id ops) ∧
    totalSent ev ≤ peerConnLimit maxdata ops := by
  dsimp only
  refine ⟨fun id offset fin data raw h => ?_, ?_⟩
  · exact (run_limInv id client maxdata limit ops).frames id offset fin data raw (mem_evOf.2 ⟨h, rfl⟩)
  · obtain ⟨h1, _, h2⟩ := run_conn client maxdata limit ops
    rw [← h1]
    exact h2

/-- Five bytes written, limit 3, then 4: three bytes are sent, then one. -/
example :
    let r := run exampleConn [.create 0 3 9, .write 0 [1, 2, 3, 4, 5] true, .send none 255 100 0 noAnswer 9,
      .maxStreamData 0 4, .maxStreamData 0 2, .send none 255 100 0 noAnswer 9]
    r.2 = [.accepted 0 [1, 2, 3, 4, 5] true, .stream 0 0 false [1, 2, 3] [10, 0, 3, 1, 2, 3],
      .stream 0 3 false [4] [14, 0, 3, 1, 4]] := by decide +kernel

/-! ## C48 -/

/-- C48: after every history, the bytes sent on a stream are a prefix of the bytes accepted from the
application, in order; each STREAM frame carries as offset the number of bytes sent before it; its bytes
are such a frame, possibly behind one byte of padding; a RESET_STREAM frame carries as final size the
number of bytes sent, and no STREAM frame follows it. -/
theorem C48_stream_bytes (client : Bool) (maxdata : Nat) (limit : Bool → Nat) (ops : List Op) (id : Nat)
    (hroom : ∀ path priority room time answers turns,
      Op.send path priority room time answers turns ∈ ops → room ≤ 16384) :
    let ev := (run (initial client maxdata limit) ops).2
    sentBytes id ev <+: acceptedBytes id ev ∧
    (∀ before after offset fin data raw, ev = before ++ Event.stream id offset fin data raw :: after →
      offset = (sentBytes id before).length ∧
      (id < 2 ^ 62 → offset < 2 ^ 62 → ∃ pad frame explicit, raw = pad ++ frame ∧ (pad = [] ∨ pad = [0]) ∧
        IsStreamFrame frame id offset fin data explicit)) ∧
    (∀ before after error size, ev = before ++ Event.reset id error size :: after →
      size = (sentBytes id before).length ∧ ∀ offset fin data raw, Event.stream id offset fin data raw ∉ after) := by
  dsimp only
  have h := run_bytesInv id client maxdata limit ops
  refine ⟨?_, fun before after offset fin data raw he => ?_, fun before after error size he => ?_⟩
  · have := h.pre
    rwa [sentBytes_evOf, acceptedBytes_evOf] at this
  · obtain ⟨h1, _⟩ := h.frames _ _ offset fin data raw (evOf_split he rfl)
    rw [sentBytes_evOf] at h1
    refine ⟨h1, fun hid hoff => ?_⟩
    have hraw := raw_run (initial client maxdata limit) ops 16384
      (fun op hop => by
        cases op with
        | send path priority room time answers turns => exact hroom _ _ _ _ _ _ hop
        | _ => trivial)
      (.stream id offset fin data raw) (by rw [he]; simp)
    obtain ⟨room, header, polled, hR, hh, hd, hraw⟩ := hraw
    obtain ⟨_, pad, frame, explicit, e1, e2, e3, _⟩ :=
      C17_stream_frame_fits id offset room header data fin polled hid hoff hR hh hd
    exact ⟨pad, frame, explicit, hraw.trans e1, e2, e3⟩
  · obtain ⟨h1, h2⟩ := h.resets _ _ error size (evOf_split he rfl)
    rw [sentBytes_evOf] at h1
    exact ⟨h1, fun o f d r hx => h2 o f d r (mem_evOf.2 ⟨hx, rfl⟩)⟩

/-- Two streams in the same packet, then a reset of the first. -/
example :
    let r := run exampleConn [.create 0 100 9, .create 4 100 9, .write 0 [1, 2] false, .write 4 [3] true,
      .send none 255 100 0 noAnswer 9, .write 0 [4, 5, 6] true, .reset 0 7 false, .send none 255 100 0 noAnswer 9]
    r.2 = [.accepted 0 [1, 2] false, .accepted 4 [3] true, .stream 0 0 false [1, 2] [10, 0, 2, 1, 2],
      .stream 4 0 true [3] [11, 4, 1, 3], .accepted 0 [4, 5, 6] true, .reset 0 7 2] := by decide +kernel

/-! ## C49 -/

/-- C49, for an application that writes no data on a stream after it has asked for the end of the stream,
and never asks for it in a call that fails: a STREAM frame carries FIN only if the application has asked for
the end, such a frame ends exactly at the end of the accepted data, and no STREAM frame follows it. Without
this condition the claim is false, see below. -/
theorem C49_fin_partial (client : Bool) (maxdata : Nat) (limit : Bool → Nat) (ops : List Op) (id : Nat)
    (hE : EndsOnce id (run (initial client maxdata limit) ops).2) :
    let ev := (run (initial client maxdata limit) ops).2
    ∀ before after offset data raw, ev = before ++ Event.stream id offset true data raw :: after →
      finAccepted id before ∧ offset + data.length = (acceptedBytes id ev).length ∧
      ∀ offset fin data raw, Event.stream id offset fin data raw ∉ after := by
  dsimp only
  intro before after offset data raw he
  have h := run_finInv id client maxdata limit ops (endsOnce_evOf hE)
  obtain ⟨h1, h2, h3⟩ := h.frames _ _ offset data raw (evOf_split he rfl)
  rw [acceptedBytes_evOf] at h2
  refine ⟨?_, h2, fun o f d r hx => h3 o f d r (mem_evOf.2 ⟨hx, rfl⟩)⟩
  obtain ⟨d, hd⟩ := h1
  exact ⟨d, (mem_evOf.1 hd).1⟩

/-- The condition is met: data, then data with FIN, then FIN again. -/
example :
    let r := run exampleConn [.create 0 100 9, .write 0 [1] false, .write 0 [2] true, .write 0 [] true,
      .send none 255 100 0 noAnswer 9]
    r.2 = [.accepted 0 [1] false, .accepted 0 [2] true, .accepted 0 [] true,
      .stream 0 0 false [1] [10, 0, 1, 1], .stream 0 1 true [2] [15, 0, 1, 1, 2]] := by decide +kernel

/-- The histories of the violations of C49. -/
def finHistory : List Op :=
  [.create 0 100 9, .write 0 [1, 2] true, .send none 255 100 0 noAnswer 9, .write 0 [3] false]

/-- C49 violated, data lost: data written after the FIN was sent is accepted and never sent, whatever packets
are prepared. -/
theorem C49_write_after_fin_violated :
    let r := run exampleConn finHistory
    Event.accepted 0 [3] false ∈ r.2 ∧ sentBytes 0 r.2 = [1, 2] ∧
    ∀ path priority room time answers turns, (sendStreams r.1 path priority room time answers turns).2.1 = [] := by
  dsimp only
  refine ⟨by decide +kernel, by decide +kernel, fun path priority room time answers turns => ?_⟩
  refine send_nothing _ path ?_ priority room time answers turns
  have : (run exampleConn finHistory).1.output = [] := by decide +kernel
  rw [this]
  simp

/-- C49 violated, data behind the end: if the application then calls `picoquic_stop_sending`, the data is sent
at an offset above the final size of the first FIN. -/
theorem C49_data_after_fin_violated :
    (run exampleConn (finHistory ++ [.stopSending 0 5, .send none 255 100 0 noAnswer 9])).2 =
      [.accepted 0 [1, 2] true, .stream 0 0 true [1, 2] [11, 0, 2, 1, 2], .accepted 0 [3] false,
        .stopSending 0 5, .stream 0 2 true [3] [15, 0, 2, 1, 3]] := by decide +kernel

/-- C49 violated, truncated stream: a call that asks for the end of the stream and fails, because the peer has
sent STOP_SENDING, nevertheless ends the stream, without the data of the call. -/
theorem C49_refused_fin_violated :
    (run exampleConn [.create 0 100 9, .write 0 [1, 2] false, .stopReceived 0, .write 0 [3] true,
      .send none 255 100 0 noAnswer 9]).2 =
      [.accepted 0 [1, 2] false, .refused 0 [3] true, .stream 0 0 true [1, 2] [11, 0, 2, 1, 2]] := by
  decide +kernel

/-! ## C46 -/

/-- C46 violated: when all the data allowed by the peer has been sent, a FIN without data is not sent,
although it needs no credit, whatever packets are prepared. -/
theorem C46_fin_without_credit_violated :
    let r := run exampleConn [.create 0 2 9, .write 0 [1, 2] false, .send none 255 100 0 noAnswer 9, .write 0 [] true]
    Event.accepted 0 [] true ∈ r.2 ∧ sentBytes 0 r.2 = acceptedBytes 0 r.2 ∧
    ∀ path priority room time answers turns, (sendStreams r.1 path priority room time answers turns).2.1 = [] := by
  dsimp only
  refine ⟨by decide +kernel, by decide +kernel, fun path priority room time answers turns => ?_⟩
  refine send_nothing _ path ?_ priority room time answers turns
  generalize hc : (run exampleConn [.create 0 2 9, .write 0 [1, 2] false, .send none 255 100 0 noAnswer 9,
    .write 0 [] true]).1 = c
  have h1 : c.output = [0] := by rw [← hc]; decide +kernel
  have h2 : isUrgent (c.get 0) = false := by rw [← hc]; decide +kernel
  have h3 : (c.get 0).sentOffset = 2 ∧ (c.get 0).maxdataRemote = 2 := by rw [← hc]; decide +kernel
  rw [h1]
  intro i hi
  rcases List.mem_singleton.1 hi with rfl
  rintro (h | ⟨h, _⟩)
  · rw [h2] at h; cases h
  · simp [hasData, h3] at h

/-! ## C39 and C47 -/

/-- C39, within the use of the API described by `OpOk` and for limits on streams that are not zero: after
every history, the stream chosen for the next frame exists, has something to send that the limits allow,
and is the best of all such streams: no other has a smaller priority value, and in case of equality it is
served in order (odd values) or has waited longest (even values). -/
theorem C39_best_stream_partial (client : Bool) (maxdata : Nat) (n : Bool → Nat) (hn : ∀ u, 1 ≤ n u ∧ n u ≤ 2 ^ 60)
    (ops : List Op) (h : HistoryOk (initial client maxdata fun u => streamIdFromRank (n u) client u) ops)
    (path : Option Nat) (id : Nat) :
    let c := (run (initial client maxdata fun u => streamIdFromRank (n u) client u) ops).1
    (findReady c path).1 = some id → BestChoice c path c.ids id := by
  dsimp only
  exact ((run_cov client maxdata n hn ops h).best (run_ord client maxdata _ ops) path).1 id

/-- C47, within the use of the API described by `OpOk` and for limits on streams that are not zero: after
every history, if some stream has something to send that the limits allow, a stream is found. -/
theorem C47_found_partial (client : Bool) (maxdata : Nat) (n : Bool → Nat) (hn : ∀ u, 1 ≤ n u ∧ n u ≤ 2 ^ 60)
    (ops : List Op) (h : HistoryOk (initial client maxdata fun u => streamIdFromRank (n u) client u) ops)
    (path : Option Nat) :
    let c := (run (initial client maxdata fun u => streamIdFromRank (n u) client u) ops).1
    (∃ id ∈ c.ids, Ready c path id) → ∃ id, (findReady c path).1 = some id := by
  dsimp only
  rintro ⟨id, hid, hr⟩
  cases hx : (findReady (run (initial client maxdata fun u => streamIdFromRank (n u) client u) ops).1 path).1 with
  | some j => exact ⟨j, rfl⟩
  | none => exact absurd hr (((run_cov client maxdata n hn ops h).best (run_ord client maxdata _ ops) path).2 hx id hid)

/-- C46, with the same conditions and with at least one byte of credit on the stream and on the connection: if
the FIN of a stream is still to send, a stream is found. -/
theorem C46_fin_partial (client : Bool) (maxdata : Nat) (n : Bool → Nat) (hn : ∀ u, 1 ≤ n u ∧ n u ≤ 2 ^ 60)
    (ops : List Op) (h : HistoryOk (initial client maxdata fun u => streamIdFromRank (n u) client u) ops) (id : Nat) :
    let c := (run (initial client maxdata fun u => streamIdFromRank (n u) client u) ops).1
    id ∈ c.ids → StreamAllowed c id → CanSend c.client id → (c.get id).resetSent = false →
    (c.get id).finRequested = true → (c.get id).finSent = false →
    (c.get id).sentOffset < (c.get id).maxdataRemote → c.dataSent < c.maxdataRemote →
    ∃ j, (findReady c none).1 = some j := by
  dsimp only
  intro h1 h2 h3 h4 h5 h6 h7 h8
  exact C47_found_partial client maxdata n hn ops h none
    ⟨id, h1, h2, .inr ⟨h3, .inr ⟨h4, h7, h8, .inr (.inr ⟨h5, h6⟩), .inl rfl⟩⟩⟩

/-- A history that meets the conditions, with a limit that grows and a change of priority: stream 8 is above
the limit at first, and then goes before the others. -/
def priorityHistory : List Op :=
  [.create 0 100 9, .create 4 100 9, .create 8 100 9, .write 0 [1, 2] false, .write 4 [3] true, .write 8 [4] true,
    .setPriority 8 7, .send none 255 4 0 noAnswer 9, .maxStreams false 3]

example : HistoryOk (initial true 1000 fun u => streamIdFromRank 2 true u) priorityHistory ∧
    (findReady (run (initial true 1000 fun u => streamIdFromRank 2 true u) (priorityHistory.take 7)).1 none).1 = some 0 ∧
    (findReady (run (initial true 1000 fun u => streamIdFromRank 2 true u) priorityHistory).1 none).1 = some 8 := by
  unfold priorityHistory HistoryOk HistoryOk HistoryOk HistoryOk HistoryOk HistoryOk HistoryOk HistoryOk HistoryOk
    HistoryOk OpOk CanSend LocalId
  decide +kernel

/-- The history of the violation of C39. -/
def resetHistory : List Op :=
  [.create 0 100 9, .create 4 100 9, .write 4 [1] false, .markActive 0 true, .reset 0 7 false,
    .send none 255 17 0 noAnswer 1]

/-- C39 violated: a stream that was marked active and then reset is chosen after the RESET_STREAM frame was
sent, although nothing can be sent on it any more, while another stream of the same priority has data. -/
theorem C39_reset_active_violated :
    let c := (run exampleConn resetHistory).1
    (findReady c none).1 = some 0 ∧ ¬ Ready c none 0 ∧ Ready c none 4 := by
  dsimp only
  refine ⟨by decide +kernel, ?_, ?_⟩ <;>
    simp only [Ready, StreamAllowed, LocalId, StopPending, ResetPending, CanSend, HasDataToSend] <;> decide +kernel

/-- C47 violated: a stream of a server created while the peer's limit is zero is never served, even when
the limit has been raised: no packet carries its data. -/
theorem C47_zero_limit_violated :
    let r := run (initial false 1000 fun _ => 0) [.create 1 100 9, .write 1 [1, 2] true, .maxStreams false 1]
    Ready r.1 none 1 ∧
    ∀ path priority room time answers turns, (sendStreams r.1 path priority room time answers turns).2.1 = [] := by
  dsimp only
  refine ⟨?_, fun path priority room time answers turns => ?_⟩
  · simp only [Ready, StreamAllowed, LocalId, StopPending, ResetPending, CanSend, HasDataToSend]; decide +kernel
  refine send_nothing _ path ?_ priority room time answers turns
  have : (run (initial false 1000 fun _ => 0) [.create 1 100 9, .write 1 [1, 2] true, .maxStreams false 1]).1.output =
    [] := by decide +kernel
  rw [this]
  simp

/-! ## C50 -/

/-- C50: the loop that fills a packet with stream frames ends, for every packet size, after every history within
`OpOk`, if no stream was both reset and asked to stop with the STOP_SENDING frame still to send, if the
identifiers and error codes of the streams reset are below 2^30, if the limits are 64 bit numbers, and if the
application, when it is polled and gives neither data nor FIN, says that the stream is not active any more.
Without these conditions the claim is false, see below. -/
theorem C50_packet_loop_ends_partial (client : Bool) (maxdata : Nat) (n : Bool → Nat)
    (hn : ∀ u, 1 ≤ n u ∧ n u ≤ 2 ^ 60) (ops : List Op)
    (h : HistoryOk (initial client maxdata fun u => streamIdFromRank (n u) client u) ops) :
    let c := (run (initial client maxdata fun u => streamIdFromRank (n u) client u) ops).1
    (∀ i ∈ c.ids, (c.get i).resetRequested = true → ¬ StopPending (c.get i) ∧ i < 2 ^ 30 ∧ (c.get i).localError < 2 ^ 30) →
    c.maxdataRemote < 2 ^ 64 → (∀ i ∈ c.ids, (c.get i).maxdataRemote < 2 ^ 64) →
    ∀ path priority room time answers,
      (∀ k, (answers k).data = [] → (answers k).fin = false → (answers k).stillActive = false) →
      ∃ bound, ∀ turns, bound ≤ turns → (sendStreams c path priority room time answers turns).2.2 = true := by
  dsimp only
  have hc := run_cov client maxdata n hn ops h
  generalize (run (initial client maxdata fun u => streamIdFromRank (n u) client u) ops).1 = c at *
  intro h1 h2 h3 path priority room time answers ha
  have hl : Live c := ⟨hc, fun i hi hr => (h1 i (hc.base.out i hi) hr).1, fun i hi hr => (h1 i (hc.base.out i hi) hr).2,
    h2, fun i hi => h3 i (hc.base.out i hi)⟩
  exact ⟨room + pendingSum c + 2, fun turns ht =>
    sendStreams_end hl path priority room time answers ha turns (by omega)⟩

/-- The loop ends: two streams, one of them polled, which gives two bytes and then nothing. -/
example :
    let r := sendStreams (run exampleConn [.create 0 100 9, .create 4 100 9, .write 0 [1, 2] false, .markActive 4 true]).1
      none 255 100 0 (fun k => if k = 8 then ⟨[5, 6], false, true⟩ else ⟨[], false, false⟩) 10
    r.2 = ([.stream 0 0 false [1, 2] [10, 0, 2, 1, 2], .accepted 4 [5, 6] false,
      .stream 4 0 false [5, 6] [10, 4, 2, 5, 6]], true) := by decide +kernel

/-- C50 violated: after a stream that was marked active is reset, the RESET_STREAM frame is sent, and then the
loop that fills the next packet never ends. -/
theorem C50_reset_active_violated (room priority time : Nat) (answers : Nat → Answer) (hr : 17 < room)
    (hp : 9 ≤ priority) (turns : Nat) :
    let r := run exampleConn [.create 0 100 9, .markActive 0 true, .reset 0 7 false, .send none 255 17 0 noAnswer 1]
    r.2 = [.reset 0 7 0] ∧ (sendStreams r.1 none priority room time answers turns).2 = ([], false) := by
  dsimp only
  refine ⟨by decide +kernel, ?_⟩
  rw [sendStreams_stuck (id := 0) (fun k => format_resetSent (by decide +kernel) room time (answers k))
    (by decide +kernel) hr ?_ turns]
  refine Nat.le_trans ?_ hp
  decide +kernel

/-- C50 violated: `picoquic_discard_stream` on a bidirectional stream resets it and asks the peer to stop. The
RESET_STREAM frame is sent, and then the loop never ends. -/
theorem C50_discard_violated (room priority time : Nat) (answers : Nat → Answer) (hr : 17 < room)
    (hp : 9 ≤ priority) (turns : Nat) :
    let r := run exampleConn [.create 0 100 9, .write 0 [1] false, .reset 0 7 false, .stopSending 0 7,
      .send none 255 17 0 noAnswer 1]
    r.2 = [.accepted 0 [1] false, .reset 0 7 0] ∧
    (sendStreams r.1 none priority room time answers turns).2 = ([], false) := by
  dsimp only
  refine ⟨by decide +kernel, ?_⟩
  rw [sendStreams_stuck (id := 0) (fun k => format_resetSent (by decide +kernel) room time (answers k))
    (by decide +kernel) hr ?_ turns]
  refine Nat.le_trans ?_ hp
  decide +kernel

/-- C50 violated: data was sent on the second stream in 0-RTT, and the transport parameters of the server then
allow one stream only. The loop never ends. -/
theorem C50_lowered_limit_violated (room priority time : Nat) (answers : Nat → Answer) (hr : 17 < room)
    (hp : 9 ≤ priority) (turns : Nat) :
    let r := run exampleConn [.create 0 100 9, .create 4 100 9, .write 4 [1] false, .send none 255 100 0 noAnswer 9,
      .write 4 [2] false, .params 1000 (fun _ => some 1) (fun _ => 100)]
    (sendStreams r.1 none priority room time answers turns).2 = ([], false) := by
  dsimp only
  rw [sendStreams_stuck (id := 4) (fun k => format_notAllowed (by decide +kernel) room time (answers k))
    (by decide +kernel) hr ?_ turns]
  refine Nat.le_trans ?_ hp
  decide +kernel

end Picoquic.Props
