import Verif.Spec.StreamEnd
import Verif.Proof.StreamEnd

/-!
# Property C97: ending a stream early

`run (newEnd client id) ops` is one stream of a client or server after the calls of the application, the frames sent and
the frames received `ops`, with the callbacks and the frames that result. See `Verif/Spec/StreamEnd.lean` for who sends
and who receives on a stream.
-/

namespace Picoquic.Props

open Picoquic.StreamEnd Picoquic.Spec

/-- The stream after a history. -/
def streamAfter (client : Bool) (id : Nat) (ops : List StreamEnd.Op) : End := (run (newEnd client id) ops).1

/-- The callbacks and frames of a history. -/
def streamEvents (client : Bool) (id : Nat) (ops : List StreamEnd.Op) : List StreamEnd.Event :=
  (run (newEnd client id) ops).2

/-- For every history, the application is told at most once of a reset, of STOP_SENDING, and of the end. -/
theorem C97_told_once (client : Bool) (id : Nat) (ops : List StreamEnd.Op) :
    ((streamEvents client id ops).countP (fun e => match e with | .resetCallback _ => true | _ => false) ≤ 1) ∧
    ((streamEvents client id ops).countP (fun e => match e with | .stopCallback _ => true | _ => false) ≤ 1) ∧
    ((streamEvents client id ops).countP (fun e => match e with | .fin _ => true | _ => false) ≤ 1) :=
  ⟨run_once (fun s => s.resetSignalled = true) isResetCallback step_reset step_reset_once ops _,
   run_once (fun s => s.stopSignalled = true) isStopCallback step_stop step_stop_once ops _,
   run_once (fun s => s.finSignalled = true) isFin step_fin step_fin_once ops _⟩

example : streamEvents true 0 [.recvStop 7, .recvStop 8, .recvData 3 false, .recvReset 9 5, .recvReset 9 5, .reset 7, .send 100,
    .recvReset 9 5] = [.stopCallback 0, .data 3, .resetCallback 9, .resetFrame 7 0] := by decide

/-- Every reset of the peer is reported, with its code: on a stream on which this end receives, if the end of the stream
and another reset were not received and the application did not discard the stream. -/
theorem C97_reset_reported (client : Bool) (id : Nat) (ops : List StreamEnd.Op) (hr : ReceivesOn client id)
    (h1 : ∀ e f, Op.recvReset e f ∉ ops) (h2 : ∀ e, Op.discard e ∉ ops) (h3 : ∀ n, Op.recvData n true ∉ ops)
    (error final : Nat) :
    streamEvents client id (ops ++ [.recvReset error final]) = streamEvents client id ops ++ [.resetCallback error] := by
  have hopen : ∀ (os : List StreamEnd.Op) (s : End), Open s → (∀ e f, Op.recvReset e f ∉ os) → (∀ e, Op.discard e ∉ os) →
      (∀ n, Op.recvData n true ∉ os) → Open (run s os).1 := by
    intro os
    induction os with
    | nil => intro s hs _ _ _; exact hs
    | cons o os ih =>
      intro s hs g1 g2 g3
      refine ih _ (step_open s o hs ?_ ?_ ?_) ?_ ?_ ?_
      · intro e f h; exact g1 e f (by rw [h]; exact List.mem_cons_self)
      · intro e h; exact g2 e (by rw [h]; exact List.mem_cons_self)
      · intro n h; exact g3 n (by rw [h]; exact List.mem_cons_self)
      · intro e f h; exact g1 e f (List.mem_cons_of_mem _ h)
      · intro e h; exact g2 e (List.mem_cons_of_mem _ h)
      · intro n h; exact g3 n (List.mem_cons_of_mem _ h)
  have hnew : Open (newEnd client id) := by
    refine ⟨rfl, rfl, rfl, rfl, rfl, rfl, ?_⟩
    show (isBidir id || !isLocal id client) = true
    simp only [isBidir, isLocal, isClientId, Bool.or_eq_true, decide_eq_true_eq, Bool.not_eq_true']
    rcases hr with hr | hr
    · exact Or.inl hr
    · right
      refine decide_eq_false ?_
      intro h0
      apply hr
      show id % 2 = 0 ↔ client = true
      rw [← h0]
      simp
  obtain ⟨g1, g2, g3, g4, g5, g6, g7⟩ := hopen ops _ hnew h1 h2 h3
  unfold streamEvents
  rw [run_append]
  show _ ++ ((step _ _).2 ++ []) = _
  rw [List.append_nil]
  congr 1
  simp only [step, g6, Bool.false_eq_true, if_false, recvReset, g1, g2, g3, g4, Bool.or_self, Bool.false_and]

example : ReceivesOn true 3 ∧ streamEvents true 3 ([.recvData 5 false] ++ [.recvReset 77 9]) =
    [.data 5, .resetCallback 77] := by
  refine ⟨Or.inr ?_, by decide⟩
  intro h
  exact absurd (h.2 rfl) (by decide)

/-- The code that the application reads in the callback of a reset is the one of a RESET_STREAM frame of the peer. -/
theorem C97_reset_code (client : Bool) (id : Nat) (ops : List StreamEnd.Op) (error : Nat)
    (h : Event.resetCallback error ∈ streamEvents client id ops) : ∃ final, Op.recvReset error final ∈ ops := by
  have : ∀ (os : List StreamEnd.Op) (s : End), Event.resetCallback error ∈ (run s os).2 →
      ∃ final, Op.recvReset error final ∈ os := by
    intro os
    induction os with
    | nil => intro s h; simp [run] at h
    | cons o os ih =>
      intro s h
      rcases List.mem_append.1 h with h | h
      · obtain ⟨f, hf⟩ := step_code s o h
        exact ⟨f, by rw [hf]; exact List.mem_cons_self⟩
      · obtain ⟨f, hf⟩ := ih _ h
        exact ⟨f, List.mem_cons_of_mem _ hf⟩
  exact this ops _ h

/-- Not satisfied for STOP_SENDING: whatever the code in the frame of the peer, the application reads 0. -/
theorem C97_stop_code_violated (client : Bool) (id error : Nat) (hs : SendsOn client id) :
    streamEvents client id [.recvStop error] = [.stopCallback 0] ∧
    (streamAfter client id [.recvStop error]).remoteStopError = error := by
  have hb : (isBidir id || isLocal id client) = true := by
    simp only [isBidir, isLocal, isClientId, Bool.or_eq_true, decide_eq_true_eq]
    rcases hs with hs | hs
    · exact Or.inl hs
    · right
      unfold OwnStream at hs
      cases client <;> simp_all
  have hb2 : (!isBidir id && !isLocal id client) = false := by
    cases h1 : isBidir id <;> cases h2 : isLocal id client <;> simp_all
  constructor <;> simp [streamEvents, streamAfter, run, step, recvStop, newEnd, hb2]

example : SendsOn true 0 ∧ SendsOn false 3 := ⟨Or.inl (by decide : 0 % 4 < 2), Or.inr (by decide : 3 % 2 = 0 ↔ false = true)⟩

/-- After a call of `picoquic_stop_sending` that succeeds, no data and no end are given to the application. -/
theorem C97_stop_silence (client : Bool) (id : Nat) (before after : List StreamEnd.Op) (error : Nat)
    (h : (appStop (streamAfter client id before) error).2 = .ok) :
    ∀ e ∈ (run (appStop (streamAfter client id before) error).1 after).2,
      (∀ n, e ≠ .data n) ∧ (∀ n, e ≠ .fin n) := by
  have hs : (appStop (streamAfter client id before) error).1.stopRequested = true := by
    revert h
    generalize streamAfter client id before = s
    unfold appStop
    intro h
    split at h
    · cases h
    · rename_i h1
      rw [if_neg h1]
      split at h
      · cases h
      · rename_i h2
        rw [if_neg h2]
        split
        · assumption
        · rfl
  intro e he
  have := (run_never (fun s => s.stopRequested = true) isDelivery step_silent after _ hs).2 e he
  constructor <;> · intro n h0; subst h0; cases this

example : (appStop (streamAfter true 0 [.recvData 3 false]) 5).2 = .ok ∧
    streamEvents true 0 [.recvData 3 false, .stop 5, .recvData 4 false, .send 100, .recvReset 6 9] =
      [.data 3, .stopFrame 5, .resetCallback 6] := by decide

/-- After a call of `picoquic_discard_stream`, there is no callback for the stream. -/
theorem C97_discard_silence (client : Bool) (id : Nat) (before after : List StreamEnd.Op) (error : Nat) :
    ∀ e ∈ (run (appDiscard (streamAfter client id before) error).1 after).2,
      (∀ n, e ≠ .data n) ∧ (∀ n, e ≠ .fin n) ∧ (∀ n, e ≠ .resetCallback n) ∧ (∀ n, e ≠ .stopCallback n) := by
  have hs : (appDiscard (streamAfter client id before) error).1.discarded = true ∨
      (appDiscard (streamAfter client id before) error).1.deleted = true := by
    generalize streamAfter client id before = s
    unfold appDiscard
    by_cases hd : s.deleted = true
    · rw [if_pos hd]; exact Or.inr hd
    · rw [if_neg hd]; exact Or.inl rfl
  intro e he
  have := (run_never (fun s => s.discarded = true ∨ s.deleted = true) isCallback step_discarded after _ hs).2 e he
  refine ⟨?_, ?_, ?_, ?_⟩ <;> · intro n h0; subst h0; cases this

example : streamEvents true 0 [.recvData 3 false, .discard 5, .recvData 4 true, .recvStop 1, .send 100] =
    [.data 3, .resetFrame 5 0] := by decide

/-- After a RESET_STREAM frame, no frame is sent on the stream. -/
theorem C97_reset_last (client : Bool) (id : Nat) (before after : List StreamEnd.Op) (error size : Nat) (room : Nat)
    (h : (step (streamAfter client id before) (.send room)).2 = [.resetFrame error size]) :
    ∀ e ∈ (run (step (streamAfter client id before) (.send room)).1 after).2,
      (∀ c n, e ≠ .resetFrame c n) ∧ (∀ c, e ≠ .stopFrame c) ∧ (∀ o n f, e ≠ .streamFrame o n f) := by
  have hs : (step (streamAfter client id before) (.send room)).1.resetSent = true := by
    revert h
    generalize streamAfter client id before = s
    simp only [step, format, deleteIfClosed]
    grind
  intro e he
  have := (run_never (fun s => s.resetSent = true) isFrame step_quiet after _ hs).2 e he
  refine ⟨?_, ?_, ?_⟩
  · intro c n h0; subst h0; cases this
  · intro c h0; subst h0; cases this
  · intro o n f h0; subst h0; cases this

/-- Not satisfied: `picoquic_discard_stream` on a stream on which both ends send asks the peer to stop, but after the
RESET_STREAM frame the STOP_SENDING frame is never sent, whatever happens. -/
theorem C97_stop_lost_violated (client : Bool) (id error room : Nat) (hb : BothSend id) (after : List StreamEnd.Op) :
    (streamAfter client id [.discard error, .send room]).stopRequested = true ∧
    streamEvents client id [.discard error, .send room] = [.resetFrame error 0] ∧
    ∀ e ∈ (run (streamAfter client id [.discard error, .send room]) after).2, ∀ c, e ≠ .stopFrame c := by
  have hbd : isBidir id = true := by simpa [isBidir, BothSend] using hb
  refine ⟨?_, ?_, ?_⟩
  · simp [streamAfter, run, step, appDiscard, appStop, appReset, forgive, newEnd, hbd, format, deleteIfClosed]
  · simp [streamEvents, run, step, appDiscard, appStop, appReset, forgive, newEnd, hbd, format, deleteIfClosed]
  · intro e he c h0
    have hs : (streamAfter client id [.discard error, .send room]).resetSent = true := by
      simp [streamAfter, run, step, appDiscard, appStop, appReset, forgive, newEnd, hbd, format, deleteIfClosed]
    have := (run_never (fun s => s.resetSent = true) isFrame step_quiet after _ hs).2 e he
    subst h0
    cases this

/-- A client that discards streams only sends frames that its role allows.
Missing: the same for a server, see `C97_discard_server_violated`. -/
theorem C97_discard_client_partial (id : Nat) (ops : List StreamEnd.Op) (h1 : ∀ e, Op.reset e ∉ ops)
    (h2 : ∀ e, Op.stop e ∉ ops) :
    (∀ e n, Event.resetFrame e n ∈ streamEvents true id ops → SendsOn true id) ∧
    (∀ e, Event.stopFrame e ∈ streamEvents true id ops → ReceivesOn true id) := by
  have hrun : ∀ (os : List StreamEnd.Op) (s : End), Parity s → (∀ e, Op.reset e ∉ os) → (∀ e, Op.stop e ∉ os) →
      (∀ e n, Event.resetFrame e n ∈ (run s os).2 → (isBidir s.id || isClientId s.id) = true) ∧
      (∀ e, Event.stopFrame e ∈ (run s os).2 → (isBidir s.id || !isClientId s.id) = true) := by
    intro os
    induction os with
    | nil => intro s _ _ _; simp [run]
    | cons o os ih =>
      intro s hs g1 g2
      obtain ⟨k1, k2, _, k4, k5⟩ := step_parity s o hs (fun e h => g1 e (by rw [h]; exact List.mem_cons_self))
        (fun e h => g2 e (by rw [h]; exact List.mem_cons_self))
      obtain ⟨j1, j2⟩ := ih _ k1 (fun e h => g1 e (List.mem_cons_of_mem _ h)) (fun e h => g2 e (List.mem_cons_of_mem _ h))
      rw [k2] at j1 j2
      constructor
      · intro e n h
        rcases List.mem_append.1 h with h | h
        · exact k4 e n h
        · exact j1 e n h
      · intro e h
        rcases List.mem_append.1 h with h | h
        · exact k5 e h
        · exact j2 e h
  obtain ⟨r1, r2⟩ := hrun ops (newEnd true id) ⟨fun h => (by cases h), fun h => (by cases h)⟩ h1 h2
  have hid : (newEnd true id).id = id := rfl
  rw [hid] at r1 r2
  constructor
  · intro e n h
    have := r1 e n h
    simp only [isBidir, isClientId, Bool.or_eq_true, decide_eq_true_eq] at this
    rcases this with this | this
    · exact Or.inl this
    · exact Or.inr ⟨fun _ => rfl, fun _ => this⟩
  · intro e h
    have := r2 e h
    simp only [isBidir, isClientId, Bool.or_eq_true, decide_eq_true_eq, Bool.not_eq_true', decide_eq_false_iff_not] at this
    rcases this with this | this
    · exact Or.inl this
    · exact Or.inr (fun h0 => this (h0.2 rfl))

example : streamEvents true 2 [.write 5 false, .send 3, .discard 8, .send 9] = [.streamFrame 0 3 false, .resetFrame 8 3] ∧
    streamEvents true 3 [.recvData 3 false, .discard 8, .send 9] = [.data 3, .stopFrame 8] := by decide

/-- Not satisfied: a server discards a stream that it opened and on which only it sends. It asks the client to stop
sending, which closes the connection, and goes on sending the data of the stream. -/
theorem C97_discard_server_violated (id : Nat) (h : id % 4 = 3) (error room n : Nat) :
    (appDiscard (streamAfter false id [.write (n + 1) false]) error).2 = .ok ∧
    streamEvents false id [.write (n + 1) false, .discard error, .send room, .send (n + 1)] =
      [.stopFrame error, .streamFrame 0 (n + 1) false] ∧
    ¬ ReceivesOn false id ∧
    (streamAfter true id [.recvStop error]).error = some STREAM_STATE_ERROR := by
  have hb : isBidir id = false := by simp [isBidir, h]
  have hc : isClientId id = false := by simp [isClientId]; omega
  have hl : isLocal id false = true := by simp [isLocal, hc]
  have hl' : isLocal id true = false := by simp [isLocal, hc]
  refine ⟨?_, ?_, ?_, ?_⟩
  · simp [streamAfter, run, step, appWrite, appDiscard, appStop, forgive, newEnd, hb, hc, hl]
  · simp [streamEvents, run, step, appWrite, appDiscard, appStop, forgive, newEnd, hb, hc, hl, format]
  · rintro (h0 | h0)
    · exact absurd h0 (by unfold BothSend; omega)
    · exact h0 ⟨fun h1 => (by omega), fun h1 => (by cases h1)⟩
  · simp [streamAfter, run, step, recvStop, newEnd, hb, hl']

/-- Not satisfied: a server discards a stream of the client on which only the client sends. The call succeeds, but the
client is not told. -/
theorem C97_discard_unheard_violated (id : Nat) (h : id % 4 = 2) (error : Nat) (rooms : List Nat) :
    (appDiscard (streamAfter false id []) error).2 = .ok ∧ ReceivesOn false id ∧
    streamEvents false id (.discard error :: rooms.map .send) = [] := by
  have hb : isBidir id = false := by simp [isBidir, h]
  have hc : isClientId id = true := by simp [isClientId]; omega
  have hl : isLocal id false = false := by simp [isLocal, hc]
  refine ⟨?_, ?_, ?_⟩
  · simp [streamAfter, run, appDiscard, appReset, covered, forgive, newEnd, hb, hc, hl]
  · right
    intro h0
    have := h0.1 (by omega)
    cases this
  · have hs : ∀ (rs : List Nat) (s : End), s.resetSent = false → s.resetRequested = false → s.stopRequested = false →
        s.queued = 0 → s.finSent = true → (run s (rs.map .send)).2 = [] := by
      intro rs
      induction rs with
      | nil => intro s _ _ _ _ _; rfl
      | cons r rs ih =>
        intro s h1 h2 h3 h4 h5
        have hst : step s (.send r) = (s, []) := by
          simp only [step, format, h1, h2, h3, h4, h5]
          split <;> simp
        show (step s (.send r)).2 ++ (run (step s (.send r)).1 (rs.map .send)).2 = []
        rw [hst]
        exact ih s h1 h2 h3 h4 h5
    show (run (appDiscard (newEnd false id) error).1 (rooms.map .send)).2 = []
    apply hs <;> simp [appDiscard, appReset, covered, forgive, newEnd, hb, hc, hl]

/-- Not satisfied: a stream can be reset until the peer has received all of it. But while the end that was sent is not
acknowledged, `picoquic_reset_stream` says that the stream is closed, and when everything was acknowledged it accepts the
reset. -/
theorem C97_reset_after_end_violated (client : Bool) (id : Nat) (hb : BothSend id) (n error : Nat) :
    (appReset (streamAfter client id [.write (n + 1) true, .send (n + 1)]) error).2 = .alreadyClosed ∧
    (appReset (streamAfter client id [.write (n + 1) true, .send (n + 1), .ack]) error).2 = .ok ∧
    (appReset (streamAfter client id [.write (n + 1) true, .send (n + 1), .ack]) error).1.resetRequested = true := by
  have hbd : isBidir id = true := by simpa [isBidir, BothSend] using hb
  refine ⟨?_, ?_, ?_⟩ <;>
    simp [streamAfter, run, step, appWrite, format, newEnd, hbd, appReset, covered, deleteIfClosed, closed]

/-- Not satisfied: RESET_STREAM for a stream on which only this end sends is not refused, it is reported. -/
theorem C97_reset_send_only_violated (client : Bool) (id error final : Nat) (_h : ¬ ReceivesOn client id) :
    streamEvents client id [.recvReset error final] = [.resetCallback error] ∧
    (streamAfter client id [.recvReset error final]).error = none := by
  constructor <;> simp [streamEvents, streamAfter, run, step, recvReset, newEnd, deleteIfClosed]

example : ¬ ReceivesOn true 2 := by
  rintro (h | h)
  · exact absurd h (by decide : ¬ (2 % 4 < 2))
  · exact h ⟨fun _ => rfl, fun _ => by decide⟩

/-- After the application was told that the peer wants no more data, or after the reset was sent, no data are accepted. -/
theorem C97_write_refused (client : Bool) (id : Nat) (ops : List StreamEnd.Op)
    (h : (∃ c, Event.stopCallback c ∈ streamEvents client id ops) ∨
      (∃ c m, Event.resetFrame c m ∈ streamEvents client id ops)) (n : Nat) (fin : Bool) :
    (appWrite (streamAfter client id ops) n fin).2 ≠ .ok ∧
    (appWrite (streamAfter client id ops) n fin).1.queued = (streamAfter client id ops).queued := by
  have hrun : ∀ (os : List StreamEnd.Op) (s : End), (s.stopReceived = true ∨ s.resetSent = true) →
      ((run s os).1.stopReceived = true ∨ (run s os).1.resetSent = true) := by
    intro os
    induction os with
    | nil => intro s hs; exact hs
    | cons o os ih => intro s hs; exact ih _ (step_told s o hs)
  have hover : ∀ (os : List StreamEnd.Op) (s : End), (∃ e ∈ (run s os).2, isOver e = true) →
      ((run s os).1.stopReceived = true ∨ (run s os).1.resetSent = true) := by
    intro os
    induction os with
    | nil => intro s ⟨e, he, _⟩; simp [run] at he
    | cons o os ih =>
      rintro s ⟨e, he, ho⟩
      rcases List.mem_append.1 he with he | he
      · rcases step_over s o with h1 | h1
        · rw [h1 e he] at ho; cases ho
        · exact hrun os _ h1
      · exact ih _ ⟨e, he, ho⟩
  have hs : (streamAfter client id ops).stopReceived = true ∨ (streamAfter client id ops).resetSent = true := by
    apply hover
    rcases h with ⟨c, h⟩ | ⟨c, m, h⟩
    · exact ⟨_, h, rfl⟩
    · exact ⟨_, h, rfl⟩
  generalize streamAfter client id ops = s at hs
  simp only [appWrite]
  grind

/-- A stream is only forgotten when it is over: if this end sends on it, its end or the reset was sent, and if it
receives on it, the end or the reset of the peer was received and handled. -/
theorem C97_forgotten (client : Bool) (id : Nat) (ops : List StreamEnd.Op)
    (h : (streamAfter client id ops).deleted = true) :
    (SendsOn client id → ((streamAfter client id ops).finRequested = true ∧ (streamAfter client id ops).finSent = true) ∨
      (streamAfter client id ops).resetSent = true) ∧
    (ReceivesOn client id →
      ((streamAfter client id ops).finReceived = true ∧ (streamAfter client id ops).finSignalled = true) ∨
      ((streamAfter client id ops).resetReceived = true ∧ (streamAfter client id ops).resetSignalled = true)) := by
  have hrun : ∀ (os : List StreamEnd.Op) (s : End), DelOk s →
      DelOk (run s os).1 ∧ (run s os).1.id = s.id ∧ (run s os).1.client = s.client := by
    intro os
    induction os with
    | nil => intro s hs; exact ⟨hs, rfl, rfl⟩
    | cons o os ih =>
      intro s hs
      obtain ⟨i1, i2⟩ := step_ids s o
      obtain ⟨j1, j2, j3⟩ := ih _ (step_del s o hs)
      exact ⟨j1, j2.trans i1, j3.trans i2⟩
  obtain ⟨k1, k2, k3⟩ := hrun ops (newEnd client id) ⟨fun h => (by cases h), fun h => (by cases h)⟩
  have hc := k1.2 (k1.1 h)
  have hid : (streamAfter client id ops).id = id := k2
  have hcl : (streamAfter client id ops).client = client := k3
  change closed (streamAfter client id ops) = true at hc
  unfold closed at hc
  rw [hid, hcl] at hc
  have hb : isBidir id = true ↔ BothSend id := by simp [isBidir, BothSend]
  have hl : isLocal id client = true ↔ OwnStream client id := by
    unfold isLocal isClientId OwnStream
    cases client <;> simp
  unfold SendsOn ReceivesOn
  rw [← hb, ← hl]
  generalize streamAfter client id ops = s at *
  grind

example : (streamAfter true 2 [.write 5 true, .send 9, .ack]).deleted = true ∧
    (streamAfter true 2 [.write 5 true, .send 9]).deleted = false ∧
    (streamAfter true 0 [.write 5 true, .send 9, .ack]).deleted = false ∧
    (streamAfter true 0 [.write 5 true, .send 9, .ack, .recvData 0 true]).deleted = true := by decide

/-- The code in the RESET_STREAM frame is the one of the first call of `picoquic_reset_stream` that succeeds. -/
theorem C97_reset_frame_code (client : Bool) (id : Nat) (before after : List StreamEnd.Op) (error : Nat)
    (h0 : (streamAfter client id before).resetRequested = false)
    (h : (appReset (streamAfter client id before) error).2 = .ok) (code size : Nat)
    (he : Event.resetFrame code size ∈ (run (appReset (streamAfter client id before) error).1 after).2) :
    code = error := by
  have hs : (appReset (streamAfter client id before) error).1.resetRequested = true ∧
      (appReset (streamAfter client id before) error).1.localError = error := by
    revert h h0
    generalize streamAfter client id before = s
    unfold appReset
    intro h0 h
    split at h
    · cases h
    · rename_i h1
      rw [if_neg h1]
      split at h
      · cases h
      · rename_i h2
        rw [if_neg h2, h0]
        exact ⟨rfl, rfl⟩
  have := (run_never (fun s => s.resetRequested = true ∧ s.localError = error) (badCode error) (step_resetCode error)
    after _ hs).2 _ he
  simpa [badCode] using this

example : streamEvents true 0 [.write 3 false, .send 2, .reset 5, .reset 6, .discard 7, .send 9] =
    [.streamFrame 0 2 false, .resetFrame 5 2] := by decide

/-- After the end or a reset of the peer was reported, STOP_SENDING is not sent: it would be of no use. -/
theorem C97_stop_useful (client : Bool) (id : Nat) (before after : List StreamEnd.Op)
    (h : (∃ n, Event.fin n ∈ streamEvents client id before) ∨
      (∃ c, Event.resetCallback c ∈ streamEvents client id before)) :
    ∀ e ∈ (run (streamAfter client id before) after).2, ∀ c, e ≠ .stopFrame c := by
  have hlast : ∀ (os : List StreamEnd.Op) (s : End), (s.finReceived = true ∨ s.resetReceived = true) →
      ((run s os).1.finReceived = true ∨ (run s os).1.resetReceived = true) :=
    fun os s hs => (run_never (fun s => s.finReceived = true ∨ s.resetReceived = true) isStopFrame step_useless os s hs).1
  have hover : ∀ (os : List StreamEnd.Op) (s : End), (∃ e ∈ (run s os).2, (isFin e || isResetCallback e) = true) →
      ((run s os).1.finReceived = true ∨ (run s os).1.resetReceived = true) := by
    intro os
    induction os with
    | nil => intro s ⟨e, he, _⟩; simp [run] at he
    | cons o os ih =>
      rintro s ⟨e, he, ho⟩
      rcases List.mem_append.1 he with he | he
      · rcases step_ended s o with h1 | h1
        · rw [h1 e he] at ho; cases ho
        · exact hlast os _ h1
      · exact ih _ ⟨e, he, ho⟩
  have hs : (streamAfter client id before).finReceived = true ∨ (streamAfter client id before).resetReceived = true := by
    apply hover
    rcases h with ⟨c, h⟩ | ⟨c, h⟩
    · exact ⟨_, h, rfl⟩
    · exact ⟨_, h, rfl⟩
  intro e he c h0
  have := (run_never (fun s => s.finReceived = true ∨ s.resetReceived = true) isStopFrame step_useless after _ hs).2 e he
  subst h0
  cases this

example : streamEvents true 0 [.recvData 3 false, .recvReset 4 3, .send 9] = [.data 3, .resetCallback 4] ∧
    streamEvents true 0 [.stop 8, .recvReset 4 3, .send 9] = [.resetCallback 4] := by decide

end Picoquic.Props
