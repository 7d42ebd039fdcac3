import Verif.Proof.Closing
/-!
# C81: closing a connection

A connection that is closed stays closed, is closed within three retransmission timeouts, sends little meanwhile, gives the reason it was closed for, and the application is told once.
-/

namespace Picoquic.Props
open Picoquic Picoquic.Closing Picoquic.Spec

/-- **C81.** When the connection is over it stays over, whatever happens: no packet is sent, and no callback is made except for a stateless reset. -/
theorem C81_over (c : Conn) (os : List Op) (h : c.st = .disconnected) :
    (run c os).1.st = .disconnected ∧ ∀ e ∈ (run c os).2, e = .reset := run_disc c os h

/-- **C81.** The stateless reset of a connection that is over is reported again. -/
theorem C81_over_violated : ∃ (c : Conn) (os : List Op), c.st = .disconnected ∧ (run c os).2 = [.reset, .reset] :=
  ⟨⟨.disconnected, true, 0, 0, 0, 0, 0, 0, 0, false, 0, 0, true, false, false⟩, [.statelessReset, .statelessReset], rfl, by decide⟩

/-- **C81.** From the moment the connection is being closed (`disconnecting` is the first of those states) its state only moves forward: it is never established again. -/
theorem C81_no_return (c : Conn) (os : List Op) (h : St.disconnecting.code ≤ c.st.code) :
    c.st.code ≤ (run c os).1.st.code ∧ (run c os).1.st ≠ .ready := by
  have := run_mono c os h
  refine ⟨this, fun e => ?_⟩
  rw [e] at this
  exact absurd (Nat.le_trans h this) (by decide)

/-- **C81.** A connection that fails during the handshake can come back: a server application closes, then the client's last handshake message arrives, and the connection is established. The request to close is lost. -/
theorem C81_revived_violated : ∃ (c : Conn) (os : List Op),
    (run c [.close 7]).1.st = .handshakeFailure ∧ (run c (.close 7 :: os)).1.st = .ready ∧ Ev.ready ∈ (run c (.close 7 :: os)).2 :=
  ⟨⟨.serverHandshake, false, 0, 0, 0, 0, 0, 0, 0, false, 0, 0, true, true, true⟩, [.recv 5 (.clientHandshake true) [.other] (.ok true true true false false)], by decide⟩

/-- **C81.** When the connection ends, by whatever way, the application is told. -/
theorem C81_told (c : Conn) (os : List Op) (hn : c.st ≠ .disconnected) (h : (run c os).1.st = .disconnected) :
    Ev.close ∈ (run c os).2 ∨ Ev.appClose ∈ (run c os).2 := run_told c os hn h

example : (run ⟨.ready, true, 0, 0, 0, 0, 30, 0, 0, false, 0, 0, true, false, false⟩
    [.close 7, .prepare 1 { rto := 5, srtt := 2, rttMin := 2, rto0 := 5, wake := 100 }, .recv 3 .oneRtt [.other] .nothing,
      .prepare 4 { rto := 5, srtt := 2, rttMin := 2, rto0 := 5, wake := 100 }, .prepare 16 { rto := 5, srtt := 2, rttMin := 2, rto0 := 5, wake := 100 }]).2 =
    [.sent 1 (.app 7), .sent 4 (.app 7), .close] := by decide

/-- **C81 (partial).** The application is told of the end once, and only when the connection is over. Missing: packets with several close frames. -/
theorem C81_once_partial (c : Conn) (os : List Op) (hn : c.st ≠ .disconnected) (ho : ∀ o ∈ os, oneCloseFrame o = true) :
    (run c os).2.count .close ≤ 1 ∧ (Ev.close ∈ (run c os).2 → (run c os).1.st = .disconnected) := by
  rcases run_once c os hn ho with h | ⟨h, h'⟩
  · exact ⟨by omega, fun hx => absurd hx (List.count_eq_zero.1 h)⟩
  · exact ⟨by omega, fun _ => h'⟩

/-- **C81.** A packet with two CONNECTION_CLOSE frames makes a connection that is over come back: the client that completes its handshake is told of the end, sends a packet, and is told of the end again. -/
theorem C81_twice_violated : ∃ (c : Conn) (os : List Op), c.st = .clientAlmostReady ∧ (run c os).2 = [.close, .sent 2 (.conn 0), .close] :=
  ⟨⟨.clientAlmostReady, true, 0, 0, 0, 0, 30, 0, 0, false, 0, 0, true, true, true⟩,
    [.recv 1 .serverHandshake [.close, .close] .nothing, .prepare 2 { rto := 5, srtt := 2, rttMin := 2, rto0 := 5, wake := 100 },
      .prepare 15 { rto := 5, srtt := 2, rttMin := 2, rto0 := 5, wake := 100 }], rfl, by decide⟩

/-- **C81.** A connection that is being closed is over after three retransmission timeouts: from the first time it is asked for a packet, whatever happens in between, unless the application closes it
again at once, or the address is being validated. -/
theorem C81_ends (c : Conn) (t₁ t₂ : Nat) (p₁ p₂ : Env) (os : List Op) (h : St.disconnecting.code ≤ c.st.code) (hp : c.progress ≤ t₁)
    (h₁ : p₁.control = false) (h₂ : p₂.control = false) (ho : ∀ t, Op.closeImmediate t ∉ os) (ht : t₁ + 3 * p₂.rto ≤ t₂) :
    (run c (.prepare t₁ p₁ :: os ++ [.prepare t₂ p₂])).1.st = .disconnected := by
  obtain ⟨a, b⟩ := prepare_first c t₁ p₁ h hp h₁
  have hm := run_mono (prepare c t₁ p₁).1 os (by omega)
  have hq := run_progress (prepare c t₁ p₁).1 os a ho
  have := prepare_last (run (prepare c t₁ p₁).1 os).1 t₂ p₂ (by omega) (by omega) h₂
  rw [List.cons_append]
  simp only [run, step, run_append]
  exact this

example : (run ⟨.ready, true, 0, 0, 0, 0, 30, 0, 0, false, 0, 0, true, false, false⟩
    [.close 7, .prepare 1 { rto := 5, srtt := 2, rttMin := 2, rto0 := 5, wake := 100 }, .recv 3 .oneRtt [.other] .nothing,
      .prepare 16 { rto := 5, srtt := 2, rttMin := 2, rto0 := 5, wake := 100 }]).1.st = .disconnected := by decide

/-- **C81.** And it asks to be called by then. -/
theorem C81_wake (c : Conn) (t : Nat) (p : Env) (h : St.disconnecting.code ≤ c.st.code) (hl : (prepare c t p).1.st ≠ .disconnected) :
    (prepare c t p).2.2 ≤ max t (c.progress + 3 * p.rto) := prepare_wake c t p h hl

/-- **C81.** A connection in the closing state leaves it only because the peer closes as well, three retransmission timeouts have passed, the idle timer has expired, a stateless reset arrives, or the
application does not want to wait. -/
theorem C81_lasts (c : Conn) (o : Op) (h : c.st = .closing) (hx : (step c o).1.st ≠ .closing) :
    (∃ t, o = .closeImmediate t) ∨ o = .statelessReset ∨ (∃ t fs r, o = .recv t .oneRtt fs r ∧ (Fr.close ∈ fs ∨ Fr.appClose ∈ fs)) ∨
    (∃ t p, o = .prepare t p ∧ (c.progress + 3 * p.rto ≤ t ∨ idleDeadline c p ≤ t)) := by
  rcases step_lasts c o h hx with a | a | ⟨t, fs, r, a, b⟩ | a
  · exact Or.inl a
  · exact Or.inr (Or.inl a)
  · refine Or.inr (Or.inr (Or.inl ⟨t, fs, r, a, ?_⟩))
    clear a hx
    induction fs with
    | nil => cases b
    | cons f fs ih =>
      cases f with
      | close => exact Or.inl (by simp)
      | appClose => exact Or.inr (by simp)
      | bad e => cases b
      | _ =>
        rcases ih b with x | x
        · exact Or.inl (by simp [x])
        · exact Or.inr (by simp [x])
  · exact Or.inr (Or.inr (Or.inr a))

/-- **C81.** A connection that is being closed is done when a close of either kind arrives from the peer, behind frames of any other kind: the client is then disconnected, the server drains. -/
theorem C81_peer_close (c : Conn) (t : Nat) (fs gs : List Fr) (f : Fr) (r : Tls) (h : c.st = .closing ∨ c.st = .disconnecting) (hf : f = .close ∨ f = .appClose) (hg : ∀ e, Fr.bad e ∉ fs) :
    (step c (.recv t .oneRtt (fs ++ f :: gs) r)).1.st = if c.client then .disconnected else .draining := by
  have hc : closingFrames (fs ++ f :: gs) = some true := by
    induction fs with
    | nil => rcases hf with rfl | rfl <;> rfl
    | cons x xs ih =>
      have hi := ih (fun e he => hg e (by simp [he]))
      cases x with
      | bad e => exact absurd (List.mem_cons_self) (hg e)
      | close => rfl
      | appClose => rfl
      | _ => exact hi
  have hn : c.st.code ≥ 15 ∧ ¬ (c.st.code < 10 ∨ c.st = .disconnected) := by rcases h with h | h <;> rw [h] <;> decide
  have hp : packet c .oneRtt (fs ++ f :: gs) r = if c.client then ((disconnect c).1, (disconnect c).2, true) else ({ c with st := .draining }, [], true) := by
    dsimp only [packet]
    rw [if_neg hn.2, if_pos hn.1, if_pos h, hc]
  simp only [step, recv, hp]
  cases c.client <;> simp [disconnect_st]

example : (step ⟨.closing, true, 0, 0, 0, 0, 30, 0, 0, false, 0, 0, true, false, false⟩ (.recv 5 .oneRtt [.other, .appClose] .nothing)).1.st = .disconnected := by decide

/-- **C81.** A stateless reset ends the connection at once, and the application is told that it was one. -/
theorem C81_reset (c : Conn) : (step c .statelessReset).1.st = .disconnected ∧ Ev.reset ∈ (step c .statelessReset).2 :=
  ⟨disconnect_st c, by simp [step, statelessReset]⟩

/-- **C81.** A connection closed by the peer need not stay in the draining state at all: the time is counted from the last packet with data, not from the close. Here that is 10 seconds ago, and the connection
is over at the time the close arrives. -/
theorem C81_drain_violated : ∃ (c : Conn) (p : Env), c.st = .ready ∧ 0 < p.rto ∧
    (run c [.recv 10000000 .oneRtt [.close] .nothing, .prepare 10000000 p]).1.st = .draining ∧
    (run c [.recv 10000000 .oneRtt [.close] .nothing, .prepare 10000000 p, .prepare 10000000 p]).1.st = .disconnected :=
  ⟨⟨.ready, true, 0, 0, 0, 0, 30000000, 0, 0, false, 0, 0, true, false, false⟩, { rto := 300000, srtt := 2, rttMin := 2, rto0 := 300000, wake := 100000000 }, by decide⟩

/-- **C81.** While a connection is being closed it sends at most one packet, and one more for each packet received. -/
theorem C81_few (c : Conn) (os : List Op) (h : St.disconnecting.code ≤ c.st.code) (hc : ∀ o ∈ os, noAddressValidated o = true) :
    (run c os).2.countP isPacketSent ≤ 1 + os.countP packetReceived := by
  have h1 := run_few c os h hc
  have h2 : pending c ≤ 1 := by unfold pending; repeat' split
                                all_goals omega
  omega

example : (run ⟨.closing, true, 1, 1, 0, 0, 30, 0, 0, false, 0, 7, true, false, false⟩
    [.recv 2 .oneRtt [.other] .nothing, .recv 2 .oneRtt [.other] .nothing, .prepare 2 { rto := 5, srtt := 2, rttMin := 2, rto0 := 5, wake := 100 },
      .prepare 3 { rto := 5, srtt := 2, rttMin := 2, rto0 := 5, wake := 100 }, .recv 4 .oneRtt [.other] .nothing, .prepare 5 { rto := 5, srtt := 2, rttMin := 2, rto0 := 5, wake := 100 }]).2 =
    [.sent 3 (.app 7), .sent 5 (.app 7)] := by decide

/-- **C81.** In the closing state, two packets are at least a round trip time apart. -/
theorem C81_spaced (m : Nat) (c : Conn) (os : List Op) (h : c.st = .closing) (hm : ∀ o ∈ os, roundTripAtLeast m o = true) :
    (c.lastClose :: timesSent (run c os).2).Pairwise (fun a b => a + m ≤ b) := run_spaced m c os h hm

/-- **C81.** When the connection is draining nothing is sent, unless another address is being validated. -/
theorem C81_draining_partial (c : Conn) (os : List Op) (h : c.st = .draining) (hc : ∀ o ∈ os, noAddressValidated o = true) : timesSent (run c os).2 = [] :=
  timesSent_nil _ (run_silent c os (by rw [h]; decide) hc)

/-- **C81.** Path validation goes on in the draining state. -/
theorem C81_draining_violated : ∃ (c : Conn) (o : Op), c.st = .draining ∧ (step c o).2 = [.sent 3 .control] :=
  ⟨⟨.draining, true, 1, 1, 0, 0, 30, 0, 0, false, 0, 0, true, false, false⟩, .prepare 3 { rto := 5, srtt := 2, rttMin := 2, rto0 := 5, control := true, wake := 100 }, by decide⟩

/-- **C81.** The reason given to the peer is the one of the first close: a connection that was established and is closed by the application with a code sends only APPLICATION_CLOSE frames with that code, whatever
follows. -/
theorem C81_reason_close (c : Conn) (code : Nat) (os : List Op) (h : c.st = .ready ∨ c.st = .serverFalseStart ∨ c.st = .clientReadyStart) (he : c.localError = 0)
    (ho : ∀ t, Op.closeImmediate t ∉ os) : ∀ t x, Ev.sent t x ∈ (run c (.close code :: os)).2 → x = .control ∨ x = .app code := by
  intro t x hx
  have e : step c (.close code) = ({ c with st := .disconnecting, appError := code }, []) := by simp only [step, close]; rw [if_pos h]
  rw [run, e] at hx
  simp only [List.nil_append] at hx
  have := run_reason { c with st := .disconnecting, appError := code } os (Or.inl rfl) ho t x hx
  simpa [closeContent, he] using this

example : (run ⟨.ready, false, 0, 0, 0, 0, 30, 0, 0, false, 0, 0, true, false, false⟩
    [.close 7, .error 3, .prepare 2 { rto := 5, srtt := 2, rttMin := 2, rto0 := 5, wake := 100 }, .close 9, .recv 3 .oneRtt [.bad 4] .nothing]).2 = [.sent 2 (.app 7)] := by decide

/-- **C81.** And one closed because of an error sends only CONNECTION_CLOSE frames with that error. -/
theorem C81_reason_error (c : Conn) (e : Nat) (os : List Op) (h : c.st = .ready ∨ c.st = .serverFalseStart ∨ c.st = .clientReadyStart) (he : 0 < e ∧ e ≤ 0x400)
    (ho : ∀ t, Op.closeImmediate t ∉ os) : ∀ t x, Ev.sent t x ∈ (run c (.error e :: os)).2 → x = .control ∨ x = .conn e := by
  intro t x hx
  have h' : c.st = .ready ∨ c.st = .clientReadyStart ∨ c.st = .serverFalseStart := by
    rcases h with h | h | h
    · exact Or.inl h
    · exact Or.inr (Or.inr h)
    · exact Or.inr (Or.inl h)
  have e' : step c (.error e) = ({ c with localError := e, st := .disconnecting }, []) := by
    simp only [step, error]; rw [if_pos h', if_neg (by omega : ¬ e > 0x400)]
  rw [run, e'] at hx
  simp only [List.nil_append] at hx
  have := run_reason { c with localError := e, st := .disconnecting } os (Or.inl rfl) ho t x hx
  simpa [closeContent, Nat.pos_iff_ne_zero.1 he.1] using this

/-- **C81.** They are sent: the next packet of a connection that is being closed has the reason. -/
theorem C81_reason_sent (c : Conn) (t : Nat) (p : Env) (h : c.st = .disconnecting) (hi : t < idleDeadline c p) (hc : p.control = false) :
    (step c (.prepare t p)).2 = [.sent t (if c.localError = 0 then .app c.appError else .conn c.localError)] ∧ (step c (.prepare t p)).1.st = .closing := by
  simp only [step]
  rcases prepare_late c t p (by rw [h]; decide) (by rw [h]; decide) with ⟨a, _⟩ | ⟨_, a, _⟩ | ⟨_, _, a⟩
  · omega
  · rw [hc] at a; cases a
  · rw [a, pc_disconnecting _ _ _ _ h]; exact ⟨rfl, rfl⟩

/-- **C81.** The close of the peer is answered with one close, and then the connection drains. -/
theorem C81_answer (c : Conn) (t : Nat) (p : Env) (h : c.st = .closingReceived) (hi : t < idleDeadline c p) (hc : p.control = false) :
    (step c (.prepare t p)).2 = [.sent t (.conn c.localError)] ∧ (step c (.prepare t p)).1.st = .draining := by
  simp only [step]
  rcases prepare_late c t p (by rw [h]; decide) (by rw [h]; decide) with ⟨a, _⟩ | ⟨_, a, _⟩ | ⟨_, _, a⟩
  · omega
  · rw [hc] at a; cases a
  · rw [a, pc_received _ _ _ _ h]; exact ⟨rfl, rfl⟩

/-- **C81.** Before the end of the handshake there is an error that is ignored: in the state `server_almost_ready`, in which 0-RTT packets are accepted, a forbidden frame does not end the connection. -/
theorem C81_error_violated : ∃ (c : Conn) (os : List Op), c.st = .serverAlmostReady ∧ os = [.recv 1 .zeroRtt [.bad 7] .nothing] ∧
    (run c os).1 = c ∧ (run c (os ++ [.recv 2 .zeroRtt [.other] .nothing, .prepare 3 { rto := 5, srtt := 2, rttMin := 2, rto0 := 5, wake := 100, queueDone := true, falseStart := true }])).1.st = .serverFalseStart :=
  ⟨⟨.serverAlmostReady, false, 0, 0, 0, 0, 30, 0, 0, false, 0, 0, false, true, false⟩, _, rfl, rfl, by decide⟩

/-- **C81.** A connection that is established ends when nothing was received for the idle timeout, or three retransmission timeouts if that is more, and not before. -/
theorem C81_idle (c : Conn) (t : Nat) (p : Env) (h : c.st = .ready) (hw : max c.idle (3 * p.rto0) + c.lastRecv < 2 ^ 64) :
    (prepare c t p).1.st = .disconnected ↔ c.lastRecv + max c.idle (3 * p.rto0) ≤ t := by
  rw [prepare_open c t p (by rw [h]; decide) (by rw [h]; decide)]
  have : idleDeadline c p = c.lastRecv + max c.idle (3 * p.rto0) := by
    unfold idleDeadline
    rw [if_pos (by rw [h]; decide)]
    dsimp only
    have hd : (if c.idle < 3 * p.rto0 then 3 * p.rto0 else c.idle) = max c.idle (3 * p.rto0) := by split <;> omega
    rw [hd, Nat.mod_eq_of_lt hw, if_neg (by omega)]
    omega
  rw [this]

example : (prepare ⟨.ready, false, 0, 0, 10, 0, 30, 0, 0, false, 0, 0, true, false, false⟩ 40 { rto := 5, srtt := 2, rttMin := 2, rto0 := 5, wake := 100 }).1.st = .disconnected ∧
    (prepare ⟨.ready, false, 0, 0, 10, 0, 30, 0, 0, false, 0, 0, true, false, false⟩ 39 { rto := 5, srtt := 2, rttMin := 2, rto0 := 5, wake := 100 }).1.st = .ready := by decide

/-- **C81.** An idle timeout of the largest number is none. -/
theorem C81_idle_off (c : Conn) (t : Nat) (p : Env) (h : c.st = .ready) (hi : c.idle = UINT64_MAX) (hr : 3 * p.rto0 ≤ UINT64_MAX) (hl : c.lastRecv < 2 ^ 64) (ht : t < UINT64_MAX) :
    (prepare c t p).1.st ≠ .disconnected := by
  rw [ne_eq, prepare_open c t p (by rw [h]; decide) (by rw [h]; decide)]
  have : idleDeadline c p = UINT64_MAX := by
    unfold idleDeadline
    rw [if_pos (by rw [h]; decide)]
    dsimp only
    have hd : (if c.idle < 3 * p.rto0 then 3 * p.rto0 else c.idle) = UINT64_MAX := by rw [if_neg (by omega), hi]
    have hu : UINT64_MAX = 2 ^ 64 - 1 := rfl
    rw [hd, hi]
    by_cases h0 : c.lastRecv = 0
    · rw [h0]; decide
    · rw [if_pos (by omega)]
  omega

/-- **C81.** Each packet received starts the idle time again. -/
theorem C81_idle_restart (c : Conn) (t t' : Nat) (p : Env) (n : Nat) (h : c.st = .ready) (hw : max c.idle (3 * p.rto0) + t < 2 ^ 64) :
    (prepare (step c (.recv t .oneRtt (List.replicate n .other) .nothing)).1 t' p).1.st = .disconnected ↔ t + max c.idle (3 * p.rto0) ≤ t' := by
  have hf : ∀ n, frames true c (List.replicate n .other) = (c, [], true) := by
    intro n
    induction n with
    | zero => rfl
    | succ n ih => rw [List.replicate_succ, frames_cons]; simp [frame, ih]
  have e : (step c (.recv t .oneRtt (List.replicate n .other) .nothing)).1 = { c with lastRecv := t } := by
    simp [step, recv, packet, framesTls, hf, h, St.code, tls]
  rw [e]
  exact C81_idle { c with lastRecv := t } t' p h hw

/-- **C81.** A connection that is never established ends: at the handshake timeout if one is set, else at the idle timeout, else after 30 seconds; the application is told, and the error is that of an idle connection. -/
theorem C81_handshake_limit (c : Conn) (t : Nat) (p : Env) (h : c.st.code < St.ready.code) (ho : isClosing c.st = false) :
    ((prepare c t p).1.st = .disconnected ↔ c.start + (if c.hsTimeout > 0 then c.hsTimeout else if c.maxIdle > 0 then c.maxIdle * 1000 else 30000000) ≤ t) ∧
    ((prepare c t p).1.st = .disconnected → Ev.close ∈ (prepare c t p).2.1 ∧ (prepare c t p).1.localError = 0x433) := by
  have hn : c.st ≠ .disconnected := by intro e; rw [e] at h; exact absurd h (by decide)
  have hd : c.st ≠ .draining := by intro e; rw [e] at h; exact absurd h (by decide)
  have hx : idleDeadline c p = c.start + (if c.hsTimeout > 0 then c.hsTimeout else if c.maxIdle > 0 then c.maxIdle * 1000 else 30000000) := by
    unfold idleDeadline
    rw [if_neg (show ¬ c.st.code ≥ 14 from Nat.not_le.2 h)]
    repeat' split
    all_goals rfl
  have hp := prepare_open c t p ho hn
  refine ⟨by rw [hp, hx], fun e => ?_⟩
  have hl := hp.1 e
  unfold prepare
  rw [if_pos hl, if_pos hd]
  simp [disconnect, hn]

/-- **C81.** A handshake that fails is over after at most two packets. -/
theorem C81_failure (c : Conn) (t₁ t₂ : Nat) (p₁ p₂ : Env) (h : c.st = .handshakeFailure) (h₁ : p₁.control = false) (h₂ : p₂.control = false) :
    (run c [.prepare t₁ p₁, .prepare t₂ p₂]).1.st = .disconnected ∧
    ∀ t x, Ev.sent t x ∈ (run c [.prepare t₁ p₁, .prepare t₂ p₂]).2 → x = (if c.localError = 0 then .app c.appError else .conn c.localError) := by
  have hr : ∀ (c' : Conn) (t : Nat) (p : Env), c'.st = .handshakeFailureResend → p.control = false →
      (prepare c' t p).1.st = .disconnected ∧ ∀ u x, Ev.sent u x ∈ (prepare c' t p).2.1 → x = closeContent c' := by
    intro c' t p h' hc
    unfold prepare
    by_cases hd : t ≥ idleDeadline c' p
    · rw [if_pos hd]; refine ⟨disconnect_st _, ?_⟩; simp [h', disconnect]
    · rw [if_neg hd, if_neg (by rw [h']; decide)]
      simp [hc, h', isClosing, prepareClosing, disconnect]
  have hf : (prepare c t₁ p₁).1.st = .disconnected ∨ ((prepare c t₁ p₁).1.st = .handshakeFailureResend ∧ closeContent (prepare c t₁ p₁).1 = closeContent c) := by
    unfold prepare
    by_cases hd : t₁ ≥ idleDeadline c p₁
    · rw [if_pos hd]; exact Or.inl (disconnect_st _)
    · rw [if_neg hd, if_neg (by rw [h]; decide)]
      cases h1 : c.keysHs <;> cases h2 : c.hsRecv <;> cases h3 : p₁.again <;> simp [h₁, h, isClosing, prepareClosing, disconnect, h1, h2, closeContent]
  have hs : ∀ u x, Ev.sent u x ∈ (prepare c t₁ p₁).2.1 → x = closeContent c := by
    unfold prepare
    by_cases hd : t₁ ≥ idleDeadline c p₁
    · rw [if_pos hd]; simp [h, disconnect]
    · rw [if_neg hd, if_neg (by rw [h]; decide)]
      cases h1 : c.keysHs <;> cases h2 : c.hsRecv <;> cases h3 : p₁.again <;> simp [h₁, h, isClosing, prepareClosing, disconnect, h1, h2, closeContent]
      all_goals (intro u x hx; rcases hx with hx | hx <;> exact hx.2)
  simp only [run, step, List.append_nil]
  rcases hf with hf | ⟨hf, he⟩
  · obtain ⟨a, b⟩ := prepare_disc _ t₂ p₂ hf
    rw [b]
    exact ⟨a, fun t x hx => hs t x (by simpa using hx)⟩
  · obtain ⟨a, b⟩ := hr _ t₂ p₂ hf h₂
    refine ⟨a, fun t x hx => ?_⟩
    rcases List.mem_append.1 hx with hx | hx
    · exact hs t x hx
    · have := b t x hx; rw [he] at this; exact this

example : (run ⟨.handshakeFailure, false, 0, 0, 10, 0, 30, 100, 0, false, 40, 0, true, true, false⟩
    [.prepare 20 { rto := 5, srtt := 2, rttMin := 2, rto0 := 5, wake := 100 }, .prepare 20 { rto := 5, srtt := 2, rttMin := 2, rto0 := 5, wake := 100 }]).2 =
    [.sent 20 (.conn 40), .close, .sent 20 (.conn 40)] := by decide

end Picoquic.Props
