import Verif.Model.IntFormat
/-!
# The states of a connection, and how it is closed

Model of `cnx_state` and of what changes it: the application, frames, packets, TLS, the timers, and the packets prepared while closing. Buffers are large enough for an ACK frame and a close frame.
Times are microseconds without overflow, except in the idle timer. The connection has a callback function. Deleting the connection is not modelled.
-/

namespace Picoquic.Closing
open Picoquic

/-- `picoquic_state_enum`, picoquic.h 164-185. -/
inductive St
  | clientInit | clientInitSent | clientRenegotiate | clientRetryReceived | clientInitResent | serverInit | serverHandshake | clientHandshakeStart
  | handshakeFailure | handshakeFailureResend | clientAlmostReady | serverFalseStart | serverAlmostReady | clientReadyStart | ready
  | disconnecting | closingReceived | closing | draining | disconnected
deriving DecidableEq, Repr

/-- The order of the states, picoquic.h 164-185. -/
def St.code : St → Nat
  | .clientInit => 0
  | .clientInitSent => 1
  | .clientRenegotiate => 2
  | .clientRetryReceived => 3
  | .clientInitResent => 4
  | .serverInit => 5
  | .serverHandshake => 6
  | .clientHandshakeStart => 7
  | .handshakeFailure => 8
  | .handshakeFailureResend => 9
  | .clientAlmostReady => 10
  | .serverFalseStart => 11
  | .serverAlmostReady => 12
  | .clientReadyStart => 13
  | .ready => 14
  | .disconnecting => 15
  | .closingReceived => 16
  | .closing => 17
  | .draining => 18
  | .disconnected => 19

/-- A connection: `cnx_state`, `client_mode`, `latest_progress_time`, `last_close_sent`, `latest_receive_time`, `start_time`, `idle_timeout`, `default_handshake_timeout`, `max_idle_timeout` (milliseconds),
`act[0].ack_needed`, `local_error`, `application_error`; whether there are keys to decrypt 1-RTT packets and to encrypt Handshake packets, and whether a Handshake packet was received. -/
structure Conn where
  st : St
  client : Bool := false
  progress : Nat := 0
  lastClose : Nat := 0
  lastRecv : Nat := 0
  start : Nat := 0
  idle : Nat := 0
  hsTimeout : Nat := 0
  maxIdle : Nat := 0
  ackNeeded : Bool := false
  localError : Nat := 0
  appError : Nat := 0
  keys1 : Bool := false
  keysHs : Bool := false
  hsRecv : Bool := false
deriving DecidableEq, Repr

/-- What a packet contains: a CONNECTION_CLOSE frame or an APPLICATION_CLOSE frame with a code (and maybe an ACK frame), path validation frames, or something else. -/
inductive Content
  | conn (code : Nat)
  | app (code : Nat)
  | control
  | other
deriving DecidableEq, Repr

/-- What is observed: callbacks, and packets sent with their time. -/
inductive Ev
  | close | appClose | reset | ready | almostReady
  | sent (t : Nat) (c : Content)
deriving DecidableEq, Repr

/-- `picoquic_connection_disconnect`, quicctx.c 4730-4738. -/
def disconnect (c : Conn) : Conn × List Ev :=
  if c.st ≠ .disconnected then ({ c with st := .disconnected }, [.close]) else (c, [])

/-- `picoquic_close`, sender.c 4091-4111. -/
def close (c : Conn) (code : Nat) : Conn × List Ev :=
  if c.st = .ready ∨ c.st = .serverFalseStart ∨ c.st = .clientReadyStart then ({ c with st := .disconnecting, appError := code }, [])
  else if c.st.code < 13 then ({ c with st := .handshakeFailure, appError := 0, localError := 0xC }, [])
  else (c, [])

/-- `picoquic_close_immediate`, sender.c 4113-4126. -/
def closeImmediate (c : Conn) (t : Nat) : Conn × List Ev :=
  if c.st.code < 18 then ({ c with st := .draining, localError := UINT64_MAX, progress := t, lastClose := t }, []) else (c, [])

/-- `picoquic_connection_error_ex`, quicctx.c 4693-4723. -/
def error (c : Conn) (e : Nat) : Conn :=
  let e := if e > 0x400 then 1 else e
  if c.st = .ready ∨ c.st = .clientReadyStart ∨ c.st = .serverFalseStart then { c with localError := e, st := .disconnecting }
  else if c.st.code < 11 then
    if c.st ≠ .handshakeFailure ∧ c.st ≠ .handshakeFailureResend then { c with localError := e, st := .handshakeFailure } else c
  else c

/-- `picoquic_ready_state_transition`, sender.c 2645-2720: the keys of the handshake are freed. The application is told; that its callback may return an error is left to `Op.error`. -/
def readyTransition (c : Conn) : Conn × List Ev := ({ c with st := .ready, keysHs := false }, [.ready])

/-- The frames that matter here. -/
inductive Fr
  | other
  | close
  | appClose
  | handshakeDone
  /-- An ACK frame that acknowledges a 1-RTT packet. -/
  | ack
  /-- A frame that is refused. -/
  | bad (e : Nat)
deriving DecidableEq, Repr

/-- One frame: the state, the callbacks, and whether decoding goes on. `picoquic_decode_connection_close_frame`, `picoquic_decode_application_close_frame`, frames.c 4136-4199;
`picoquic_decode_handshake_done_frame`, 4881-4908; the transition in `picoquic_process_ack_range`, 3639-3647; which frames packets of an epoch may contain, 6407-6452. -/
def frame (oneRtt : Bool) (c : Conn) : Fr → Conn × List Ev × Bool
  | .other => (c, [], true)
  | .close =>
    let s := if c.st.code < 13 ∨ c.keys1 = false then St.disconnected else .closingReceived
    ({ c with st := s }, if s ≠ c.st ∧ s = .disconnected then [.close] else [], true)
  | .appClose =>
    if oneRtt then ({ c with st := if c.st.code < 13 then .disconnected else .closingReceived }, [.appClose], true)
    else (error c 0xA, [], false)
  | .handshakeDone =>
    if !oneRtt || !c.client then (error c 0xA, [], false)
    else if c.st = .clientReadyStart then ((readyTransition c).1, (readyTransition c).2, true)
    else if c.st.code < 13 then (error c 0xA, [], false)
    else (c, [], true)
  | .ack =>
    if c.st = .clientReadyStart ∨ c.st = .serverFalseStart then ((readyTransition c).1, (readyTransition c).2, true) else (c, [], true)
  | .bad e => (error c e, [], false)

/-- `picoquic_decode_frames`, frames.c 6377-6800: all frames, up to one that is refused. -/
def frames (oneRtt : Bool) (c : Conn) : List Fr → Conn × List Ev × Bool
  | [] => (c, [], true)
  | f :: fs =>
    match frame oneRtt c f with
    | (c, e, false) => (c, e, false)
    | (c, e, true) => ((frames oneRtt c fs).1, e ++ (frames oneRtt c fs).2.1, (frames oneRtt c fs).2.2)

/-- What TLS makes of the data received: nothing, an error, success, or success with more to come. -/
inductive Tls
  | nothing
  | fail (e : Nat)
  | ok (complete params enc1 pushed auth : Bool)
  | more (complete : Bool)
deriving DecidableEq, Repr

/-- The end of `picoquic_tls_stream_process`, tls_api.c 2534-2625. -/
def tls (c : Conn) : Tls → Conn
  | .nothing => c
  | .fail e => error c e
  | .ok complete params enc1 pushed auth =>
    if c.st = .clientInit ∨ c.st = .clientInitSent ∨ c.st = .clientRenegotiate ∨ c.st = .clientInitResent ∨ c.st = .clientHandshakeStart then
      if complete then
        if !params then error c 8
        else if enc1 then { c with st := .clientAlmostReady } else c
      else c
    else if c.st = .serverInit ∨ c.st = .serverHandshake then
      if !pushed && auth then { c with st := .serverFalseStart }
      else if enc1 then { c with st := .serverAlmostReady } else c
    else c
  | .more complete => if (c.st = .serverInit ∨ c.st = .serverHandshake) ∧ complete = true then { c with st := .serverAlmostReady } else c

/-- Packets. -/
inductive Pkt
  /-- Initial packet of a server, that of a client (and the code with which a busy server, or one that finds the connection ID too short, refuses it), Handshake packet of a server, that of a client (and whether TLS is complete), 0-RTT packet, 1-RTT packet. -/
  | serverInitial | clientInitial (refused : Option Nat) | serverHandshake | clientHandshake (complete : Bool) | zeroRtt | oneRtt
deriving DecidableEq, Repr

/-- Frames, then TLS if no frame was refused. -/
def framesTls (oneRtt : Bool) (c : Conn) (fs : List Fr) (r : Tls) : Conn × List Ev × Bool :=
  let d := frames oneRtt c fs
  if d.2.2 then (tls d.1 r, d.2.1, true) else d

/-- Only close frames are looked for, `picoquic_decode_closing_frames`, frames.c 6975-6998. A frame that cannot be read ends it. -/
def closingFrames : List Fr → Option Bool
  | [] => some false
  | .close :: _ => some true
  | .appClose :: _ => some true
  | .bad _ :: _ => none
  | _ :: fs => closingFrames fs

/-- A packet was decrypted: `picoquic_incoming_server_initial`, packet.c 1594-1663; `picoquic_incoming_client_initial`, 1370-1480; `picoquic_incoming_server_handshake`, 1666-1713;
`picoquic_incoming_client_handshake`, 1717-1785; `picoquic_incoming_0rtt`, 1810-1851; `picoquic_incoming_1rtt`, 1888-1991. The result says whether the packet was accepted. -/
def packet (c : Conn) (p : Pkt) (fs : List Fr) (r : Tls) : Conn × List Ev × Bool :=
  match p with
  | .serverInitial =>
    let c := if c.st = .clientInitSent ∨ c.st = .clientInitResent then { c with st := .clientHandshakeStart } else c
    if c.st.code ≤ 7 then framesTls false c fs r
    else (c, [], decide (c.st.code < 14))
  | .clientInitial refused =>
    if c.st = .serverInit ∧ refused ≠ none then ({ c with localError := refused.getD 0, st := .handshakeFailure }, [], true)
    else if c.st.code < 12 then framesTls false c fs r
    else (c, [], decide (c.st.code < 14))
  | .serverHandshake =>
    if c.st.code < 14 then
      if c.st = .clientHandshakeStart then framesTls false c fs r else frames false c fs
    else (c, [], false)
  | .clientHandshake complete =>
    if c.st.code < 12 then
      let d := framesTls false c fs r
      if d.2.2 ∧ d.1.client = false ∧ d.1.st.code < 14 ∧ complete = true then ((readyTransition d.1).1, d.2.1 ++ (readyTransition d.1).2, true)
      else d
    else (c, [], decide (c.st.code ≤ 14))
  | .zeroRtt =>
    if c.st = .serverAlmostReady ∨ c.st = .serverFalseStart ∨ c.st = .ready then framesTls true c fs r else (c, [], false)
  | .oneRtt =>
    if c.st.code < 10 ∨ c.st = .disconnected then (c, [], false)
    else if c.st.code ≥ 15 then
      if c.st = .closing ∨ c.st = .disconnecting then
        match closingFrames fs with
        | none => (c, [], false)
        | some true => if c.client then ((disconnect c).1, (disconnect c).2, true) else ({ c with st := .draining }, [], true)
        | some false => ({ c with ackNeeded := true }, [], true)
      else (c, [], false)
    else framesTls true c fs r

/-- A packet with its time, packet.c 2294-2299: an accepted packet is noted, unless the connection is disconnected. -/
def recv (c : Conn) (t : Nat) (p : Pkt) (fs : List Fr) (r : Tls) : Conn × List Ev :=
  let d := packet c p fs r
  if d.2.2 ∧ d.1.st ≠ .disconnected then ({ d.1 with lastRecv := t }, d.2.1) else (d.1, d.2.1)

/-- `picoquic_incoming_stateless_reset`, packet.c 1791-1804. -/
def statelessReset (c : Conn) : Conn × List Ev := ((disconnect c).1, .reset :: (disconnect c).2)

/-- A version negotiation packet that is accepted, packet.c 903-957. -/
def versionNegotiation (c : Conn) : Conn × List Ev := if c.st ≠ .clientInitSent then (c, []) else disconnect c

/-- What `picoquic_prepare_packet_ex` finds: the timers of the path, the timer of the first path with its backoff, whether another address needs path validation frames, the wake time found
so far, whether the TLS data were all sent, whether those were of the Handshake epoch and clients do not authenticate, whether what is sent asks for an ACK, and whether the datagram has room for another packet. -/
structure Env where
  rto : Nat
  srtt : Nat
  rttMin : Nat
  rto0 : Nat
  control : Bool := false
  wake : Nat
  queueDone : Bool := false
  falseStart : Bool := false
  eliciting : Bool := false
  again : Bool := false
deriving DecidableEq, Repr

/-- The time at which `picoquic_check_idle_timer` ends the connection, sender.c 3684-3704. -/
def idleDeadline (c : Conn) (p : Env) : Nat :=
  if c.st.code ≥ 14 then
    let d := if c.idle < 3 * p.rto0 then 3 * p.rto0 else c.idle
    let x := (d + c.lastRecv) % 2 ^ 64
    if x < c.idle then UINT64_MAX else x
  else if c.hsTimeout > 0 then c.start + c.hsTimeout
  else if c.maxIdle > 0 then c.start + c.maxIdle * 1000
  else c.start + 30000000

/-- The frame that closes, sender.c 2431-2435, 2499-2504. -/
def closeContent (c : Conn) : Content := if c.localError = 0 then .app c.appError else .conn c.localError

/-- `picoquic_prepare_packet_closing`, sender.c 2302-2541: the state, what is observed, and the wake time. A packet that was sent makes the connection wake at once, sender.c 4022-4026. -/
def prepareClosing (c : Conn) (p : Env) (t w : Nat) : Conn × List Ev × Nat :=
  let exit := c.progress + 3 * p.rto
  if c.st = .closingReceived then ({ c with lastClose := t, st := .draining }, [.sent t (.conn c.localError)], t)
  else if c.st = .closing then
    if t ≥ exit then ((disconnect c).1, (disconnect c).2, t)
    else if t ≥ c.lastClose + p.srtt then
      let delta := if p.rttMin * 2 < p.rto then p.rto / 2 else p.rttMin
      let next := if t + delta > exit then exit else t + delta
      if c.ackNeeded then ({ c with ackNeeded := false, lastClose := t }, [.sent t (closeContent c)], t)
      else (c, [], next)
    else (c, [], if w > exit then exit else w)
  else if c.st = .draining then
    if t ≥ exit then ((disconnect c).1, (disconnect c).2, t) else (c, [], exit)
  else if c.st = .disconnecting then
    ({ c with st := .closing, progress := t, lastClose := t, ackNeeded := false }, [.sent t (closeContent c)], t)
  else if c.st = .handshakeFailure ∨ c.st = .handshakeFailureResend then
    let e := Ev.sent t (closeContent c)
    if c.st = .handshakeFailure ∧ ¬ (c.keysHs = true ∧ c.hsRecv = true) ∧ c.keysHs = true then
      ({ c with st := .handshakeFailureResend, progress := t, lastClose := t, ackNeeded := false }, [e], t)
    else ({ (disconnect c).1 with progress := t, lastClose := t, ackNeeded := false }, (disconnect c).2 ++ [e], t)
  else (c, [], w)

/-- `picoquic_prepare_segment` in the states before closing, sender.c 3737-3769, with the transitions of 2077-2100, 2234-2248 and 3752-3758, for one packet: a datagram with several is several of these. Application callbacks that return an error are left to `Op.error`. -/
def prepareOpen (c : Conn) (p : Env) (t w : Nat) : Conn × List Ev × Nat :=
  let c := if p.eliciting then { c with progress := t } else c
  match c.st with
  | .clientInit => (if p.queueDone then { c with st := .clientInitSent } else c, [.sent t .other], w)
  | .clientRenegotiate => (if p.queueDone then { c with st := .clientInitResent } else c, [.sent t .other], w)
  | .clientAlmostReady => if p.queueDone then ({ c with st := .clientReadyStart }, [.sent t .other, .almostReady], w) else (c, [.sent t .other], w)
  | .serverInit | .serverHandshake | .serverAlmostReady =>
    if p.queueDone then
      if p.falseStart then ({ c with st := .serverFalseStart }, [.sent t .other, .almostReady], w) else ({ c with st := .serverHandshake }, [.sent t .other], w)
    else (c, [.sent t .other], w)
  | .serverFalseStart => if c.keys1 then ((readyTransition c).1, (readyTransition c).2 ++ [.sent t .other], w) else (c, [.sent t .other], w)
  | _ => (c, [.sent t .other], w)

/-- Is it one of the states of `picoquic_prepare_packet_closing`? sender.c 3770-3776. -/
def isClosing (s : St) : Bool := s = .handshakeFailure || s = .handshakeFailureResend || decide (15 ≤ s.code ∧ s.code ≤ 18)

/-- `picoquic_prepare_packet_ex`, sender.c 3866-4081, for one datagram: the idle timer, path validation on another address, or the segments. -/
def prepare (c : Conn) (t : Nat) (p : Env) : Conn × List Ev × Nat :=
  if t ≥ idleDeadline c p then
    let c := if c.st ≠ .draining then { c with localError := 0x433 } else c
    ((disconnect c).1, (disconnect c).2, p.wake)
  else if c.st = .disconnected then (c, [], p.wake)
  else
    let w := if idleDeadline c p < p.wake then idleDeadline c p else p.wake
    if p.control then (c, [.sent t .control], t)
    else if isClosing c.st then
      let d := prepareClosing c p t w
      if p.again ∧ d.1.st = .handshakeFailureResend then
        let d' := prepareClosing d.1 p t w
        (d'.1, d.2.1 ++ d'.2.1, d'.2.2)
      else d
    else prepareOpen c p t w

/-- All that happens to a connection. -/
inductive Op
  | close (code : Nat)
  | closeImmediate (t : Nat)
  | error (e : Nat)
  | recv (t : Nat) (p : Pkt) (fs : List Fr) (r : Tls)
  | statelessReset
  | versionNegotiation
  | prepare (t : Nat) (p : Env)
  /-- Keys become available, a Handshake packet was received. -/
  | keys (k1 kh hs : Bool)
deriving DecidableEq, Repr

/-- One event. -/
def step (c : Conn) : Op → Conn × List Ev
  | .close code => close c code
  | .closeImmediate t => closeImmediate c t
  | .error e => (error c e, [])
  | .recv t p fs r => recv c t p fs r
  | .statelessReset => statelessReset c
  | .versionNegotiation => versionNegotiation c
  | .prepare t p => ((prepare c t p).1, (prepare c t p).2.1)
  | .keys k1 kh hs => ({ c with keys1 := c.keys1 || k1, keysHs := c.keysHs || kh, hsRecv := c.hsRecv || hs }, [])

/-- A history. -/
def run (c : Conn) : List Op → Conn × List Ev
  | [] => (c, [])
  | o :: os => ((run (step c o).1 os).1, (step c o).2 ++ (run (step c o).1 os).2)

end Picoquic.Closing
