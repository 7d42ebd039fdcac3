import Verif.Model.Bytes

/-!
# The early end of a stream

Model of one stream of one end: `picoquic_reset_stream`, `picoquic_stop_sending`, `picoquic_discard_stream` and
`picoquic_add_to_stream` (sender.c), the RESET_STREAM and STOP_SENDING frames, the callbacks for them and for the data
(frames.c), and the deletion of the stream. The data are counted, their content and order are those of C10 and C48. Flow
control (C13 to C15) is not modelled: credit never lacks.
-/

namespace Picoquic.StreamEnd

/-- `IS_BIDIR_STREAM_ID`, picoquic_internal.h 852. -/
def isBidir (id : Nat) : Bool := decide (id % 4 < 2)

/-- `IS_CLIENT_STREAM_ID`, picoquic_internal.h 851. -/
def isClientId (id : Nat) : Bool := decide (id % 2 = 0)

/-- `IS_LOCAL_STREAM_ID`, picoquic_internal.h 853. -/
def isLocal (id : Nat) (client : Bool) : Bool := decide (isClientId id = client)

/-- The fields of `picoquic_stream_head_t` used here. `queued` is the number of bytes of `send_queue`; `acked` is the
end of the range of `sack_list` that begins at 0, if there is one; `deleted` tells that the stream was deleted. `error`
is the error of the connection. -/
structure End where
  client : Bool
  id : Nat
  finRequested : Bool := false
  finSent : Bool := false
  resetRequested : Bool := false
  resetSent : Bool := false
  resetAcked : Bool := false
  localError : Nat := 0
  stopRequested : Bool := false
  stopSent : Bool := false
  localStopError : Nat := 0
  finReceived : Bool := false
  finSignalled : Bool := false
  resetReceived : Bool := false
  resetSignalled : Bool := false
  remoteError : Nat := 0
  stopReceived : Bool := false
  stopSignalled : Bool := false
  remoteStopError : Nat := 0
  discarded : Bool := false
  isClosed : Bool := false
  deleted : Bool := false
  queued : Nat := 0
  sentOffset : Nat := 0
  acked : Option Nat := none
  consumed : Nat := 0
  finOffset : Nat := 0
  error : Option Nat := none
deriving DecidableEq, Repr

/-- A new stream, frames.c 80-90: the side that only receives has nothing to send. -/
def newEnd (client : Bool) (id : Nat) : End :=
  let readOnly := !isBidir id && !isLocal id client
  { client := client, id := id, finRequested := readOnly, finSent := readOnly }

/-- What is seen from outside: the callbacks, with the error that `picoquic_get_remote_stream_error` gives at that time
(quicctx.c 5199-5207), and the frames. -/
inductive Event
  | data (n : Nat)
  | fin (n : Nat)
  | resetCallback (error : Nat)
  | stopCallback (error : Nat)
  | resetFrame (error finalSize : Nat)
  | stopFrame (error : Nat)
  | streamFrame (offset length : Nat) (fin : Bool)
deriving DecidableEq, Repr

def STREAM_STATE_ERROR : Nat := 5
def FINAL_OFFSET_ERROR : Nat := 6

/-- Return codes. -/
inductive Ret
  | ok
  | invalidStream
  | alreadyClosed
  | fails
deriving DecidableEq, Repr

/-- `picoquic_check_sack_list`, sacks.c 328-340, is not 0: the bytes from 0 to `n` were acknowledged. -/
def covered (acked : Option Nat) (n : Nat) : Bool :=
  match acked with
  | some e => decide (n ≤ e)
  | none => false

/-- `picoquic_is_stream_closed`, frames.c 96-114. -/
def closed (s : End) : Bool :=
  let sent := (s.finRequested && s.finSent) || (s.resetRequested && s.resetSent)
  let received := (s.finReceived && s.finSignalled) || (s.resetReceived && s.resetSignalled)
  if isBidir s.id then sent && received
  else if isLocal s.id s.client then sent
  else received

/-- `picoquic_delete_stream_if_closed` with `picoquic_is_stream_acked`, frames.c 116-149. -/
def deleteIfClosed (s : End) : End :=
  let c := s.isClosed || closed s
  let acked := if s.resetSent then s.resetAcked else covered s.acked s.sentOffset
  { s with isClosed := c, deleted := s.deleted || (c && acked) }

/-- `picoquic_reset_stream`, sender.c 324-351. -/
def appReset (s : End) (error : Nat) : End × Ret :=
  if s.deleted then (s, .invalidStream)
  else if s.finSent && !covered s.acked s.finOffset then (s, .alreadyClosed)
  else if s.resetRequested then (s, .ok)
  else ({ s with localError := error, resetRequested := true }, .ok)

/-- `picoquic_stop_sending`, sender.c 366-394. -/
def appStop (s : End) (error : Nat) : End × Ret :=
  if s.deleted then (s, .invalidStream)
  else if s.resetReceived then (s, .alreadyClosed)
  else if s.stopRequested then (s, .ok)
  else ({ s with localStopError := error, stopRequested := true }, .ok)

/-- A return code for a stream that was closed already is no failure, sender.c 408-410 and 415-417. -/
def forgive : Ret → Ret
  | .alreadyClosed => .ok
  | r => r

/-- `picoquic_discard_stream`, sender.c 396-424. The tests are of the parity of the ID, not of the role of this end. -/
def appDiscard (s : End) (error : Nat) : End × Ret :=
  if s.deleted then (s, .invalidStream)
  else
    let r := if isBidir s.id || !isClientId s.id then ((appStop s error).1, forgive (appStop s error).2) else (s, .ok)
    let r := if r.2 = .ok ∧ (isBidir s.id || isClientId s.id) then
        ((appReset r.1 error).1, forgive (appReset r.1 error).2)
      else r
    ({ r.1 with discarded := true }, r.2)

/-- `picoquic_add_to_stream`, sender.c 209-271, on a stream that exists. -/
def appWrite (s : End) (n : Nat) (fin : Bool) : End × Ret :=
  if s.deleted then (s, .invalidStream)
  else if fin && s.finRequested && decide (n > 0) then (s, .fails)
  else
    let s := if fin then { s with finRequested := true } else s
    if s.resetSent || s.stopReceived then (s, .fails)
    else ({ s with queued := s.queued + n }, .ok)

/-- `picoquic_format_stream_frame`, frames.c 1632-1662 and the rest of the function, with room for a frame and `room`
bytes of data; `picoquic_format_stream_reset_frame`, frames.c 229-265; `picoquic_format_stop_sending_frame`,
frames.c 876-901. -/
def format (s : End) (room : Nat) : End × List Event :=
  if s.resetSent then (s, [])
  else if s.resetRequested then
    (deleteIfClosed { s with resetSent := true, finSent := true, queued := 0 }, [.resetFrame s.localError s.sentOffset])
  else if s.stopRequested && !s.stopSent then
    if s.finReceived || s.resetReceived then ({ s with stopSent := true }, [])
    else ({ s with stopSent := true }, [.stopFrame s.localStopError])
  else if s.queued = 0 && (!s.finRequested || s.finSent) then (s, [])
  else
    let n := min s.queued room
    let fin := s.finRequested && !s.finSent && decide (n = s.queued)
    ({ s with queued := s.queued - n, sentOffset := s.sentOffset + n, finSent := s.finSent || fin },
      [.streamFrame s.sentOffset n fin])

/-- `picoquic_decode_stream_reset_frame`, frames.c 267-322, on a stream that exists. -/
def recvReset (s : End) (error final : Nat) : End × List Event :=
  if (s.finReceived || s.resetReceived) && decide (final ≠ s.finOffset) then
    ({ s with error := some FINAL_OFFSET_ERROR }, [])
  else
    let s := { s with finOffset := max s.finOffset final }
    if s.resetReceived then (s, [])
    else
      let s := { s with resetReceived := true, remoteError := error }
      if s.resetSignalled then (s, [])
      else
        (deleteIfClosed { s with resetSignalled := true }, if s.discarded then [] else [.resetCallback s.remoteError])

/-- `picoquic_decode_stop_sending_frame`, frames.c 904-944, on a stream that exists. -/
def recvStop (s : End) (error : Nat) : End × List Event :=
  if !isBidir s.id && !isLocal s.id s.client then ({ s with error := some STREAM_STATE_ERROR }, [])
  else if !s.stopReceived && !s.resetRequested && !s.finSent then
    let s := { s with stopReceived := true, remoteStopError := error }
    if s.stopSignalled then (s, [])
    else ({ s with stopSignalled := true }, if s.discarded then [] else [.stopCallback s.remoteError])
  else (s, [])

/-- `picoquic_stream_data_chunk_callback`, frames.c 1051-1072. -/
def chunk (s : End) (n : Nat) : End × List Event :=
  let s := { s with consumed := s.consumed + n }
  let ends := decide (s.consumed ≥ s.finOffset) && s.finReceived && !s.finSignalled
  let s := if ends then { s with finSignalled := true } else s
  if (ends || decide (n > 0)) && !s.stopRequested && !s.discarded then (s, [if ends then .fin n else .data n])
  else (s, [])

/-- `picoquic_stream_network_input`, frames.c 1189-1300, for `n` bytes that continue what was received. -/
def recvData (s : End) (n : Nat) (fin : Bool) : End × List Event :=
  let new := s.consumed + n
  if s.finReceived && (if fin then decide (s.finOffset ≠ new) else decide (new > s.finOffset)) then
    ({ s with error := some FINAL_OFFSET_ERROR }, [])
  else
    let s := { s with finReceived := s.finReceived || fin, finOffset := max s.finOffset new }
    let r := chunk s n
    (if r.1.finSignalled then deleteIfClosed r.1 else r.1, r.2)

/-- What happens to a stream. -/
inductive Op
  | reset (error : Nat)
  | stop (error : Nat)
  | discard (error : Nat)
  | write (n : Nat) (fin : Bool)
  | send (room : Nat)
  | recvReset (error final : Nat)
  | recvStop (error : Nat)
  | recvData (n : Nat) (fin : Bool)
  /-- Everything sent is acknowledged, frames.c 324-352. -/
  | ack
deriving DecidableEq, Repr

/-- One event. Frames for a stream that was deleted are ignored, frames.c 62-64 (C33). -/
def step (s : End) : Op → End × List Event
  | .reset e => ((appReset s e).1, [])
  | .stop e => ((appStop s e).1, [])
  | .discard e => ((appDiscard s e).1, [])
  | .write n f => ((appWrite s n f).1, [])
  | .send room => if s.deleted then (s, []) else format s room
  | .recvReset e f => if s.deleted then (s, []) else recvReset s e f
  | .recvStop e => if s.deleted then (s, []) else recvStop s e
  | .recvData n f => if s.deleted then (s, []) else recvData s n f
  | .ack => if s.deleted then (s, []) else
      (deleteIfClosed { s with acked := some s.sentOffset, resetAcked := s.resetAcked || s.resetSent }, [])

/-- A history. -/
def run (s : End) : List Op → End × List Event
  | [] => (s, [])
  | o :: os =>
    let r := step s o
    let r' := run r.1 os
    (r'.1, r.2 ++ r'.2)

end Picoquic.StreamEnd
