import Verif.Model.LostFrames
/-!
# Specification of the repetition of lost frames

What has to be sent again when a packet is lost, in terms of the history of the connection.
-/

namespace Picoquic.Spec
open Picoquic Picoquic.Lost

/-- The frames of the multipath and address discovery extensions for which the processing of the acknowledgement reads
the frame at a wrong place. -/
def Misplaced : Frame → Prop
  | .maxPathId _ | .pathsBlocked _ | .pathCidBlocked .. | .observedAddress .. => True
  | .retireConnectionId path _ => path ≠ none
  | _ => False

/-- CRYPTO or STREAM frames which say nothing: no data, no FIN. -/
def SaysNothing : Frame → Prop
  | .crypto _ data => data = []
  | .stream _ _ fin data _ => data = [] ∧ fin = false
  | _ => False

/-- The packets acknowledged fit in a UDP packet and contain frames, none of those above. -/
def Regular (es : List Event) : Prop :=
  ∀ e bs, Event.acked e bs ∈ es →
    bs.length < 65536 ∧ ∃ fs, IsPayload bs fs ∧ ∀ f ∈ fs, ¬ Misplaced f ∧ ¬ SaysNothing f

/-- A packet with this frame was acknowledged. -/
def AckedIn (es : List Event) (f : Frame) : Prop :=
  ∃ e bs fs, Event.acked e bs ∈ es ∧ IsPayload bs fs ∧ f ∈ fs

/-- A packet with CRYPTO data at this offset was acknowledged. -/
def CryptoAcked (es : List Event) (e : Epoch) (offset : Nat) : Prop :=
  ∃ bs fs o data, Event.acked e bs ∈ es ∧ IsPayload bs fs ∧ Frame.crypto o data ∈ fs ∧
    o ≤ offset ∧ offset < o + data.length

/-- A packet with this position of a stream was acknowledged: a byte, or the FIN at the position after the last byte. -/
def StreamAcked (es : List Event) (id position : Nat) : Prop :=
  ∃ offset fin data x, AckedIn es (.stream id offset fin data x) ∧ offset ≤ position ∧
    (position < offset + data.length ∨ (fin = true ∧ position = offset + data.length))

/-- The stream was opened, and not closed. -/
def LiveStream (es : List Event) (id : Nat) : Prop :=
  (∃ l r, Event.opened id l r ∈ es) ∧ Event.closed id ∉ es

/-- The path number in NEW_CONNECTION_ID and RETIRE_CONNECTION_ID: 0 if there is none. -/
def pathOf (path : Option Nat) : Nat := path.getD 0

/-- The limits of the peer on streams: MAX_STREAMS received, or the initial limit. -/
def peerStreams (initial : Nat) (bidir : Bool) (es : List Event) : List Nat :=
  initial :: es.filterMap fun
    | .maxStreams b r => if b = bidir then some r else none
    | _ => none

/-- The limits of the peer on data: MAX_DATA received, or the initial limit. -/
def peerData (initial : Nat) (es : List Event) : List Nat :=
  initial :: es.filterMap fun
    | .maxData v => some v
    | _ => none

/-- The greatest number of a list. -/
def GreatestOf (l : List Nat) (v : Nat) : Prop := v ∈ l ∧ ∀ x ∈ l, x ≤ v

/-- After the history `es` of a connection which started with the limits `l`, the lost frame has to be sent again: what
it announces was not acknowledged, not replaced by something newer, and still makes sense. -/
def StillNeeded (l : Limits) (es : List Event) : Epoch → Frame → Prop
  | _, .ping _ | _, .connectionClose .. | _, .applicationClose .. | _, .immediateAck | _, .pathAbandon ..
  | _, .bdp .. | _, .observedAddress .. => True
  | _, .handshakeDone => ¬ AckedIn es .handshakeDone
  | _, .newToken _ => ∀ t, ¬ AckedIn es (.newToken t)
  | e, .crypto offset data => ∃ i, offset ≤ i ∧ i < offset + data.length ∧ ¬ CryptoAcked es e i
  | _, .maxData v =>
    l.data < v ∧ (∀ v', Event.sent (.maxData v') ∈ es → v' ≤ v) ∧ ∀ v', AckedIn es (.maxData v') → v' < v
  | _, .maxStreams bidir v =>
    0 < (if bidir then l.bidir else l.unidir) ∧ (if bidir then l.bidir else l.unidir) < v ∧ v ≤ 2 ^ 60 ∧
    (∀ v', Event.sent (.maxStreams bidir v') ∈ es → 0 < v' ∧ v' ≤ v) ∧
    ∀ v', AckedIn es (.maxStreams bidir v') → v' < v
  | _, .maxStreamData id v =>
    LiveStream es id ∧ Event.finReceived id ∉ es ∧ Event.resetReceived id ∉ es ∧
    (∀ x, Event.sent (.stopSending id x) ∉ es) ∧ (∀ l r, Event.opened id l r ∈ es → l < v) ∧
    (∀ v', Event.sent (.maxStreamData id v') ∈ es → v' ≤ v) ∧ ∀ v', AckedIn es (.maxStreamData id v') → v' < v
  | _, .stopSending id _ => LiveStream es id ∧ Event.finReceived id ∉ es ∧ Event.resetReceived id ∉ es
  | _, .newConnectionId path seq _ _ _ =>
    Event.cidCreated (pathOf path) seq ∈ es ∧ Event.cidRetired (pathOf path) seq ∉ es ∧
    ∀ path' a b c, pathOf path' = pathOf path → ¬ AckedIn es (.newConnectionId path' seq a b c)
  | _, .retireConnectionId path seq =>
    Event.cidReceived (pathOf path) seq ∈ es ∧ Event.cidRemoved (pathOf path) seq ∉ es ∧
    ∀ path', pathOf path' = pathOf path → ¬ AckedIn es (.retireConnectionId path' seq)
  | _, .pathStatus available path seq =>
    ∃ before after, es = before ++ Event.sent (.pathStatus available path seq) :: after ∧
      Event.pathCreated path ∈ before ∧ Event.pathCreated path ∉ after ∧
      Event.pathDeleted path ∉ es ∧ Event.pathDemoted path ∉ es ∧
      ∀ a seq', Event.sent (.pathStatus a path seq') ∉ after
  | _, .streamDataBlocked id v =>
    ∃ before after, es = before ++ Event.sent (.streamDataBlocked id v) :: after ∧
      LiveStream before id ∧ Event.closed id ∉ after ∧
      Event.finRequested id ∉ es ∧ Event.resetRequested id ∉ es ∧ (∀ a b, Event.sent (.resetStream id a b) ∉ es) ∧
      (∀ o d x, Event.sent (.stream id o true d x) ∉ es) ∧
      (∀ l r, Event.opened id l r ∈ es → r ≤ v) ∧ ∀ v', Event.maxStreamData id v' ∈ es → v' ≤ v
  | _, .dataBlocked v =>
    ∃ before after, es = before ++ Event.sent (.dataBlocked v) :: after ∧
      GreatestOf (peerData l.peerData before) v ∧ ∀ v', Event.maxData v' ∈ after → v' ≤ v
  | _, .streamsBlocked bidir v =>
    ∃ before after, es = before ++ Event.sent (.streamsBlocked bidir v) :: after ∧
      GreatestOf (peerStreams (if bidir then l.peerBidir else l.peerUnidir) bidir before) v ∧
      (∀ v', Event.maxStreams bidir v' ∈ after → v' ≤ v) ∧
      (∀ v' ∈ peerStreams (if bidir then l.peerBidir else l.peerUnidir) bidir es, 0 < v' ∧ v' ≤ 2 ^ 60)
  | _, .pathCidBlocked path seq =>
    ∃ before after, es = before ++ Event.sent (.pathCidBlocked path seq) :: after ∧
      Event.pathCreated path ∈ before ∧ Event.pathCreated path ∉ after ∧ Event.pathDeleted path ∉ es ∧
      ∀ seq', Event.cidReceived path seq' ∈ es → seq' < seq
  | _, _ => False

/-- After this history the lost frame has no reason to be sent again: what it announces, or more, was acknowledged, or
the stream is closed, or the path deleted. -/
def Obsolete (es : List Event) : Frame → Prop
  | .handshakeDone => AckedIn es .handshakeDone
  | .newToken _ => ∃ t, AckedIn es (.newToken t)
  | .maxData v => ∃ v', v ≤ v' ∧ AckedIn es (.maxData v')
  | .maxStreams bidir v => ∃ v', v ≤ v' ∧ AckedIn es (.maxStreams bidir v')
  | .maxStreamData id _ | .stopSending id _ | .streamDataBlocked id _ | .stream id _ _ _ _ =>
    ∃ before after, es = before ++ Event.closed id :: after ∧ ∀ l r, Event.opened id l r ∉ after
  | .pathStatus _ path _ | .pathCidBlocked path _ =>
    ∃ before after, es = before ++ Event.pathDeleted path :: after ∧ Event.pathCreated path ∉ after
  | _ => False

/-- The frames whose acknowledgement is recorded. -/
def Tracked : Frame → Prop
  | .handshakeDone | .newToken _ | .crypto .. | .stream .. | .maxData _ | .maxStreams .. | .maxStreamData ..
  | .newConnectionId .. | .retireConnectionId .. => True
  | _ => False

/-- The limits of the peer on paths: MAX_PATH_ID received, or the initial limit. -/
def peerPathIds (initial : Nat) (es : List Event) : List Nat :=
  initial :: es.filterMap fun
    | .maxPathId v => some v
    | _ => none

/-- The two frames are about the same thing, so that the acknowledgement of the first may matter for the second. -/
def SameSubject : Frame → Frame → Prop
  | .handshakeDone, .handshakeDone => True
  | .newToken _, .newToken _ => True
  | .crypto .., .crypto .. => True
  | .maxData _, .maxData _ => True
  | .maxStreams b _, .maxStreams b' _ => b = b'
  | .maxStreamData id _, .maxStreamData id' _ => id = id'
  | .stream id _ _ _ _, .stream id' _ _ _ _ => id = id'
  | .resetStream .., .resetStream .. => True
  | .newConnectionId path seq _ _ _, .newConnectionId path' seq' _ _ _ => pathOf path = pathOf path' ∧ seq = seq'
  | .retireConnectionId path seq, .retireConnectionId path' seq' => pathOf path = pathOf path' ∧ seq = seq'
  | _, _ => False

end Picoquic.Spec
