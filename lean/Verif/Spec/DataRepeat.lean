import Verif.Spec.Frames
import Verif.Model.DataRepeat
/-!
# Specification of the repetition of stream data

The positions of a stream are its bytes, numbered from 0, and one more position for the end of the stream.
-/

namespace Picoquic.Spec
open Picoquic Picoquic.Repeat

/-- The frame has this position of the stream: one of its bytes, or its end. -/
def FrameHas (f : Frame) (id pos : Nat) : Prop :=
  match f with
  | .stream id' offset fin data _ => id' = id ∧ offset ≤ pos ∧ pos < offset + data.length + (if fin then 1 else 0)
  | _ => False

/-- A STREAM frame with at least one byte of data. -/
def HasData (f : Frame) : Prop :=
  match f with
  | .stream _ _ _ data _ => data ≠ []
  | _ => False

/-- The packet has a STREAM frame with this position. -/
def PacketHas (payload : Bytes) (id pos : Nat) : Prop :=
  ∃ fs f, IsPayload payload fs ∧ f ∈ fs ∧ FrameHas f id pos

/-- The same, in a frame which has data. -/
def PacketHasData (payload : Bytes) (id pos : Nat) : Prop :=
  ∃ fs f, IsPayload payload fs ∧ f ∈ fs ∧ FrameHas f id pos ∧ HasData f

/-- The position is among those to repeat from this packet of the queue: it is in the first frame, after the
bytes already repeated, or in a later frame. -/
def ToRepeat (q : Queued) (id pos : Nat) : Prop :=
  ∃ p f rest, q.rest = p ++ rest ∧ IsFrame p f ∧ EndsWith f rest ∧
    ((∃ offset fin data explicit, f = .stream id offset fin data explicit ∧ data ≠ [] ∧
        offset + (q.done - (p.length - data.length)) ≤ pos ∧
        pos < offset + data.length + (if fin then 1 else 0)) ∨
      PacketHasData rest id pos)

/-- The stream exists and was not reset. -/
def Active (w : World) (id : Nat) : Prop := ∃ s, w.streams id = some s ∧ s.resetSent = false

/-- The STREAM frames an endpoint may send: an offset below 2^62, some data or the end of the stream. -/
def Sendable (f : Frame) : Prop :=
  match f with
  | .stream _ offset fin data _ => offset + data.length < 2 ^ 62 ∧ (data ≠ [] ∨ fin = true)
  | _ => True

/-- The STREAM frames agree with the content of the streams: `content id pos` is the byte number `pos` of the
stream, `size id` its final size. -/
def Agrees (content : Nat → Nat → UInt8) (size : Nat → Nat) (f : Frame) : Prop :=
  match f with
  | .stream id offset fin data _ =>
    (∀ i, i < data.length → data[i]? = some (content id (offset + i))) ∧
      (fin = true → offset + data.length = size id)
  | _ => True

/-- A frame which does not extend to the end of the packet. -/
def Closed (f : Frame) : Prop :=
  match f with
  | .stream _ _ _ _ explicit => explicit = true
  | .datagram _ explicit => explicit = true
  | _ => True

/-- Everything a connection may do with stream data, in any order: the state, the packets sent and the packets
acknowledged. Each packet sent starts with any frames `pre`, continues with what is taken from the queue, and
ends with any frames `post`; it has at most 1536 bytes. The frames `pre` and `post` satisfy `ok`. -/
inductive RepeatHistory (ok : Frame → Prop) : World → List Bytes → List Bytes → Prop
  | init : RepeatHistory ok World.init [] []
  | send {w w' : World} {sent acked : List Bytes} {place : List Queued → Queued → Nat} {current room : Nat}
      {pre post packet : Bytes} {fs gs : List Frame} :
      RepeatHistory ok w sent acked →
      IsPayload pre fs → IsPayload post gs → (∀ f ∈ fs, Closed f) → (∀ f ∈ fs ++ gs, Sendable f ∧ ok f) →
      send w place current room pre post = some (packet, w') →
      packet.length ≤ pre.length + room → pre.length + room ≤ 1536 →
      RepeatHistory ok w' (sent ++ [packet]) acked
  | ack {w : World} {sent acked : List Bytes} {i : Nat} {p : Bytes} :
      RepeatHistory ok w sent acked → w.inflight[i]? = some p → RepeatHistory ok (ack w i) sent (acked ++ [p])
  | lateAck {w : World} {sent acked : List Bytes} {i : Nat} {p : Bytes} :
      RepeatHistory ok w sent acked → w.retransmitted[i]? = some p →
      RepeatHistory ok (lateAck w i) sent (acked ++ [p])
  | lose {w : World} {sent acked : List Bytes} {place : List Queued → Queued → Nat} {i : Nat} {keep : Bool} :
      RepeatHistory ok w sent acked → RepeatHistory ok (lose w place i keep) sent acked
  | forget {w : World} {sent acked : List Bytes} {i : Nat} :
      RepeatHistory ok w sent acked → RepeatHistory ok (forget w i) sent acked
  | reset {w : World} {sent acked : List Bytes} {id : Nat} :
      RepeatHistory ok w sent acked → RepeatHistory ok (resetStream w id) sent acked
  | close {w : World} {sent acked : List Bytes} {id : Nat} :
      RepeatHistory ok w sent acked → RepeatHistory ok (closeStream w id) sent acked
  | priority {w : World} {sent acked : List Bytes} {id priority : Nat} :
      RepeatHistory ok w sent acked → RepeatHistory ok (setPriority w id priority) sent acked

/-- The number of bytes of the queue not yet examined. -/
def remaining (queue : List Queued) : Nat := (queue.map fun q => q.rest.length - q.done).sum

/-- The packet `a` should be repeated before `b`: lower priority value, then lower stream, then lower offset. -/
def MoreUrgent (a b : PacketKeys) : Prop :=
  a.priority < b.priority ∨ a.priority = b.priority ∧ (a.id < b.id ∨ a.id = b.id ∧ a.offset < b.offset)

end Picoquic.Spec
