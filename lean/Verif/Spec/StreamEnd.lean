/-!
# Which end sends and which receives on a stream

RFC 9000, section 2.1: the two low bits of a stream ID tell who opened it and if both ends send on it.
-/

namespace Picoquic.Spec

/-- The end opened the stream: the ID is even for a client and odd for a server. -/
def OwnStream (client : Bool) (id : Nat) : Prop := (id % 2 = 0 ↔ client = true)

/-- Both ends send. -/
def BothSend (id : Nat) : Prop := id % 4 < 2

/-- The end may send on the stream: RESET_STREAM is allowed. -/
def SendsOn (client : Bool) (id : Nat) : Prop := BothSend id ∨ OwnStream client id

/-- The end may receive on the stream: STOP_SENDING is allowed. -/
def ReceivesOn (client : Bool) (id : Nat) : Prop := BothSend id ∨ ¬ OwnStream client id

end Picoquic.Spec
