import Verif.Model.StreamInput
/-!
# Credit for streams opened by the peer

Model of the calls of `picoquic_update_max_stream_ID_local`, `picoquic/frames.c`, on top of the model
of the reception of stream data. The simplifications are those of `StreamInput`; all streams are opened
by the peer, and `Params.receiveOnly` says which ones are unidirectional. The counters do not wrap
around: fewer than 2^60 streams are opened.
-/

namespace Picoquic.StreamCredit
open Picoquic Picoquic.StreamInput

/-- The connection, the flags `max_stream_updated` of the streams, and
`max_stream_id_bidir_local_computed` (`false`) and `max_stream_id_unidir_local_computed` (`true`). -/
structure State where
  rx : Conn
  updated : Nat → Bool := fun _ => false
  computed : Bool → Nat

/-- The conditions of `picoquic_update_max_stream_ID_local`, frames.c 4426-4429, on stream `id` in state
`s`. A bidirectional stream has `fin_sent` or `reset_sent` when its send side is closed. -/
def isComplete (p : Params) (id : Nat) (s : Stream) : Bool :=
  decide (s.consumed ≥ s.finOffset) && (s.finReceived || s.resetReceived) && (p.receiveOnly id || s.sendClosed)

/-- `picoquic_update_max_stream_ID_local`, frames.c 4422-4442. -/
def updateMaxStreamIdLocal (p : Params) (id : Nat) (st : State) (s : Stream) : State :=
  if !st.updated id && isComplete p id s then
    { st with
      updated := fun j => if j = id then true else st.updated j
      computed := fun u => if u = p.receiveOnly id then st.computed u + 4 else st.computed u }
  else st

/-- A frame on stream `id` is looked at: there is no error so far, the stream exists or may be created, and was
not deleted. frames.c 1200-1207 and 283-291. -/
def looked (p : Params) (c : Conn) (id : Nat) : Bool :=
  c.error.isNone && (findOrCreate p c id).isSome && !(sOf p c id).deleted

/-- The states of the stream when an operation calls `picoquic_update_max_stream_ID_local`, in order.

A STREAM frame (`picoquic_stream_network_input`): when a first FIN is received (frames.c 1214-1219), which is before
the final offset is updated; then when the stream is found closed for the first time (frames.c 1282-1284 with 137-138).
A RESET_STREAM frame, when it is the first: frames.c 300-305; the next call, frames.c 315, finds the same values.
The send side: when the FIN or the reset is sent (frames.c 241-244, 1735-1739, 1795-1798), and when the stream is
found closed for the first time (frames.c 256, 348, 1399, 1813, 3440). -/
def creditPoints (p : Params) (c : Conn) : Op → List Stream
  | .frame id offset fin bytes =>
    let s := sOf p c id
    if looked p c id then
      let o := streamNetworkInput c.maxdataLocal c.dataReceived s offset fin bytes
      (if fin && !s.finReceived then [{ s with finReceived := true }] else []) ++
      (if o.error.isNone && o.stream.finSignalled && !s.isClosed && o.stream.isClosed then [o.stream] else [])
    else []
  | .reset id final =>
    let s := sOf p c id
    if looked p c id then
      let o := streamReset c.maxdataLocal c.dataReceived s final
      if o.error.isNone && !s.resetReceived then [o.stream] else []
    else []
  | .sendSide id closed acked =>
    if id ∈ c.ids then
      let s := c.get id
      let s' := deleteIfClosed { s with sendClosed := s.sendClosed || closed, sendAcked := s.sendAcked || acked }
      if (closed && !s.sendClosed) || (!s.isClosed && s'.isClosed) then [s'] else []
    else []
  | _ => []

/-- One operation. -/
def step (p : Params) (st : State) (op : Op) : State :=
  { (creditPoints p st.rx op).foldl (updateMaxStreamIdLocal p op.id) st with rx := (StreamInput.step p st.rx op).1 }

/-- A history. -/
def run (p : Params) (st : State) (ops : List Op) : State := ops.foldl (step p) st

/-- The connection before any stream is created, `picoquic_create_cnx` quicctx.c 3943-3949: the counters start at
the type bits of the limits. -/
def initial (maxdata : Nat) (client : Bool) : State where
  rx := StreamInput.initial maxdata
  computed := fun u => (if u then 2 else 0) + (if client then 0 else 1)

end Picoquic.StreamCredit
