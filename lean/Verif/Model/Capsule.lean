import Verif.Model.H3Data
/-!
# Capsules

Model of `h3zero_accumulate_capsule` of picohttp/h3zero_common.c and of the messages of a web transport session of picohttp/webtransport.c. The bytes of
the control stream of a session arrive in pieces, in order. `mem n` tells if `malloc` can find `n` bytes.
-/

namespace Picoquic.Capsule
open Picoquic

/-- `h3zero_capsule_t`, h3zero_common.h 144-156. `hdr` are the `header_read` first bytes of `header_buffer`, `known` is `is_length_known`, `read` is `value_read`, `size` is
`capsule_buffer_size`, `buf` is what `capsule_buffer` points to. `header_length` is only used inside of a call. -/
structure Cap where
  hdr : Bytes := []
  known : Bool := false
  stored : Bool := false
  ty : Nat := 0
  len : Nat := 0
  read : Nat := 0
  size : Nat := 0
  buf : Option Bytes := none
deriving DecidableEq, Repr

/-- Result of a call: undefined behavior, `NULL`, or the state and the bytes that are left. -/
inductive Out
  | ub
  | null
  | ok (c : Cap) (rest : Bytes)
deriving DecidableEq, Repr

/-- The reset of a capsule that was stored, h3zero_common.c 2011-2018. Not all fields are reset. -/
def reset (c : Cap) : Cap :=
  if c.stored then { c with hdr := [], ty := 0, len := 0, stored := false } else c

/-- The buffer is made large enough, h3zero_common.c 2058-2068. New bytes are 0: they are not read before they are written. `none` if bytes are copied from no buffer, or past the end
of one. -/
def grow (mem : Nat → Bool) (c : Cap) : Option Cap :=
  if c.size < c.len then
    if mem c.len then
      if c.read = 0 then some { c with buf := some (List.replicate c.len 0), size := c.len }
      else
        match c.buf with
        | none => none
        | some b =>
          if c.read > b.length ∨ c.read > c.len then none
          else some { c with buf := some (b.take c.read ++ List.replicate (c.len - c.read) 0), size := c.len }
    else some { c with buf := none, size := c.len }
  else some c

/-- The number of bytes to copy, h3zero_common.c 2074-2077, a `size_t`. -/
def amount (c : Cap) (bs : Bytes) : Nat :=
  if c.read + bs.length > c.len then (c.len + 2 ^ 64 - c.read) % 2 ^ 64 else bs.length

/-- The bytes are copied to the buffer, h3zero_common.c 2069-2084. -/
def copy (c : Cap) (bs : Bytes) : Out :=
  match c.buf with
  | none => .null
  | some b =>
    if amount c bs > bs.length ∨ c.read + amount c bs > b.length then .ub
    else
      .ok { c with
        buf := some (b.take c.read ++ (bs.take (amount c bs) ++ b.drop (c.read + amount c bs))),
        read := c.read + amount c bs,
        stored := if c.read + amount c bs ≥ c.len then true else c.stored } (bs.drop (amount c bs))

/-- The value of a capsule, h3zero_common.c 2057-2085. -/
def store (mem : Nat → Bool) (c : Cap) (bs : Bytes) : Out :=
  match grow mem c with
  | none => .ub
  | some c => copy c bs

/-- `h3zero_accumulate_capsule`, h3zero_common.c 2009-2087. The first byte is read without a check, line 2025. The type and the length are read as in front of a frame: lines 2020-2055 are
lines 633-672 again. The type is stored when the length is known, not before. -/
def accumulate (mem : Nat → Bool) (c0 : Cap) (bs : Bytes) : Out :=
  if (reset c0).known then store mem (reset c0) bs
  else if (reset c0).hdr = [] ∧ bs = [] then .ub
  else
    match H3Data.readHeader (reset c0).hdr bs with
    | (h, r, none) => .ok { reset c0 with hdr := h } r
    | (h, r, some (t, n)) => store mem { reset c0 with hdr := h, ty := t, len := n, known := true } r

/-- What the application gets: a datagram, or the type, the error code and the error message of a message about the session. -/
inductive Ev
  | datagram (v : Bytes)
  | session (ty code : Nat) (msg : Bytes)
deriving DecidableEq, Repr

/-- A capsule that was stored, webtransport.c 386-410; `none` is an error. The application has registered a callback for the session, h3zero_common.c 1625-1639. -/
def act (c : Cap) : Option Ev :=
  if c.ty = 0 then some (.datagram ((c.buf.getD []).take c.len))
  else if c.ty = 0x78ae ∨ c.ty = 0x2843 then
    if c.len < 4 then none
    else
      match framesUint32Decode ((c.buf.getD []).take c.len) with
      | none => none
      | some (code, msg) => some (.session c.ty code msg)
  else none

/-- Result for a piece: undefined behavior, a loop that does not end, the error -1, or the state. -/
inductive Res
  | ub
  | hang
  | refused
  | ok (c : Cap)
deriving DecidableEq, Repr

/-- The loop of `picowt_receive_capsule`, webtransport.c 375-413. If a byte is read each time, it is over before `fuel` is. -/
def loop (mem : Nat → Bool) : Nat → Cap → Bytes → List Ev × Res
  | 0, _, _ => ([], .hang)
  | fuel + 1, c, bs =>
    if bs = [] then ([], .ok c)
    else
      match accumulate mem c bs with
      | .ub => ([], .ub)
      | .null => ([], .refused)
      | .ok c r =>
        if c.stored then
          match act c with
          | none => ([], .refused)
          | some e => (e :: (loop mem fuel c r).1, (loop mem fuel c r).2)
        else loop mem fuel c r

/-- `picowt_receive_capsule`, webtransport.c 371-416. -/
def receive (mem : Nat → Bool) (c : Cap) (bs : Bytes) : List Ev × Res := loop mem (bs.length + 1) c bs

/-- The pieces of the control stream, wt_baton.c 345-346, until there is an error. -/
def receiveAll (mem : Nat → Bool) (c : Cap) : List Bytes → List Ev × Res
  | [] => ([], .ok c)
  | p :: ps =>
    match receive mem c p with
    | (es, .ok c) => (es ++ (receiveAll mem c ps).1, (receiveAll mem c ps).2)
    | (es, .ub) => (es, .ub)
    | (es, .hang) => (es, .hang)
    | (es, .refused) => (es, .refused)

/-- The control stream of a session: `is_fin_sent`, and the bytes that were sent. -/
structure Ctl where
  fin : Bool := false
  out : Bytes := []
deriving DecidableEq, Repr

/-- The bytes of a message that closes a session, webtransport.c 305-322; `none` if there are too many. -/
def closeBytes (code : Nat) (msg : Bytes) : Option Bytes :=
  match (Enc.seq (framesVarintEncode 0x2843) (Enc.seq (framesVarintEncode (4 + msg.length)) (framesUint32Encode code))) 512 with
  | none => none
  | some h => if h.length + msg.length > 512 then none else some (h ++ msg)

/-- `picowt_send_close_session_message`, webtransport.c 287-334: `true` if it returns 0. The stream exists. -/
def sendClose (s : Ctl) (code : Nat) (msg : Bytes) : Bool × Ctl :=
  if s.fin then (false, s)
  else
    match closeBytes code msg with
    | none => (false, s)
    | some bs => (true, { fin := true, out := s.out ++ bs })

/-- `picowt_send_drain_session_message`, webtransport.c 343-361: `true` if it returns 0. The stream exists. -/
def sendDrain (s : Ctl) : Bool × Ctl :=
  if s.fin then (false, s)
  else (true, { s with out := s.out ++ [0x80, 0, u8 (0x78ae >>> 8), u8 0x78ae, 0] })

end Picoquic.Capsule
