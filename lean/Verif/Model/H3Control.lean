import Verif.Model.H3Data
/-!
# HTTP/3 settings, and the streams opened by the peer

Model of the encoding and decoding of settings, of the parser of the control stream, and of the parsers of the streams that the peer opens: unidirectional ones,
and bidirectional ones opened by a server. The bytes of a stream arrive in pieces, in order. Allocation of memory does not fail.
-/

namespace Picoquic.H3Control
open Picoquic Picoquic.H3Data

/-- `h3zero_settings_t`, h3zero.h 212-220, without `settings_received`. `max_header_list_size` is neither encoded nor decoded. -/
structure Settings where
  sessions : Nat := 0
  table : Nat := 0
  blocked : Nat := 0
  connect : Bool := false
  datagram : Bool := false
deriving DecidableEq, Repr

/-- `h3zero_settings_component_encode`, h3zero_common.c 1899-1907. -/
def componentEncode (key value default : Nat) : Enc := fun room =>
  if value ≠ default then
    match framesVarintEncode key room with
    | none => none
    | some k =>
      match framesVarintEncode value (room - k.length) with
      | none => none
      | some v => some (k ++ v)
  else some []

/-- One component behind the others, h3zero_common.c 1920-1924. -/
def addComponent (room key value default : Nat) (bs : Bytes) : Option Bytes :=
  match componentEncode key value default (room - bs.length) with
  | none => none
  | some c => some (bs ++ c)

/-- The components, h3zero_common.c 1920-1924. -/
def components (room : Nat) (s : Settings) : Option Bytes := do
  let b ← addComponent room 1 s.table UINT64_MAX []
  let b ← addComponent room 7 s.blocked UINT64_MAX b
  let b ← addComponent room 8 s.connect.toNat 0 b
  let b ← addComponent room 0x33 s.datagram.toNat 0 b
  addComponent room 0xc671706a s.sessions 0 b

/-- `h3zero_settings_encode`, h3zero_common.c 1909-1940: the length of the room is encoded first, to keep as many bytes as the length may need; the components are moved
when their length needs fewer. -/
def settingsEncode (s : Settings) : Enc := fun room =>
  match framesVarintEncode 4 room with
  | none => none
  | some t =>
    match framesVarintEncode room (room - t.length) with
    | none => none
    | some l =>
      match components (room - t.length - l.length) s with
      | none => none
      | some c =>
        match framesVarintEncode c.length l.length with
        | none => none
        | some l' => some (t ++ l' ++ c)

/-- One setting, h3zero_common.c 1950-1968; the fields of the two flags have one bit. -/
def setOne (s : Settings) (key value : Nat) : Settings :=
  if key = 1 then { s with table := value }
  else if key = 7 then { s with blocked := value }
  else if key = 8 then { s with connect := decide (value % 2 = 1) }
  else if key = 0x33 then { s with datagram := decide (value % 2 = 1) }
  else if key = 0xc671706a then { s with sessions := value }
  else s

/-- `h3zero_settings_components_decode`, h3zero_common.c 1942-1971: the settings, and whether all was decoded. The number of components is limited by that of bytes. -/
def componentsLoop : Nat → Settings → Bytes → Settings × Bool
  | _, s, [] => (s, true)
  | 0, s, _ :: _ => (s, false)
  | n + 1, s, b :: bs =>
    match framesVarintDecode (b :: bs) with
    | none => (s, false)
    | some (k, r) =>
      match framesVarintDecode r with
      | none => (s, false)
      | some (v, r) => componentsLoop n (setOne s k v) r

/-- `h3zero_settings_components_decode`, h3zero_common.c 1942-1971. -/
def componentsDecode (s : Settings) (bs : Bytes) : Settings × Bool := componentsLoop bs.length s bs

/-- `h3zero_varint_from_stream`, h3zero.c 1036-1062: the buffer, the bytes left, and the number if it is complete. -/
def varintFromStream (buf bs : Bytes) : Bytes × Bytes × Option Nat :=
  if bs = [] then (buf, [], none)
  else
    let f := fill buf 1 bs
    let g := fill f.1 (varSkip (f.1.headD 0)) f.2
    if g.1.length ≥ varSkip (f.1.headD 0) then ([], g.2, some (varVal g.1)) else (g.1, g.2, none)

/-- The state of a control stream, and the settings of the connection: `frame_header`, `current_frame_type`, `current_frame_length` (`none` for `UINT64_MAX`), `current_frame_read`,
`current_frame` (`none` for a null pointer), `is_current_frame_ignored`, `settings_received`. -/
structure Ctl where
  buf : Bytes := []
  ty : Option Nat := none
  len : Option Nat := none
  read : Nat := 0
  frame : Option Bytes := none
  ignored : Bool := false
  settings : Settings := {}
  received : Bool := false
deriving DecidableEq, Repr

/-- Result: refused, with an error code and the state, or the state and the bytes left. -/
inductive Step
  | refused (code : Nat) (c : Ctl)
  | ok (c : Ctl) (rest : Bytes)
deriving DecidableEq, Repr

/-- `h3zero_reset_control_stream_state`, h3zero_common.c 402-411. -/
def reset (c : Ctl) : Ctl := { c with ty := none, len := none, read := 0, frame := none }

/-- The end of a frame, h3zero_common.c 469-483. A frame without contents has no memory: decoding it fails. -/
def finish (c : Ctl) (t : Nat) (rest : Bytes) : Step :=
  if t = 4 then
    match c.frame with
    | none => .refused 0x109 (reset c)
    | some f =>
      let d := componentsDecode c.settings f
      if d.2 then .ok (reset { c with settings := d.1, received := true }) rest
      else .refused 0x109 (reset { c with settings := d.1 })
  else .ok (reset c) rest

/-- The contents of a frame, h3zero_common.c 457-485, with `h3zero_load_frame_content`, 342-369, and `h3zero_skip_frame_content`, 371-383. -/
def body (c : Ctl) (t n : Nat) (bs : Bytes) : Step :=
  if c.read < n then
    let k := if c.read + bs.length > n then n - c.read else bs.length
    if c.ignored then
      if c.read + k ≥ n then finish { c with read := c.read + k } t (bs.drop k) else .ok { c with read := c.read + k } (bs.drop k)
    else if n > 0x10000 then .refused 0x102 c
    else
      let c := { c with frame := some (c.frame.getD [] ++ bs.take k), read := c.read + k }
      if c.read ≥ n then finish c t (bs.drop k) else .ok c (bs.drop k)
  else finish c t bs

/-- The length of a frame, h3zero_common.c 449-456. -/
def length (c : Ctl) (t : Nat) (bs : Bytes) : Step :=
  match c.len with
  | some n => body c t n bs
  | none =>
    match varintFromStream c.buf bs with
    | (buf, rest, none) => .ok { c with buf := buf } rest
    | (buf, rest, some n) => body { c with buf := buf, len := some n } t n rest

/-- One iteration of `h3zero_parse_control_stream`, h3zero_common.c 416-486. -/
def iter (c : Ctl) (bs : Bytes) : Step :=
  match c.ty with
  | some t => length c t bs
  | none =>
    match varintFromStream c.buf bs with
    | (buf, rest, none) => .ok { c with buf := buf } rest
    | (buf, rest, some t) =>
      let c := { c with buf := buf, ty := some t }
      if c.received && decide (t = 4) then .refused 0x105 c
      else if !c.received && decide (t ≠ 4) then .refused 0x10A c
      else if t = 0 ∨ t = 1 ∨ t = 5 ∨ t = 0x41 then .refused 0x102 c
      else length (if t ≠ 4 then { c with ignored := true } else c) t rest

/-- What is left of a piece. -/
inductive Res
  | ok (c : Ctl)
  | refused (code : Nat) (c : Ctl)
  /-- The loop does not end. -/
  | stuck
deriving DecidableEq, Repr

/-- `h3zero_parse_control_stream`, h3zero_common.c 413-488, with a limit of the number of iterations. -/
def ctlLoop : Nat → Ctl → Bytes → Res
  | _, c, [] => .ok c
  | 0, _, _ :: _ => .stuck
  | n + 1, c, b :: bs =>
    match iter c (b :: bs) with
    | .refused code c => .refused code c
    | .ok c rest => ctlLoop n c rest

/-- `h3zero_parse_control_stream`, h3zero_common.c 413-488: each iteration takes at least one byte. -/
def control (c : Ctl) (bs : Bytes) : Res := ctlLoop bs.length c bs

/-! ### Streams of the peer -/

/-- The state of a stream of the peer: its type, that of a control stream, and the web transport session. The buffer for numbers is in `ctl`. -/
structure Uni where
  stype : Option Nat := none
  ctl : Ctl := {}
  session : Option Nat := none
deriving DecidableEq, Repr

/-- Result of a piece: the state and the bytes for the application, or the code with which the peer is asked to stop. -/
inductive URes
  | ok (u : Uni) (data : Bytes)
  | refused (code : Nat) (u : Uni)
  | stuck
deriving DecidableEq, Repr

/-- `h3zero_wt_parse_control_stream_id`, h3zero_common.c 490-519. `known` are the sessions with a prefix. The error code is then 0: it was not set. -/
def session (known : Nat → Bool) (u : Uni) (bs : Bytes) : URes :=
  match u.session with
  | some _ => .ok u bs
  | none =>
    match varintFromStream u.ctl.buf bs with
    | (buf, rest, none) => .ok { u with ctl := { u.ctl with buf := buf } } rest
    | (buf, rest, some i) =>
      if known i then .ok { u with ctl := { u.ctl with buf := buf }, session := some i } rest
      else .refused 0 { u with ctl := { u.ctl with buf := buf }, session := some i }

/-- What is done with a stream of a type, h3zero_common.c 567-591. -/
def ofType (known : Nat → Bool) (u : Uni) (t : Nat) (bs : Bytes) : URes :=
  if t = 0 then
    match control u.ctl bs with
    | .ok c => .ok { u with ctl := c } []
    | .refused code c => .refused code { u with ctl := c }
    | .stuck => .stuck
  else if t = 0x54 then session known u bs
  else .ok u []

/-- `h3zero_parse_remote_unidir_stream`, h3zero_common.c 546-593, as called by `h3zero_process_remote_stream`, 851-884. -/
def unidir (known : Nat → Bool) (u : Uni) (bs : Bytes) : URes :=
  match u.stype with
  | some t => ofType known u t bs
  | none =>
    match varintFromStream u.ctl.buf bs with
    | (buf, rest, none) => .ok { u with ctl := { u.ctl with buf := buf } } rest
    | (buf, rest, some t) =>
      let c := { u.ctl with buf := buf }
      ofType known { u with stype := some t, ctl := if t = 0 then reset c else c } t rest

/-- `h3zero_parse_remote_bidir_stream`, h3zero_common.c 521-544, as called by `h3zero_process_remote_stream`, 851-884. The test of line 533 is about the type of a frame, which is 0, and not about that of the stream. -/
def bidir (known : Nat → Bool) (u : Uni) (bs : Bytes) : URes :=
  let u := match u.stype with
    | some _ => (u, bs)
    | none =>
      match varintFromStream u.ctl.buf bs with
      | (buf, rest, t) => ({ u with stype := t, ctl := { u.ctl with buf := buf } }, rest)
  if u.1.stype = some 0x41 then session known u.1 u.2 else .refused 0 u.1

/-- The pieces of a stream: the bytes for the application, and the result. The parser is called until it refuses the stream. -/
def pieces (f : Uni → Bytes → URes) (u : Uni) : List Bytes → Bytes × URes
  | [] => ([], .ok u [])
  | p :: ps =>
    match f u p with
    | .ok u d => (d ++ (pieces f u ps).1, (pieces f u ps).2)
    | r => ([], r)

end Picoquic.H3Control
