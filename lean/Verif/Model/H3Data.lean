import Verif.Model.Qpack
import Verif.Model.IntFormat
/-!
# The frames of an HTTP/3 request stream

Model of `h3zero_parse_data_stream` of picohttp/h3zero_common.c, of the loops that call it, and of what a client does with the data. The bytes of the
stream arrive in pieces, in order. Allocation of memory does not fail.
-/

namespace Picoquic.H3Data
open Picoquic Picoquic.Qpack

/-- `h3zero_varint_skip`, h3zero.c 52-55. -/
def varSkip (b : UInt8) : Nat := 1 <<< ((b.toNat &&& 0xC0) >>> 6)

/-- `h3zero_varint_decode`, h3zero.c 57-77, on as many bytes as the first one asks for. -/
def varVal : Bytes → Nat
  | [] => 0
  | b :: bs => accumulate (b &&& 0x3F).toNat bs

/-- `h3zero_data_stream_state_t`, h3zero.h 260-283. `hdr` are the bytes of `frame_header` that were read, `frame` those of `current_frame`. -/
structure DS where
  hdr : Bytes := []
  parsed : Bool := false
  ty : Nat := 0
  len : Nat := 0
  read : Nat := 0
  frame : Bytes := []
  headerFound : Bool := false
  dataFound : Bool := false
  trailerFound : Bool := false
  wt : Bool := false
  control : Nat := UINT64_MAX
  header : Parts := {}
  trailer : Parts := {}
deriving DecidableEq, Repr

/-- Result of a call: an error code, undefined behavior, or the state, the bytes that are left, and the data. The data are followed by what is left:
the callers skip them, h3zero_common.c 1281 and 1357. -/
inductive Out
  | err (code : Nat)
  | ub
  | ok (s : DS) (rest data : Bytes)
deriving DecidableEq, Repr

/-- The loops that copy bytes until there are `n` of them, h3zero_common.c 637-639, 642-644, 654-656 and 665-667. -/
def fill (h : Bytes) (n : Nat) (bs : Bytes) : Bytes × Bytes := (h ++ bs.take (n - h.length), bs.drop (n - h.length))

/-- The length of the type, h3zero_common.c 640. -/
def typeLen (h : Bytes) : Nat := varSkip (h.headD 0)

/-- The length of the type and the length, h3zero_common.c 658. If the first byte of the length is not there yet, an old byte is read, but whatever it is
there are not enough bytes. At most 16: the check of lines 660-663 never fails. -/
def headLen (h : Bytes) : Nat := varSkip (h.getD (typeLen h) 0) + typeLen h

/-- The length of a frame, h3zero_common.c 654-672. -/
def readLength (h bs : Bytes) : Bytes × Bytes × Option (Nat × Nat) :=
  let f := fill h (typeLen h + 1) bs
  let g := fill f.1 (headLen f.1) f.2
  if g.1.length ≥ headLen g.1 then (g.1, g.2, some (varVal (g.1.take (typeLen g.1)), varVal (g.1.drop (typeLen g.1)))) else (g.1, g.2, none)

/-- The type of a frame, h3zero_common.c 640-652. -/
def readType (h bs : Bytes) : Bytes × Bytes × Option (Nat × Nat) :=
  let f := fill h (typeLen h) bs
  if f.1.length < typeLen f.1 then (f.1, f.2, none) else readLength f.1 f.2

/-- The type and the length of a frame, h3zero_common.c 633-672. The type is stored in the state when the length is known, not before. -/
def readHeader (h bs : Bytes) : Bytes × Bytes × Option (Nat × Nat) :=
  let f := fill h 1 bs
  readType f.1 f.2

/-- What is checked when a type and a length are known, h3zero_common.c 670-716. -/
def check (s : DS) (ty len : Nat) (rest : Bytes) : Out :=
  let s := { s with ty := ty, len := len, read := 0, parsed := true }
  if ty = 0 then
    if !s.headerFound || s.trailerFound || s.wt then .err 0x105 else .ok s rest []
  else if ty = 1 then
    if s.headerFound && (!s.dataFound || s.trailerFound || s.wt) then .err 0x105
    else if len > 0x10000 then .err 0x102
    else .ok s rest []
  else if ty = 0x41 then
    if s.headerFound then .err 0x105
    else .ok { s with headerFound := true, wt := true, control := len, len := 0, parsed := true } rest []
  else if ty = 3 ∨ ty = 7 ∨ ty = 0xd then .err 0x101
  else if ty = 4 then .err 0x105
  else .ok s rest []

/-- The end of a frame of headers, h3zero_common.c 746-766. -/
def endHeaders (s : DS) (frame : Bytes) (read : Nat) (rest : Bytes) : Out :=
  match parseFrame frame with
  | .err => .err 0x106
  | .ub => .ub
  | .ok p =>
    let s' := { s with frame := [], read := read, trailerFound := s.headerFound, headerFound := true, parsed := false, hdr := [] }
    if s.headerFound then .ok { s' with trailer := p } rest [] else .ok { s' with header := p } rest []

/-- The contents of a frame, h3zero_common.c 719-789. -/
def contents (s : DS) (bs : Bytes) : Out :=
  if s.wt then .ok s [] bs
  else
    let n := if s.read + bs.length > s.len then s.len - s.read else bs.length
    if s.ty = 1 then
      if s.read + n ≥ s.len then endHeaders s (s.frame ++ bs.take n) (s.read + n) (bs.drop n)
      else .ok { s with frame := s.frame ++ bs.take n, read := s.read + n } (bs.drop n) []
    else if s.ty = 0 then
      if s.read + n ≥ s.len then .ok { s with read := s.read + n, parsed := false, hdr := [], dataFound := true } (bs.drop n) (bs.take n)
      else .ok { s with read := s.read + n } (bs.drop n) (bs.take n)
    else
      if s.read + n ≥ s.len then .ok { s with read := s.read + n, parsed := false, hdr := [] } (bs.drop n) []
      else .ok { s with read := s.read + n } (bs.drop n) []

/-- `h3zero_parse_data_stream`, h3zero_common.c 622-793, with at least one byte. -/
def parse (s : DS) (bs : Bytes) : Out :=
  if s.parsed then contents s bs
  else
    match readHeader s.hdr bs with
    | (h, r, none) => .ok { s with hdr := h } r []
    | (h, r, some (ty, len)) => check { s with hdr := h } ty len r

/-- What is left when a piece was parsed. -/
inductive Res
  | ok (s : DS)
  | err (code : Nat)
  | ub
deriving DecidableEq, Repr

/-- The loop of `h3zero_process_h3_server_data`, `h3zero_process_h3_client_data` (h3zero_common.c 1217-1283 and 1316-1361) and of democlient.c 473-502, with a limit of the number of
iterations: the data and the state. An error ends the loop, and the connection is closed. -/
def loop : Nat → DS → Bytes → Bytes × Res
  | _, s, [] => ([], .ok s)
  | 0, _, _ :: _ => ([], .ub)
  | n + 1, s, b :: bs =>
    match parse s (b :: bs) with
    | .err c => ([], .err c)
    | .ub => ([], .ub)
    | .ok s' rest data => (data ++ (loop n s' rest).1, (loop n s' rest).2)

/-- A piece of a stream. There are at most two calls for each byte, and one more for a frame without contents. -/
def feed (s : DS) (bs : Bytes) : Bytes × Res := loop (2 * bs.length + 1) s bs

/-- The pieces of a stream, one after the other. After an error nothing more is parsed. -/
def feedAll (s : DS) : List Bytes → Bytes × Res
  | [] => ([], .ok s)
  | c :: cs =>
    match feed s c with
    | (d, .ok s') => (d ++ (feedAll s' cs).1, (feedAll s' cs).2)
    | r => r

/-! ### The end of a request -/

/-- What a server does when the stream ends. -/
inductive SrvEnd
  | request
  | reset
deriving DecidableEq, Repr

/-- `h3zero_process_h3_server_data`, h3zero_common.c 1291-1299, for a stream that ends, is not used for web transport, and whose data were not passed to a callback. -/
def serverFin (s : DS) : SrvEnd := if s.headerFound then .request else .reset

/-! ### Clients -/

/-- What a client sees or does. -/
inductive CEv
  /-- The callback of the path, with `picohttp_callback_connect_accepted`. -/
  | accepted
  | refused
  /-- Data written to the file. -/
  | write (bs : Bytes)
  /-- The callback of the path, with `picohttp_callback_post_data`. -/
  | raw (bs : Bytes)
  /-- The callback of the path, with `picohttp_callback_post_fin`. -/
  | fin (bs : Bytes)
  | close (code : Nat)
  | done
deriving DecidableEq, Repr

/-- The context of a stream of a client: `is_upgrade_requested`, `is_upgraded`, whether there is a callback, whether a file is open, and `no_disk`. -/
structure Cli where
  ds : DS := {}
  requested : Bool := false
  upgraded : Bool := false
  callback : Bool := false
  file : Bool := true
  noDisk : Bool := false
deriving DecidableEq, Repr

/-- State and events; `none` for undefined behavior: `fwrite` without a file. -/
abbrev COut := Option (Cli × List CEv)

/-- The call of the callback when the headers are there, h3zero_common.c 1327-1338. -/
def cliHeader (required : Bool) (c : Cli) : Cli × List CEv :=
  if required && c.ds.headerFound then
    let ok : Bool := decide (200 ≤ c.ds.header.status ∧ c.ds.header.status < 300)
    let c := if c.requested then { c with upgraded := ok } else c
    (c, if c.callback then [if ok then .accepted else .refused] else [])
  else (c, [])

/-- The loop of `h3zero_process_h3_client_data`, h3zero_common.c 1316-1361; flow control and logs are not modelled, and writing does not fail. -/
def cliLoop (required : Bool) : Nat → Cli → Bytes → COut
  | _, c, [] => some (c, [])
  | 0, _, _ :: _ => none
  | n + 1, c, b :: bs =>
    match parse c.ds (b :: bs) with
    | .err code => some (c, [.close code])
    | .ub => none
    | .ok s' rest data =>
      let h := cliHeader required { c with ds := s' }
      let w : List CEv := if data = [] ∨ h.1.noDisk then [] else [.write data]
      if data ≠ [] ∧ !h.1.noDisk ∧ !h.1.file then none
      else
        match cliLoop required n h.1 rest with
        | none => none
        | some (c, evs) => some (c, h.2 ++ w ++ evs)

/-- The end of the stream, h3zero_common.c 1364-1387. -/
def cliFin (c : Cli) : List CEv :=
  if c.callback then [.fin []]
  else if c.ds.read < c.ds.len then [.close 0x106]
  else [.done]

/-- `h3zero_callback_data`, h3zero_common.c 1390-1472, for a request of a client, with `h3zero_post_data_or_fin`, 832-844, and
`h3zero_process_h3_client_data`, 1302-1388. After an error, the end of the stream is not modelled. -/
def cliData (c : Cli) (bs : Bytes) (fin : Bool) : COut :=
  if c.upgraded then some (c, if c.callback then [if fin then .fin bs else .raw bs] else [])
  else
    match cliLoop (!c.ds.headerFound) (2 * bs.length + 1) c bs with
    | none => none
    | some (c, evs) => some (c, if fin then evs ++ cliFin c else evs)

/-- The pieces of a stream. -/
def cliAll (c : Cli) : List Bytes → COut
  | [] => some (c, [])
  | p :: ps =>
    match cliData c p false with
    | none => none
    | some (c, evs) =>
      match cliAll c ps with
      | none => none
      | some (c, evs') => some (c, evs ++ evs')

end Picoquic.H3Data
