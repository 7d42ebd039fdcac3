import Verif.Model.IntFormat
import Verif.Model.Uri

/-!
# The GET requests of the HTTP/3 server

Model of the GET part of `h3zero_process_request_frame` and of `h3zero_prepare_to_send_buffer`, h3zero_common.c. The
path is parsed as in the model of `Uri` (C84). The file system is a function from names to contents; the header blocks
(C78) are parameters.
-/

namespace Picoquic.WebServer

/-- The size of `buffer` in `h3zero_process_request_frame`, h3zero_common.c 995. -/
def BUFFER : Nat := 1024

/-- What is put on the stream at first, if it ends there, and what is to be sent later. -/
structure Reply where
  first : Bytes
  fin : Bool
  echo : Nat
  file : Option Bytes
deriving DecidableEq, Repr

/-- The HEADERS frame: type, two bytes of length, block; h3zero_common.c 1003-1004, 1104-1107. -/
def headersFrame (block : Bytes) : Bytes :=
  1 :: u8 (((block.length >>> 8) ||| 0x40) &&& 0xFF) :: u8 block.length :: block

/-- The response to a path that was found, h3zero_common.c 1018-1027, 1098-1160. `none` is a stream that is reset.
`page` is the default page, `ok` the header block. -/
def found (ok page : Bytes) (echo : Nat) (file : Option Bytes) : Option Reply :=
  if 3 + ok.length > BUFFER then none
  else
    let h := headersFrame ok
    let responseLength := if echo = 0 then page.length else echo
    if responseLength > 0 then
      if h.length + 2 < BUFFER then
        let l := varintEncode (BUFFER - h.length - 1) responseLength
        if l = [] then none
        else if echo = 0 then
          if responseLength ≤ 512 then
            if h.length + 1 + l.length + page.length ≤ BUFFER then
              some ⟨h ++ 0 :: (l ++ page), true, echo, file⟩
            else none
          else some ⟨h ++ 0 :: l, false, echo, file⟩
        else some ⟨h ++ 0 :: l, false, echo, file⟩
      else none
    else some ⟨h, decide (echo = 0), echo, file⟩

/-- `h3zero_process_request_frame` for GET, h3zero_common.c 1006-1028, 1098-1160. -/
def replyGet (folder : Option Bytes) (fs : Bytes → Option Bytes) (notFound ok page path : Bytes) : Option Reply :=
  match Uri.parsePath (fun n => (fs n).map List.length) folder path with
  | .overflow => none
  | .notFound =>
    if 3 + notFound.length > BUFFER then none else some ⟨headersFrame notFound, true, 0, none⟩
  | .file name size => found ok page size (some name)
  | .bytes n => found ok page n none

/-- `h3zero_prepare_to_send_buffer`, h3zero_common.c 1477-1518: bytes, end of the stream, and the new number of bytes
sent. `content` is the content of the file when it is read; `none` if there is no file. `none` is an error. -/
def prepare (echo sent : Nat) (content : Option Bytes) (space : Nat) : Option (Bytes × Bool × Nat) :=
  if sent < echo then
    let available := if echo - sent > space then space else echo - sent
    let fin := decide (¬ echo - sent > space)
    match content with
    | some c =>
      let r := (c.drop sent).take available
      if r.length ≠ available then none else some (r, fin, sent + available)
    | none => some (List.replicate available 0x5A, fin, sent + available)
  else some ([], false, sent)

/-- The calls of the sender, with the room of each, until the end of the stream. The result is what was sent, and
if the stream was ended. -/
def sendBody (echo : Nat) (content : Option Bytes) : Nat → List Nat → Option (Bytes × Bool)
  | _, [] => some ([], false)
  | sent, space :: l =>
    match prepare echo sent content space with
    | none => none
    | some (b, true, _) => some (b, true)
    | some (b, false, sent1) =>
      match sendBody echo content sent1 l with
      | none => none
      | some (b2, fin) => some (b ++ b2, fin)

end Picoquic.WebServer
