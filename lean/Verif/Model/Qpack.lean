import Verif.Model.Huffman
/-!
# Headers of HTTP/3 requests and responses

Model of the coding of numbers and of header frames of picohttp/h3zero.c. Only the static table is used. Pointers are lists of the bytes up to the
end: the sum of a pointer and a length is assumed not to overflow. Allocation of memory does not fail.
-/

namespace Picoquic.Qpack
open Picoquic.Huffman

/-! ### Numbers -/

/-- The loop of `h3zero_qpack_int_encode` and the last byte, h3zero.c 116-126: the bytes written, `none` if there is no room for them. -/
def encTail : Nat → Nat → Option (List UInt8)
  | 0, _ => none
  | room + 1, v =>
    if v ≥ 0x80 then
      match encTail room (v >>> 7) with
      | some l => some (UInt8.ofNat (0x80 ||| (v &&& 0x7F)) :: l)
      | none => none
    else some [UInt8.ofNat v]

/-- `h3zero_qpack_int_encode`, h3zero.c 103-130, in the way it is called by `h3zero_qpack_code_encode`, h3zero.c 704-718, and
`h3zero_qpack_name_encode`, h3zero.c 755-764: the first byte was set to the prefix. -/
def encInt (room pre mask v : Nat) : Option (List UInt8) :=
  match room with
  | 0 => none
  | room + 1 =>
    if v < mask then some [UInt8.ofNat (pre ||| v)]
    else
      match encTail room (v - mask) with
      | some l => some (UInt8.ofNat (pre ||| mask) :: l)
      | none => none

/-- The loop of `h3zero_qpack_int_decode`, h3zero.c 148-160. -/
def decTail : Nat → Nat → List UInt8 → Option (Nat × List UInt8)
  | _, _, [] => none
  | shift, v, b :: bs =>
    if shift < 62 then
      let v := v ||| ((b.toNat &&& 0x7F) <<< shift)
      if b.toNat &&& 0x80 = 0 then some (v, bs) else decTail (shift + 7) v bs
    else none

/-- `h3zero_qpack_int_decode`, h3zero.c 132-166: the number and the bytes behind it. -/
def decInt (mask : Nat) : List UInt8 → Option (Nat × List UInt8)
  | [] => none
  | b :: bs =>
    if b.toNat &&& mask = mask then
      match decTail 0 0 bs with
      | some (v, r) => some (v + mask, r)
      | none => none
    else some (b.toNat &&& mask, bs)

/-! ### The static table -/

/-- The kinds of headers that are of interest to the parser. -/
inductive Hdr
  | method | path | status | contentType | range | protocol | other
deriving DecidableEq, Repr

/-- `qpack_static`, h3zero.c 172-272: the kind of the header, the text, and the number of the value. The texts of other headers are not used. -/
def qpackStatic : List (Hdr × List UInt8 × Nat) :=
  [(.other, [], 0),
   (.path, [47], 0),
   (.other, [], 0),
   (.other, [], 0),
   (.other, [], 0),
   (.other, [], 0),
   (.other, [], 0),
   (.other, [], 0),
   (.other, [], 0),
   (.other, [], 0),
   (.other, [], 0),
   (.other, [], 0),
   (.other, [], 0),
   (.other, [], 0),
   (.other, [], 0),
   (.method, [67, 79, 78, 78, 69, 67, 84], 2),
   (.method, [68, 69, 76, 69, 84, 69], 3),
   (.method, [71, 69, 84], 4),
   (.method, [72, 69, 65, 68], 5),
   (.method, [79, 80, 84, 73, 79, 78, 83], 6),
   (.method, [80, 79, 83, 84], 7),
   (.method, [80, 85, 84], 8),
   (.other, [], 0),
   (.other, [], 0),
   (.status, [49, 48, 51], 103),
   (.status, [50, 48, 48], 200),
   (.status, [51, 48, 52], 304),
   (.status, [52, 48, 52], 404),
   (.status, [53, 48, 51], 503),
   (.other, [], 0),
   (.other, [], 0),
   (.other, [], 0),
   (.other, [], 0),
   (.other, [], 0),
   (.other, [], 0),
   (.other, [], 0),
   (.other, [], 0),
   (.other, [], 0),
   (.other, [], 0),
   (.other, [], 0),
   (.other, [], 0),
   (.other, [], 0),
   (.other, [], 0),
   (.other, [], 0),
   (.contentType, [97, 112, 112, 108, 105, 99, 97, 116, 105, 111, 110, 47, 100, 110, 115, 45, 109, 101, 115, 115, 97, 103, 101], 7),
   (.contentType, [97, 112, 112, 108, 105, 99, 97, 116, 105, 111, 110, 47, 106, 97, 118, 97, 115, 99, 114, 105, 112, 116], 8),
   (.contentType, [97, 112, 112, 108, 105, 99, 97, 116, 105, 111, 110, 47, 106, 115, 111, 110], 9),
   (.contentType, [97, 112, 112, 108, 105, 99, 97, 116, 105, 111, 110, 47, 120, 45, 119, 119, 119, 45, 102, 111, 114, 109, 45, 117, 114, 108, 101, 110, 99, 111, 100, 101, 100], 10),
   (.contentType, [105, 109, 97, 103, 101, 47, 103, 105, 102], 4),
   (.contentType, [105, 109, 97, 103, 101, 47, 106, 112, 101, 103], 5),
   (.contentType, [105, 109, 97, 103, 101, 47, 112, 110, 103], 6),
   (.contentType, [116, 101, 120, 116, 47, 99, 115, 115], 11),
   (.contentType, [116, 101, 120, 116, 47, 104, 116, 109, 108, 59, 32, 99, 104, 97, 114, 115, 101, 116, 61, 117, 116, 102, 45, 56], 2),
   (.contentType, [116, 101, 120, 116, 47, 112, 108, 97, 105, 110], 3),
   (.contentType, [116, 101, 120, 116, 47, 112, 108, 97, 105, 110, 59, 99, 104, 97, 114, 115, 101, 116, 61, 117, 116, 102, 45, 56], 3),
   (.range, [98, 121, 116, 101, 115, 61, 48, 45], 0),
   (.other, [], 0),
   (.other, [], 0),
   (.other, [], 0),
   (.other, [], 0),
   (.other, [], 0),
   (.other, [], 0),
   (.other, [], 0),
   (.status, [49, 48, 48], 100),
   (.status, [50, 48, 52], 204),
   (.status, [50, 48, 54], 206),
   (.status, [51, 48, 50], 302),
   (.status, [52, 48, 48], 400),
   (.status, [52, 48, 51], 403),
   (.status, [52, 50, 49], 421),
   (.status, [52, 50, 53], 425),
   (.status, [53, 48, 48], 500),
   (.other, [], 0),
   (.other, [], 0),
   (.other, [], 0),
   (.other, [], 0),
   (.other, [], 0),
   (.other, [], 0),
   (.other, [], 0),
   (.other, [], 0),
   (.other, [], 0),
   (.other, [], 0),
   (.other, [], 0),
   (.other, [], 0),
   (.other, [], 0),
   (.other, [], 0),
   (.other, [], 0),
   (.other, [], 0),
   (.other, [], 0),
   (.other, [], 0),
   (.other, [], 0),
   (.other, [], 0),
   (.other, [], 0),
   (.other, [], 0),
   (.other, [], 0),
   (.other, [], 0),
   (.other, [], 0),
   (.other, [], 0),
   (.other, [], 0)]

/-- The first entry among those given with a text: the search of `h3zero_get_method_by_name` and of `h3zero_get_content_type_by_name`. -/
def byName (name : List UInt8) : List (Hdr × List UInt8 × Nat) → Nat
  | [] => 1
  | e :: es => if e.2.1 = name then e.2.2 else byName name es

/-- `h3zero_get_method_by_name`, h3zero.c 334-347: entries 15 to 21. -/
def methodByName (name : List UInt8) : Nat := byName name ((qpackStatic.drop 15).take 7)

/-- `h3zero_get_content_type_by_name`, h3zero.c 349-364: entries 44 to 54. -/
def contentTypeByName (name : List UInt8) : Nat := byName name ((qpackStatic.drop 44).take 11)

/-- `h3zero_get_interesting_header_type`, h3zero.c 508-538. -/
def headerType (name : List UInt8) (isHuffman : Bool) : Hdr :=
  let name :=
    if isHuffman then
      match decode 256 name with
      | some (true, d) => d
      | _ => name
    else name
  if name = [58, 109, 101, 116, 104, 111, 100] then .method
  else if name = [58, 112, 97, 116, 104] then .path
  else if name = [58, 115, 116, 97, 116, 117, 115] then .status
  else if name = [99, 111, 110, 116, 101, 110, 116, 45, 116, 121, 112, 101] then .contentType
  else if name = [58, 112, 114, 111, 116, 111, 99, 111, 108] then .protocol
  else if name = [114, 97, 110, 103, 101] then .range
  else .other

/-! ### Parsing -/

/-- `h3zero_header_parts_t`, h3zero.h: a string is `none` if the pointer is null. -/
structure Parts where
  method : Nat := 0
  path : Option (List UInt8) := none
  range : Option (List UInt8) := none
  status : Int := 0
  contentType : Nat := 0
  protocol : Option (List UInt8) := none
deriving DecidableEq, Repr

/-- A result, an error, or undefined behavior. -/
inductive Res (α : Type)
  | ok (a : α)
  | err
  | ub
deriving DecidableEq, Repr

/-- The loop of `h3zero_parse_status`, h3zero.c 366-382: `none` if the number does not fit in an `int`. -/
def parseStatus : Nat → List UInt8 → Option Int
  | v, [] => some v
  | v, b :: bs =>
    if 48 ≤ b.toNat ∧ b.toNat ≤ 57 then
      if v * 10 + (b.toNat - 48) < 2 ^ 31 then parseStatus (v * 10 + (b.toNat - 48)) bs else none
    else some (-1)

/-- The switch of `h3zero_parse_qpack_header_value`, h3zero.c 434-495, with the value decoded. -/
def setValue (h : Hdr) (p : Parts) (v : List UInt8) : Res Parts :=
  match h with
  | .method => if p.method ≠ 0 then .err else .ok { p with method := methodByName v }
  | .contentType => if p.contentType ≠ 0 then .err else .ok { p with contentType := contentTypeByName v }
  | .status =>
    if p.status ≠ 0 then .err
    else
      match parseStatus 0 v with
      | some s => .ok { p with status := s }
      | none => .ub
  | .path => if p.path.isSome then .err else .ok { p with path := some v }
  | .range => if p.range.isSome then .err else .ok { p with range := some v }
  | .protocol => if p.protocol.isSome then .err else .ok { p with protocol := some v }
  | .other => .ok p

/-- A string with its length: h3zero.c 415-432. The bytes themselves are the value if the Huffman code has an error. -/
def readString (bytes : List UInt8) : Option (List UInt8 × List UInt8) :=
  match bytes with
  | [] => none
  | b :: _ =>
    match decInt 0x7F bytes with
    | none => none
    | some (n, r) =>
      if n > r.length then none
      else
        let raw := r.take n
        let v :=
          if (b.toNat >>> 7) &&& 1 = 1 then
            match decode 256 raw with
            | some (true, d) => d
            | _ => raw
          else raw
        some (v, r.drop n)

/-- `h3zero_parse_qpack_header_value`, h3zero.c 406-506. -/
def parseValue (bytes : List UInt8) (h : Hdr) (p : Parts) : Res (List UInt8 × Parts) :=
  match readString bytes with
  | none => .err
  | some (v, r) =>
    match setValue h p v with
    | .ok p => .ok (r, p)
    | .err => .err
    | .ub => .ub

/-- The switch for an entry of the static table, h3zero.c 570-622. -/
def setStatic (e : Hdr × List UInt8 × Nat) (p : Parts) : Res Parts :=
  match e.1 with
  | .method => if p.method ≠ 0 then .err else .ok { p with method := e.2.2 }
  | .contentType => if p.contentType ≠ 0 then .err else .ok { p with contentType := e.2.2 }
  | .status => if p.status ≠ 0 then .err else .ok { p with status := e.2.2 }
  | .path => if p.path.isSome then .err else .ok { p with path := some e.2.1 }
  | _ => .ok p

/-- One header, h3zero.c 559-667. The check of the index lets the number of entries through: a read behind the end of the table. -/
def parseLine (bytes : List UInt8) (p : Parts) : Res (List UInt8 × Parts) :=
  match bytes with
  | [] => .err
  | b :: _ =>
    if b.toNat &&& 0xC0 = 0xC0 then
      match decInt 0x3F bytes with
      | none => .err
      | some (i, r) =>
        if i > qpackStatic.length then .err
        else
          match qpackStatic[i]? with
          | none => .ub
          | some e =>
            match setStatic e p with
            | .ok p => .ok (r, p)
            | .err => .err
            | .ub => .ub
    else if b.toNat &&& 0xD0 = 0x50 then
      match decInt 0x0F bytes with
      | none => .err
      | some (i, r) =>
        if i > qpackStatic.length then .err
        else
          match qpackStatic[i]? with
          | none => .ub
          | some e => parseValue r e.1 p
    else if b.toNat &&& 0xE0 = 0x20 then
      match decInt 0x07 bytes with
      | none => .err
      | some (n, r) =>
        if n > r.length then .err
        else parseValue (r.drop n) (headerType (r.take n) (decide ((b.toNat >>> 3) &&& 1 = 1))) p
    else .err

/-- The loop, h3zero.c 558-671, with a limit of the number of iterations; `ub` if it does not end. -/
def parseLines : Nat → List UInt8 → Parts → Res Parts
  | 0, _, _ => .ub
  | n + 1, bytes, p =>
    match bytes with
    | [] => .ok p
    | _ :: _ =>
      match parseLine bytes p with
      | .ok (r, p) => parseLines n r p
      | .err => .err
      | .ub => .ub

/-- `h3zero_parse_qpack_header_frame`, h3zero.c 540-674. -/
def parseFrame (bytes : List UInt8) : Res Parts :=
  match bytes with
  | [] => .err
  | b :: bs =>
    if b ≠ 0 then .err
    else
      match decInt 0x7F bs with
      | none => .err
      | some (_, r) => parseLines (r.length + 1) r {}

/-! ### Formatting -/

/-- `h3zero_qpack_code_encode`, h3zero.c 704-718, behind bytes that were written; `none` if there is no room. -/
def addCode (room pre mask code : Nat) (l : List UInt8) : Option (List UInt8) :=
  match encInt (room - l.length) pre mask code with
  | some c => some (l ++ c)
  | none => none

/-- The copy of a string, h3zero.c 725-733. -/
def addBytes (room : Nat) (v l : List UInt8) : Option (List UInt8) :=
  if v.length > 0 ∧ l.length + v.length > room then none else some (l ++ v)

/-- `h3zero_qpack_literal_plus_ref_encode`, h3zero.c 720-736. -/
def addRef (room code : Nat) (v : List UInt8) (l : List UInt8) : Option (List UInt8) := do
  let l ← addCode room 0x50 0x0F code l
  let l ← addCode room 0x00 0x7F v.length l
  addBytes room v l

/-- `h3zero_qpack_literal_plus_name_encode`, h3zero.c 755-797. -/
def addName (room : Nat) (name v : List UInt8) (l : List UInt8) : Option (List UInt8) := do
  let l ← addCode room 0x20 0x07 name.length l
  let l ← addBytes room name l
  let l ← addCode room 0x00 0x7F v.length l
  addBytes room v l

/-- The two first bytes of all frames. -/
def begin2 (room : Nat) : Option (List UInt8) := if 2 > room then none else some [0, 0]

/-- A header that is optional. -/
def addOpt (f : List UInt8 → List UInt8 → Option (List UInt8)) (v : Option (List UInt8)) (l : List UInt8) : Option (List UInt8) :=
  match v with
  | some v => f v l
  | none => some l

/-- The range of a request, h3zero.c 877-881 and 918-922. -/
def addRange (room : Nat) (range l : List UInt8) : Option (List UInt8) := if range.length > 0 then addRef room 55 range l else some l

/-- `h3zero_create_request_header_frame_ex`, h3zero.c 900-929. A range without bytes is no range. -/
def createRequest (room : Nat) (path range : List UInt8) (host ua : Option (List UInt8)) : Option (List UInt8) := do
  let l ← begin2 room
  let l ← addCode room 0xC0 0x3F 17 l
  let l ← addCode room 0xC0 0x3F 23 l
  let l ← addRef room 1 path l
  let l ← addOpt (addRef room 0) host l
  let l ← addRange room range l
  addOpt (addRef room 95) ua l

/-- `h3zero_encode_content_type`, h3zero.c 799-822. -/
def addContentType (room ty : Nat) (l : List UInt8) : Option (List UInt8) :=
  match qpackStatic.findIdx? (fun e => e.1 == .contentType && e.2.2 == ty) with
  | some i => addCode room 0xC0 0x3F i l
  | none => none

/-- `h3zero_create_post_header_frame_ex`, h3zero.c 859-891. -/
def createPost (room : Nat) (path range : List UInt8) (host ua : Option (List UInt8)) (ty : Nat) : Option (List UInt8) := do
  let l ← begin2 room
  let l ← addCode room 0xC0 0x3F 20 l
  let l ← addCode room 0xC0 0x3F 23 l
  let l ← addRef room 1 path l
  let l ← addOpt (addRef room 0) host l
  let l ← addRange room range l
  let l ← addOpt (addRef room 95) ua l
  addContentType room ty l

/-- `h3zero_create_connect_header_frame`, h3zero.c 824-857. -/
def createConnect (room : Nat) (path : List UInt8) (protocol authority origin ua : Option (List UInt8)) : Option (List UInt8) := do
  let l ← begin2 room
  let l ← addCode room 0xC0 0x3F 15 l
  let l ← addCode room 0xC0 0x3F 23 l
  let l ← addRef room 1 path l
  let l ← addOpt (addName room [58, 112, 114, 111, 116, 111, 99, 111, 108]) protocol l
  let l ← addOpt (addRef room 0) authority l
  let l ← addOpt (addRef room 90) origin l
  addOpt (addRef room 95) ua l

/-- `h3zero_create_response_header_frame_ex`, h3zero.c 938-963. -/
def createResponse (room : Nat) (ty : Nat) (server : Option (List UInt8)) : Option (List UInt8) := do
  let l ← begin2 room
  let l ← addCode room 0xC0 0x3F 25 l
  let l ← addOpt (addRef room 92) server l
  if ty ≠ 0 then addContentType room ty l else some l

end Picoquic.Qpack
