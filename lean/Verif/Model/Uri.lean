import Verif.Model.Bytes
/-!
# Paths and queries of HTTP requests

Model of h3zero_uri.c (the query of a path and its parameters), of the choice of a handler by path (h3zero_common.c 922-934, h3zero_server.c 224-235), of the mapping of paths to files
(h3zero_server.c 50-185), and of the parameters of the web transport sample application (wt_baton.c 550-582).
-/

namespace Picoquic.Uri
open Picoquic

/-- The number of bytes before the first one equal to `c`: `h3zero_pathabempty_length`, h3zero_uri.c 120-130, with `?`; `h3zero_query_parameter_length`, 177-186, with `&`. -/
def lengthTo (c : UInt8) : Bytes → Nat
  | [] => 0
  | x :: xs => if x = c then 0 else lengthTo c xs + 1

/-- `h3zero_query_offset`, h3zero_uri.c 133-143. -/
def queryOffset (path : Bytes) : Nat :=
  if lengthTo 63 path < path.length then lengthTo 63 path + 1 else path.length

/-- `h3zero_query_parameter_position`, h3zero_uri.c 145-175: `b` is `begin_index`, the list is what begins there. 0 if the parameter is not there. -/
def positionFrom (id : Bytes) (b : Nat) (q : Bytes) : Nat :=
  match q with
  | [] => 0
  | x :: xs =>
    if id.length ≤ (x :: xs).length ∧ (x :: xs).take id.length = id ∧ (id.length = (x :: xs).length ∨ (x :: xs)[id.length]? = some 61 ∨ (x :: xs)[id.length]? = some 38) then
      if (x :: xs)[id.length]? = some 61 then b + id.length + 1 else b + id.length
    else
      positionFrom id (b + min (lengthTo 38 (x :: xs) + 1) (x :: xs).length) ((x :: xs).drop (lengthTo 38 (x :: xs) + 1))
termination_by q.length
decreasing_by simp only [List.length_drop, List.length_cons]; omega

/-- See `positionFrom`. -/
def position (id q : Bytes) : Nat := positionFrom id 0 q

/-- The value of a hexadecimal digit, h3zero_uri.c 205-213. -/
def hexValue (x : UInt8) : Option UInt8 :=
  if x ≥ 48 ∧ x ≤ 57 then some (x - 48)
  else if x ≥ 97 ∧ x ≤ 102 then some (x - 97 + 10)
  else if x ≥ 65 ∧ x ≤ 70 then some (x - 65 + 10)
  else none

/-- The digits after `%`, at most `n`, h3zero_uri.c 200-221: the value, was there an error, what follows. -/
def pctDigits : Nat → UInt8 → Bytes → UInt8 × Bool × Bytes
  | 0, v, bs => (v, false, bs)
  | _ + 1, v, [] => (v, true, [])
  | n + 1, v, x :: bs =>
    match hexValue x with
    | some d => pctDigits n (v <<< 4 + d) bs
    | none => (v <<< 4, true, bs)

/-- `h3zero_query_parameter_pchar`, h3zero_uri.c 188-226. -/
def pchar (v : UInt8) (bs : Bytes) : UInt8 × Bool × Bytes :=
  if v = 37 then pctDigits 2 v bs else (v, false, bs)

/-- What is left after a character is not longer than before. -/
theorem pctDigits_length (n : Nat) (v : UInt8) (bs : Bytes) : (pctDigits n v bs).2.2.length ≤ bs.length := by
  induction n generalizing v bs with
  | zero => simp [pctDigits]
  | succ n ih =>
    cases bs with
    | nil => simp [pctDigits]
    | cons x bs =>
      unfold pctDigits
      split
      · have := ih (v <<< 4 + ‹UInt8›) bs; simp only [List.length_cons]; omega
      · simp

theorem pchar_length (v : UInt8) (bs : Bytes) : (pchar v bs).2.2.length ≤ bs.length := by
  unfold pchar; split
  · exact pctDigits_length _ _ _
  · simp

/-- `h3zero_query_bytes_to_string`, h3zero_uri.c 228-252: was there an error, and the bytes written to the buffer. -/
def toStringFrom (max : Nat) (out : Bytes) (bs : Bytes) : Bool × Bytes :=
  match bs with
  | [] => (false, out)
  | v :: bs =>
    if out.length < max then
      if (pchar v bs).2.1 then (true, out ++ [(pchar v bs).1])
      else toStringFrom max (out ++ [(pchar v bs).1]) (pchar v bs).2.2
    else (true, out)
termination_by bs.length
decreasing_by have := pchar_length v bs; simp only [List.length_cons]; omega

/-- See `toStringFrom`. -/
def toString (max : Nat) (bs : Bytes) : Bool × Bytes := toStringFrom max [] bs

/-- `h3zero_query_bytes_to_uint64`, h3zero_uri.c 254-288: `none` for an error. -/
def toNumberFrom (x : Nat) (bs : Bytes) : Option Nat :=
  match bs with
  | [] => some x
  | v :: bs =>
    if (pchar v bs).2.1 then none
    else if 48 ≤ (pchar v bs).1 ∧ (pchar v bs).1 ≤ 57 then
      if x ≥ UINT64_MAX / 10 then none
      else if x * 10 > UINT64_MAX - ((pchar v bs).1.toNat - 48) then none
      else toNumberFrom (x * 10 + ((pchar v bs).1.toNat - 48)) (pchar v bs).2.2
    else none
termination_by bs.length
decreasing_by have := pchar_length v bs; simp only [List.length_cons]; omega

/-- See `toNumberFrom`. -/
def toNumber (bs : Bytes) : Option Nat := toNumberFrom 0 bs

/-- The value of the parameter found, h3zero_uri.c 292-294, 309-311. -/
def paramValue (id q : Bytes) : Option Bytes :=
  if position id q ≠ 0 then some ((q.drop (position id q)).take (lengthTo 38 (q.drop (position id q)))) else none

/-- `h3zero_query_parameter_string`, h3zero_uri.c 286-298: error, and what is written to the buffer; `none` if nothing is. -/
def paramString (id q : Bytes) (max : Nat) : Bool × Option Bytes :=
  match paramValue id q with
  | some v => ((toString max v).1, some (toString max v).2)
  | none => (false, none)

/-- `h3zero_query_parameter_number`, h3zero_uri.c 299-316: error, number. -/
def paramNumber (id q : Bytes) (default : Nat) : Bool × Nat :=
  match paramValue id q with
  | some v =>
    match toNumber v with
    | some n => if v.length = 0 then (false, default) else (false, n)
    | none => (true, default)
  | none => (false, default)

/-- `h3zero_find_path_item`, h3zero_common.c 922-934. -/
def findPathItem (path : Bytes) : List Bytes → Option Nat
  | [] => none
  | p :: ps =>
    if path.length ≥ p.length ∧ path.take p.length = p ∧ (path.length = p.length ∨ path[p.length]? = some 63) then some 0
    else (findPathItem path ps).map (· + 1)

/-- `picohttp_find_path_item`, h3zero_server.c 224-235, for HTTP/0.9. -/
def findPathItem09 (path : Bytes) : List Bytes → Option Nat
  | [] => none
  | p :: ps =>
    if path.length ≥ p.length ∧ path.take p.length = p then some 0
    else (findPathItem09 path ps).map (· + 1)

/-- The loop of `demo_server_is_path_sane`, h3zero_server.c 64-86, on the bytes left: `dot` is `past_is_dot`, `good` is `nb_good`. -/
def saneFrom (dot : Bool) (good : Nat) : Bytes → Bool
  | [] => decide (good ≠ 0)
  | c :: cs =>
    if (c ≥ 97 ∧ c ≤ 122) ∨ (c ≥ 65 ∧ c ≤ 90) ∨ (c ≥ 48 ∧ c ≤ 57) ∨ c = 45 ∨ c = 95 then saneFrom false (good + 1) cs
    else if c = 47 ∧ cs ≠ [] ∧ good > 0 then saneFrom dot (good + 1) cs
    else if c = 46 ∧ dot = false ∧ good > 0 then saneFrom true good cs
    else false

/-- `demo_server_is_path_sane`, h3zero_server.c 50-93. The path is not empty where it is called (h3zero_server.c 156). -/
def sane : Bytes → Bool
  | [] => false
  | c :: cs => if c = 47 then saneFrom false 0 cs else false

/-- The name of the file that is opened, h3zero_server.c 96-117 (not Windows). The buffer has `len + path_length + 1` bytes; `none` if more were written. -/
def fileName (folder path : Bytes) : Option Bytes :=
  let dir := if folder.getLast? = some 47 then folder else folder ++ [47]
  let name := dir ++ path.drop 1
  if name.length + 1 ≤ folder.length + path.length + 1 then some name else none

/-- What the server sends: nothing (not found), a file with its length, or that many bytes. -/
inductive Target
  | notFound
  | file (name : Bytes) (size : Nat)
  | bytes (n : Nat)
  /-- The name is written past the end of its buffer. -/
  | overflow
deriving DecidableEq, Repr

/-- `demo_server_try_file_path`, h3zero_server.c 95-139. `files` gives the length of a file, `none` if it cannot be opened. -/
def tryFile (files : Bytes → Option Nat) (folder path : Bytes) : Option Target :=
  if sane path then
    match fileName folder path with
    | none => some .overflow
    | some n =>
      match files n with
      | some s => if s > 0 then some (.file n s) else none
      | none => none
  else none

/-- The number in a path, h3zero_server.c 164-177. -/
def echoFrom (x : Nat) : Bytes → Option Nat
  | [] => some x
  | c :: cs =>
    if c < 48 ∨ c > 57 then none
    else
      let y := u64 (u64 (x * 10) + (c.toNat - 48))
      if y > UINT64_MAX / 4 then none else echoFrom y cs

/-- "/index.html". -/
def indexHtml : Bytes := [47, 105, 110, 100, 101, 120, 46, 104, 116, 109, 108]

/-- The rest of `h3zero_server_parse_path`, h3zero_server.c 154-185. -/
def served (files : Bytes → Option Nat) (folder : Option Bytes) (path : Bytes) : Target :=
  if path.head? ≠ some 47 then .notFound
  else
    match folder.bind (fun f => tryFile files f path) with
    | some t => t
    | none =>
      if path.length > 1 ∧ path ≠ indexHtml then
        match echoFrom 0 (path.drop 1) with
        | some n => .bytes n
        | none => .notFound
      else .bytes 0

/-- `h3zero_server_parse_path`, h3zero_server.c 141-185: the root is redirected to the index (148-152). -/
def parsePath (files : Bytes → Option Nat) (folder : Option Bytes) (path : Bytes) : Target :=
  served files folder (if path = [47] then indexHtml else path)

/-- `wt_baton_ctx_path_params`, wt_baton.c 550-582: the number of lanes and the first baton; `none` if the request is refused. The length given for "version" is 5. -/
def batonParams (path : Bytes) : Option (Nat × Nat) :=
  if queryOffset path < path.length then
    let q := path.drop (queryOffset path)
    let v := paramNumber [118, 101, 114, 115, 105] q 0
    let b := paramNumber [98, 97, 116, 111, 110] q 0
    let c := paramNumber [99, 111, 117, 110, 116] q 1
    let i := paramNumber [105, 110, 106, 101, 99, 116] q 0
    if v.1 ∨ b.1 ∨ c.1 ∨ i.1 then none
    else if v.2 ≠ 0 ∨ b.2 > 255 ∨ c.2 > 256 ∨ c.2 < 1 then none
    else some (c.2, b.2)
  else some (1, 240)

end Picoquic.Uri
