import Verif.Spec.StreamFrame
/-!
# The frames of a request stream, RFC 9114, sections 4.1 and 7

A frame is its type, the length of its contents, and its contents; types and lengths are variable-length integers, in any of their encodings.
-/

namespace Picoquic.Spec
open Picoquic

/-- A frame. -/
structure H3Frame where
  ty : Nat
  payload : Bytes
deriving DecidableEq, Repr

/-- The bytes are those of the frame. -/
def H3FrameBytes (f : H3Frame) (bs : Bytes) : Prop := ∃ p q, bs = p ++ (q ++ f.payload) ∧ Varint p f.ty ∧ Varint q f.payload.length

/-- The bytes are those of the frames, one after the other. -/
inductive H3Stream : List H3Frame → Bytes → Prop
  | nil : H3Stream [] []
  | cons {f : H3Frame} {fs : List H3Frame} {a b : Bytes} : H3FrameBytes f a → H3Stream fs b → H3Stream (f :: fs) (a ++ b)

/-- A request or a response: its header fields, its contents, and its trailer fields. -/
structure H3Msg (α : Type) where
  header : Option α := none
  body : Bytes := []
  trailer : Option α := none

/-- A message with one more frame; `none` if it is not allowed. Header fields come first, then the contents in DATA frames (type 0), then trailer fields,
both fields in HEADERS frames (type 1). CANCEL_PUSH (3), SETTINGS (4), PUSH_PROMISE (5), GOAWAY (7) and MAX_PUSH_ID (13) do not belong on this stream. All other types are ignored. -/
def h3Next {α : Type} (dec : Bytes → Option α) (m : H3Msg α) (f : H3Frame) : Option (H3Msg α) :=
  if f.ty = 0 then
    if m.header.isSome ∧ m.trailer.isNone then some { m with body := m.body ++ f.payload } else none
  else if f.ty = 1 then
    match dec f.payload with
    | none => none
    | some p =>
      if m.header.isNone then some { m with header := some p }
      else if m.trailer.isNone then some { m with trailer := some p }
      else none
  else if f.ty = 3 ∨ f.ty = 4 ∨ f.ty = 5 ∨ f.ty = 7 ∨ f.ty = 13 then none
  else some m

/-- The message of a list of frames. -/
def h3Message {α : Type} (dec : Bytes → Option α) (m : H3Msg α) : List H3Frame → Option (H3Msg α)
  | [] => some m
  | f :: fs =>
    match h3Next dec m f with
    | none => none
    | some m => h3Message dec m fs

end Picoquic.Spec
