import Verif.Spec.Frames
/-!
# Specification of the processing of the frames of a packet

The state of a connection is a type `σ`. What a frame does to it is a parameter, `Handler`.
-/

namespace Picoquic.Spec
open Picoquic

/-- The effects on a connection. `frame` processes a frame that passed the checks; `false` is an error found
while processing. `error` closes the connection with a transport error: code and frame type. `broken` is what
is done for a malformed ACK, whose first ranges are processed before the mistake is found, and for a malformed
close, whose error code is stored. `pathKnown` tells if there is a path with this identifier. -/
structure Handler (σ : Type) where
  frame : σ → Frame → Bool × σ
  error : σ → (code type : Nat) → σ
  broken : σ → Bytes → σ
  pathKnown : σ → Nat → Bool

variable {σ : Type}

/-- RFC 9000 section 13.2: all frames but ACK, PADDING and the close of the connection ask for an
acknowledgement; the time stamps do not either. -/
def AckEliciting : Frame → Bool
  | .padding _ | .ack _ | .connectionClose .. | .applicationClose .. | .timeStamp _ => false
  | _ => true

/-- RFC 9000 section 9.1: the probing frames; address discovery adds OBSERVED_ADDRESS. -/
def Probing : Frame → Bool
  | .padding _ | .pathChallenge _ | .pathResponse _ | .newConnectionId .. | .observedAddress .. => true
  | _ => false

/-- CONNECTION_CLOSE or APPLICATION_CLOSE. -/
def IsClose : Frame → Bool
  | .connectionClose .. | .applicationClose .. => true
  | _ => false

/-- `bs` starts with a variable length integer. -/
def IntAt (bs : Bytes) (n : Nat) (rest : Bytes) : Prop := ∃ p, bs = p ++ rest ∧ Varint p n

/-- `s'` is `s` after the report of one or more errors. -/
def Errors (h : Handler σ) (s s' : σ) : Prop :=
  ∃ es : List (Nat × Nat), es ≠ [] ∧ s' = es.foldl (fun s e => h.error s e.1 e.2) s

/-- The frames on which nothing is done: an ACK for a path that does not exist, and IMMEDIATE_ACK at the end
of the packet. -/
def Ignored (cfg : Cfg) (h : Handler σ) (s : σ) (f : Frame) (rest : Bytes) : Prop :=
  cfg.epoch = .oneRtt ∧
    ((f = .immediateAck ∧ rest = []) ∨
     (∃ c, f = .ack c ∧ cfg.multipath = true ∧ h.pathKnown s (c.pathId.getD 0) = false))

/-- The processing of the frames `fs`, in order, from `s` and `bs`, to `s'` and what is left, `bs'`. -/
inductive Processed (cfg : Cfg) (h : Handler σ) : σ → Bytes → List Frame → σ → Bytes → Prop
  | nil (s : σ) (bs : Bytes) : Processed cfg h s bs [] s bs
  | cons {s s1 s' : σ} {bs r bs' : Bytes} {f : Frame} {fs : List Frame} :
      StartsWith bs f r → Acceptable cfg f → h.frame s f = (true, s1) → Processed cfg h s1 r fs s' bs' →
      Processed cfg h s bs (f :: fs) s' bs'
  | ignored {s s' : σ} {bs r bs' : Bytes} {f : Frame} {fs : List Frame} :
      StartsWith bs f r → Ignored cfg h s f r → Processed cfg h s r fs s' bs' →
      Processed cfg h s bs (f :: fs) s' bs'

/-- The processing of a sequence of frames: in order, up to the first one found wrong. The boolean tells if all
were processed. -/
def runFrames (h : Handler σ) : σ → List Frame → Bool × σ
  | s, [] => (true, s)
  | s, f :: fs => if (h.frame s f).1 then runFrames h (h.frame s f).2 fs else (false, (h.frame s f).2)

/-- `closed` is kept by all that a connection does, and results from an error. -/
structure IsClosed (h : Handler σ) (closed : σ → Prop) : Prop where
  error : ∀ s code type, closed (h.error s code type)
  frame : ∀ s f, closed s → closed (h.frame s f).2
  broken : ∀ s bs, closed s → closed (h.broken s bs)

/-- No frame starts here. -/
def Malformed (bs : Bytes) : Prop := ∀ f rest, ¬ StartsWith bs f rest

/-! ## What the code does differently -/

/-- The frames of which nothing is reported when they are malformed: STREAM, those whose type is truncated,
ACK_FREQUENCY, TIME_STAMP, and ACK whose ranges or counts are malformed. -/
def Silent (bs : Bytes) : Prop :=
  (∀ type r, ¬ IntAt bs type r) ∨ ∃ type r, IntAt bs type r ∧
    ((8 ≤ type ∧ type ≤ 15) ∨ type = 2 ∨ type = 3 ∨ type = 0xAF ∨ type = 757 ∨ type = 0x15228c00 ∨ type = 0x15228c01)

/-- What is done with a malformed frame: report errors, or not. -/
def Dropped (h : Handler σ) (s : σ) (bs : Bytes) (s' : σ) : Prop :=
  Errors h s s' ∨ Errors h (h.broken s bs) s' ∨ (Silent bs ∧ (s' = s ∨ s' = h.broken s bs))

/-- The reasons to stop at `bs`, in the state `s`: the frame is found wrong while it is processed, it may not
be accepted and an error is reported, or there is no frame. -/
def Halt (cfg : Cfg) (h : Handler σ) (s : σ) (bs : Bytes) (s' : σ) : Prop :=
  (∃ f rest, StartsWith bs f rest ∧ Acceptable cfg f ∧ h.frame s f = (false, s')) ∨
  (∃ f rest, StartsWith bs f rest ∧ ¬ Acceptable cfg f ∧ Errors h s s') ∨
  (bs ≠ [] ∧ Malformed bs ∧ Dropped h s bs s')

/-- Types of frames of extensions that are not negotiated: PATH_ABANDON, PATH_BACKUP, PATH_AVAILABLE,
MAX_PATH_ID, PATHS_BLOCKED, PATH_CID_BLOCKED, OBSERVED_ADDRESS. -/
def UnnegotiatedType (cfg : Cfg) (type : Nat) : Prop :=
  ((type = 0x15228c05 ∨ type = 0x15228c07 ∨ type = 0x15228c08 ∨ type = 0x15228c0c ∨ type = 0x15228c0d ∨
    type = 0x15228c0e) ∧ cfg.multipath = false) ∨
  ((type = 0x9f81a6 ∨ type = 0x9f81a7) ∧ cfg.addressDiscovery = false)

/-- An ACK type, with the identifier of a path that is not known. -/
def UnknownPathAck (cfg : Cfg) (h : Handler σ) (s : σ) (bs : Bytes) : Prop :=
  cfg.epoch = .oneRtt ∧ cfg.multipath = true ∧
    (((bs.head? = some 2 ∨ bs.head? = some 3) ∧ h.pathKnown s 0 = false) ∨
     (∃ type r, IntAt bs type r ∧ (type = 0x15228c00 ∨ type = 0x15228c01) ∧
       ∃ path r', IntAt r path r' ∧ h.pathKnown s path = false))

/-- The two cases in which the code goes on although it should not: a frame of an extension that is not
negotiated, of which only the type is consumed, and a malformed ACK for a path that is not known. -/
def GoesAstray (cfg : Cfg) (h : Handler σ) (s : σ) (bs : Bytes) : Prop :=
  (cfg.epoch = .oneRtt ∧ ∃ type r, IntAt bs type r ∧ UnnegotiatedType cfg type) ∨
  (UnknownPathAck cfg h s bs ∧ Malformed bs)

/-- The frames the code does not count as asking for an acknowledgement. The path validation frames are
missing from RFC 9000's list, the close frames are in it. -/
def pureAck : Frame → Bool
  | .padding _ | .ack _ | .pathChallenge _ | .pathResponse _ | .timeStamp _ => true
  | _ => false

/-- The types of the frames that are skipped without a check of all their content: ACK, whose ranges may be
meaningless, and BDP, whose address may have any length. -/
def Loose (bs : Bytes) : Prop :=
  ∃ type r, IntAt bs type r ∧
    (type = 2 ∨ type = 3 ∨ type = 0x15228c00 ∨ type = 0x15228c01 ∨ type = 0xebd9)

/-! ## What can be written -/

/-- The value can be written in the field. -/
def Fits : Field → Prop
  | .raw _ => True
  | .fixed size n => n < 256 ^ size
  | .int n => n < 2 ^ 62

/-- The fields can be written, and the sizes are those the code uses. -/
def Writable (f : Frame) : Prop :=
  (∀ x ∈ layout f, Fits x) ∧ SizesOk f ∧
  match f with
  | .newConnectionId _ _ _ cid _ => cid.length ≤ 20
  | .bdp _ capacity _ _ => capacity ≠ 0
  | _ => True

end Picoquic.Spec
