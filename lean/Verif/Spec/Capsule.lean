import Verif.Model.Capsule
import Verif.Spec.StreamFrame
/-!
# Capsules, RFC 9297, section 3.2, and the messages of a web transport session
-/

namespace Picoquic.Spec
open Picoquic

/-- The bytes are those of a capsule: its type, the length of its value, and its value. Types and lengths are variable-length integers, in any of their encodings. -/
def CapsuleBytes (t : Nat) (v bs : Bytes) : Prop := ∃ p q, bs = p ++ (q ++ v) ∧ Varint p t ∧ Varint q v.length

/-- The value of a message that closes a session: an error code on 4 bytes, and an error message. -/
def CloseValue (code : Nat) (msg v : Bytes) : Prop := ∃ p, v = p ++ msg ∧ p.length = 4 ∧ bigEndian p = code

/-- The application of a session asks to drain it, or to close it. -/
inductive CtlOp
  | drain
  | close (code : Nat) (msg : Bytes)

/-- The control stream after the messages of the application. -/
def ctlRun (s : Capsule.Ctl) : List CtlOp → Capsule.Ctl
  | [] => s
  | .drain :: ops => ctlRun (Capsule.sendDrain s).2 ops
  | .close code msg :: ops => ctlRun (Capsule.sendClose s code msg).2 ops

/-- Capsules, one after the other. -/
inductive CapsuleStream : List (Nat × Bytes) → Bytes → Prop
  | nil : CapsuleStream [] []
  | cons {t : Nat} {v a b : Bytes} {cs : List (Nat × Bytes)} : CapsuleBytes t v a → CapsuleStream cs b → CapsuleStream ((t, v) :: cs) (a ++ b)

end Picoquic.Spec
