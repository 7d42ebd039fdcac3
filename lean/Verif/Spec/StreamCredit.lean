import Verif.Spec.ByteStream
/-!
# Specification vocabulary: finished streams
-/

namespace Picoquic.Spec
open Picoquic Picoquic.StreamInput

/-- The peer sends on stream `id` a stream of final size `F`: no frame goes past it, and FIN and RESET_STREAM are there. -/
def SizedStream (F : Nat) (ops : List Op) (id : Nat) : Prop :=
  (∀ offset fin bytes, Op.frame id offset fin bytes ∈ ops →
    offset + bytes.length ≤ F ∧ (fin = true → offset + bytes.length = F)) ∧
  ∀ final, Op.reset id final ∈ ops → final = F

/-- The FIN and every byte up to it were received, and the stream was not reset. -/
def FullyReceived (F : Nat) (ops : List Op) (id : Nat) : Prop :=
  (∀ final, Op.reset id final ∉ ops) ∧ FinReceived ops id ∧ ∀ i, i < F → Received ops id i

/-- The stream was reset after every byte was received. -/
def ResetAtEnd (F : Nat) (ops : List Op) (id : Nat) : Prop :=
  ∃ before after, ops = before ++ .reset id F :: after ∧ (∀ final, Op.reset id final ∉ before) ∧
    ∀ i, i < F → Received before id i

/-- The peer opened the stream. -/
def OpenedBy (ops : List Op) (id : Nat) : Prop :=
  (∃ offset fin bytes, Op.frame id offset fin bytes ∈ ops) ∨ ∃ final, Op.reset id final ∈ ops

/-- Nothing remains to be sent on the stream: it is unidirectional, or its end was sent after it was opened. -/
def LocallyFinished (receiveOnly : Nat → Bool) (ops : List Op) (id : Nat) : Prop :=
  receiveOnly id = true ∨ ∃ before after acked, ops = before ++ .sendSide id true acked :: after ∧ OpenedBy before id

/-- The end of the stream was received, with FIN or RESET_STREAM. -/
def EndReceived (ops : List Op) (id : Nat) : Prop := FinReceived ops id ∨ ∃ final, Op.reset id final ∈ ops

end Picoquic.Spec
