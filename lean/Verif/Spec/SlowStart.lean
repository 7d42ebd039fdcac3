import Verif.Model.SlowStart
/-!
# Specification of the test of delays in slow start
-/

namespace Picoquic.Spec
open Picoquic.SlowStart

/-- The state of the test, the delays that were taken, the oldest one first, the time of the last one, and the answer to
the last measurement: slow start is to be left. -/
structure SlowSys where
  track : Track := {}
  taken : List Nat := []
  last : Nat := 0
  leave : Bool := false

/-- A delay is measured at a time: it is taken if more than one millisecond has passed since the last one that was. -/
def slowStep (y : SlowSys) (m : Nat × Nat) : SlowSys :=
  { track := (hystartTest y.track m.1 m.2).2
    taken := if m.2 > y.last + 1000 then y.taken ++ [m.1] else y.taken
    last := if m.2 > y.last + 1000 then m.2 else y.last
    leave := (hystartTest y.track m.1 m.2).1 }

/-- All that can happen from the start: measurements of any delays at any times. -/
def slowRun (ms : List (Nat × Nat)) : SlowSys := ms.foldl slowStep {}

/-- The last seven of a list. -/
def lastSeven (l : List Nat) : List Nat := l.drop (l.length - 7)

/-- Seven that follow each other in a list. -/
def SevenOf (l w : List Nat) : Prop := w.length = 7 ∧ ∃ a b, l = a ++ w ++ b

/-- A report to the test of losses: what happened, the bytes acknowledged, the bytes lost. -/
abbrev VolumeReport := VolumeEvent × Nat × Nat

/-- The state after some reports. -/
def volumeRun (rs : List VolumeReport) : LossTrack :=
  rs.foldl (fun t r => (lossVolumeTest t r.1 r.2.1 r.2.2).2) {}

/-- The answer to one more report: slow start is to be left. -/
def volumeAnswer (rs : List VolumeReport) (r : VolumeReport) : Bool := (lossVolumeTest (volumeRun rs) r.1 r.2.1 r.2.2).1

end Picoquic.Spec
