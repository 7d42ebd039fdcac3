import Verif.Model.Bytes
/-!
# Paths, queries and percent-encoding, RFC 3986 and the `application/x-www-form-urlencoded` convention for queries

A path is followed by `?` (63) and the query. The query is fields separated by `&` (38); a field is a name and, after `=` (61), a value. `%` (37) and two hexadecimal digits stand for a byte. A path has segments
separated by `/` (47); `.` is the directory itself, `..` the one above.
-/

namespace Picoquic.Spec
open Picoquic

/-- The parts of a string between the separators. -/
def splitBy (c : UInt8) : Bytes → List Bytes
  | [] => [[]]
  | x :: xs => if x = c then [] :: splitBy c xs else
    match splitBy c xs with
    | [] => [[x]]
    | s :: ss => (x :: s) :: ss

/-- Name and value of a field. -/
def queryField (s : Bytes) : Bytes × Bytes := (s.takeWhile (· != 61), (s.dropWhile (· != 61)).drop 1)

/-- The value of a parameter: that of the first field with this name. -/
def queryValue (q name : Bytes) : Option Bytes := ((splitBy 38 q).map queryField).lookup name

/-- The hexadecimal digits with their values. -/
def hexDigitValues : List (UInt8 × Nat) :=
  [(48, 0), (49, 1), (50, 2), (51, 3), (52, 4), (53, 5), (54, 6), (55, 7), (56, 8), (57, 9), (97, 10), (98, 11), (99, 12), (100, 13), (101, 14), (102, 15),
    (65, 10), (66, 11), (67, 12), (68, 13), (69, 14), (70, 15)]

/-- The first string is an encoding of the second. -/
inductive PctEncoded : Bytes → Bytes → Prop
  | nil : PctEncoded [] []
  | byte {c : UInt8} {e s : Bytes} : c ≠ 37 → PctEncoded e s → PctEncoded (c :: e) (c :: s)
  | pct {a b : UInt8} {x y : Nat} {e s : Bytes} : (a, x) ∈ hexDigitValues → (b, y) ∈ hexDigitValues → PctEncoded e s → PctEncoded (37 :: a :: b :: e) (u8 (16 * x + y) :: s)

/-- Decimal digits. -/
def isDecimal (s : Bytes) : Bool := s.all (fun c => decide (48 ≤ c ∧ c ≤ 57))

/-- The number they denote. -/
def decimalNumber (s : Bytes) : Nat := s.foldl (fun v c => v * 10 + (c.toNat - 48)) 0

/-- A path, relative to a directory, that never leaves it: `d` is the number of directories entered. -/
def staysInside : Nat → List Bytes → Bool
  | _, [] => true
  | d, s :: ss =>
    if s = [46, 46] then
      match d with
      | 0 => false
      | d + 1 => staysInside d ss
    else if s = [46] ∨ s = [] then staysInside d ss
    else staysInside (d + 1) ss

/-- A letter, digit, hyphen or underline. -/
def nameByte (c : UInt8) : Bool := decide ((97 ≤ c ∧ c ≤ 122) ∨ (65 ≤ c ∧ c ≤ 90) ∨ (48 ≤ c ∧ c ≤ 57) ∨ c = 45 ∨ c = 95)

/-- Words made of these, separated by single dots or slashes. -/
inductive PlainPath : Bytes → Prop
  | word {w : Bytes} : w ≠ [] → (∀ c ∈ w, nameByte c = true) → PlainPath w
  | cons {w r : Bytes} {c : UInt8} : w ≠ [] → (∀ c ∈ w, nameByte c = true) → c = 46 ∨ c = 47 → PlainPath r → PlainPath (w ++ c :: r)

/-- A folder as the beginning of a file name. -/
def folderPrefix (folder : Bytes) : Bytes := if folder.getLast? = some 47 then folder else folder ++ [47]

end Picoquic.Spec
