import Verif.Spec.H3Data
import Verif.Spec.Uri

/-!
# Specification: paths of the HTTP/3 server
-/

namespace Picoquic.Spec

/-- The part of a path after the first `/` is clean: only name characters, `/` and `.`; it begins with a name
character and does not end with `/`; and between two dots there is a name character. -/
structure CleanRest (q : Bytes) : Prop where
  chars : ∀ c ∈ q, nameByte c = true ∨ c = 47 ∨ c = 46
  first : ∃ c r, q = c :: r ∧ nameByte c = true
  last : q.getLast? ≠ some 47
  dots : ∀ a b r, q = a ++ 46 :: (b ++ 46 :: r) → ∃ x ∈ b, nameByte x = true

end Picoquic.Spec
