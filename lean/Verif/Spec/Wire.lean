import Verif.Model.Wire
import Verif.Spec.Json

/-!
# Specification of messages as JSON values
-/

namespace MCap.Spec

/-- The JSON values for a struct with these fields: an object with each of them exactly once, in any order and with any others, or the
array of their values in order. -/
def StructJson (fields : List (String × Json)) (j : Json) : Prop :=
  (∃ ms, j = .obj ms ∧ ∀ f ∈ fields, OneMember f.1 f.2 ms) ∨ j = .arr (fields.map Prod.snd)

/-- The text denotes such a value. -/
def StructText (t : List Char) (fields : List (String × Json)) : Prop := ∃ j, Denotes t j ∧ StructJson fields j

end MCap.Spec
