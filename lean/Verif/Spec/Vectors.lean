import Verif.Model.Constraints

/-
Specification vocabulary for the `vectors` argument.
-/

namespace Verif

variable {α V : Type} [LinearOrder α]

/-- The two dictionaries have the same vectors (or lack of vectors) for the IDs that the manager manages. The order of the
dictionaries and what they have for other IDs may differ. -/
def SameVectors (m : Manager α) (vectors vectors' : Dict α V) : Prop := ∀ x ∈ m.managed, dget? vectors x = dget? vectors' x

end Verif
