import Verif.Model.MpcNames
import Verif.Spec.MPC
import Verif.Spec.Labels

/-
Specification vocabulary for the names of IDs in MPC-KMeans.
-/

namespace Verif

/-- The string ends with a NUL character. -/
def EndsWithNul (s : PyStr) : Prop := ∃ t, s = t ++ [0]

section
variable {α : Type}

/-- `x` is the last of the IDs `ids` that is stored as `y`. -/
def LastStored (store : α → α) (ids : List α) (x y : α) : Prop :=
  ∃ p s, ids = p ++ x :: s ∧ store x = y ∧ ∀ z ∈ s, store z ≠ y

end

end Verif
