import Verif.Spec.Manager

/-
Vocabulary for the repair of a conflict: some constraints are deleted, then the refused call is made again.
-/

namespace Verif

variable {α : Type}

/-- The calls `delete_constraint(x, y)` for a list of pairs. -/
def deletions (D : List (α × α)) : List (Op α) := D.map fun p => .deleteConstraint p.1 p.2

/-- The list contains the pair, in one of the two orders. -/
def DeletedPair (D : List (α × α)) (x y : α) : Prop := (x, y) ∈ D ∨ (y, x) ∈ D

/-- The added constraints entail the opposite of a constraint of type `t`. -/
def EntailsOpposite [LinearOrder α] (m : Manager α) (x y : α) : CType → Prop
  | .mustLink => CannotLinked m x y
  | .cannotLink => MustLinked m x y

end Verif
