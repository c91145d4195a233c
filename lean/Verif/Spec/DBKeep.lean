import Verif.Spec.DBConnect

/-
Specification vocabulary: groups of must-linked IDs that are far from the others.
-/

namespace Verif

variable {α V δ : Type} [LinearOrder α] [LinearOrder δ]

/-- The must-link group of `x` is far from the other IDs: no ID of the group and no managed ID outside the group are within
the radius of each other. -/
def Isolated (env : DbEnv α V δ) (p : DbParams δ) (m : Manager α) (vectors : Dict α V) (x : α) : Prop :=
  ∀ y z, m.getInferred x y = .ok (some .mustLink) → z ∈ m.managed → m.getInferred x z ≠ .ok (some .mustLink) →
    ¬ Near env p vectors y z ∧ ¬ Near env p vectors z y

end Verif
