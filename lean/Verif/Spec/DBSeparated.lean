import Verif.Spec.HierSeparated
import Verif.Spec.DBConnect

/-
Specification vocabulary: classes that the radius of C-DBScan separates.
-/

namespace Verif

variable {α V δ : Type} [LinearOrder α] [LinearOrder δ]

/-- Two IDs are within the radius exactly when they are in the same class. -/
def RadiusSeparates (env : DbEnv α V δ) (p : DbParams δ) (vectors : Dict α V) (ids : List α) (f : α → Nat) : Prop :=
  ∀ x ∈ ids, ∀ y ∈ ids, (Near env p vectors x y ↔ f x = f y)

/-- The class of `x` has at least `min_samples` IDs. -/
def Dense (p : DbParams δ) (ids : List α) (f : α → Nat) (x : α) : Prop := p.minSamples ≤ classSize ids f (f x)

end Verif
