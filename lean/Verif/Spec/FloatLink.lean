import Verif.Spec.FloatDot
import Verif.Model.Hierarchical

/-
Specification vocabulary for C123: hierarchical clustering in exact arithmetic.
-/

namespace Verif

variable {D : Nat}

/-- The hierarchical clustering in exact arithmetic. -/
noncomputable def euclidHierEnv : HierEnv (Fin D → ℚ) ℝ where
  metric := euclid
  mean := exactMean
  ward l i j := l.sum / (i * j)

end Verif
