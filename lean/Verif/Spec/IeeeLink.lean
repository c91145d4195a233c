import Verif.Spec.FloatTfidf
import Verif.Model.Hierarchical

/-
Specification vocabulary for C126: hierarchical clustering of rows in exact arithmetic.
-/

namespace Verif

/-- The hierarchical clustering of rows in exact arithmetic. -/
noncomputable def rowHierEnv : HierEnv (List ℝ) ℝ where
  metric := rowDist
  mean := rowMean
  ward l i j := l.sum / (i * j)

end Verif
