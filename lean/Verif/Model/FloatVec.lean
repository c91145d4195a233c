import Verif.Py.Float
import Verif.Model.Hierarchical

/-
The numerical functions of hierarchical clustering in binary64, for vectors with one entry. (With more entries the result also
depends on the order in which numpy and scipy add the products: see `Verif.Model.FloatDot`.)
/repo/src/cognitivefactory/interactive_clustering/clustering/hierarchical.py, lines 168-171, 484-488, 506-514, 783
-/

namespace Verif

/-- `pairwise_distances(X, Y, metric="euclidean")` of scikit-learn (`euclidean_distances`): `-2 * x * y`, plus the square of `x`, plus the
square of `y`, at least 0, square root; each operation is rounded. -/
def flDist (x y : ℚ) : ℚ := flSqrt (max 0 (fl (fl (-2 * fl (x * y) + fl (x * x)) + fl (y * y))))

/-- `sum([...]) / n` of sparse matrices, line 783: python adds from left to right, and scipy multiplies by `1.0 / n`. -/
def flMean (l : List ℚ) : ℚ := fl (l.foldl (fun s x => fl (s + x)) 0 * fl (1 / l.length))

/-- Lines 506-514: sum of the distances of the pairs, divided by the product of the sizes. -/
def flWard (l : List ℚ) (a b : Nat) : ℚ := fl (l.foldl (fun s x => fl (s + x)) 0 / (a * b))

/-- The numerical functions in binary64. -/
def flHierEnv : HierEnv ℚ ℚ where
  metric := flDist
  mean := flMean
  ward := flWard

end Verif
