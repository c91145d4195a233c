import Verif.Model.FloatVec
import Verif.Model.KMeans

/-
The numerical functions of COP-KMeans in binary64, for vectors with one entry.
/repo/src/cognitivefactory/interactive_clustering/clustering/kmeans.py, lines 255-262, 343-361, 459
-/

namespace Verif

/-- Python's `sum` of floats: from left to right, starting with 0; each addition is rounded. -/
def flSum (l : List ℚ) : ℚ := l.foldl (fun s x => fl (s + x)) 0

/-- The numerical functions in binary64: distances (lines 255-262), means (line 459), and the comparison of the sum of the distances
between old and new centroids with the tolerance (lines 343-361). -/
def flKmEnv {α : Type} (tolerance : ℚ) (enum : List Int → List Int) (shuffle : List α → List α) : KMeansEnv α ℚ ℚ where
  metric := flDist
  mean := flMean
  small l := decide (flSum (l.map fun p => flDist p.1 p.2) < tolerance)
  enum := enum
  shuffle := shuffle

end Verif
