import Verif.Model.FloatKm
import Mathlib.Data.Real.Basic

/-
The numerical functions in binary64 for vectors with any number of entries. numpy, scipy and BLAS may add up products in any order (blocks,
several accumulators, fused multiply-add, zeros of sparse matrices left out), so that a result is not determined; what is modelled is the
set of possible results.
/repo/src/cognitivefactory/interactive_clustering/clustering/hierarchical.py, lines 168-171, 484-488, 783
/repo/src/cognitivefactory/interactive_clustering/clustering/kmeans.py, lines 255-262, 343-361, 459
/repo/src/cognitivefactory/interactive_clustering/clustering/dbscan.py, lines 205-218
/repo/src/cognitivefactory/interactive_clustering/sampling/clusters_based.py, lines 212-224
-/

namespace Verif

/-- `s` is a possible result of adding up the products of these pairs in binary64: in any order and with any brackets; each product and
each addition is rounded, or a product is added without being rounded before (fused multiply-add). -/
inductive FlDot : List (ℚ × ℚ) → ℚ → Prop
  | nil : FlDot [] 0
  | prod (x y : ℚ) : FlDot [(x, y)] (fl (x * y))
  | add {l r t : List (ℚ × ℚ)} {a b : ℚ} : FlDot l a → FlDot r b → t.Perm (l ++ r) → FlDot t (fl (a + b))
  | fma {l t : List (ℚ × ℚ)} {a x y : ℚ} : FlDot l a → t.Perm ((x, y) :: l) → FlDot t (fl (a + x * y))

variable {D : Nat}

/-- The pairs of entries of two vectors. -/
def entries (x y : Fin D → ℚ) : List (ℚ × ℚ) := List.ofFn fun i => (x i, y i)

/-- `s` is a possible result of `pairwise_distances(X, Y, metric="euclidean")` of scikit-learn (`euclidean_distances`) for these rows:
`-2 * x.y`, plus `x.x`, plus `y.y`, at least 0, square root; 0 on the diagonal when `Y` is not given. -/
def FlEuclid (x y : Fin D → ℚ) (s : ℚ) : Prop :=
  (x = y ∧ s = 0) ∨ ∃ p a b, FlDot (entries x y) p ∧ FlDot (entries x x) a ∧ FlDot (entries y y) b ∧ s = flSqrt (max 0 (fl (fl (-2 * p + a) + b)))

/-- `sum([...]) / n` of sparse matrices, for each entry (see `flMean`). -/
def flMeanVec (l : List (Fin D → ℚ)) : Fin D → ℚ := fun i => flMean (l.map fun v => v i)

/-- `d` gives computed distances. (A number of binary64 is a real number.) -/
def ComputedDistance (d : (Fin D → ℚ) → (Fin D → ℚ) → ℝ) : Prop := ∀ x y, ∃ s : ℚ, FlEuclid x y s ∧ d x y = s

/-- `env` is an environment of COP-KMeans that computes in binary64: distances (lines 255-262), means (line 459) and the comparison of the
sum of the distances between old and new centroids with the tolerance (lines 343-361). -/
structure FlKmeans {α : Type} (tolerance : ℚ) (env : KMeansEnv α (Fin D → ℚ) ℝ) : Prop where
  metric : ComputedDistance env.metric
  mean : env.mean = flMeanVec
  small : ∀ l, ∃ ds : List ℚ, List.Forall₂ (fun p s => FlEuclid p.1 p.2 s) l ds ∧ (env.small l = true ↔ flSum ds < tolerance)

/-- One of the possible sums of products: one after the other. -/
def dotSeq : List (ℚ × ℚ) → ℚ
  | [] => 0
  | p :: l => fl (dotSeq l + fl (p.1 * p.2))

/-- One of the possible results of `euclidean_distances`. -/
def distSeq (x y : Fin D → ℚ) : ℚ := flSqrt (max 0 (fl (fl (-2 * dotSeq (entries x y) + dotSeq (entries x x)) + dotSeq (entries y y))))

/-- One of the possible environments of COP-KMeans in binary64. -/
def seqKmEnv {α : Type} (tolerance : ℚ) (enum : List Int → List Int) (shuffle : List α → List α) : KMeansEnv α (Fin D → ℚ) ℝ where
  metric x y := (distSeq x y : ℚ)
  mean := flMeanVec
  small l := decide (flSum (l.map fun p => distSeq p.1 p.2) < tolerance)
  enum := enum
  shuffle := shuffle

end Verif
