import Verif.Model.Spectral
import Mathlib.Analysis.Real.Sqrt
import Mathlib.Algebra.BigOperators.Field

/-
Specification of an ideal solver for spectral clustering, in exact arithmetic (C87): what
`SpectralClustering(n_clusters=k, affinity="precomputed")` of scikit-learn approximates. The embedding of the points consists of
`k` eigenvectors to the smallest eigenvalues of the normalised Laplacian, divided by the roots of the degrees; equivalently a
frame, orthonormal with respect to the degrees, with the least sum of energies. The labels are an optimal clustering of the rows of
the embedding with `k`-means.
-/

namespace Verif

/-- The entry of an array, 0 outside. -/
noncomputable def entryR (S : Mat ℝ) (i j : Nat) : ℝ := (mget? S i j).getD 0

section
variable {n k : Nat}

/-- How much `u` differs between similar points (twice the quadratic form of the Laplacian). -/
def specEnergy (W : Fin n → Fin n → ℝ) (u : Fin n → ℝ) : ℝ := ∑ i, ∑ j, W i j * (u i - u j) ^ 2

open Classical in
/-- The degree of a point: the sum of its similarities to the others; 1 for an isolated point (as in scipy). -/
noncomputable def specDegree (W : Fin n → Fin n → ℝ) (i : Fin n) : ℝ :=
  if (∑ j, if j = i then 0 else W i j) = 0 then 1 else ∑ j, if j = i then 0 else W i j

/-- The columns of `U` are orthonormal with respect to the degrees. -/
def SpecFrame (W : Fin n → Fin n → ℝ) (U : Fin n → Fin k → ℝ) : Prop :=
  ∀ c d, ∑ i, specDegree W i * (U i c * U i d) = if c = d then 1 else 0

/-- The sum of the energies of the columns. -/
def specCut (W : Fin n → Fin n → ℝ) (U : Fin n → Fin k → ℝ) : ℝ := ∑ c, specEnergy W fun i => U i c

/-- A spectral embedding: an orthonormal frame with the least energy. -/
structure SpecEmbedding (W : Fin n → Fin n → ℝ) (U : Fin n → Fin k → ℝ) : Prop where
  frame : SpecFrame W U
  least : ∀ U' : Fin n → Fin k → ℝ, SpecFrame W U' → specCut W U ≤ specCut W U'

/-- Sum of the squared distances of the rows of `U` to the mean of the rows with the same label. -/
noncomputable def specSpread (U : Fin n → Fin k → ℝ) (l : Fin n → Int) : ℝ :=
  ∑ i, ∑ c, (U i c - (∑ j with l j = l i, U j c) / ((Finset.univ.filter fun j => l j = l i).card : ℝ)) ^ 2

/-- Optimal labels for the rows of `U`, at most `k` different ones. -/
structure SpecLabels (U : Fin n → Fin k → ℝ) (l : Fin n → Int) : Prop where
  count : (Finset.univ.image l).card ≤ k
  least : ∀ l' : Fin n → Int, (Finset.univ.image l').card ≤ k → specSpread U l ≤ specSpread U l'

end

/-- A solver that works exactly: on symmetric matrices without negative entries it returns optimal labels of a spectral
embedding. Which embedding and which optimal labels is not said. -/
def IdealSpectral (solve : Nat → Mat ℝ → Except PyErr (List Int)) : Prop :=
  ∀ (k n : Nat) (S : Mat ℝ), 0 < k → k ≤ n → (∀ i j, (∃ v, mget? S i j = some v) ↔ i < n ∧ j < n) →
    (∀ i j, entryR S i j = entryR S j i) → (∀ i j, 0 ≤ entryR S i j) →
    ∃ (U : Fin n → Fin k → ℝ) (labels : List Int), solve k S = .ok labels ∧ labels.length = n ∧
      SpecEmbedding (fun i j => entryR S i j) U ∧ SpecLabels U fun i => labels.getD i 0

section
variable {α V : Type} [LinearOrder α]

/-- Two managed IDs are similar: they are must-linked, or there is no constraint between them and the kernel of their vectors is
not 0. -/
def Similar (kernel : V → V → ℝ) (m : Manager α) (vectors : Dict α V) (x y : α) : Prop :=
  x ∈ m.managed ∧ y ∈ m.managed ∧ (m.getInferred x y = .ok (some .mustLink) ∨
    m.getInferred x y = .ok none ∧ ∃ v w, dget? vectors x = some v ∧ dget? vectors y = some w ∧ kernel v w ≠ 0)

/-- Joined by a chain of similar IDs. -/
def SimilarChain (kernel : V → V → ℝ) (m : Manager α) (vectors : Dict α V) : α → α → Prop :=
  Relation.ReflTransGen (Similar kernel m vectors)

/-- The functions of exact spectral clustering. -/
structure ExactSpec (env : SpecEnv V ℝ) : Prop where
  one : env.one = 1
  zero : env.zero = 0
  symm : ∀ v w, env.kernel v w = env.kernel w v
  nonneg : ∀ v w, 0 ≤ env.kernel v w
  solve : IdealSpectral env.solve

end

end Verif
