import Verif.Spec.KmMargin
import Mathlib.Analysis.Real.Sqrt

/-
Specification vocabulary for C122: exact distances of vectors with any number of entries.
-/

namespace Verif

variable {D : Nat}

/-- The euclidean distance. -/
noncomputable def euclid (x y : Fin D → ℚ) : ℝ := √(∑ i, ((x i : ℝ) - y i) ^ 2)

/-- The size of two vectors; at most the sum of their lengths. -/
noncomputable def bothLength (x y : Fin D → ℚ) : ℝ := √(∑ i, (|(x i : ℝ)| + |(y i : ℝ)|) ^ 2)

/-- The mean. -/
def exactMean (l : List (Fin D → ℚ)) : Fin D → ℚ := fun i => (l.map fun v => v i).sum / l.length

/-- `η` is at least as large as the relative errors of the distances of vectors with `D` entries: about the root of `D` times `2^(-25)`. -/
def DistanceError (D : Nat) (η : ℝ) : Prop := 0 ≤ η ∧ η ≤ 1 ∧ ((D : ℝ) + 2) / 2 ^ 50 ≤ η ^ 2

/-- All entries are at most `B` and `R` is at least the length of such vectors. -/
def VectorsUpTo {α : Type} [LinearOrder α] (m : Manager α) (vectors : Dict α (Fin D → ℚ)) (B R : ℚ) : Prop :=
  (∀ x ∈ m.managed, ∀ v, dget? vectors x = some v → ∀ i, |v i| ≤ B) ∧ 0 ≤ B ∧ 0 ≤ R ∧ D * B ^ 2 ≤ R ^ 2

open Classical in
/-- COP-KMeans in exact arithmetic. -/
noncomputable def euclidKmEnv {α : Type} (tolerance : ℝ) (enum : List Int → List Int) (shuffle : List α → List α) :
    KMeansEnv α (Fin D → ℚ) ℝ where
  metric := euclid
  mean := exactMean
  small l := decide ((l.map fun p => euclid p.1 p.2).sum < tolerance)
  enum := enum
  shuffle := shuffle

/-- In every pass of the run, the sum of the moves of the `k` centroids is not within `k * η` of the tolerance. -/
def MoveMargin {α : Type} [LinearOrder α] (η tolerance : ℝ) (env : KMeansEnv α (Fin D → ℚ) ℝ) (m : Manager α)
    (vectors : Dict α (Fin D → ℚ)) (nb : Nat) : Prop :=
  ∀ C new C₁, RunCentroids env m vectors nb C → kmPass env m vectors nb C = .ok (new, C₁) → ∀ l : List ((Fin D → ℚ) × (Fin D → ℚ)),
    List.Forall₂ (fun k p => dget? C k = some p.1 ∧ dget? C₁ k = some p.2) (dkeys C) l →
      l.length * η < |(l.map fun p => euclid p.1 p.2).sum - tolerance|

end Verif
