import Verif.Spec.KMeans
import Mathlib.Algebra.Order.Group.Defs
import Mathlib.Algebra.BigOperators.Group.List.Basic

/-
Specification vocabulary for the objective of KMeans (C75).
-/

namespace Verif

variable {α V δ R : Type} [LinearOrder α] [LinearOrder δ]

/-- No two managed IDs have a relation. -/
def Unconstrained (m : Manager α) : Prop :=
  ∀ x ∈ m.managed, ∀ y ∈ m.managed, x ≠ y → m.getInferred x y = .ok none

/-- Exact arithmetic: `cost` (the square of the distance) grows with the distance, the mean is the only point
with the smallest sum of costs, and centroids that did not move are within the tolerance. -/
structure ExactKMeans [AddCommGroup R] [LinearOrder R] (env : KMeansEnv α V δ) (cost : V → V → R) : Prop where
  metric : ∀ v a b, env.metric v a ≤ env.metric v b → cost v a ≤ cost v b
  mean_best : ∀ vs c, vs ≠ [] → c ≠ env.mean vs → (vs.map fun v => cost v (env.mean vs)).sum < (vs.map fun v => cost v c).sum
  small : ∀ pairs, (∀ p ∈ pairs, p.1 = p.2) → env.small pairs = true

/-- The objective of KMeans: the sum of the costs between the IDs and the centroids of their clusters. -/
def inertia [AddCommGroup R] (cost : V → V → R) (m : Manager α) (vectors : Dict α V) (labels : Dict α Int)
    (centroids : Dict Int V) : R :=
  (m.managed.map fun x =>
    match dget? vectors x, (dget? labels x).bind fun c => dget? centroids c with
    | some v, some w => cost v w
    | _, _ => 0).sum

end Verif
