import Verif.Spec.HierSeparated
import Verif.Spec.KMeans

/-
Specification vocabulary for COP-KMeans on IDs that fall into separated classes (C105).
-/

namespace Verif

variable {α V δ : Type} [LinearOrder α] [LinearOrder δ]

/-- A vector of an ID of the class, or the mean of vectors of IDs of the class. -/
def CenterOf (env : KMeansEnv α V δ) (vectors : Dict α V) (ids : List α) (f : α → Nat) (p : Nat) (u : V) : Prop :=
  (∃ y ∈ ids, f y = p ∧ dget? vectors y = some u) ∨
  ∃ ys vs, ys ≠ [] ∧ (∀ y ∈ ys, y ∈ ids ∧ f y = p) ∧ List.Forall₂ (fun y v => dget? vectors y = some v) ys vs ∧ u = env.mean vs

/-- Every ID is closer to the vectors and means of its class than to those of other classes. -/
def CentersSeparate (env : KMeansEnv α V δ) (vectors : Dict α V) (ids : List α) (f : α → Nat) : Prop :=
  ∀ x ∈ ids, ∀ v, dget? vectors x = some v → ∀ p, p ≠ f x → ∀ u u', CenterOf env vectors ids f (f x) u →
    CenterOf env vectors ids f p u' → env.metric v u < env.metric v u'

/-- The IDs whose vectors are the initial centroids: the first ones of the shuffled list. -/
def initialIds (env : KMeansEnv α V δ) (ids : List α) (nb : Nat) : List α := (env.shuffle ids).take nb

end Verif
