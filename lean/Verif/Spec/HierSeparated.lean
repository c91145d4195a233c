import Verif.Spec.Hierarchical
import Verif.Spec.Questions
import Verif.Spec.Geometry

/-
Specification vocabulary for the hierarchical clustering of IDs that fall into separated classes (C104).
-/

namespace Verif

variable {α V δ : Type} [LinearOrder α] [LinearOrder δ]

/-- The number of IDs in a class. -/
def classSize (ids : List α) (f : α → Nat) (p : Nat) : Nat := (ids.filter fun x => f x = p).length

/-- The labels tell exactly which IDs are in the same class. -/
def GivesClasses (ids : List α) (f : α → Nat) (r : Dict α Int) : Prop :=
  dkeys r = ids.insertionSort (· ≤ ·) ∧ ∀ x ∈ ids, ∀ y ∈ ids, (dget? r x = dget? r y ↔ f x = f y)

/-- Every distance inside a class is smaller than every distance between two classes. -/
def DistancesSeparate (env : HierEnv V δ) (vectors : Dict α V) (ids : List α) (f : α → Nat) : Prop :=
  ∀ x ∈ ids, ∀ y ∈ ids, ∀ z ∈ ids, ∀ t ∈ ids, x ≠ y → f x = f y → f z ≠ f t → ∀ v w v' w',
    dget? vectors x = some v → dget? vectors y = some w → dget? vectors z = some v' → dget? vectors t = some w' →
    env.metric v w < env.metric v' w'

/-- Two disjoint groups of IDs. -/
structure TwoGroups (ids xs ys : List α) : Prop where
  sub : ∀ x ∈ xs ++ ys, x ∈ ids
  nodup : (xs ++ ys).Nodup
  left : xs ≠ []
  right : ys ≠ []

/-- The linkage of two groups inside one class is smaller than that of two groups inside two different classes. -/
def LinkageSeparates (env : HierEnv V δ) (link : Linkage) (vectors : Dict α V) (ids : List α) (f : α → Nat) : Prop :=
  ∀ xs ys zs ts, TwoGroups ids xs ys → TwoGroups ids zs ts → ∀ p q r, q ≠ r →
    (∀ x ∈ xs ++ ys, f x = p) → (∀ z ∈ zs, f z = q) → (∀ t ∈ ts, f t = r) → ∀ d d',
    LinkageIs env link vectors xs ys d → LinkageIs env link vectors zs ts d' → d < d'

/-- Distances of at most `w` inside a class and of at least `b` between two classes. -/
def ClassGap {E : Type} [NormedAddCommGroup E] (vectors : Dict α E) (ids : List α) (f : α → Nat) (w b : ℝ) : Prop :=
  ∀ x ∈ ids, ∀ y ∈ ids, x ≠ y → ∀ u v, dget? vectors x = some u → dget? vectors y = some v →
    (f x = f y → dist u v ≤ w) ∧ (f x ≠ f y → b ≤ dist u v)

end Verif
