import Verif.Spec.HierSeparated
import Verif.Spec.MPCExact

/-
Specification vocabulary for MPC-KMeans on IDs that fall into separated classes (C117).
-/

namespace Verif

section
variable {α κ : Type} [Field κ] {D : Nat}

/-- The squared euclidean distance. -/
def sqDist (x y : Fin D → κ) : κ := ∑ d, (x d - y d) ^ 2

/-- The mean of the vectors of some IDs. -/
def meanVec (v : α → Fin D → κ) (ids : List α) : Fin D → κ := fun d => (ids.map fun x => v x d).sum / ids.length

/-- The mean of the vectors of a class. -/
def classMean (v : α → Fin D → κ) (ids : List α) (f : α → Nat) (p : Nat) : Fin D → κ := meanVec v (ids.filter fun x => f x = p)

/-- The sum of the squared distances between the vectors and the means of their classes. -/
def spread (v : α → Fin D → κ) (ids : List α) (f : α → Nat) : κ := (ids.map fun x => sqDist (v x) (classMean v ids f (f x))).sum

end

section
variable {α κ : Type} [LinearOrder α] [Field κ] [LinearOrder κ] {D : Nat}

/-- Every ID is closer to the mean of any component of its class than to that of a component of another class. -/
def FirstPassSeparates (m : Manager α) (v : α → Fin D → κ) (f : α → Nat) : Prop :=
  ∀ x ∈ m.managed, ∀ P ∈ m.components, ∀ Q ∈ m.components, (∀ y ∈ P, f y = f x) → (∀ y ∈ Q, f y ≠ f x) →
    sqDist (v x) (meanVec v P) < sqDist (v x) (meanVec v Q)

/-- The squared distances to the means of other classes are larger than the number of coordinates times the spread. -/
def LaterPassesSeparate (ids : List α) (v : α → Fin D → κ) (f : α → Nat) : Prop :=
  ∀ x ∈ ids, ∀ y ∈ ids, f y ≠ f x → (D : κ) * max (spread v ids f) (1 / 10 ^ 9) < sqDist (v x) (classMean v ids f (f y))

/-- The distances between the means of two components, multiplied by the number of IDs of one of them, are larger
between two classes than inside a class. -/
def InitialSeparates (root : κ → κ) (m : Manager α) (v : α → Fin D → κ) (f : α → Nat) : Prop :=
  ∀ P ∈ m.components, ∀ Q ∈ m.components, ∀ R ∈ m.components, ∀ S ∈ m.components, P ≠ Q → (∀ x ∈ P, ∀ y ∈ Q, f x = f y) →
    (∀ x ∈ R, ∀ y ∈ S, f x ≠ f y) →
    P.length * root (sqDist (meanVec v P) (meanVec v Q)) < R.length * root (sqDist (meanVec v R) (meanVec v S))

end

section
variable {α : Type} {D : Nat}

/-- Distances of at most `r` inside a class and of at least `b` between two classes. -/
def VectorGap (ids : List α) (v : α → Fin D → ℝ) (f : α → Nat) (r b : ℝ) : Prop :=
  ∀ x ∈ ids, ∀ y ∈ ids, (f x = f y → Real.sqrt (sqDist (v x) (v y)) ≤ r) ∧ (f x ≠ f y → b ≤ Real.sqrt (sqDist (v x) (v y)))

end

end Verif
