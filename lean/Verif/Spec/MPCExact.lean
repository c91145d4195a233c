import Mathlib.Analysis.SpecialFunctions.Log.Basic
import Verif.Spec.MPC
import Verif.Model.MPCExact

/-
Specification vocabulary for MPC-KMeans in exact arithmetic (C79, C80, C81).
-/

namespace Verif

section
variable {V κ θ : Type} [LinearOrder κ]

/-- The states of the loop (lines 252-277) started with the centres `start`: number of passes done,
centres, metric and labels. -/
inductive MpcReached (env : MpcEnv V κ θ) (X : List V) (ml cl : Graph) (nb : Nat) (start : List V) :
    Nat → List V → θ → List Int → Prop where
  | start : MpcReached env X ml cl nb start 0 start env.identity []
  | pass {it : Nat} {centers : List V} {A : θ} {labels labels' : List Int} {far : Nat × Nat × κ} :
      MpcReached env X ml cl nb start it centers A labels → mpcFarPair env A X = .ok far →
      mpcAssign env A far.2.2 X centers ml cl nb it = .ok labels' →
      MpcReached env X ml cl nb start (it + 1) (mpcCenters env X labels' nb)
        (env.metric X labels' (mpcCenters env X labels' nb) far ml cl) labels'

end

/-- The sum of the squared distances, in the metric `A`, between the points and the centres of their
clusters. -/
def mpcCost {κ : Type} [Field κ] {D : Nat} (X : List (Fin D → κ)) (labels : List Int) (centers : List (Fin D → κ)) (A : Fin D → κ) : κ :=
  ∑ i ∈ Finset.range X.length, ∑ d, A d * (coord X i d - coord centers (labelAt labels i).toNat d) ^ 2

/-- The objective of MPC-KMeans without constraints: every point counts with its squared distance minus
the logarithm of the determinant of `A`. -/
noncomputable def mpcScore {D : Nat} (X : List (Fin D → ℝ)) (labels : List Int) (centers : List (Fin D → ℝ)) (A : Fin D → ℝ) : ℝ :=
  mpcCost X labels centers A - X.length * ∑ d, Real.log (A d)

section
variable {κ : Type} [Field κ] [LinearOrder κ] {D : Nat}

/-- `c` is the first of the centres that are nearest to `x` in the metric `A`. -/
def FirstNearest (A : Fin D → κ) (centers : List (Fin D → κ)) (x : Fin D → κ) (c : Nat) : Prop :=
  ∃ y, centers[c]? = some y ∧ ∀ (d : Nat) (z : Fin D → κ), centers[d]? = some z →
    mpcDist A x y ≤ mpcDist A x z ∧ (d < c → mpcDist A x y < mpcDist A x z)

end

end Verif
