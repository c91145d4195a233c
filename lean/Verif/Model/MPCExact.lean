import Mathlib.Algebra.Order.Field.Basic
import Mathlib.Algebra.BigOperators.Group.Finset.Basic
import Mathlib.Algebra.Order.Group.Unbundled.Abs
import Mathlib.Data.Fintype.Basic
import Verif.Model.MPC

/-
The arithmetic that `Verif/Model/MPC.lean` leaves open, in exact arithmetic: numbers are elements of a
linearly ordered field `κ`, vectors have `D` coordinates. All line numbers refer to
/repo/src/cognitivefactory/interactive_clustering/clustering/mpckmeans.py

Simplifications:
* No rounding, no overflow. `sqrt` (line 306) and the logarithm of the determinant (lines 518-522) are
  parameters. The square of line 323 undoes the square root of scipy's `mahalanobis`.
* The matrix `A` is diagonal (lines 250, 590 and 610): it is given by its diagonal.
* The mean of no vectors (NaN in numpy, only reached before an exception) is 0; coordinates and labels
  read outside the arrays (never reached) are 0 and -1.
-/

namespace Verif

section
variable {κ : Type} [Field κ] [LinearOrder κ] {D : Nat}

/-- `X[i, d]` -/
def coord (X : List (Fin D → κ)) (i : Nat) (d : Fin D) : κ := ((X[i]?).map fun x => x d).getD 0

/-- `labels[i]` -/
def labelAt (labels : List Int) (i : Nat) : Int := (labels[i]?).getD (-1)

/-- `mean(axis=0)` -/
def mpcMean (l : List (Fin D → κ)) : Fin D → κ := fun d => (l.map fun x => x d).sum / l.length

/-- `_dist`, lines 309-323. -/
def mpcDist (A x y : Fin D → κ) : κ := ∑ d, A d * (x d - y d) ^ 2

/-- Line 593. -/
def mpcTermX (X : List (Fin D → κ)) (labels : List Int) (centers : List (Fin D → κ)) (d : Fin D) : κ :=
  ((List.range X.length).map fun i => (coord X i d - coord centers (labelAt labels i).toNat d) ^ 2).sum

/-- Lines 595-599. -/
def mpcSumM (w : κ) (X : List (Fin D → κ)) (labels : List Int) (ml : Graph) (d : Fin D) : κ :=
  ((List.range X.length).flatMap fun i => ((dget? ml i).getD []).map fun j =>
    if labelAt labels i ≠ labelAt labels j then 1 / 2 * w * (coord X i d - coord X j d) ^ 2 else 0).sum

/-- Lines 601-606. -/
def mpcSumC (w : κ) (X : List (Fin D → κ)) (labels : List Int) (far : Nat × Nat × κ) (cl : Graph) (d : Fin D) : κ :=
  ((List.range X.length).flatMap fun k => ((dget? cl k).getD []).map fun m =>
    if labelAt labels k = labelAt labels m then
      w * max ((coord X far.1 d - coord X far.2.1 d) ^ 2 - (coord X k d - coord X m d) ^ 2) 0 else 0).sum

/-- `_update_metrics`, lines 588-612. -/
def mpcUpdate (w : κ) (X : List (Fin D → κ)) (labels : List Int) (centers : List (Fin D → κ)) (far : Nat × Nat × κ)
    (ml cl : Graph) : Fin D → κ := fun d =>
  X.length / max (mpcTermX X labels centers d + mpcSumM w X labels ml d + mpcSumC w X labels far cl d) (1 / 10 ^ 9)

/-- Lines 272-273. -/
def mpcClose (prev new : List (Fin D → κ)) : Bool :=
  (prev.zip new).all fun q => decide (∀ d, |q.1 d - q.2 d| ≤ 1 / 10 ^ 6)

/-- What exact arithmetic still takes from elsewhere: random choices, the order of sets, the stack, the
square root and the logarithm of the determinant. -/
structure MpcChoices (κ : Type) (D : Nat) where
  enum : List Nat → List Nat
  depth : Nat
  shuffle : Nat → Nat → List Nat
  pick : List Nat → Nat
  choice : Nat → Nat → List Nat
  sqrt : κ → κ
  logDet : (Fin D → κ) → κ

/-- MPC-KMeans in exact arithmetic, with the weight `w`. -/
def mpcExact (ch : MpcChoices κ D) (w : κ) : MpcEnv (Fin D → κ) κ (Fin D → κ) where
  enum := ch.enum
  depth := ch.depth
  shuffle := ch.shuffle
  pick := ch.pick
  choice := ch.choice
  mean := mpcMean
  zero := 0
  add := (· + ·)
  dist x y := ch.sqrt (∑ d, (x d - y d) ^ 2)
  weigh size total d := (size : κ) / total * d
  identity := fun _ => 1
  mdist := mpcDist
  termD A x y := mpcDist A x y - ch.logDet A
  termM A x y := 2 * w * mpcDist A x y
  termC A far x y := 2 * w * (far - mpcDist A x y)
  metric := mpcUpdate w
  close := mpcClose

end

end Verif
