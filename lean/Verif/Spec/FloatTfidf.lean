import Verif.Model.FloatTfidf
import Verif.Spec.FloatDot
import Verif.Spec.Tfidf

/-
Specification vocabulary for C124: TF-IDF vectors in binary64.
-/

namespace Verif

/-- The logarithm has a relative error of at most `2^(-50)` (four units in the last place; numpy's own bound), and sums of products are
computed in some order. -/
structure FlCalc.Ok (c : FlCalc) : Prop where
  log : ∀ x : ℚ, 0 < x → |(c.log x : ℝ) - Real.log x| ≤ |Real.log x| / 2 ^ 50
  dot : ∀ l, FlDot l (c.dot l)

/-- `b` is `a` up to a factor between `(1 + 2^(-52))^(-k)` and `(1 + 2^(-52))^k`. -/
def NearBy (k : Nat) (a b : ℝ) : Prop := 0 ≤ a ∧ 0 ≤ b ∧ a ≤ b * (1 + 1 / 2 ^ 52) ^ k ∧ b ≤ a * (1 + 1 / 2 ^ 52) ^ k

/-- Both lists have `D` entries; the entries of the second one are those of the first one up to a factor. -/
def RowNear (D k : Nat) (v : List ℝ) (v' : List ℚ) : Prop :=
  v.length = D ∧ v'.length = D ∧ ∀ i, i < D → NearBy k ((v[i]?).getD 0) (((v'[i]?).getD 0 : ℚ) : ℝ)

/-- The length of the vector is at most 1. -/
def UnitRow (v : List ℝ) : Prop := (v.map fun x => x ^ 2).sum ≤ 1

/-- The same IDs have vectors; the exact vectors have length at most 1, and the computed entries have relative errors of about
`(D + 18) * 2^(-52)`. -/
structure TextVectors {α : Type} [LinearOrder α] (D : Nat) (vs : Dict α (List ℝ)) (vs' : Dict α (List ℚ)) : Prop where
  keys : dkeys vs' = dkeys vs
  rows : ∀ x v v', dget? vs x = some v → dget? vs' x = some v' → RowNear D (D + 18) v v' ∧ UnitRow v

/-- `η` bounds the error of a distance of rows with `D` entries, and of means of at most `n` of them; about the root of `D + n` times `2^(-25)`. -/
def TextError (D n : Nat) (η : ℝ) : Prop := 0 ≤ η ∧ η ≤ 1 / 8 ∧ ((D : ℝ) + n + 21) / 2 ^ 50 ≤ η ^ 2

/-- The mean of rows: their sum, divided by their number. -/
noncomputable def rowMean (l : List (List ℝ)) : List ℝ := (l.tail.foldl (List.zipWith fun x y => x + y) (l.headD [])).map fun x => x / l.length

open Classical in
/-- COP-KMeans with rows, in exact arithmetic. -/
noncomputable def rowKmEnv {α : Type} (tolerance : ℝ) (enum : List Int → List Int) (shuffle : List α → List α) :
    KMeansEnv α (List ℝ) ℝ where
  metric := rowDist
  mean := rowMean
  small l := decide ((l.map fun p => rowDist p.1 p.2).sum < tolerance)
  enum := enum
  shuffle := shuffle

/-- In every pass of the run, the sum of the moves of the `k` centroids is not within `k * η` of the tolerance. -/
def RowMoveMargin {α : Type} [LinearOrder α] (η tolerance : ℝ) (env : KMeansEnv α (List ℝ) ℝ) (m : Manager α) (vectors : Dict α (List ℝ))
    (nb : Nat) : Prop :=
  ∀ C new C₁, RunCentroids env m vectors nb C → kmPass env m vectors nb C = .ok (new, C₁) → ∀ l : List (List ℝ × List ℝ),
    List.Forall₂ (fun k p => dget? C k = some p.1 ∧ dget? C₁ k = some p.2) (dkeys C) l →
      l.length * η < |(l.map fun p => rowDist p.1 p.2).sum - tolerance|

end Verif
