import Mathlib.Data.Rat.Defs
import Mathlib.Data.List.Basic
import Verif.Py.Basic
import Verif.Spec.Labels
import Verif.Spec.Float

/-
Specification vocabulary for cluster frequencies.
-/

namespace Verif

/-- `f` lists the used labels of `d` in increasing order, each with the positive quotient of its number of members
by the number of IDs, and the frequencies sum to 1. -/
structure FrequenciesOf {α : Type} [DecidableEq α] (d : Dict α Int) (f : Dict Int Rat) : Prop where
  sorted : (dkeys f).Pairwise (· < ·)
  keys : ∀ c, c ∈ dkeys f ↔ ∃ x, dget? d x = some c
  quotient : ∀ c q, dget? f c = some q → 0 < q ∧ ∃ S : List α, S.Nodup ∧ (∀ x, x ∈ S ↔ dget? d x = some c) ∧
    q * d.length = S.length
  total : (dvals f).sum = 1

/-- `g` lists the used labels of `d` in increasing order, each with a float nearest to the quotient of its number of members by the
number of IDs; these floats are positive and at most 1. -/
structure FloatFrequenciesOf {α : Type} [DecidableEq α] (d : Dict α Int) (g : Dict Int Rat) : Prop where
  sorted : (dkeys g).Pairwise (· < ·)
  keys : ∀ c, c ∈ dkeys g ↔ ∃ x, dget? d x = some c
  value : ∀ c q, dget? g c = some q → IsFloat q ∧ 0 < q ∧ q ≤ 1 ∧ ∃ S : List α, S.Nodup ∧ (∀ x, x ∈ S ↔ dget? d x = some c) ∧
    ∀ y, IsFloat y → |q - (S.length : ℚ) / (d.length : ℚ)| ≤ |y - (S.length : ℚ) / (d.length : ℚ)|

end Verif
