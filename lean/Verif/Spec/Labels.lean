import Verif.Py.Basic
import Mathlib.Data.List.Sort

/-
Specification vocabulary for cluster labels.
-/

namespace Verif

/-- Labels are numbered in order of first appearance: a label that was not used before comes
exactly after the labels used before, which are `0, 1, …, c - 1`. -/
def FirstAppearanceOrder (l : List Int) : Prop :=
  ∀ p c s, l = p ++ c :: s → c ∈ p ∨ (0 ≤ c ∧ ∀ d, d ∈ p ↔ 0 ≤ d ∧ d < c)

/-- The labels are exactly `0, 1, …, k - 1`. -/
def LabelsAre (l : List Int) (k : Nat) : Prop := ∀ d : Int, d ∈ l ↔ 0 ≤ d ∧ d < k

/-- Two labellings group the IDs `ids` in the same way. -/
def SamePartition {α : Type} [DecidableEq α] (ids : List α) (f g : Dict α Int) : Prop :=
  ∀ x ∈ ids, ∀ y ∈ ids, (dget? f x = dget? f y ↔ dget? g x = dget? g y)

end Verif
