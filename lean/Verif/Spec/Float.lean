import Mathlib.Data.Rat.Defs
import Mathlib.Algebra.Order.Field.Rat
import Mathlib.Algebra.Order.Field.Power

/-
The numbers that a float can stand for.
-/

namespace Verif

/-- A binary64 number with unbounded exponent: at most 53 significant bits. -/
def IsFloat (x : ℚ) : Prop := ∃ m k : ℤ, |m| ≤ 2 ^ 53 ∧ x = m * 2 ^ k

/-- Adding up numbers from left to right with a rounding after each addition. -/
def roundedSum (rnd : ℚ → ℚ) (l : List ℚ) : ℚ := l.foldl (fun s x => rnd (s + x)) 0

end Verif
