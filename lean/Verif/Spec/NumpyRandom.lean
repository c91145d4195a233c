import Mathlib.Algebra.Order.Field.Rat

/-
What is needed of the generator behind `np.random` and of the rounding of numpy's doubles.
-/

namespace Verif

/-- In the states `Good`, the generator gives words of 32 bits and stays in such states. -/
def WordSource {S : Type} (next : S → Nat × S) (Good : S → Prop) : Prop := ∀ s, Good s → (next s).1 < 2 ^ 32 ∧ Good (next s).2

/-- The rounding keeps 1 and positive numbers. -/
def KeepsOne (rnd : ℚ → ℚ) : Prop := rnd 1 = 1 ∧ ∀ x, 0 < x → 0 < rnd x

end Verif
