import Mathlib.Algebra.Order.Floor.Defs
import Mathlib.Algebra.Order.Floor.Ring
import Mathlib.Data.Rat.Floor
import Mathlib.Algebra.Order.Field.Power

/-
Python floats (IEEE 754 binary64) as the rational numbers they stand for. The exponent is not bounded: overflow, underflow, infinities,
NaN and the sign of zero are not modelled.
-/

namespace Verif

/-- Rounding to an integer, to nearest, ties to even. -/
def roundEven (x : ℚ) : ℤ :=
  if x - ⌊x⌋ < 1 / 2 then ⌊x⌋
  else if 1 / 2 < x - ⌊x⌋ then ⌊x⌋ + 1
  else if ⌊x⌋ % 2 = 0 then ⌊x⌋ else ⌊x⌋ + 1

/-- The exponent of a rational number: `2 ^ e ≤ |q| < 2 ^ (e + 1)`. -/
def binExp (q : ℚ) : ℤ :=
  let e : ℤ := (Nat.log2 q.num.natAbs : ℤ) - (Nat.log2 q.den : ℤ)
  if |q| < (2 : ℚ) ^ e then e - 1 else e

/-- The float nearest to a rational number: 53 significant bits, ties to even. Every arithmetic operation of floats (and the division of
two integers) is the exact operation followed by this rounding. -/
def fl (q : ℚ) : ℚ := (roundEven (q / 2 ^ (binExp q - 52)) : ℚ) * 2 ^ (binExp q - 52)

/-- `sqrt` of a float: the float nearest to the square root, ties to even. `t` and `t + 1` are the two candidates in units of `u`. -/
def flSqrt (q : ℚ) : ℚ :=
  if q ≤ 0 then 0
  else
    let u : ℚ := 2 ^ (binExp q / 2 - 52)
    let t : ℕ := Nat.sqrt ⌊q / u ^ 2⌋.toNat
    let mid : ℚ := ((t : ℚ) + 1 / 2) ^ 2 * u ^ 2
    if q < mid then t * u
    else if mid < q then (t + 1) * u
    else if t % 2 = 0 then t * u else (t + 1) * u

end Verif
