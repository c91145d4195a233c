import Verif.Model.Ieee
import Verif.Spec.FloatTfidf
import Verif.Spec.Float

/-
Specification vocabulary for C125: the range of binary64.
-/

namespace Verif

/-- A multiple of the smallest positive number of binary64. -/
def Grid (q : ℚ) : Prop := ∃ z : ℤ, q = z / 2 ^ 1074

/-- The finite numbers of binary64. -/
def Is64 (x : ℚ) : Prop := IsFloat x ∧ Grid x ∧ |x| < 2 ^ 1024

/-- A number of binary64 that is 0 or between `2^(-t)` and `2^t`. -/
def Entry64 (t : Nat) (x : ℚ) : Prop := IsFloat x ∧ (x = 0 ∨ 1 / 2 ^ t ≤ |x|) ∧ |x| ≤ 2 ^ t

/-- As `FlCalc.Ok`. -/
structure FlCalc64.Ok (c : FlCalc64) : Prop where
  log : ∀ x : ℚ, 0 < x → |(c.log x : ℝ) - Real.log x| ≤ |Real.log x| / 2 ^ 50
  dot : ∀ l, FlDot64 l (c.dot l)

/-- At most `2^40` texts, with at most `2^40` terms (counted with repetition). -/
def FewTexts (e : TfidfEnv) (texts : List (List Char)) : Prop :=
  texts.length ≤ 2 ^ 40 ∧ (texts.map (tfTerms e)).flatten.length ≤ 2 ^ 40

/-- The entries of the vectors are not negative, and 0 or between `2^(-200)` and `2^200`. -/
def Rows64 {α : Type} [LinearOrder α] (vs : Dict α (List ℚ)) : Prop :=
  ∀ x v, dget? vs x = some v → ∀ a ∈ v, 0 ≤ a ∧ Entry64 200 a

end Verif
