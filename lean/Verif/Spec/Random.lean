import Mathlib.Data.List.Basic

/-
What the numbers drawn by `randbelow` can be: any numbers below the bounds that the code gives. That `randbelow` draws each of
them equally often is what "random" means; the theorems count lists of numbers.
-/

namespace Verif

/-- The numbers drawn by `random.sample` for `k` of `n` elements: below `n`, `n - 1`, … in the branch with the pool, and distinct numbers
below `n` in the other. -/
def SampleDraws (pool : Bool) (n k : Nat) (js : List Nat) : Prop :=
  js.length = k ∧ if pool then ∀ i j, js[i]? = some j → j < n - i else js.Nodup ∧ ∀ j ∈ js, j < n

/-- The numbers drawn by `random.shuffle` for `n` elements: below `n`, `n - 1`, …, `2`. -/
def ShuffleDraws (n : Nat) (js : List Nat) : Prop :=
  js.length = n - 1 ∧ ∀ i j, js[i]? = some j → j < n - i

/-- The ways to choose `k` elements of the list, in order. -/
def Arrangement {ι : Type} (l : List ι) (k : Nat) (r : List ι) : Prop := r.Nodup ∧ r.length = k ∧ ∀ x ∈ r, x ∈ l

end Verif
