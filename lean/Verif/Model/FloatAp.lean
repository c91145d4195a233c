import Mathlib.Data.Real.Basic
import Verif.Py.Float
import Verif.Model.Messages

/-
Affinity propagation with absolute must-links, with a rounding `rnd` after every operation on numbers, and a given
sum of a list (numpy adds the rows one after the other or in blocks). All line numbers refer to
/repo/src/cognitivefactory/interactive_clustering/clustering/affinity_propagation.py

Simplifications:
* No overflow and no loss of bits for very small numbers, unless `rnd` describes them.
* The messages of the cannot-links (lines 355-356, 369-383) are left out: with absolute must-links they are not used.
* The noise of line 316 is a parameter of `apFloat` (`apNoiseRnd` computes it), so are the distances of line 209.
* An entry that is read outside the array (never for square arrays) is 0.
-/

namespace Verif

section
variable {κ : Type} [Field κ] [LinearOrder κ]

/-- Lines 386-394, row `i` of `tmp`. -/
def apRespTmp (rnd : κ → κ) (n : Nat) (S A : Mat κ) (i : Nat) : List κ :=
  let t := (List.range n).map fun k => rnd (entry A i k + entry S i k)
  let I := apTop t
  let Y := (t[I]?).getD 0
  let Y2 := ((t.eraseIdx I).max?).getD 0
  (List.range n).map fun k => if k = I then rnd (entry S i k - Y2) else rnd (entry S i k - Y)

/-- Lines 386-399. -/
def apRespRnd (rnd : κ → κ) (n : Nat) (S A R : Mat κ) : Mat κ :=
  let tmp := (List.range n).map fun i => apRespTmp rnd n S A i
  tabulate n fun i k => rnd (rnd (entry R i k * apDamping) + rnd (entry tmp i k * (1 - apDamping)))

/-- Lines 402-409. -/
def apAvailTmp (rnd : κ → κ) (sum : List κ → κ) (n : Nat) (R : Mat κ) : Mat κ :=
  let sums := (List.range n).map fun k => sum ((List.range n).map fun i => apRp R i k)
  tabulate n fun i k =>
    let d := rnd (apRp R i k - (sums[k]?).getD 0)
    if i = k then d else max d 0

/-- Lines 402-414. -/
def apAvailRnd (rnd : κ → κ) (sum : List κ → κ) (n : Nat) (A R : Mat κ) : Mat κ :=
  let tmp := apAvailTmp rnd sum n R
  tabulate n fun i k => rnd (rnd (entry A i k * apDamping) - rnd (entry tmp i k * (1 - apDamping)))

/-- Lines 386-417. -/
def apUpdateRnd (rnd : κ → κ) (sum : List κ → κ) (S : Mat κ) (s : ApMessages κ) : ApMessages κ × List Bool :=
  let n := S.length
  if n ≤ 1 then (s, List.replicate n false)
  else
    let R := apRespRnd rnd n S s.avail s.resp
    let A := apAvailRnd rnd sum n s.avail R
    (⟨A, R⟩, (List.range n).map fun k => decide (0 < rnd (entry A k k + entry R k k)))

/-- `np.median`. -/
def medianRnd (rnd : κ → κ) (M : Mat κ) : κ :=
  let l := M.flatten.insertionSort (· ≤ ·)
  if l.length % 2 = 1 then (l[l.length / 2]?).getD 0
  else rnd (rnd ((l[l.length / 2 - 1]?).getD 0 + (l[l.length / 2]?).getD 0) / 2)

/-- Line 316; the random numbers `z` are given. -/
def apNoiseRnd (rnd : κ → κ) (eps tiny : κ) (z : Nat → Nat → κ) (S : Mat κ) : Mat κ :=
  S.mapIdx fun i row => row.mapIdx fun j s => rnd (s + rnd (rnd (rnd (eps * s) + rnd (tiny * 100)) * z i j))

/-- A sum in which the numbers are added one after the other. -/
def sumRnd (rnd : κ → κ) (l : List κ) : κ := l.foldl (fun s x => rnd (s + x)) 0

/-- Affinity propagation with rounding. -/
def apFloat {V : Type} (rnd : κ → κ) (sum : List κ → κ) (dist : V → V → κ) (noise : Mat κ → Mat κ) : ApEnv V κ (ApMessages κ) Unit where
  dist := dist
  neg a := -a
  median := medianRnd rnd
  noise := noise
  zero := 0
  add a b := rnd (a + b)
  double a := rnd (2 * a)
  initM n := ⟨tabulate n fun _ _ => 0, tabulate n fun _ _ => 0⟩
  initQ _ _ := ()
  stepQ _ _ := ()
  q2 _ _ _ := []
  update := apUpdateRnd rnd sum
  colsum S ii := ii.map fun j => sum (ii.map fun i => entry S i j)

end

open Classical in
/-- Rounding to binary64 (without limits of the exponent) on the reals. Only rational numbers occur in computations. -/
noncomputable def flReal (x : ℝ) : ℝ := if h : ∃ q : ℚ, (q : ℝ) = x then (fl h.choose : ℝ) else x

end Verif
