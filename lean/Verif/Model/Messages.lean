import Mathlib.Algebra.Order.Field.Basic
import Mathlib.Algebra.BigOperators.Group.List.Basic
import Verif.Model.Affinity

/-
The arithmetic that `Verif/Model/Affinity.lean` leaves open, in exact arithmetic: numbers are
elements of a linearly ordered field `κ`. All line numbers refer to
/repo/src/cognitivefactory/interactive_clustering/clustering/affinity_propagation.py

Simplifications:
* No rounding, no overflow. The distance of two vectors is a parameter.
* For a single point line 390 takes the maximum of `-inf` alone, and then lines 394 and 406 compute
  `inf` and `inf - inf`: the messages are NaN from then on and line 417 is `False`. This is the
  first case of `apUpdate`.
* An entry that is read outside the array (never for square arrays) is 0.
-/

namespace Verif

section
variable {κ : Type}

/-- `M[i, j]`; 0 outside the array. -/
def entry [Zero κ] (M : Mat κ) (i j : Nat) : κ := (mget? M i j).getD 0

/-- The array with the entries `f i j`. -/
def tabulate (n : Nat) (f : Nat → Nat → κ) : Mat κ := (List.range n).map fun i => (List.range n).map fun j => f i j

/-- The arrays `A` and `R`, lines 351-352. -/
structure ApMessages (κ : Type) where
  avail : Mat κ
  resp : Mat κ

variable [Field κ] [LinearOrder κ]

/-- `damping`, line 270: the value of the default. -/
def apDamping : κ := 1 / 2

/-- Line 386: row `i` of `A + Sp`. -/
def apSums (n : Nat) (Sp A : Mat κ) (i : Nat) : List κ := (List.range n).map fun k => entry A i k + entry Sp i k

/-- Line 387, one row: `np.argmax`. -/
def apTop (t : List κ) : Nat :=
  match npArgmax t with
  | .ok k => k
  | .error _ => 0

/-- Lines 386-394, row `i` of `tmp`: the similarities minus the greatest sum (`Y`), at the position of
the greatest sum minus the greatest of the other sums (`Y2`). -/
def apRespNew (n : Nat) (Sp A : Mat κ) (i : Nat) : List κ :=
  let t := apSums n Sp A i
  let I := apTop t
  let Y := (t[I]?).getD 0
  let Y2 := ((t.eraseIdx I).max?).getD 0
  (List.range n).map fun k => if k = I then entry Sp i k - Y2 else entry Sp i k - Y

/-- Lines 386-399: the damped responsibilities. -/
def apResp (n : Nat) (Sp A R : Mat κ) : Mat κ :=
  let tmp := (List.range n).map fun i => apRespNew n Sp A i
  tabulate n fun i k => entry R i k * apDamping + entry tmp i k * (1 - apDamping)

/-- Lines 402-403, the entry `tmp[i, k]`. -/
def apRp (R : Mat κ) (i k : Nat) : κ := if i = k then entry R i k else max (entry R i k) 0

/-- Lines 402-409: `tmp` with its diagonal put back. -/
def apAvailNew (n : Nat) (R : Mat κ) : Mat κ :=
  let sums := (List.range n).map fun k => ((List.range n).map fun i => apRp R i k).sum
  tabulate n fun i k =>
    let d := apRp R i k - (sums[k]?).getD 0
    if i = k then d else max d 0

/-- Lines 402-414: the damped availabilities. -/
def apAvail (n : Nat) (A R : Mat κ) : Mat κ :=
  let tmp := apAvailNew n R
  tabulate n fun i k => entry A i k * apDamping - entry tmp i k * (1 - apDamping)

/-- Lines 386-417: the new messages and `E`. -/
def apUpdate (Sp : Mat κ) (s : ApMessages κ) : ApMessages κ × List Bool :=
  let n := Sp.length
  if n ≤ 1 then (s, List.replicate n false)
  else
    let R := apResp n Sp s.avail s.resp
    let A := apAvail n s.avail R
    (⟨A, R⟩, (List.range n).map fun k => decide (0 < entry A k k + entry R k k))

/-- `np.median`: the middle entry, or the mean of the two middle entries. -/
def npMedian (M : Mat κ) : κ :=
  let l := M.flatten.insertionSort (· ≤ ·)
  if l.length % 2 = 1 then (l[l.length / 2]?).getD 0
  else ((l[l.length / 2 - 1]?).getD 0 + (l[l.length / 2]?).getD 0) / 2

/-- Line 316: `eps` and `tiny` are the constants of the type of numbers, `z` the random numbers. -/
def apNoise (eps tiny : κ) (z : Nat → Nat → κ) (S : Mat κ) : Mat κ :=
  S.mapIdx fun i row => row.mapIdx fun j s => s + (eps * s + tiny * 100) * z i j

/-- Line 379, 383: one slice `Q1[:, :, n]`, from `A`, `R` and `Q2[:, :, n]`. -/
def apQ1 (n : Nat) (s : ApMessages κ) (q2 : Mat κ) : Mat κ :=
  tabulate n fun m j => entry s.avail m j + entry s.resp m j - entry q2 m j

/-- Line 382: one slice of `-np.maximum(0, Q1)`. -/
def apQ2 (n : Nat) (q1 : Mat κ) : Mat κ := tabulate n fun m j => -max 0 (entry q1 m j)

/-- Line 439: the sums of the columns of `S` restricted to `ii`. -/
def apColsum (S : Mat κ) (ii : List Nat) : List κ := ii.map fun j => (ii.map fun i => entry S i j).sum

/-- Affinity propagation in exact arithmetic. The messages for the cannot-links are lists of slices
`(Q1[:, :, n], Q2[:, :, n])`; line 382 uses the old `Q1`. -/
def apExact {V : Type} (dist : V → V → κ) (eps tiny : κ) (z : Nat → Nat → κ) :
    ApEnv V κ (ApMessages κ) (Nat × List (Mat κ × Mat κ)) where
  dist := dist
  neg a := -a
  median := npMedian
  noise := apNoise eps tiny z
  zero := 0
  add := (· + ·)
  double a := 2 * a
  initM n := ⟨tabulate n fun _ _ => 0, tabulate n fun _ _ => 0⟩
  initQ n k := (n, List.replicate k (tabulate n fun _ _ => 0, tabulate n fun _ _ => 0))
  stepQ s q := (q.1, q.2.map fun w => (apQ1 q.1 s w.2, apQ2 q.1 w.1))
  q2 q m n := ((q.2[n]?).bind fun w => w.2[m]?).getD []
  update := apUpdate
  colsum := apColsum

end

end Verif
