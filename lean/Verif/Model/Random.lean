import Verif.Py.Basic

/-
Model of `sample` and `shuffle` of python's module `random`, which `sampling/clusters_based.py:245` and
`clustering/kmeans.py:416` call. Line numbers refer to `Lib/random.py` of CPython 3.11 (the algorithms are the same in
3.8 to 3.12).

The numbers that `randbelow` returns are given as a list, in the order of the calls.
-/

namespace Verif

section
variable {ι : Type}

/-- `l[i]` for `i ≥ 0`. -/
def pyItem (l : List ι) (i : Nat) : Except PyErr ι :=
  match l[i]? with
  | some x => .ok x
  | none => .error .indexError

/-- Lines 461-468, from iteration `i` on: the list that `pool` is, of original length `n`, shrinks from the end. The result is
what is written to `result[i]`, `result[i + 1]`, …. -/
def pyPool (n : Nat) : Nat → List ι → List Nat → Except PyErr (List ι)
  | _, _, [] => .ok []
  | i, pool, j :: js => do
    let x ← pyItem pool j
    let y ← pyItem pool (n - i - 1)
    return x :: (← pyPool n (i + 1) (pool.set j y) js)

/-- `random.sample(population, k)`, lines 455-478, for `k = js.length`. `pool` tells which of the two branches is taken (`n <= setsize`,
line 461, a comparison with a number computed with floats). In the other branch (lines 469-477) numbers are drawn until a new
one comes; `js` are the new ones. -/
def pySample (pool : Bool) (js : List Nat) (population : List ι) : Except PyErr (List ι) :=
  if population.length < js.length then .error (.valueError "k")
  else if pool then pyPool population.length 0 population js
  else js.mapM (pyItem population)

/-- `random.sample` as the sampler model calls it (line 245 of `sampling/clusters_based.py`; `k` is `js.length`). -/
def pyPick (pool : Bool) (js : List Nat) (population : List ι) (_ : Nat) : List ι :=
  match pySample pool js population with
  | .ok r => r
  | .error _ => []

/-- `random.shuffle`, lines 380-383, from index `i` down to 1; a missing number is `outOfFuel`. -/
def pyShuffleFrom : Nat → List Nat → List ι → Except PyErr (List ι)
  | 0, _, x => .ok x
  | _ + 1, [], _ => .error .outOfFuel
  | i + 1, j :: js, x => do
    -- line 383: both items are read before they are written
    let a ← pyItem x j
    let b ← pyItem x (i + 1)
    pyShuffleFrom i js ((x.set (i + 1) a).set j b)

/-- `random.shuffle(x)`, lines 376-383: the list afterwards. -/
def pyShuffle (js : List Nat) (x : List ι) : Except PyErr (List ι) := pyShuffleFrom (x.length - 1) js x

/-- `random.shuffle` as the model of COP-KMeans calls it (line 416 of `clustering/kmeans.py`). -/
def pyShuffled (js : List Nat) (x : List ι) : List ι :=
  match pyShuffle js x with
  | .ok r => r
  | .error _ => x

end

end Verif
