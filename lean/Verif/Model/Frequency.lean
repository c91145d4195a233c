import Mathlib.Data.List.Sort
import Mathlib.Data.List.Dedup
import Mathlib.Data.Rat.Defs
import Verif.Py.Basic
import Verif.Py.Float

/-
Model of `compute_clusters_frequency`,
/repo/src/cognitivefactory/interactive_clustering/utils/frequency.py, lines 21-53.
The quotients of line 48 are exact rationals in `clustersFrequency` and floats in `clustersFrequencyFloat`.
-/

namespace Verif

section
variable {α : Type} [DecidableEq α]

/-- `compute_clusters_frequency`, lines 21-53. -/
def clustersFrequency (clustering : Dict α Int) : Except PyErr (Dict Int Rat) := do
  -- line 33
  let n := (dkeys clustering).length
  -- lines 36-37
  if n = 0 then return []
  -- lines 40-42: a set comprehension, then `sorted`
  let values ← (dkeys clustering).mapM (dget clustering)
  let possible := values.dedup.insertionSort (· ≤ ·)
  -- lines 45-50
  let items ← possible.mapM fun c => do
    let members ← (dkeys clustering).filterM fun x => do return decide ((← dget clustering x) = c)
    return (c, (members.length : Rat) / (n : Rat))
  return dofList items

/-- The same with floats: python divides two integers by rounding the exact quotient. -/
def clustersFrequencyFloat (clustering : Dict α Int) : Except PyErr (Dict Int Rat) := do
  -- line 33
  let n := (dkeys clustering).length
  -- lines 36-37
  if n = 0 then return []
  -- lines 40-42
  let values ← (dkeys clustering).mapM (dget clustering)
  let possible := values.dedup.insertionSort (· ≤ ·)
  -- lines 45-50
  let items ← possible.mapM fun c => do
    let members ← (dkeys clustering).filterM fun x => do return decide ((← dget clustering x) = c)
    return (c, fl ((members.length : Rat) / (n : Rat)))
  return dofList items

end

end Verif
