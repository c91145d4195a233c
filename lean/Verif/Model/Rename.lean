import Mathlib.Data.List.Sort
import Verif.Py.Basic

/-
Model of `rename_clusters_by_order`,
/repo/src/cognitivefactory/interactive_clustering/clustering/abstract.py, lines 69-100.
-/

namespace Verif

section
variable {α : Type} [LinearOrder α]

/-- One iteration of the loop of lines 88-91. The state is
(`mapping_of_old_ID_to_new_ID`, `new_ID`). -/
def renameStep (clusters : Dict α Int) (s : Dict Int Int × Int) (x : α) : Except PyErr (Dict Int Int × Int) := do
  let c ← dget clusters x
  if c ∉ dkeys s.1 then return (dset s.1 c s.2, s.2 + 1) else return s

/-- `rename_clusters_by_order`, lines 69-100. `sorted` of a list of distinct IDs. -/
def renameClusters (clusters : Dict α Int) : Except PyErr (Dict α Int) := do
  -- line 83
  let ids := (dkeys clusters).insertionSort (· ≤ ·)
  -- lines 86-91
  let s ← ids.foldlM (renameStep clusters) ([], 0)
  -- lines 94-97
  let items ← ids.mapM fun x => do return (x, ← dget s.1 (← dget clusters x))
  return dofList items

end

end Verif
