import Verif.Spec.Hierarchical
import Verif.Model.HierExport

/-
Specification vocabulary for the export of the dendrogram.
-/

namespace Verif

variable {α V : Type}

mutual
/-- The cluster IDs of an exported tree. -/
def HTree.ids : HTree α → List Nat
  | .node id _ children _ _ => id :: HTree.allIds children
def HTree.allIds : List (HTree α) → List Nat
  | [] => []
  | t :: ts => t.ids ++ HTree.allIds ts
end

mutual
/-- The lists of members of the leaves of an exported tree. -/
def HTree.leaves : HTree α → List (List α)
  | .node _ _ children _ members => if children.isEmpty then [members] else HTree.allLeaves children
def HTree.allLeaves : List (HTree α) → List (List α)
  | [] => []
  | t :: ts => t.leaves ++ HTree.allLeaves ts
end

mutual
/-- The number of levels of an exported tree. -/
def HTree.levels : HTree α → Nat
  | .node _ _ children _ _ => HTree.maxLevels children + 1
def HTree.maxLevels : List (HTree α) → Nat
  | [] => 0
  | t :: ts => max t.levels (HTree.maxLevels ts)
end

/-- The tree `t` is the part of the dendrogram below `i`, with the values of every cluster. -/
inductive Exports (st : Dict Nat (HCluster α V)) : Nat → HTree α → Prop
  | node {i : Nat} {n : HCluster α V} {ts : List (HTree α)} : dget? st i = some n → List.Forall₂ (Exports st) n.children ts →
      Exports st i (.node i n.iteration ts n.depth n.members)

end Verif
