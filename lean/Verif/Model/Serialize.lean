import Verif.Model.Constraints

/-
Model of `to_json` and `load_constraints_manager_from_json`,
/repo/src/cognitivefactory/interactive_clustering/constraints/binary.py, lines 754-830,
at the level of the decoded JSON document (the text is in `Model/Json.lean`).
-/

namespace Verif

/-- One entry of `"list_of_added_constraints"`, lines 774-779. -/
structure SavedConstraint (α : Type) where
  id1 : α
  id2 : α
  type : String
  value : Rat
  deriving DecidableEq, Repr

/-- The document written by `to_json`, lines 771-786. -/
structure Saved (α : Type) where
  ids : List α
  constraints : List (SavedConstraint α)
  deriving DecidableEq, Repr

section
variable {α : Type} [LinearOrder α]

/-- `to_json`, lines 769-787: the managed IDs, and every stored constraint in the order of the
dictionary, with the value forced to 1.0. -/
def Manager.save (m : Manager α) : Saved α where
  ids := m.managed
  constraints := m.dict.flatMap fun row => row.2.filterMap fun cell =>
    cell.2.map fun s => ⟨row.1, cell.1, s.1.toStr, 1⟩

/-- `load_constraints_manager_from_json`, lines 816-828: a blank manager, then one
`add_constraint` per saved constraint; an exception of `add_constraint` propagates. -/
def loadManager (s : Saved α) : Except PyErr (Manager α) :=
  s.constraints.foldlM (fun m c =>
    match Manager.addConstraint c.id1 c.id2 c.type 1 m with
    | .ok _ m' => .ok m'
    | .error e _ => .error e) (Manager.init s.ids)

end

end Verif
