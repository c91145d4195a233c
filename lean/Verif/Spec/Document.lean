import Verif.Model.Json
import Verif.Spec.Manager

/-
What a JSON document says, for `load_constraints_manager_from_json`: the listed IDs and the listed
constraints, read off the document without any constraints manager.
-/

namespace Verif

/-- The object `v` has the value `w` under `key`. -/
def HasField (v : JVal) (key : String) (w : JVal) : Prop := ∃ l, v = .obj l ∧ l.lookup (lit key) = some w

/-- What a `for` loop over a decoded value sees. -/
inductive ItemsOf : JVal → List JVal → Prop where
  | arr (l) : ItemsOf (.arr l) l
  | str (s) : ItemsOf (.str s) (s.map fun c => .str [c])
  | obj (l) : ItemsOf (.obj l) (l.map fun p => .str p.1)

/-- The entry `v` lists the constraint `c = (ID, ID, type)`. Other keys do not matter. -/
def EntryOf (v : JVal) (c : PyStr × PyStr × CType) : Prop :=
  HasField v "data_ID1" (.str c.1) ∧ HasField v "data_ID2" (.str c.2.1) ∧
    HasField v "constraint_type" (.str (lit c.2.2.toStr))

/-- The document `v` lists the IDs `ids` and the constraints `cs`. -/
def Document (v : JVal) (ids : List PyStr) (cs : List (PyStr × PyStr × CType)) : Prop :=
  ∃ a b es, HasField v "list_of_managed_data_IDs" a ∧ ItemsOf a (ids.map .str) ∧
    HasField v "list_of_added_constraints" b ∧ ItemsOf b es ∧ List.Forall₂ EntryOf es cs

/-- The constraint of type `t` between `x` and `y` is listed, in one of the two directions. -/
def ListedAs {α : Type} (cs : List (α × α × CType)) (t : CType) (x y : α) : Prop := (x, y, t) ∈ cs ∨ (y, x, t) ∈ cs

/-- The constraints concern listed IDs only. -/
def IDsListed {α : Type} (ids : List α) (cs : List (α × α × CType)) : Prop := ∀ c ∈ cs, c.1 ∈ ids ∧ c.2.1 ∈ ids

/-- Some assignment of clusters satisfies all the listed constraints. -/
def JointlySatisfiable {α : Type} (cs : List (α × α × CType)) : Prop := ∃ f : α → Nat, ∀ c ∈ cs, Agrees f c.1 c.2.1 c.2.2

end Verif
