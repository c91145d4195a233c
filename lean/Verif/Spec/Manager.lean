import Verif.Spec.Closure

/-
Specification vocabulary for the constraints manager, in terms of its API only.
-/

namespace Verif

variable {α : Type} [LinearOrder α]

/-- `get_added_constraint(x, y)` reports a constraint of type `t` (with some value). -/
def AddedAs (m : Manager α) (t : CType) (x y : α) : Prop := ∃ v, m.getAdded x y = .ok (some (t, v))

/-- Joined by a chain of added must-link constraints. -/
def MustLinked (m : Manager α) (x y : α) : Prop := Chain (AddedAs m .mustLink) x y

/-- An added cannot-link constraint joins the must-link class of `x` to that of `y`. -/
def CannotLinked (m : Manager α) (x y : α) : Prop :=
  Separated (AddedAs m .mustLink) (AddedAs m .cannotLink) x y

/-- A cluster assignment satisfies every added constraint. -/
def Satisfies (m : Manager α) (f : α → Nat) : Prop :=
  ∀ x y, (AddedAs m .mustLink x y → f x = f y) ∧ (AddedAs m .cannotLink x y → f x ≠ f y)

/-- A cluster assignment gives `x` and `y` the relation demanded by `t`. -/
def Agrees (f : α → Nat) (x y : α) : CType → Prop
  | .mustLink => f x = f y
  | .cannotLink => f x ≠ f y

/-- The managed IDs a history should produce: first occurrences of the initial list, then
additions at the end and removals. -/
def addNew (l : List α) (x : α) : List α := if x ∈ l then l else l ++ [x]

def idsAfter (l : List α) : Op α → List α
  | .addDataID x => addNew l x
  | .deleteDataID x => l.filter (· ≠ x)
  | _ => l

/-! ### Abstract store

The simplest description of a constraints manager: the list of IDs and, for each pair, the
annotation made. No table, no incremental update: inference is *defined* as the closure. -/

structure Store (α : Type) where
  ids : List α
  rel : α → α → Option CType

namespace Store

def ML (s : Store α) (x y : α) : Prop := Chain (fun u v => s.rel u v = some .mustLink) x y

def CL (s : Store α) (x y : α) : Prop :=
  Separated (fun u v => s.rel u v = some .mustLink) (fun u v => s.rel u v = some .cannotLink) x y

def init (ids : List α) : Store α where
  ids := ids.foldl addNew []
  rel x y := if x = y ∧ x ∈ ids then some .mustLink else none

/-- Annotate the unordered pair `x`, `y`. -/
def annotate (s : Store α) (x y : α) (o : Option CType) : Store α :=
  { s with rel := fun u v => if (u = x ∧ v = y) ∨ (u = y ∧ v = x) then o else s.rel u v }

/-- The new annotation contradicts what is known. -/
def Contradicts (s : Store α) (x y : α) : CType → Prop
  | .mustLink => s.CL x y
  | .cannotLink => s.ML x y

open Classical in
/-- Result and next store of a call. -/
noncomputable def step (s : Store α) : Op α → Except PyErr Bool × Store α
  | .addDataID x =>
    if x ∈ s.ids then (.error (.valueError "data_ID"), s)
    else (.ok true, { ids := s.ids ++ [x],
                      rel := fun u v => if u = x ∧ v = x then some .mustLink else s.rel u v })
  | .deleteDataID x =>
    if x ∉ s.ids then (.error (.valueError "data_ID"), s)
    else (.ok true, { ids := s.ids.filter (· ≠ x),
                      rel := fun u v => if u = x ∨ v = x then none else s.rel u v })
  | .addConstraint x y ty _ =>
    if x ∉ s.ids then (.error (.valueError "data_ID1"), s)
    else if y ∉ s.ids then (.error (.valueError "data_ID2"), s)
    else if ty = "MUST_LINK" then
      if s.Contradicts x y .mustLink then (.error (.valueError "conflict"), s)
      else (.ok true, if s.rel x y = none then s.annotate x y (some .mustLink) else s)
    else if ty = "CANNOT_LINK" then
      if s.Contradicts x y .cannotLink then (.error (.valueError "conflict"), s)
      else (.ok true, if s.rel x y = none then s.annotate x y (some .cannotLink) else s)
    else (.error (.valueError "constraint_type"), s)
  | .deleteConstraint x y =>
    if x ∉ s.ids then (.error (.valueError "data_ID1"), s)
    else if y ∉ s.ids then (.error (.valueError "data_ID2"), s)
    else (.ok true, s.annotate x y none)

/-- The results of all calls of a history, and the final store. -/
noncomputable def run (s : Store α) : List (Op α) → List (Except PyErr Bool) × Store α
  | [] => ([], s)
  | op :: ops => ((s.step op).1 :: (run (s.step op).2 ops).1, (run (s.step op).2 ops).2)

end Store

/-- The results of all calls of a history on the modelled manager. -/
def runResults (m : Manager α) : List (Op α) → List (Except PyErr Bool)
  | [] => []
  | op :: ops => resVal (op.call m) :: runResults (resState (op.call m)) ops

end Verif
