import Mathlib.Order.Defs.LinearOrder
import Verif.Py.Basic

/-
Model of `constraints/binary.py`, class `BinaryConstraintsManager`.
All line numbers refer to
/repo/src/cognitivefactory/interactive_clustering/constraints/binary.py
-/

namespace Verif

/-- The two allowed constraint types (`self._allowed_constraint_types`, lines 81-84). -/
inductive CType where
  | mustLink
  | cannotLink
  deriving DecidableEq, Repr, Inhabited

/-- The python strings of the constraint types, lines 81-84. -/
def CType.toStr : CType → String
  | .mustLink => "MUST_LINK"
  | .cannotLink => "CANNOT_LINK"

/-- The membership test `constraint_type in self._allowed_constraint_types` (lines 252, 728)
together with the decoding of the string. Inside the model types are kept decoded; the code
compares the strings. -/
def CType.parse? (s : String) : Option CType :=
  if s = "MUST_LINK" then some .mustLink
  else if s = "CANNOT_LINK" then some .cannotLink
  else none

/-- `self._constraints_transitivity[data_ID]`, lines 110-116: a dict with the two keys
`"MUST_LINK"` and `"CANNOT_LINK"`, each an ordered set (`Dict[str, None]`). -/
structure TEntry (α : Type) where
  ml : List α
  cl : List α
  deriving DecidableEq, Repr

/-- An added constraint `(constraint_type, constraint_value)`; values are floats in the code,
only the literal `1.0` is ever stored. -/
abbrev Stored := CType × Rat

/-- `self._constraints_dictionary` (lines 95-106) and `self._constraints_transitivity`
(lines 110-116). The other attributes are constants. -/
structure Manager (α : Type) where
  dict : Dict α (Dict α (Option Stored))
  trans : Dict α (TEntry α)
  deriving DecidableEq, Repr

/-- A mutating method: runs on the manager, returns a result or raises, and in both cases
leaves a manager behind. -/
abbrev MgrM (α β : Type) := EStateM PyErr (Manager α) β

section
variable {α : Type} [LinearOrder α]

/-- Transitivity entry of an isolated ID, lines 111-114, 156-159, 591-594. -/
def TEntry.fresh (x : α) : TEntry α := { ml := [x], cl := [] }

/-- `__init__`, lines 70-116. -/
def Manager.init (ids : List α) : Manager α where
  dict := dofList (ids.map fun x =>
    (x, dofList ((ids.filter fun y => decide (x ≤ y)).map fun y =>
      (y, if x = y then some (CType.mustLink, (1 : Rat)) else none))))
  trans := dofList (ids.map fun x => (x, TEntry.fresh x))

/-- `get_list_of_managed_data_IDs`, lines 204-215. -/
def Manager.managed (m : Manager α) : List α := dkeys m.dict

/-- `get_added_constraint`, lines 353-386. -/
def Manager.getAdded (m : Manager α) (x y : α) : Except PyErr (Option Stored) := do
  if x ∉ dkeys m.dict then throw (.valueError "data_ID1")
  if y ∉ dkeys m.dict then throw (.valueError "data_ID2")
  if x ≤ y then
    dget (← dget m.dict x) y
  else
    dget (← dget m.dict y) x

/-- `get_inferred_constraint`, lines 391-430; the `threshold` argument is never read
(it is kept here so that this is visible). -/
def Manager.getInferred (m : Manager α) (x y : α) (_threshold : Rat := 1) :
    Except PyErr (Option CType) := do
  if x ∉ dkeys m.trans then throw (.valueError "data_ID1")
  if y ∉ dkeys m.trans then throw (.valueError "data_ID2")
  let e ← dget m.trans y
  if x ∈ e.ml then return some .mustLink
  if x ∈ e.cl then return some .cannotLink
  return none

/-- Assignment `T[x]["MUST_LINK"] = ml`, line 654. -/
def setML (x : α) (ml : List α) : EStateM PyErr (Dict α (TEntry α)) Unit := fun T =>
  match dget? T x with
  | none => .error .keyError T
  | some e => .ok () (dset T x { e with ml := ml })

/-- Assignment `T[x]["CANNOT_LINK"] = cl`, lines 656, 661, 685, 690. -/
def setCL (x : α) (cl : List α) : EStateM PyErr (Dict α (TEntry α)) Unit := fun T =>
  match dget? T x with
  | none => .error .keyError T
  | some e => .ok () (dset T x { e with cl := cl })

/-- Read access `T[x]`. -/
def readT (x : α) : EStateM PyErr (Dict α (TEntry α)) (TEntry α) := fun T =>
  match dget? T x with
  | none => .error .keyError T
  | some e => .ok e T

/-- `_add_constraint_transitivity`, lines 614-693, acting on `self._constraints_transitivity`. -/
def addTrans (x y : α) (t : CType) : EStateM PyErr (Dict α (TEntry α)) Bool := do
  match t with
  | .mustLink =>
    -- lines 639-649
    let newML := ounion (← readT x).ml (← readT y).ml
    let newCL := ounion (← readT x).cl (← readT y).cl
    -- lines 652-656
    newML.forM fun z => do
      setML z newML
      setCL z newCL
    -- lines 659-664
    newCL.forM fun z => do
      setCL z (ounion (← readT z).cl newML)
  | .cannotLink =>
    -- lines 671-680
    let newCLx := ounion (← readT x).cl (← readT y).ml
    let newCLy := ounion (← readT y).cl (← readT x).ml
    -- lines 683-690
    (← readT x).ml.forM fun z => setCL z newCLx
    (← readT y).ml.forM fun z => setCL z newCLy
  return true

/-- Run an action on the transitivity table inside the manager. -/
def onTrans {β : Type} (act : EStateM PyErr (Dict α (TEntry α)) β) : MgrM α β := fun m =>
  match act m.trans with
  | .ok b T => .ok b { m with trans := T }
  | .error e T => .error e { m with trans := T }

/-- `_generate_constraints_transitivity`, lines 580-609. -/
def Manager.regenerate : MgrM α Unit := do
  -- lines 590-596
  modify fun m => { m with trans := dofList ((dkeys m.dict).map fun x => (x, TEntry.fresh x)) }
  -- lines 598-609
  let m ← get
  m.dict.forM fun row => row.2.forM fun cell =>
    match cell.2 with
    | none => pure ()
    | some c => do let _ ← onTrans (addTrans row.1 cell.1 c.1)

/-- One iteration of the loop of `add_data_ID`, lines 147-152. -/
def addIdStep (x other : α) : MgrM α Unit := fun m =>
  if x = other then
    match dget? m.dict x with
    | none => .error .keyError m
    | some row => .ok () { m with dict := dset m.dict x (dset row x (some (.mustLink, 1))) }
  else if x < other then
    match dget? m.dict x with
    | none => .error .keyError m
    | some row => .ok () { m with dict := dset m.dict x (dset row other none) }
  else
    match dget? m.dict other with
    | none => .error .keyError m
    | some row => .ok () { m with dict := dset m.dict other (dset row x none) }

/-- `add_data_ID`, lines 121-162. -/
def Manager.addDataID (x : α) : MgrM α Bool := do
  if x ∈ dkeys (← get).dict then throw (.valueError "data_ID")
  -- line 143
  modify fun m => { m with dict := dset m.dict x [] }
  -- lines 146-152
  (dkeys (← get).dict).forM fun other => addIdStep x other
  -- lines 156-159
  modify fun m => { m with trans := dset m.trans x (TEntry.fresh x) }
  return true

/-- `delete_data_ID`, lines 167-199. The `for` loop of lines 192-193 pops the ID from each row. -/
def Manager.deleteDataID (x : α) : MgrM α Bool := do
  if x ∉ dkeys (← get).dict then throw (.valueError "data_ID")
  -- line 189
  modify fun m => { m with dict := dpop m.dict x }
  -- lines 192-193
  modify fun m => { m with dict := m.dict.map fun row => (row.1, dpop row.2 x) }
  -- line 196
  Manager.regenerate
  return true

/-- `self._constraints_dictionary[x][y] = v` with `x` a key, lines 294-297, 339-342. -/
def setCell (x y : α) (v : Option Stored) : MgrM α Unit := fun m =>
  match dget? m.dict x with
  | none => .error .keyError m
  | some row => .ok () { m with dict := dset m.dict x (dset row y v) }

/-- Lift a getter into a method. -/
def liftGet {β : Type} (f : Manager α → Except PyErr β) : MgrM α β := fun m =>
  match f m with
  | .ok b => .ok b m
  | .error e => .error e m

/-- `add_constraint`, lines 220-306; `constraint_value` is never read. -/
def Manager.addConstraint (x y : α) (ty : String) (_value : Rat := 1) : MgrM α Bool := do
  if x ∉ dkeys (← get).dict then throw (.valueError "data_ID1")
  if y ∉ dkeys (← get).dict then throw (.valueError "data_ID2")
  match CType.parse? ty with
  | none => throw (.valueError "constraint_type")
  | some t =>
    let inferred ← liftGet (fun m => m.getInferred x y)
    -- lines 268-279
    if inferred.isSome ∧ inferred ≠ some t then throw (.valueError "conflict")
    let added ← liftGet (fun m => m.getAdded x y)
    -- lines 288-290
    if added.isSome then return true
    -- lines 294-297
    if x ≤ y then setCell x y (some (t, 1)) else setCell y x (some (t, 1))
    -- lines 300-304
    let _ ← onTrans (addTrans x y t)
    return true

/-- `delete_constraint`, lines 311-348. -/
def Manager.deleteConstraint (x y : α) : MgrM α Bool := do
  if x ∉ dkeys (← get).dict then throw (.valueError "data_ID1")
  if y ∉ dkeys (← get).dict then throw (.valueError "data_ID2")
  if x ≤ y then setCell x y none else setCell y x none
  Manager.regenerate
  return true

/-- `get_connected_components`, lines 435-465. The lookups `self._constraints_transitivity[k]`
are over its own keys, so the loop is over the items. -/
def Manager.components (m : Manager α) : List (List α) :=
  m.trans.foldl (fun acc p => if p.2.ml ∈ acc then acc else acc ++ [p.2.ml]) []

/-- `check_completude_of_constraints`, lines 470-496. -/
def Manager.complete (m : Manager α) : Bool :=
  m.trans.all fun p => decide (p.2.ml.length + p.2.cl.length = m.trans.length)

/-- `get_list_of_involved_data_IDs_in_a_constraint_conflict`, lines 698-749. -/
def Manager.conflictIDs (m : Manager α) (x y : α) (ty : String) :
    Except PyErr (Option (List α)) := do
  if x ∉ dkeys m.dict then throw (.valueError "data_ID1")
  if y ∉ dkeys m.dict then throw (.valueError "data_ID2")
  match CType.parse? ty with
  | none => throw (.valueError "constraint_type")
  | some t =>
    let inferred ← m.getInferred x y
    -- lines 738-746
    if inferred.isSome ∧ some t ≠ inferred then
      return some ((m.components.filter fun c => decide (x ∈ c ∨ y ∈ c)).flatten)
    return none

end

/-- One call of a mutating API method (used to quantify over histories). -/
inductive Op (α : Type) where
  | addDataID (x : α)
  | deleteDataID (x : α)
  | addConstraint (x y : α) (ty : String) (value : Rat)
  | deleteConstraint (x y : α)
  deriving Repr

section
variable {α : Type} [LinearOrder α]

/-- The call itself. -/
def Op.call : Op α → MgrM α Bool
  | .addDataID x => Manager.addDataID x
  | .deleteDataID x => Manager.deleteDataID x
  | .addConstraint x y ty v => Manager.addConstraint x y ty v
  | .deleteConstraint x y => Manager.deleteConstraint x y

/-- The manager left behind by a call, whether it returned or raised. -/
def resState {ε σ β : Type} : EStateM.Result ε σ β → σ
  | .ok _ s => s
  | .error _ s => s

/-- The value returned or the exception raised by a call. -/
def resVal {ε σ β : Type} : EStateM.Result ε σ β → Except ε β
  | .ok b _ => .ok b
  | .error e _ => .error e

/-- The manager after a history of calls; a raising call does not stop the history (the user
catches the exception and goes on). -/
def runOps (m : Manager α) : List (Op α) → Manager α
  | [] => m
  | op :: ops => runOps (resState (op.call m)) ops

/-- A manager that some history of API calls can produce. -/
def Reachable (m : Manager α) : Prop := ∃ (ids : List α) (ops : List (Op α)), m = runOps (Manager.init ids) ops

end

end Verif
