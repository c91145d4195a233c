import Verif.Model.Constraints

/-
Second model of `constraints/binary.py`, in which dictionaries are objects with an address, so that
two names can refer to the same dictionary and assignments change it in place. It is there to justify
`Verif/Model/Constraints.lean`, where dictionaries are values. All line numbers refer to
/repo/src/cognitivefactory/interactive_clustering/constraints/binary.py

Three kinds of dictionary objects are shared or changed in place:
* the sets `self._constraints_transitivity[x]["MUST_LINK"]` and `[...]["CANNOT_LINK"]`: the same object is
  assigned to many IDs (lines 654, 656, 685, 690);
* the entries `self._constraints_transitivity[x]`, changed in place (lines 654, 656, 661, 685, 690);
* the rows `self._constraints_dictionary[x]`, changed in place (lines 148-152, 193, 295-297, 340-342).

The two outer dictionaries are attributes that are never handed out, and no loop over their keys, or over
the keys of a row, changes the keys it goes over (lines 146, 192, 455, 486, 598, 599): those loops are over
the keys at the start. The loops over set objects (lines 652, 659, 683, 688) look at the object again at
each step. Objects are never freed here. `threshold` and `constraint_value` are never read.
-/

namespace Verif

/-- The transitivity table: objects and the outer dictionary. -/
structure THeap (α : Type) where
  /-- set objects -/
  sets : List (List α)
  /-- entry objects: addresses of the values of the keys "MUST_LINK" and "CANNOT_LINK" -/
  entries : List (Nat × Nat)
  /-- `self._constraints_transitivity`: ID to address of its entry -/
  table : Dict α Nat
  deriving DecidableEq, Repr

/-- The manager: row objects, `self._constraints_dictionary` (ID to address of its row), and the
transitivity table. -/
structure HeapManager (α : Type) where
  rows : List (Dict α (Option Stored))
  dict : Dict α Nat
  trans : THeap α
  deriving DecidableEq, Repr

abbrev THeapM (α β : Type) := EStateM PyErr (THeap α) β
abbrev HeapM (α β : Type) := EStateM PyErr (HeapManager α) β

section
variable {α : Type} [LinearOrder α]

/-! ### Objects -/

/-- Create a set object. -/
def newSet (s : List α) : THeapM α Nat := fun t => .ok t.sets.length { t with sets := t.sets ++ [s] }

/-- Content of a set object. (Addresses are never dangling; `indexError` says so.) -/
def setAt (a : Nat) : THeapM α (List α) := fun t =>
  match t.sets[a]? with
  | some s => .ok s t
  | none => .error .indexError t

/-- Create an entry object. -/
def newEntry (ml cl : Nat) : THeapM α Nat := fun t => .ok t.entries.length { t with entries := t.entries ++ [(ml, cl)] }

/-- `self._constraints_transitivity[x]["MUST_LINK"]`: the address of the set object. -/
def heapML (x : α) : THeapM α Nat := fun t =>
  match dget? t.table x with
  | none => .error .keyError t
  | some e => match t.entries[e]? with
    | some p => .ok p.1 t
    | none => .error .indexError t

/-- `self._constraints_transitivity[x]["CANNOT_LINK"]`: the address of the set object. -/
def heapCL (x : α) : THeapM α Nat := fun t =>
  match dget? t.table x with
  | none => .error .keyError t
  | some e => match t.entries[e]? with
    | some p => .ok p.2 t
    | none => .error .indexError t

/-- `self._constraints_transitivity[x]["MUST_LINK"] = s`: the entry object is changed in place. -/
def assignML (x : α) (s : Nat) : THeapM α Unit := fun t =>
  match dget? t.table x with
  | none => .error .keyError t
  | some e => match t.entries[e]? with
    | some p => .ok () { t with entries := t.entries.set e (s, p.2) }
    | none => .error .indexError t

/-- `self._constraints_transitivity[x]["CANNOT_LINK"] = s`. -/
def assignCL (x : α) (s : Nat) : THeapM α Unit := fun t =>
  match dget? t.table x with
  | none => .error .keyError t
  | some e => match t.entries[e]? with
    | some p => .ok () { t with entries := t.entries.set e (p.1, s) }
    | none => .error .indexError t

/-- The steps of `for z in s.keys(): body`, where `n` is the size at the start and `i` the position:
the dictionary object is looked at again at each step, and python raises `RuntimeError` when its size
has changed. -/
def liveSteps (a n : Nat) (body : α → THeapM α Unit) : Nat → Nat → THeapM α Unit
  | 0, _ => do
    if (← setAt a).length ≠ n then throw .runtimeError
  | k + 1, i => do
    let s ← setAt a
    if s.length ≠ n then throw .runtimeError
    match s[i]? with
    | none => throw .indexError
    | some z => body z
    liveSteps a n body k (i + 1)

/-- `for z in s.keys(): body` over the set object at address `a`. -/
def forLive (a : Nat) (body : α → THeapM α Unit) : THeapM α Unit := do
  let n := (← setAt a).length
  liveSteps a n body n 0

/-- `{**a, **b}`: a new set object. -/
def mergedSet (a b : Nat) : THeapM α Nat := do newSet (ounion (← setAt a) (← setAt b))

/-- `_add_constraint_transitivity`, lines 614-693. -/
def addTransH (x y : α) (t : CType) : THeapM α Bool := do
  match t with
  | .mustLink =>
    -- lines 639-649
    let newML ← mergedSet (← heapML x) (← heapML y)
    let newCL ← mergedSet (← heapCL x) (← heapCL y)
    -- lines 652-656
    forLive newML fun z => do
      assignML z newML
      assignCL z newCL
    -- lines 659-664
    forLive newCL fun z => do
      assignCL z (← mergedSet (← heapCL z) newML)
  | .cannotLink =>
    -- lines 671-680
    let newCLx ← mergedSet (← heapCL x) (← heapML y)
    let newCLy ← mergedSet (← heapCL y) (← heapML x)
    -- lines 683-690
    forLive (← heapML x) fun z => assignCL z newCLx
    forLive (← heapML y) fun z => assignCL z newCLy
  return true

/-- `{data_ID: {"MUST_LINK": {data_ID: None}, "CANNOT_LINK": {}} for data_ID in ids}`, lines 110-116 and
590-596: new objects for each ID. -/
def freshTable (ids : List α) : THeapM α (Dict α Nat) :=
  ids.foldlM (fun d x => do
    let ml ← newSet [x]
    let cl ← newSet []
    return dset d x (← newEntry ml cl)) []

/-! ### The manager -/

/-- Run an action on the transitivity table inside the manager. -/
def onTransH {β : Type} (act : THeapM α β) : HeapM α β := fun h =>
  match act h.trans with
  | .ok b t => .ok b { h with trans := t }
  | .error e t => .error e { h with trans := t }

/-- Create a row object. -/
def newRow (r : Dict α (Option Stored)) : HeapM α Nat := fun h => .ok h.rows.length { h with rows := h.rows ++ [r] }

/-- `self._constraints_dictionary[x]`: address of the row and its content. -/
def heapRow (x : α) : HeapM α (Nat × Dict α (Option Stored)) := fun h =>
  match dget? h.dict x with
  | none => .error .keyError h
  | some a => match h.rows[a]? with
    | some r => .ok (a, r) h
    | none => .error .indexError h

/-- Change the row object at address `a`. -/
def writeRow (a : Nat) (r : Dict α (Option Stored)) : HeapM α Unit := fun h => .ok () { h with rows := h.rows.set a r }

/-- `self._constraints_dictionary[x][y] = v`, lines 148-152, 295-297, 340-342. -/
def assignCell (x y : α) (v : Option Stored) : HeapM α Unit := do
  let (a, r) ← heapRow x
  writeRow a (dset r y v)

/-- `__init__`, lines 70-116, on an empty heap. -/
def HeapManager.init (ids : List α) : EStateM.Result PyErr (HeapManager α) Unit :=
  (do
    -- lines 95-106: each row is a new dictionary
    let d ← ids.foldlM (fun (d : Dict α Nat) x => do
      return dset d x (← newRow (dofList ((ids.filter fun y => decide (x ≤ y)).map fun y =>
        (y, if x = y then some (CType.mustLink, (1 : Rat)) else none))))) []
    modify fun h => { h with dict := d }
    -- lines 110-116
    onTransH (do
      let d ← freshTable ids
      modify fun t => { t with table := d }) : HeapM α Unit) ⟨[], [], [], [], []⟩

/-- `_generate_constraints_transitivity`, lines 580-609. -/
def HeapManager.regenerate : HeapM α Unit := do
  -- lines 590-596
  let h ← get
  onTransH (do
    let d ← freshTable (dkeys h.dict)
    modify fun t => { t with table := d })
  -- lines 598-609
  (dkeys h.dict).forM fun x => do
    let (_, r) ← heapRow x
    (dkeys r).forM fun y => do
      let (_, r) ← heapRow x
      match dget? r y with
      | none => throw .keyError
      | some none => pure ()
      | some (some c) => do let _ ← onTransH (addTransH x y c.1)

/-- `add_data_ID`, lines 121-162. -/
def HeapManager.addDataID (x : α) : HeapM α Bool := do
  if x ∈ dkeys (← get).dict then throw (.valueError "data_ID")
  -- line 143
  let a ← newRow []
  modify fun h => { h with dict := dset h.dict x a }
  -- lines 146-152
  (dkeys (← get).dict).forM fun other =>
    if x = other then assignCell x x (some (.mustLink, 1))
    else if x < other then assignCell x other none
    else assignCell other x none
  -- lines 156-159
  onTransH (do
    let ml ← newSet [x]
    let cl ← newSet []
    let e ← newEntry ml cl
    modify fun t => { t with table := dset t.table x e })
  return true

/-- `delete_data_ID`, lines 167-199. -/
def HeapManager.deleteDataID (x : α) : HeapM α Bool := do
  if x ∉ dkeys (← get).dict then throw (.valueError "data_ID")
  -- line 189
  modify fun h => { h with dict := dpop h.dict x }
  -- lines 192-193
  (dkeys (← get).dict).forM fun other => do
    let (a, r) ← heapRow other
    writeRow a (dpop r x)
  -- line 196
  HeapManager.regenerate
  return true

/-- `get_added_constraint`, lines 353-386. -/
def HeapManager.getAdded (x y : α) : HeapM α (Option Stored) := do
  if x ∉ dkeys (← get).dict then throw (.valueError "data_ID1")
  if y ∉ dkeys (← get).dict then throw (.valueError "data_ID2")
  let (_, r) ← heapRow (if x ≤ y then x else y)
  match dget? r (if x ≤ y then y else x) with
  | none => throw .keyError
  | some c => return c

/-- `get_inferred_constraint`, lines 391-430. -/
def HeapManager.getInferred (x y : α) : HeapM α (Option CType) := onTransH do
  if x ∉ dkeys (← get).table then throw (.valueError "data_ID1")
  if y ∉ dkeys (← get).table then throw (.valueError "data_ID2")
  if x ∈ (← setAt (← heapML y)) then return some .mustLink
  if x ∈ (← setAt (← heapCL y)) then return some .cannotLink
  return none

/-- `add_constraint`, lines 220-306. -/
def HeapManager.addConstraint (x y : α) (ty : String) (_value : Rat := 1) : HeapM α Bool := do
  if x ∉ dkeys (← get).dict then throw (.valueError "data_ID1")
  if y ∉ dkeys (← get).dict then throw (.valueError "data_ID2")
  match CType.parse? ty with
  | none => throw (.valueError "constraint_type")
  | some t =>
    let inferred ← HeapManager.getInferred x y
    -- lines 268-279
    if inferred.isSome ∧ inferred ≠ some t then throw (.valueError "conflict")
    let added ← HeapManager.getAdded x y
    -- lines 288-290
    if added.isSome then return true
    -- lines 294-297
    if x ≤ y then assignCell x y (some (t, 1)) else assignCell y x (some (t, 1))
    -- lines 300-304
    let _ ← onTransH (addTransH x y t)
    return true

/-- `delete_constraint`, lines 311-348. -/
def HeapManager.deleteConstraint (x y : α) : HeapM α Bool := do
  if x ∉ dkeys (← get).dict then throw (.valueError "data_ID1")
  if y ∉ dkeys (← get).dict then throw (.valueError "data_ID2")
  if x ≤ y then assignCell x y none else assignCell y x none
  HeapManager.regenerate
  return true

/-- `get_connected_components`, lines 435-465. -/
def HeapManager.components : HeapM α (List (List α)) := onTransH do
  (dkeys (← get).table).foldlM (fun acc x => do
    let c ← setAt (← heapML x)
    return if c ∈ acc then acc else acc ++ [c]) []

/-- `check_completude_of_constraints`, lines 470-496. -/
def HeapManager.complete : HeapM α Bool := onTransH do
  let n := (← get).table.length
  (dkeys (← get).table).foldlM (fun ok x => do
    if ok then
      let ml ← setAt (← heapML x)
      let cl ← setAt (← heapCL x)
      return decide (ml.length + cl.length = n)
    else return false) true

/-- The call itself. -/
def Op.callH : Op α → HeapM α Bool
  | .addDataID x => HeapManager.addDataID x
  | .deleteDataID x => HeapManager.deleteDataID x
  | .addConstraint x y ty v => HeapManager.addConstraint x y ty v
  | .deleteConstraint x y => HeapManager.deleteConstraint x y

/-- The manager after a history of calls. -/
def runOpsH (h : HeapManager α) : List (Op α) → HeapManager α
  | [] => h
  | op :: ops => runOpsH (resState (op.callH h)) ops

end

end Verif
