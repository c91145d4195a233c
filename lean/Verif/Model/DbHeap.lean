import Verif.Model.DBScan

/-
Second model of `clustering/dbscan.py`, lines 155-551, in which lists are objects with an address, so that two names
can refer to the same list and `remove` changes it in place. It is there to justify `Verif/Model/DBScan.lean`,
where lists are values. All line numbers refer to
/repo/src/cognitivefactory/interactive_clustering/clustering/dbscan.py

The lists that are stored, or that are given a second name, are objects:
* the lists of `self.dict_of_local_clusters`: created in lines 256-260 (stored in line 296) and 292, given a second name
  in lines 349, 360 and 395, changed in place in line 522;
* the lists of `self.dict_of_core_local_clusters`: created in lines 233, 372-378, 405-411 and 490-495;
* the lists `[data_ID_i]` and `[data_ID_j]` of lines 345 and 382.
The other lists (`compatible_cluster_IDs`, `clusters_of_data_IDs`, the lists computed within one step) have one name and
are values. A loop over a list object reads it at its start: no body of such a loop changes a list object
(lines 367, 400, 445-455, 467-480, 510, 517, 526). Objects are never freed.
-/

namespace Verif

section
variable {α V δ : Type} [LinearOrder α] [LinearOrder δ]

/-- The list objects; the address of an object is its position. -/
abbrev Lists (α : Type) := List (List α)

/-- Content of the list object at address `a`. (Addresses are never dangling; `indexError` says so.) -/
def listAt (h : Lists α) (a : Nat) : Except PyErr (List α) :=
  match h[a]? with
  | some l => .ok l
  | none => .error .indexError

/-- The contents of all lists of a dictionary. -/
def listsAt (h : Lists α) (d : Dict α Nat) : Except PyErr (Dict α (List α)) :=
  d.mapM fun c => do return (c.1, ← listAt h c.2)

/-! ### Local clusters, lines 239-297 -/

/-- Lines 288-292, one iteration: a new object `[neighbor_ID]`. -/
def dbSingleH (s : Dict α DLabel × Dict α Nat × Lists α) (y : α) : Dict α DLabel × Dict α Nat × Lists α :=
  (dset s.1 y .singleCore, dset s.2.1 y s.2.2.length, s.2.2 ++ [[y]])

/-- Lines 239-297, one iteration. State: labels, local clusters, objects. -/
def dbLocalStepH (p : DbParams δ) (m : Manager α) (table : Dict α (Dict α δ)) (ids : List α)
    (s : Dict α DLabel × Dict α Nat × Lists α) (x : α) : Except PyErr (Dict α DLabel × Dict α Nat × Lists α) := do
  if (← dget s.1 x) ≠ .singleCore then
    let neighbors ← dbNeighbors p table ids s.1 x
    let conflict ← dbConflict m neighbors neighbors
    if neighbors.length < p.minSamples then return (dset s.1 x .noise, s.2)
    else if conflict = true then return neighbors.foldl dbSingleH s
    else return (dset s.1 x .core, dset s.2.1 x s.2.2.length, s.2.2 ++ [neighbors])
  else return s

/-- Lines 227-297. -/
def dbLocalsH (p : DbParams δ) (m : Manager α) (table : Dict α (Dict α δ)) (ids : List α) (h : Lists α) :
    Except PyErr (Dict α DLabel × Dict α Nat × Lists α) :=
  ids.foldlM (dbLocalStepH p m table ids) (dofList (ids.map fun x => (x, .unlabeled)), [], h)

/-! ### Merging under must-links, lines 304-432 -/

/-- Lines 341-360: `data_ID_i_cluster`, the object `local_cluster_i_points` (a new one, or one of the local clusters), and
the objects. -/
def dbOwnH (labels : Dict α DLabel) (locals : Dict α Nat) (clustersOf : Dict α (List α)) (h : Lists α) (x : α) :
    Except PyErr (α × Nat × Lists α) := do
  if (← dget labels x) = .noise then return (x, h.length, h ++ [[x]])
  else if x ∈ dkeys locals then return (x, ← dget locals x, h)
  else
    let c ← dbFallback clustersOf x
    return (c, ← dget locals c, h)

/-- Lines 363 and 379-395: the object `local_cluster_j_points`, `none` when `y` is noise, and the objects. -/
def dbPartnerH (labels : Dict α DLabel) (locals : Dict α Nat) (clustersOf : Dict α (List α)) (h : Lists α) (y : α) :
    Except PyErr (Option Nat × Lists α) := do
  if (← dget labels y) = .noise then return (none, h)
  else if y ∈ dkeys locals then return (some h.length, h ++ [[y]])
  else return (some (← dget locals (← dbFallback clustersOf y)), h)

/-- The content of an optional object. -/
def optListAt (h : Lists α) : Option Nat → Except PyErr (Option (List α))
  | none => return none
  | some a => return some (← listAt h a)

/-- Lines 362-411, one iteration. State: assignments, core clusters, objects. -/
def dbLinkStepH (env : DbEnv α V δ) (labels : Dict α DLabel) (locals : Dict α Nat) (clustersOf : Dict α (List α)) (x c : α)
    (points : Nat) (s : Dict α α × Dict α Nat × Lists α) (y : α) : Except PyErr (Dict α α × Dict α Nat × Lists α) := do
  let (partner, h) ← dbPartnerH labels locals clustersOf s.2.2 y
  let others ← optListAt h partner
  let t ← (dbAll env (← listAt h points) others).foldlM (dbTake env c) (s.1, [])
  let old ← listAt h (← dget s.2.1 c)
  return (t.1, dset s.2.1 c h.length, h ++ [env.enum (old ++ t.2 ++ [x, y])])

/-- Lines 335-414, one iteration. State: analyzed IDs, assignments, core clusters, objects. -/
def dbMergeStepH (env : DbEnv α V δ) (labels : Dict α DLabel) (locals : Dict α Nat) (clustersOf compatible : Dict α (List α))
    (s : List α × Dict α α × Dict α Nat × Lists α) (x : α) :
    Except PyErr (List α × Dict α α × Dict α Nat × Lists α) := do
  if x ∉ s.1 then
    let ys ← dget compatible x
    if ys = [] then return (s.1 ++ [x], s.2)
    else
      let (c, points, h) ← dbOwnH labels locals clustersOf s.2.2.2 x
      return (s.1 ++ [x], ← ys.foldlM (dbLinkStepH env labels locals clustersOf x c points) (s.2.1, s.2.2.1, h))
  else return s

/-- Lines 417-423, one iteration. -/
def dbCleanH (assigned : Dict α α) (h : Lists α) (core : Dict α Nat) (x : α) : Except PyErr (Dict α Nat) := do
  let c ← listAt h (← dget core x)
  if c = [] then return dpop core x
  else if (← dget assigned x) ≠ x then return dpop core x
  else return core

/-- Lines 427-432, one iteration. -/
def dbCleanSingleH (h : Lists α) (core : Dict α Nat) (x : α) : Except PyErr (Dict α Nat) := do
  if x ∈ dkeys core then
    if (← listAt h (← dget core x)).length < 2 then return dpop core x else return core
  else return core

/-- Line 233, one iteration: a new empty list. -/
def dbEmptyH (s : Dict α Nat × Lists α) (x : α) : Dict α Nat × Lists α := (dset s.1 x s.2.length, s.2 ++ [[]])

/-- Lines 233 and 304-432: the core clusters and the objects. -/
def dbCoresH (env : DbEnv α V δ) (m : Manager α) (ids : List α) (labels : Dict α DLabel) (locals : Dict α Nat) (h : Lists α) :
    Except PyErr (Dict α Nat × Lists α) := do
  let compatible ← dbCompatible m ids
  let clustersOf := dbClustersOf ids (← listsAt h locals)
  let s ← ids.foldlM (dbMergeStepH env labels locals clustersOf compatible)
    ([], dofList (ids.map fun x => (x, env.none)), ids.foldl dbEmptyH ([], h))
  let core ← ids.foldlM (dbCleanH s.2.1 s.2.2.2) s.2.2.1
  return (← ids.foldlM (dbCleanSingleH s.2.2.2) core, s.2.2.2)

/-! ### Merging under cannot-links, lines 438-501 -/

/-- Lines 441-501: the `while` loop for the core cluster `x`, with fuel. State: core clusters, local clusters, objects. -/
def dbGrowH (env : DbEnv α V δ) (p : DbParams δ) (m : Manager α) (table : Dict α (Dict α δ)) (x : α) :
    Nat → Dict α Nat × Dict α Nat × Lists α → Except PyErr (Dict α Nat × Dict α Nat × Lists α)
  | 0, s => if s.2.1 ≠ [] then .error .outOfFuel else .ok s
  | fuel + 1, s =>
    if s.2.1 ≠ [] then do
      let core ← listAt s.2.2 (← dget s.1 x)
      let distances ← dbDistances table core (← listsAt s.2.2 s.2.1)
      let closest ← dbClosest distances
      if p.eps < (← dget distances closest) then return s
      else
        let points ← listAt s.2.2 (← dget s.2.1 closest)
        if ← dbConflict m core points then return s
        else
          let merged := (dset s.1 x s.2.2.length, dpop s.2.1 closest, s.2.2 ++ [env.enum (core ++ points)])
          dbGrowH env p m table x fuel merged
    else .ok s

/-- Lines 438-501. -/
def dbMergeAllH (env : DbEnv α V δ) (p : DbParams δ) (m : Manager α) (table : Dict α (Dict α δ)) (core locals : Dict α Nat)
    (h : Lists α) : Except PyErr (Dict α Nat × Dict α Nat × Lists α) :=
  (dkeys core).foldlM (fun s x => dbGrowH env p m table x s.2.1.length s) (core, locals, h)

/-! ### Final clusters, lines 508-551 -/

/-- Line 522: the list object of the local cluster is changed in place. -/
def dbRemoveH (locals : Dict α Nat) (x : α) (h : Lists α) (y : α) : Except PyErr (Lists α) := do
  let a ← dget locals x
  return h.set a (← dbRemove (← listAt h a) y)

/-- Lines 515-528, one iteration. State: objects, predictions, next label. -/
def dbFinalLocalH (p : DbParams δ) (locals : Dict α Nat) (s : Lists α × Dict α Int × Int) (x : α) :
    Except PyErr (Lists α × Dict α Int × Int) := do
  let points ← listAt s.1 (← dget locals x)
  let h ← (points.filter fun y => decide (y ∈ dkeys s.2.1)).foldlM (dbRemoveH locals x) s.1
  let rest ← listAt h (← dget locals x)
  if p.enough rest.length = true then return (h, dbPredict rest s.2.2 s.2.1, s.2.2 + 1)
  else return (h, s.2)

/-- The attributes of the object that `cluster` computes, with the addresses of the lists, and the list objects. -/
structure DbHeapObject (α : Type) where
  predicted : Option (Dict α Int)
  labels : Dict α DLabel
  locals : Dict α Nat
  cores : Dict α Nat
  regular : Int
  single : Int
  total : Int
  lists : Lists α
  deriving DecidableEq

/-- Lines 508-551, from the core and local clusters. -/
def dbFinishH (p : DbParams δ) (ids : List α) (labels : Dict α DLabel) (cores locals : Dict α Nat) (h : Lists α) :
    Except PyErr (DbHeapObject α) := do
  let s := (dvals (← listsAt h cores)).foldl dbFinalCore ([], 0)
  let t ← (dkeys locals).foldlM (dbFinalLocalH p locals) (h, s)
  let renamed ← renameClusters t.2.1
  let regular : Int := (dvals renamed).dedup.length
  let u := ids.foldl dbIgnore (renamed, -1)
  let single : Int := -(u.2 + 1)
  return ⟨some u.1, labels, locals, cores, regular, single, regular + single, t.1⟩

/-- `cluster`, lines 155-551, when the list objects `h` already exist (for instance those of earlier calls). -/
def dbClusterH (env : DbEnv α V δ) (p : DbParams δ) (m : Manager α) (vectors : Option (Dict α V)) (nb : Option Int)
    (h : Lists α) : Except PyErr (DbHeapObject α) :=
  match vectors, nb with
  | none, _ => .error (.valueError "vectors")
  | some _, some _ => .error (.valueError "nb_clusters")
  | some vs, none => do
    let table ← distanceTable m vs env.metric
    let (labels, locals, h) ← dbLocalsH p m table m.managed h
    let (core, h) ← dbCoresH env m m.managed labels locals h
    let (cores, rest, h) ← dbMergeAllH env p m table core locals h
    dbFinishH p m.managed labels cores rest h

end

end Verif
