import Mathlib.Data.List.Dedup
import Verif.Model.Sampling
import Verif.Model.Rename

/-
Model of `clustering/dbscan.py`, class `DBScanConstrainedClustering`.
All line numbers refer to
/repo/src/cognitivefactory/interactive_clustering/clustering/dbscan.py

Simplifications:
* Distances between vectors are elements of a linear order `δ` (floats without NaN).
* `list(set(l))` is `env.enum l`, any enumeration of the set.
* The string `"NONE"` of `dict_of_assigned_local_cluster` is a parameter `none`, which may be one
  of the data IDs.
* The lists of the dictionaries are values; `Model/DbHeap.lean` has list objects, and C106 proves that this changes
  nothing.
* `verbose`, `random_seed`, the warning and the type check of the manager are not modelled.
-/

namespace Verif

/-- The labels "UNLABELED", "NOISE", "SINGLE_CORE", "CORE" of lines 227-296. -/
inductive DLabel
  | unlabeled
  | noise
  | singleCore
  | core
  deriving DecidableEq, Repr

structure DbEnv (α V δ : Type) where
  /-- euclidean distance of two rows, `pairwise_distances` -/
  metric : V → V → δ
  /-- `list(set(l))` -/
  enum : List α → List α
  /-- the string `"NONE"` -/
  none : α

/-- The parameters kept by `__init__`, lines 98-150; `enough n` is the comparison `n >= self.eps`
of line 525, between an integer and the radius. -/
structure DbParams (δ : Type) where
  eps : δ
  enough : Nat → Bool
  minSamples : Nat

/-- `__init__`, lines 128-136. `epsPositive` tells whether `eps > 0`. -/
def DbParams.init {δ : Type} (eps : δ) (enough : Nat → Bool) (epsPositive : Bool) (minSamples : Int) :
    Except PyErr (DbParams δ) :=
  if epsPositive = false then .error (.valueError "eps")
  else if minSamples ≤ 0 then .error (.valueError "min_samples")
  else .ok ⟨eps, enough, minSamples.toNat⟩

section
variable {α V δ : Type} [LinearOrder α] [LinearOrder δ]

/-! ### Local clusters, lines 239-297 -/

/-- Lines 242-260: the neighbours of `x`. -/
def dbNeighbors (p : DbParams δ) (table : Dict α (Dict α δ)) (ids : List α) (labels : Dict α DLabel) (x : α) :
    Except PyErr (List α) := do
  let possible ← ids.filterM fun y => do return decide ((← dget labels y) ≠ .singleCore)
  possible.filterM fun y => do return decide ((← pairDistance table (x, y)) ≤ p.eps)

/-- Lines 262-282 and 467-487: the lists of IDs of `ys` not compatible with each ID of `xs`, and
whether one of them is not empty. -/
def dbConflict (m : Manager α) (xs ys : List α) : Except PyErr Bool := do
  let rows ← xs.mapM fun x => ys.filterM fun y => do return decide ((← m.getInferred x y) = some .cannotLink)
  return rows.any fun row => decide (row ≠ [])

/-- Lines 239-297, one iteration. State: labels and local clusters. -/
def dbLocalStep (p : DbParams δ) (m : Manager α) (table : Dict α (Dict α δ)) (ids : List α)
    (s : Dict α DLabel × Dict α (List α)) (x : α) : Except PyErr (Dict α DLabel × Dict α (List α)) := do
  if (← dget s.1 x) ≠ .singleCore then
    let neighbors ← dbNeighbors p table ids s.1 x
    let conflict ← dbConflict m neighbors neighbors
    if neighbors.length < p.minSamples then return (dset s.1 x .noise, s.2)
    else if conflict = true then
      return neighbors.foldl (fun s y => (dset s.1 y .singleCore, dset s.2 y [y])) s
    else return (dset s.1 x .core, dset s.2 x neighbors)
  else return s

/-- Lines 227-297. -/
def dbLocals (p : DbParams δ) (m : Manager α) (table : Dict α (Dict α δ)) (ids : List α) :
    Except PyErr (Dict α DLabel × Dict α (List α)) :=
  ids.foldlM (dbLocalStep p m table ids) (dofList (ids.map fun x => (x, .unlabeled)), [])

/-! ### Merging under must-links, lines 304-432 -/

/-- Lines 304-317. -/
def dbCompatible (m : Manager α) (ids : List α) : Except PyErr (Dict α (List α)) := do
  let rows ← ids.mapM fun x => do
    return (x, ← ids.filterM fun y => do return decide ((← m.getInferred x y) = some .mustLink))
  return dofList rows

/-- Lines 320-327. -/
def dbClustersOf (ids : List α) (locals : Dict α (List α)) : Dict α (List α) :=
  dofList (ids.map fun x => (x, (locals.filter fun c => decide (x ∈ c.2)).map Prod.fst))

/-- Lines 351-360 and 386-395: the local cluster of an ID that is in no key; the loop of lines
356-359 leaves the first cluster in any case. -/
def dbFallback (clustersOf : Dict α (List α)) (x : α) : Except PyErr α := do
  match ← dget clustersOf x with
  | [] => .error .indexError
  | c :: _ => return c

/-- Lines 341-360: `data_ID_i_cluster` and `local_cluster_i_points`. -/
def dbOwn (labels : Dict α DLabel) (locals clustersOf : Dict α (List α)) (x : α) : Except PyErr (α × List α) := do
  if (← dget labels x) = .noise then return (x, [x])
  else if x ∈ dkeys locals then return (x, ← dget locals x)
  else
    let c ← dbFallback clustersOf x
    return (c, ← dget locals c)

/-- Lines 363 and 379-395: `local_cluster_j_points`, `none` when `y` is noise. -/
def dbPartner (labels : Dict α DLabel) (locals clustersOf : Dict α (List α)) (y : α) :
    Except PyErr (Option (List α)) := do
  if (← dget labels y) = .noise then return none
  else if y ∈ dkeys locals then return some [y]
  else return some (← dget locals (← dbFallback clustersOf y))

/-- Lines 367-370 and 400-403: take the points not assigned yet. State: assignments, taken points. -/
def dbTake (env : DbEnv α V δ) (c : α) (s : Dict α α × List α) (z : α) : Except PyErr (Dict α α × List α) := do
  if (← dget s.1 z) = env.none then return (dset s.1 z c, s.2 ++ [z]) else return s

/-- Lines 367 and 400: the points that may be taken. -/
def dbAll (env : DbEnv α V δ) (points : List α) : Option (List α) → List α
  | none => points
  | some others => env.enum (points ++ others)

/-- Lines 362-411, one iteration. State: assignments and core clusters. -/
def dbLinkStep (env : DbEnv α V δ) (labels : Dict α DLabel) (locals clustersOf : Dict α (List α)) (x c : α)
    (points : List α) (s : Dict α α × Dict α (List α)) (y : α) : Except PyErr (Dict α α × Dict α (List α)) := do
  let others ← dbPartner labels locals clustersOf y
  let t ← (dbAll env points others).foldlM (dbTake env c) (s.1, [])
  let old ← dget s.2 c
  return (t.1, dset s.2 c (env.enum (old ++ t.2 ++ [x, y])))

/-- Lines 335-414, one iteration. State: analyzed IDs, assignments, core clusters. -/
def dbMergeStep (env : DbEnv α V δ) (labels : Dict α DLabel) (locals clustersOf compatible : Dict α (List α))
    (s : List α × Dict α α × Dict α (List α)) (x : α) : Except PyErr (List α × Dict α α × Dict α (List α)) := do
  if x ∉ s.1 then
    let ys ← dget compatible x
    if ys = [] then return (s.1 ++ [x], s.2)
    else
      let own ← dbOwn labels locals clustersOf x
      return (s.1 ++ [x], ← ys.foldlM (dbLinkStep env labels locals clustersOf x own.1 own.2) s.2)
  else return s

/-- Lines 417-423, one iteration. -/
def dbClean (assigned : Dict α α) (core : Dict α (List α)) (x : α) : Except PyErr (Dict α (List α)) := do
  let c ← dget core x
  if c = [] then return dpop core x
  else if (← dget assigned x) ≠ x then return dpop core x
  else return core

/-- Lines 427-432, one iteration. -/
def dbCleanSingle (core : Dict α (List α)) (x : α) : Except PyErr (Dict α (List α)) := do
  if x ∈ dkeys core then
    if (← dget core x).length < 2 then return dpop core x else return core
  else return core

/-- Lines 304-432: the core clusters. -/
def dbCores (env : DbEnv α V δ) (m : Manager α) (ids : List α) (labels : Dict α DLabel) (locals : Dict α (List α)) :
    Except PyErr (Dict α (List α)) := do
  let compatible ← dbCompatible m ids
  let clustersOf := dbClustersOf ids locals
  let s ← ids.foldlM (dbMergeStep env labels locals clustersOf compatible)
    ([], dofList (ids.map fun x => (x, env.none)), dofList (ids.map fun x => (x, [])))
  let core ← ids.foldlM (dbClean s.2.1) s.2.2
  ids.foldlM dbCleanSingle core

/-! ### Merging under cannot-links, lines 438-501 -/

/-- `min(l)`. -/
def dbMin (l : List δ) : Except PyErr δ :=
  match l.min? with
  | none => .error (.valueError "min")
  | some d => .ok d

/-- Lines 444-455: the distance of the core cluster to each local cluster. -/
def dbDistances (table : Dict α (Dict α δ)) (core : List α) (locals : Dict α (List α)) : Except PyErr (Dict α δ) := do
  let rows ← locals.mapM fun c => do
    let ds ← (core.flatMap fun x => c.2.map fun y => (x, y)).mapM fun p => pairDistance table p
    return (c.1, ← dbMin ds)
  return dofList rows

/-- Line 458: `min` of a dictionary is its smallest key. -/
def dbClosest (distances : Dict α δ) : Except PyErr α :=
  match (dkeys distances).min? with
  | none => .error (.valueError "min")
  | some c => .ok c

/-- Lines 441-501: the `while` loop, with fuel; returns the core cluster and the remaining local
clusters. -/
def dbGrow (env : DbEnv α V δ) (p : DbParams δ) (m : Manager α) (table : Dict α (Dict α δ)) :
    Nat → List α × Dict α (List α) → Except PyErr (List α × Dict α (List α))
  | 0, s => if s.2 ≠ [] then .error .outOfFuel else .ok s
  | fuel + 1, s =>
    if s.2 ≠ [] then do
      let distances ← dbDistances table s.1 s.2
      let closest ← dbClosest distances
      if p.eps < (← dget distances closest) then return s
      else
        let points ← dget s.2 closest
        if ← dbConflict m s.1 points then return s
        else dbGrow env p m table fuel (env.enum (s.1 ++ points), dpop s.2 closest)
    else .ok s

/-- Lines 438-501, one iteration. State: core clusters and local clusters. -/
def dbGrowStep (env : DbEnv α V δ) (p : DbParams δ) (m : Manager α) (table : Dict α (Dict α δ))
    (s : Dict α (List α) × Dict α (List α)) (x : α) : Except PyErr (Dict α (List α) × Dict α (List α)) := do
  let c ← dget s.1 x
  let t ← dbGrow env p m table s.2.length (c, s.2)
  return (dset s.1 x t.1, t.2)

/-- Lines 438-501. -/
def dbMergeAll (env : DbEnv α V δ) (p : DbParams δ) (m : Manager α) (table : Dict α (Dict α δ))
    (core locals : Dict α (List α)) : Except PyErr (Dict α (List α) × Dict α (List α)) :=
  (dkeys core).foldlM (dbGrowStep env p m table) (core, locals)

/-! ### Final clusters, lines 508-551 -/

/-- `l.remove(x)`. -/
def dbRemove (l : List α) (x : α) : Except PyErr (List α) :=
  if x ∈ l then .ok (l.erase x) else .error (.valueError "list.remove")

/-- Lines 510-511 and 526-527. -/
def dbPredict (points : List α) (c : Int) (predicted : Dict α Int) : Dict α Int :=
  points.foldl (fun d x => dset d x c) predicted

/-- Lines 509-512, one iteration. State: predictions and next label. -/
def dbFinalCore (s : Dict α Int × Int) (points : List α) : Dict α Int × Int :=
  (dbPredict points s.2 s.1, s.2 + 1)

/-- Lines 515-528, one iteration. State: local clusters, predictions, next label. -/
def dbFinalLocal (p : DbParams δ) (s : Dict α (List α) × Dict α Int × Int) (x : α) :
    Except PyErr (Dict α (List α) × Dict α Int × Int) := do
  let points ← dget s.1 x
  let rest ← (points.filter fun y => decide (y ∈ dkeys s.2.1)).foldlM dbRemove points
  if p.enough rest.length = true then return (dset s.1 x rest, dbPredict rest s.2.2 s.2.1, s.2.2 + 1)
  else return (dset s.1 x rest, s.2)

/-- Lines 540-543, one iteration. State: predictions and next negative label. -/
def dbIgnore (s : Dict α Int × Int) (x : α) : Dict α Int × Int :=
  if x ∉ dkeys s.1 then (dset s.1 x s.2, s.2 - 1) else s

/-- The attributes of the object that `cluster` computes. -/
structure DbObject (α : Type) where
  predicted : Option (Dict α Int)
  labels : Dict α DLabel
  locals : Dict α (List α)
  cores : Dict α (List α)
  regular : Int
  single : Int
  total : Int
  deriving DecidableEq

/-- Lines 508-551, from the core and local clusters. -/
def dbFinish (p : DbParams δ) (ids : List α) (labels : Dict α DLabel) (cores locals : Dict α (List α)) :
    Except PyErr (DbObject α) := do
  let s := (dvals cores).foldl dbFinalCore ([], 0)
  let t ← (dkeys locals).foldlM (dbFinalLocal p) (locals, s)
  let renamed ← renameClusters t.2.1
  let regular : Int := (dvals renamed).dedup.length
  let u := ids.foldl dbIgnore (renamed, -1)
  let single : Int := -(u.2 + 1)
  return ⟨some u.1, labels, t.1, cores, regular, single, regular + single⟩

/-- `cluster`, lines 155-551: the object after a call that returns (`predicted` is what the call
returns). `vectors` is `none` when it is not a dictionary. -/
def dbCluster (env : DbEnv α V δ) (p : DbParams δ) (m : Manager α) (vectors : Option (Dict α V)) (nb : Option Int) :
    Except PyErr (DbObject α) :=
  match vectors, nb with
  | none, _ => .error (.valueError "vectors")
  | some _, some _ => .error (.valueError "nb_clusters")
  | some vs, none => do
    let table ← distanceTable m vs env.metric
    let (labels, locals) ← dbLocals p m table m.managed
    let core ← dbCores env m m.managed labels locals
    let (cores, rest) ← dbMergeAll env p m table core locals
    dbFinish p m.managed labels cores rest

end

end Verif
