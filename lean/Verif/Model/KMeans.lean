import Verif.Model.Constraints
import Verif.Model.Rename

/-
Model of `clustering/kmeans.py`, class `KMeansConstrainedClustering` (COP-KMeans).
All line numbers refer to
/repo/src/cognitivefactory/interactive_clustering/clustering/kmeans.py

Vectors are elements of any type `V`; distances are elements of a linear order `δ` (floats without
NaN). `verbose` printing is not modelled.
-/

namespace Verif

/-- What the code takes from numpy / scipy / scikit-learn / random / the hash order of sets. -/
structure KMeansEnv (α V δ : Type) where
  /-- euclidean distance of two rows, `pairwise_distances` -/
  metric : V → V → δ
  /-- `sum(members) / len(members)`, line 459 -/
  mean : List V → V
  /-- `shift < self.tolerance` for the (old, new) pairs of centroids, lines 344-361 -/
  small : List (V × V) → Bool
  /-- iteration order of `set(values)`, line 450 -/
  enum : List Int → List Int
  /-- `random.shuffle`, line 416 -/
  shuffle : List α → List α

section
variable {α V δ : Type} [LinearOrder α] [LinearOrder δ]

/-- Lines 422-424: the centroid of cluster `c`. -/
def kmInitEntry (vectors : Dict α V) (indices : List α) (c : Nat) : Except PyErr (Int × V) :=
  match indices[c]? with
  | some x => do return ((c : Int), ← dget vectors x)
  | none => .error .indexError

/-- `initialize_centroids`, lines 400-427. -/
def kmInitialize (env : KMeansEnv α V δ) (ids : List α) (vectors : Dict α V) (nb : Nat) :
    Except PyErr (Dict Int V) := do
  -- lines 412-419
  let indices := (env.shuffle ids).take nb
  -- lines 422-424
  let items ← (List.range nb).mapM (kmInitEntry vectors indices)
  return dofList items

/-- Lines 255-272: distances between data IDs and centroids. -/
def kmDistances (env : KMeansEnv α V δ) (m : Manager α) (vectors : Dict α V) (centroids : Dict Int V) :
    Except PyErr (Dict α (Dict Int δ)) := do
  let rows ← m.managed.mapM fun x => do return (x, ← dget vectors x)
  if rows.isEmpty then throw (.valueError "vstack")
  if centroids.isEmpty then throw (.valueError "vstack")
  return dofList (rows.map fun p => (p.1, dofList (centroids.map fun q => (q.1, env.metric p.2 q.2))))

/-- Lines 280-291: `not_compatible_cluster_IDs`. -/
def kmNotCompatible (m : Manager α) (ids : List α) (new : Dict α Int) (x : α) : Except PyErr (List Int) := do
  let ys ← ids.filterM fun y => do
    if (← dget new y) ≠ -1 then return decide ((← m.getInferred x y) = some .cannotLink) else return false
  ys.mapM fun y => dget new y

/-- Lines 308-315: the dictionary from distances to cluster IDs (equal distances: the last one
stays), and the entry of its smallest key. -/
def kmNearest (row : Dict Int δ) (possible : List Int) : Except PyErr Int := do
  let items ← possible.mapM fun c => do return (← dget row c, c)
  let byDistance := dofList items
  match (dkeys byDistance).min? with
  | none => .error (.valueError "min")
  | some d => dget byDistance d

/-- Lines 298-315: the cluster given to `x`. -/
def kmChoose (m : Manager α) (ids : List α) (nb : Nat) (centroids : Dict Int V) (dist : Dict α (Dict Int δ))
    (new : Dict α Int) (x : α) : Except PyErr Int := do
  let notCompatible ← kmNotCompatible m ids new x
  -- lines 294-296
  let possible := (dkeys centroids).filter fun c => decide (c ∉ notCompatible)
  if possible = [] then
    -- lines 301-303
    match (dvals new).max? with
    | none => .error (.valueError "max")
    | some v => return max (v + 1) nb
  else kmNearest (← dget dist x) possible

/-- Lines 318-328: one iteration of the loop over all data IDs. The state is
(`list_of_data_IDs_to_assign`, `new_clusters`). -/
def kmLink (m : Manager α) (x : α) (s : List α × Dict α Int) (y : α) : Except PyErr (List α × Dict α Int) := do
  if (← m.getInferred x y) = some .mustLink then
    return (s.1.erase y, dset s.2 y (← dget s.2 x))
  else return s

/-- Lines 280-328: the assignment of `x`, already popped from the list. -/
def kmAssign (m : Manager α) (ids : List α) (nb : Nat) (centroids : Dict Int V) (dist : Dict α (Dict Int δ))
    (x : α) (s : List α × Dict α Int) : Except PyErr (List α × Dict α Int) := do
  let c ← kmChoose m ids nb centroids dist s.2 x
  ids.foldlM (kmLink m x) (s.1, dset s.2 x c)

/-- Lines 275-328: `while list_of_data_IDs_to_assign`, with fuel. -/
def kmAssignAll (m : Manager α) (ids : List α) (nb : Nat) (centroids : Dict Int V) (dist : Dict α (Dict Int δ)) :
    Nat → List α × Dict α Int → Except PyErr (Dict α Int)
  | 0, s => if s.1 = [] then .ok s.2 else .error .outOfFuel
  | fuel + 1, s =>
    match s.1.getLast? with
    | none => .ok s.2
    | some x => do
      let s' ← kmAssign m ids nb centroids dist x (s.1.dropLast, s.2)
      kmAssignAll m ids nb centroids dist fuel s'

/-- `compute_centroids`, lines 432-465. -/
def kmCentroids (env : KMeansEnv α V δ) (m : Manager α) (vectors : Dict α V) (clusters : Dict α Int) :
    Except PyErr (Dict Int V) := do
  let items ← (env.enum (dvals clusters)).mapM fun c => do
    let ys ← m.managed.filterM fun y => do return decide ((← dget clusters y) = c)
    let members ← ys.mapM fun y => dget vectors y
    if members.isEmpty then throw .zeroDivisionError
    return (c, env.mean members)
  return dofList items

/-- Lines 248-335: one pass, giving the new clusters and the new centroids. -/
def kmPass (env : KMeansEnv α V δ) (m : Manager α) (vectors : Dict α V) (nb : Nat) (centroids : Dict Int V) :
    Except PyErr (Dict α Int × Dict Int V) := do
  let ids := m.managed
  let dist ← kmDistances env m vectors centroids
  let new ← kmAssignAll m ids nb centroids dist ids.length (ids, dofList (ids.map fun x => (x, -1)))
  return (new, ← kmCentroids env m vectors new)

/-- Lines 341-369: is the algorithm converged? -/
def kmConverged (env : KMeansEnv α V δ) (clusters new : Dict α Int) (centroids newCentroids : Dict Int V) :
    Except PyErr Bool := do
  if (∀ v ∈ dvals clusters, v ∈ dvals new) ∧ (∀ v ∈ dvals new, v ∈ dvals clusters) then
    let pairs ← (dkeys centroids).mapM fun c => do return (← dget centroids c, ← dget newCentroids c)
    if pairs.isEmpty then throw (.valueError "vstack")
    return env.small pairs
  else return false

/-- Lines 240-379: the `while` loop; the first argument is the number of iterations left. The
result is (`self.clusters`, which equals `new_clusters`, and `self.centroids`). -/
def kmLoop (env : KMeansEnv α V δ) (m : Manager α) (vectors : Dict α V) (nb : Nat) :
    Nat → Dict α Int → Dict Int V → Except PyErr (Dict α Int × Dict Int V)
  | 0, clusters, centroids => .ok (clusters, centroids)
  | left + 1, clusters, centroids => do
    let (new, newCentroids) ← kmPass env m vectors nb centroids
    if ← kmConverged env clusters new centroids newCentroids then return (new, newCentroids)
    else kmLoop env m vectors nb left new newCentroids

/-- `_clustering_kmeans_model_COP`, lines 206-395: the returned clusters and the attribute
`self.centroids` left on the object (line 393 computes it from the clusters *before* renaming). -/
def kmCOP (env : KMeansEnv α V δ) (m : Manager α) (vectors : Dict α V) (nb maxIteration : Nat) :
    Except PyErr (Dict α Int × Dict Int V) := do
  let centroids ← kmInitialize env m.managed vectors nb
  let (new, _) ← kmLoop env m vectors nb maxIteration (dofList (m.managed.map fun x => (x, -1))) centroids
  let clusters ← renameClusters new
  let finalCentroids ← kmCentroids env m vectors new
  return (clusters, finalCentroids)

/-- `cluster`, lines 141-201. `vectors` is `none` when it is not a dictionary. The type check of
the manager (lines 171-172) is not modelled. -/
def kmCluster (env : KMeansEnv α V δ) (maxIteration : Nat) (m : Manager α) (vectors : Option (Dict α V))
    (nb : Option Int) : Except PyErr (Dict α Int × Dict Int V) :=
  match vectors, nb with
  | none, _ => .error (.valueError "vectors")
  | some _, none => .error (.valueError "nb_clusters")
  | some vs, some n =>
    if n < 2 then .error (.valueError "nb_clusters")
    else kmCOP env m vs (min n.toNat m.managed.length) maxIteration

/-- `__init__`, lines 92-136, for the parameters that are checked; `max_iteration` of the object. -/
def kmInit (model : String) (maxIteration : Int) (toleranceNegative : Bool) : Except PyErr Nat :=
  if model ≠ "COP" then .error (.valueError "model")
  else if maxIteration < 1 then .error (.valueError "max_iteration")
  else if toleranceNegative then .error (.valueError "tolerance")
  else .ok maxIteration.toNat

end

end Verif
