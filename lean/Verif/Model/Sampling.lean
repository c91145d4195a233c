import Mathlib.Data.List.Sort
import Verif.Model.Constraints

/-
Model of `sampling/clusters_based.py`, class `ClustersBasedConstraintsSampling`.
All line numbers refer to
/repo/src/cognitivefactory/interactive_clustering/sampling/clusters_based.py
-/

namespace Verif

/-- Values of `clusters_restriction` other than `None`, lines 95-97. -/
inductive ClustersRestriction where
  | sameCluster
  | differentClusters
  deriving DecidableEq, Repr

/-- Values of `distance_restriction` other than `None`, lines 100-102. -/
inductive DistanceRestriction where
  | closestNeighbors
  | farthestNeighbors
  deriving DecidableEq, Repr

/-- The attributes set by `__init__`, lines 92-110. `random_seed` only feeds `random.seed`
(line 227) and is represented by the choice function passed to `sample`. -/
structure Sampler where
  clusters : Option ClustersRestriction
  distance : Option DistanceRestriction
  withoutAdded : Bool
  withoutInferred : Bool
  deriving DecidableEq, Repr

/-- `__init__`, lines 67-110. The two restrictions are decoded; the two options are `none` when
the argument is not a boolean. -/
def Sampler.init (clusters distance : Option String) (withoutAdded withoutInferred : Option Bool) :
    Except PyErr Sampler := do
  let c ← match clusters with
    | none => .ok none
    | some s =>
      if s = "same_cluster" then .ok (some .sameCluster)
      else if s = "different_clusters" then .ok (some .differentClusters)
      else .error (.valueError "clusters_restriction")
  let d ← match distance with
    | none => .ok none
    | some s =>
      if s = "closest_neighbors" then .ok (some .closestNeighbors)
      else if s = "farthest_neighbors" then .ok (some .farthestNeighbors)
      else .error (.valueError "distance_restriction")
  let a ← match withoutAdded with
    | none => .error (.valueError "without_added_constraints")
    | some b => .ok b
  let i ← match withoutInferred with
    | none => .error (.valueError "without_inferred_constraints")
    | some b => .ok b
  return ⟨c, d, a, i⟩

section
variable {α V δ : Type} [LinearOrder α] [LinearOrder δ]

/-- Lines 182-189: does the clusters restriction skip the pair? `clustering[x]` raises `KeyError`
when the ID is missing. -/
def Sampler.clustersSkip (cfg : Sampler) (clustering : Dict α Int) (x y : α) : Except PyErr Bool :=
  match cfg.clusters with
  | none => .ok false
  | some .sameCluster => do
    let a ← dget clustering x
    let b ← dget clustering y
    return decide (a ≠ b)
  | some .differentClusters => do
    let a ← dget clustering x
    let b ← dget clustering y
    return decide (a = b)

/-- Lines 192-200: is the constraint of the pair already known? -/
def Sampler.knownSkip (cfg : Sampler) (m : Manager α) (x y : α) : Except PyErr Bool := do
  if cfg.withoutAdded = true ∧ (← m.getAdded x y).isSome = true then return true
  if cfg.withoutInferred = true ∧ (← m.getInferred x y).isSome = true then return true
  return false

/-- Lines 177-203: one iteration of the double loop; `true` if the pair is appended. -/
def Sampler.keeps (cfg : Sampler) (m : Manager α) (clustering : Dict α Int) (p : α × α) :
    Except PyErr Bool := do
  if p.1 ≥ p.2 then return false
  if ← cfg.clustersSkip clustering p.1 p.2 then return false
  if ← cfg.knownSkip m p.1 p.2 then return false
  return true

/-- Lines 172-203: `list_of_possible_pairs_of_data_IDs`. -/
def Sampler.possiblePairs (cfg : Sampler) (m : Manager α) (clustering : Dict α Int) :
    Except PyErr (List (α × α)) :=
  (m.managed.flatMap fun x => m.managed.map fun y => (x, y)).filterM (cfg.keeps m clustering)

/-- Lines 210-224: `self.dict_of_pairwise_distances`. `metric` is scikit-learn's euclidean
distance between two rows; `vectors[x]` raises `KeyError` when the ID is missing, and scipy's
`vstack` raises `ValueError` when there is no row. The metric values are floats in the code; here a
linear order (no NaN). -/
def distanceTable (m : Manager α) (vectors : Dict α V) (metric : V → V → δ) :
    Except PyErr (Dict α (Dict α δ)) := do
  let rows ← m.managed.mapM fun x => do return (x, ← dget vectors x)
  if rows.isEmpty then throw (.valueError "vstack")
  return rows.map fun p => (p.1, rows.map fun q => (q.1, metric p.2 q.2))

/-- The sort key of lines 233 and 240. -/
def pairDistance (table : Dict α (Dict α δ)) (p : α × α) : Except PyErr δ := do
  dget (← dget table p.1) p.2

/-- Python's `sorted(l, key=...)`: the keys are computed once, then a stable sort. `rev` is
`reverse=True`, which keeps the order of equal elements. -/
def sortedByKey {ι : Type} (rev : Bool) (keyed : List (δ × ι)) : List ι :=
  (keyed.insertionSort fun a b => if rev then b.1 ≤ a.1 else a.1 ≤ b.1).map Prod.snd

/-- The body of `sample` once its arguments are checked, lines 172-247. `pick l k` is
`random.sample(l, k)`. -/
def Sampler.select (cfg : Sampler) (m : Manager α) (n : Nat) (clustering : Dict α Int)
    (vectors : Dict α V) (metric : V → V → δ) (pick : List (α × α) → Nat → List (α × α)) :
    Except PyErr (List (α × α)) := do
  let pairs ← cfg.possiblePairs m clustering
  match cfg.distance with
  | none =>
    -- lines 245-247
    return pick pairs (min n pairs.length)
  | some d =>
    let table ← distanceTable m vectors metric
    -- lines 230-242
    let keyed ← pairs.mapM fun p => do return (← pairDistance table p, p)
    return (sortedByKey (decide (d = .farthestNeighbors)) keyed).take n

/-- `sample`, lines 115-247. `nb` is `none` when `nb_to_select` is not an integer, `clustering`
and `vectors` are `none` when they are not dictionaries. The check of the type of
`constraints_manager` (lines 145-147) is not modelled. -/
def Sampler.sample (cfg : Sampler) (m : Manager α) (nb : Option Int) (clustering : Option (Dict α Int))
    (vectors : Option (Dict α V)) (metric : V → V → δ) (pick : List (α × α) → Nat → List (α × α)) :
    Except PyErr (List (α × α)) :=
  match nb with
  | none => .error (.valueError "nb_to_select")
  | some n =>
    -- lines 150-153
    if n < 0 then .error (.valueError "nb_to_select")
    else if n = 0 then .ok []
    -- lines 156-159
    else if cfg.clusters.isSome = true ∧ clustering.isNone = true then .error (.valueError "clustering_result")
    -- lines 162-165
    else if cfg.distance.isSome = true ∧ vectors.isNone = true then .error (.valueError "vectors")
    else cfg.select m n.toNat (clustering.getD []) (vectors.getD []) metric pick

end

end Verif
