import Mathlib.Data.Prod.Lex
import Mathlib.Order.WithBot
import Verif.Py.Extremum
import Verif.Model.Sampling
import Verif.Model.Rename

/-
Model of `clustering/hierarchical.py`, classes `HierarchicalConstrainedClustering` and `Cluster`.
All line numbers refer to
/repo/src/cognitivefactory/interactive_clustering/clustering/hierarchical.py

Simplifications:
* The `Cluster` objects are never changed after their creation (`add_new_children`, lines 746-772,
  has no caller), so a reference to such an object is represented by its `cluster_ID`, the key of
  the object in `self.clusters_storage`.
* Distances between vectors are elements of a linear order `δ` (floats without NaN and infinity);
  `float("Inf")` is `⊤ : WithTop δ`.
* `verbose` printing and the type check of the manager (lines 152-153) are not modelled.
-/

namespace Verif

inductive Linkage
  | ward
  | average
  | complete
  | single
  deriving DecidableEq, Repr

/-- Lines 105-107. -/
def Linkage.parse (s : String) : Except PyErr Linkage :=
  if s = "ward" then .ok .ward
  else if s = "average" then .ok .average
  else if s = "complete" then .ok .complete
  else if s = "single" then .ok .single
  else .error (.valueError "linkage")

/-- What the code takes from numpy / scipy / scikit-learn. -/
structure HierEnv (V δ : Type) where
  /-- euclidean distance of two rows, `pairwise_distances` -/
  metric : V → V → δ
  /-- `sum(vectors) / len(vectors)`, line 783 -/
  mean : List V → V
  /-- `sum(distances) / (n1 * n2)`, lines 506-513 -/
  ward : List δ → Nat → Nat → δ

/-- A `Cluster`, lines 692-741; its `cluster_ID` is its key in the storage. -/
structure HCluster (α V : Type) where
  iteration : Nat
  children : List Nat
  depth : Nat
  members : List α
  centroid : V
  deriving DecidableEq, Repr

/-- The attributes of the clustering object that change while clustering. -/
structure HState (α V δ : Type) where
  current : List Nat
  storage : Dict Nat (HCluster α V)
  distances : Dict Nat (Dict Nat (WithTop δ))
  iteration : Nat

section
variable {α V δ : Type} [LinearOrder α] [LinearOrder δ]

/-- `update_centroid`, lines 777-783. -/
def hCentroid (env : HierEnv V δ) (vectors : Dict α V) (members : List α) : Except PyErr V := do
  let vs ← members.mapM fun x => dget vectors x
  if vs = [] then .error .zeroDivisionError else return env.mean vs

/-- Line 347. -/
def hNextId (storage : Dict Nat (HCluster α V)) : Nat :=
  match (dkeys storage).max? with
  | none => 0
  | some k => k + 1

/-- `_add_new_cluster_by_setting_members`, lines 333-361. -/
def hAddLeaf (env : HierEnv V δ) (vectors : Dict α V) (s : HState α V δ) (members : List α) :
    Except PyErr (HState α V δ) := do
  let id := hNextId s.storage
  let centroid ← hCentroid env vectors members
  return { s with
    current := s.current ++ [id]
    storage := dset s.storage id ⟨s.iteration, [], 0, members, centroid⟩ }

/-- Lines 381-382. -/
def hRemove (current : List Nat) (c : Nat) : Except PyErr (List Nat) :=
  if c ∈ current then .ok (current.erase c) else .error (.valueError "list.remove")

/-- Lines 425-441, once `children` are removed from the current clusters. -/
def hCreate (env : HierEnv V δ) (vectors : Dict α V) (s : HState α V δ) (current : List Nat) (children : List Nat)
    (id : Nat) : Except PyErr (HState α V δ) := do
  let nodes ← children.mapM fun c => dget s.storage c
  -- lines 731-733
  let depth := match (nodes.map fun n => n.depth).max? with
    | none => 0
    | some d => d + 1
  -- lines 736-738
  let members := nodes.flatMap fun n => n.members
  let centroid ← hCentroid env vectors members
  return { s with
    current := current ++ [id]
    storage := dset s.storage id ⟨s.iteration, children, depth, members, centroid⟩ }

/-- `_add_new_cluster_by_merging_clusters`, lines 366-443. -/
def hAddMerge (env : HierEnv V δ) (vectors : Dict α V) (s : HState α V δ) (children : List Nat) :
    Except PyErr (Nat × HState α V δ) := do
  let current ← children.foldlM hRemove s.current
  -- line 427
  match (dkeys s.storage).max? with
  | none => .error (.valueError "max")
  | some k => return (k + 1, ← hCreate env vectors s current children (k + 1))

/-- Lines 461-470: is there a `CANNOT_LINK` between the two lists of members? -/
def hHasCannotLink (m : Manager α) (xs ys : List α) : Except PyErr Bool :=
  xs.anyM fun x => ys.anyM fun y => do return decide ((← m.getInferred x y) = some .cannotLink)

/-- Lines 509-511: the pairs of different positions, in order. -/
def laterPairs : List α → List (α × α)
  | [] => []
  | x :: l => l.map (fun y => (x, y)) ++ laterPairs l

/-- Lines 473-513. -/
def hLinkage (env : HierEnv V δ) (link : Linkage) (table : Dict α (Dict α δ)) (ci cj : HCluster α V) :
    Except PyErr δ :=
  match link with
  | .complete => do
    let ds ← (ci.members.flatMap fun x => cj.members.map fun y => (x, y)).mapM fun p => pairDistance table p
    match ds.max? with
    | none => .error (.valueError "max")
    | some d => return d
  | .average => .ok (env.metric ci.centroid cj.centroid)
  | .single => do
    let ds ← (ci.members.flatMap fun x => cj.members.map fun y => (x, y)).mapM fun p => pairDistance table p
    match ds.min? with
    | none => .error (.valueError "min")
    | some d => return d
  | .ward => do
    let ds ← (laterPairs (ci.members ++ cj.members)).mapM fun p => pairDistance table p
    if ci.members.length * cj.members.length = 0 then .error .zeroDivisionError
    else return env.ward ds ci.members.length cj.members.length

/-- `_compute_distance`, lines 448-513. -/
def hComputeDistance (env : HierEnv V δ) (link : Linkage) (m : Manager α) (table : Dict α (Dict α δ))
    (storage : Dict Nat (HCluster α V)) (i j : Nat) : Except PyErr (WithTop δ) := do
  let ci ← dget storage i
  let cj ← dget storage j
  if ← hHasCannotLink m ci.members cj.members then return ⊤
  else return ((← hLinkage env link table ci cj : δ) : WithTop δ)

/-- `_get_distance`, lines 518-535. -/
def hGetDistance (distances : Dict Nat (Dict Nat (WithTop δ))) (i j : Nat) : Except PyErr (WithTop δ) := do
  dget (← dget distances (min i j)) (max i j)

/-- `_set_distance`, lines 540-562. -/
def hSetDistance (distances : Dict Nat (Dict Nat (WithTop δ))) (d : WithTop δ) (i j : Nat) :
    Dict Nat (Dict Nat (WithTop δ)) :=
  dset distances (min i j) (dset ((dget? distances (min i j)).getD []) (max i j) d)

/-- Lines 222-228: distances of the initial clusters. -/
def hInitDistances (env : HierEnv V δ) (link : Linkage) (m : Manager α) (table : Dict α (Dict α δ))
    (s : HState α V δ) : Except PyErr (Dict Nat (Dict Nat (WithTop δ))) :=
  (s.current.flatMap fun i => (s.current.filter fun j => decide (i < j)).map fun j => (i, j)).foldlM
    (fun distances p => do
      let d ← hComputeDistance env link m table s.storage p.1 p.2
      return hSetDistance distances d p.1 p.2) []

/-- `_get_the_two_clostest_clusters`, lines 567-604. -/
def hClosest (s : HState α V δ) : Except PyErr (Option (Nat × Nat)) := do
  let items ← (s.current.flatMap fun i => (s.current.filter fun j => decide (i < j)).map fun j => (i, j)).mapM
    fun p => do
      let d ← hGetDistance s.distances p.1 p.2
      let n1 ← dget s.storage p.1
      let n2 ← dget s.storage p.2
      return (p, d, n1.members.length + n2.members.length)
  match pyMinBy (fun (it : (Nat × Nat) × WithTop δ × Nat) => toLex (it.2.1, it.2.2)) items with
  | none => .error (.valueError "min")
  | some it => if it.2.1 = ⊤ then return none else return some it.1

/-- Lines 271-276: distances to the new cluster. -/
def hUpdateDistances (env : HierEnv V δ) (link : Linkage) (m : Manager α) (table : Dict α (Dict α δ))
    (s : HState α V δ) (merged : Nat) : Except PyErr (Dict Nat (Dict Nat (WithTop δ))) :=
  s.current.foldlM
    (fun distances c => do
      if c ≠ merged then
        let d ← hComputeDistance env link m table s.storage c merged
        return hSetDistance distances d c merged
      else return distances) s.distances

/-- Lines 263-279: merge the two clusters. -/
def hMergeStep (env : HierEnv V δ) (link : Linkage) (m : Manager α) (vectors : Dict α V) (table : Dict α (Dict α δ))
    (s : HState α V δ) (p : Nat × Nat) : Except PyErr (HState α V δ) := do
  let (merged, s1) ← hAddMerge env vectors s [p.1, p.2]
  let distances ← hUpdateDistances env link m table s1 merged
  return { s1 with distances := distances, iteration := s1.iteration + 1 }

/-- Lines 238-279: the `while` loop, with fuel. -/
def hLoop (env : HierEnv V δ) (link : Linkage) (m : Manager α) (vectors : Dict α V) (table : Dict α (Dict α δ)) :
    Nat → HState α V δ → Except PyErr (HState α V δ)
  | 0, s => if s.current.length > 1 then .error .outOfFuel else .ok s
  | fuel + 1, s =>
    if s.current.length > 1 then do
      match ← hClosest s with
      | none => return s
      | some p => hLoop env link m vectors table fuel (← hMergeStep env link m vectors table s p)
    else .ok s

/-- Lines 199-234: initial clusters and distances. -/
def hStart (env : HierEnv V δ) (link : Linkage) (m : Manager α) (vectors : Dict α V) (table : Dict α (Dict α δ)) :
    Except PyErr (HState α V δ) := do
  let s ← m.components.foldlM (hAddLeaf env vectors) ⟨[], [], [], 0⟩
  let distances ← hInitDistances env link m table s
  return { s with distances := distances, iteration := 1 }

/-- Lines 309-313: merge of the remaining clusters. -/
def hFinish (env : HierEnv V δ) (vectors : Dict α V) (s : HState α V δ) : Except PyErr (HState α V δ) :=
  if s.current.length > 1 then do return (← hAddMerge env vectors s s.current).2 else .ok s

/-- Lines 199-317: the tree, as the storage and the ID of the root. -/
def hBuild (env : HierEnv V δ) (link : Linkage) (m : Manager α) (vectors : Dict α V) (table : Dict α (Dict α δ)) :
    Except PyErr (Nat × Dict Nat (HCluster α V)) := do
  let s0 ← hStart env link m vectors table
  let s1 ← hLoop env link m vectors table m.components.length s0
  let s2 ← hFinish env vectors s1
  match s2.current with
  | [] => .error .indexError
  | root :: _ => do
    let _ ← dget s2.storage root
    return (root, s2.storage)

/-- Criterion `by` of a cut: any other string than "size" acts as "iteration" (lines 637-645). -/
inductive CutBy
  | size
  | iteration
  deriving DecidableEq, Repr

def CutBy.parse (s : String) : CutBy := if s = "size" then .size else .iteration

/-- The key of lines 640 and 645. -/
def CutBy.key (by_ : CutBy) (n : HCluster α V) : Nat :=
  match by_ with
  | .size => n.members.length
  | .iteration => n.iteration

/-- Lines 637-645: `cluster_to_split`. -/
def hChoice (by_ : CutBy) (storage : Dict Nat (HCluster α V)) (l : List Nat) : Except PyErr Nat := do
  let keyed ← l.mapM fun c => do return (c, by_.key (← dget storage c))
  match pyMaxBy (fun (p : Nat × Nat) => p.2) keyed with
  | none => .error (.valueError "max")
  | some p => return p.1

/-- Lines 636-658, with fuel: the list of clusters of a cut. -/
def hExplore (by_ : CutBy) (storage : Dict Nat (HCluster α V)) (nb : Int) : Nat → List Nat → Except PyErr (List Nat)
  | 0, l => if (l.length : Int) < nb then .error .outOfFuel else .ok l
  | fuel + 1, l =>
    if (l.length : Int) < nb then do
      let c ← hChoice by_ storage l
      let n ← dget storage c
      if n.children = [] then return l
      else hExplore by_ storage nb fuel (l.erase c ++ n.children)
    else .ok l

/-- Lines 665-672. -/
def hAffect (ids : List α) (storage : Dict Nat (HCluster α V)) (l : List Nat) : Except PyErr (Dict α Int) :=
  l.foldlM (fun d c => do
    let n ← dget storage c
    return n.members.foldl (fun d x => dset d x (c : Int)) d) (dofList (ids.map fun x => (x, -1)))

/-- `compute_predicted_clusters`, lines 628-678, once the root is known. -/
def hCut (ids : List α) (storage : Dict Nat (HCluster α V)) (root : Nat) (nb : Int) (by_ : CutBy) :
    Except PyErr (Dict α Int) := do
  let l ← hExplore by_ storage nb nb.toNat [root]
  renameClusters (← hAffect ids storage l)

/-- The clustering object between calls. The storage matters only when there is a root. -/
structure HObject (α V : Type) where
  linkage : Linkage
  ids : List α
  root : Option Nat
  storage : Dict Nat (HCluster α V)

/-- `__init__`, lines 86-117. `self.list_of_data_IDs` does not exist yet. -/
def HObject.init (linkage : String) : Except PyErr (HObject α V) := do
  return ⟨← Linkage.parse linkage, [], none, []⟩

/-- `compute_predicted_clusters`, lines 609-678. -/
def HObject.cut (o : HObject α V) (nb : Int) (by_ : CutBy) : Except PyErr (Dict α Int) :=
  match o.root with
  | none => .error (.valueError "clustering_root")
  | some root => hCut o.ids o.storage root nb by_

/-- `cluster`, lines 122-328: the object after the call and the result of the call. `vectors` is
`none` when it is not a dictionary. -/
def HObject.cluster (env : HierEnv V δ) (o : HObject α V) (m : Manager α) (vectors : Option (Dict α V))
    (nb : Option Int) : HObject α V × Except PyErr (Dict α Int) :=
  -- line 155
  let o1 := { o with ids := m.managed }
  match vectors, nb with
  | none, _ => (o1, .error (.valueError "vectors"))
  | some _, none => (o1, .error (.valueError "nb_clusters"))
  | some vs, some n =>
    if n < 2 then (o1, .error (.valueError "nb_clusters"))
    else
      match distanceTable m vs env.metric with
      | .error e => (o1, .error e)
      | .ok table =>
        match hBuild env o.linkage m vs table with
        | .error e => ({ o1 with root := none, storage := [] }, .error e)
        | .ok (root, storage) =>
          let o2 : HObject α V := { o1 with root := some root, storage := storage }
          (o2, o2.cut (min n m.managed.length) .size)

end

end Verif
