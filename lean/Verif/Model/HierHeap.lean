import Verif.Model.HierExport
import Verif.Model.DbHeap

/-
Second model of `clustering/hierarchical.py`, lines 199-824, in which `Cluster` objects and lists are objects with an
address, so that two names can refer to the same object and lists are changed in place. It is there to justify
`Verif/Model/Hierarchical.lean`, where they are values. All line numbers refer to
/repo/src/cognitivefactory/interactive_clustering/clustering/hierarchical.py

Objects:
* the `Cluster` objects, lines 350-355 and 430-435, named by `self.clusters_storage`, `self.children` of other clusters,
  `self.clustering_root` and `list_of_clusters`;
* the lists of IDs: the components of line 207, given as `members` to the clusters (line 736) without a copy, the new
  lists of line 737, and the same lists again in the dictionaries of `to_dict` (line 822);
* the lists of cluster IDs: `self.current_clusters` (lines 202-203, changed in place in lines 358, 382 and 438) and the
  arguments `children` of lines 263-268 and 313.
The other lists (`self.children`, `list_of_clusters`, the lists computed within one step) and `self.clusters_distance`
have one name and are values. Objects are never freed. When a call raises, the objects that it has created are not
reachable any more and are dropped; no step before an exception changes older objects. `add_new_children`, which has no
caller, is not in this model.
-/

namespace Verif

/-- A `Cluster` object, lines 692-741: `children` are addresses of clusters, `members` is the address of a list. -/
structure HClusterH (V : Type) where
  id : Nat
  iteration : Nat
  children : List Nat
  depth : Nat
  members : Nat
  centroid : V

/-- The objects, by kind; the address of an object is its position. -/
structure HHeap (α V : Type) where
  lists : Lists α
  ints : Lists Nat
  clusters : List (HClusterH V)

/-- The attributes of the clustering object that change while clustering, and the objects. `current` is the address of a list,
`storage` has addresses of clusters. -/
structure HStateH (α V δ : Type) where
  current : Nat
  storage : Dict Nat Nat
  distances : Dict Nat (Dict Nat (WithTop δ))
  iteration : Nat
  heap : HHeap α V

section
variable {α V δ : Type} [LinearOrder α] [LinearOrder δ]

/-- The `Cluster` object at address `a`. (Addresses are never dangling; `indexError` says so.) -/
def clusterAt (h : HHeap α V) (a : Nat) : Except PyErr (HClusterH V) :=
  match h.clusters[a]? with
  | some r => .ok r
  | none => .error .indexError

/-- The list `members` of the cluster at address `a`, as it is now. -/
def membersAt (h : HHeap α V) (a : Nat) : Except PyErr (List α) := do listAt h.lists (← clusterAt h a).members

/-- Line 347. -/
def hNewId (storage : Dict Nat Nat) : Nat :=
  match (dkeys storage).max? with
  | none => 0
  | some k => k + 1

/-- `_add_new_cluster_by_setting_members`, lines 333-361; `members` is the address of a list. -/
def hAddLeafH (env : HierEnv V δ) (vectors : Dict α V) (s : HStateH α V δ) (members : Nat) :
    Except PyErr (HStateH α V δ) := do
  let id := hNewId s.storage
  let centroid ← hCentroid env vectors (← listAt s.heap.lists members)
  let current ← listAt s.heap.ints s.current
  return { s with
    storage := dset s.storage id s.heap.clusters.length
    heap := { s.heap with
      ints := s.heap.ints.set s.current (current ++ [id])
      clusters := s.heap.clusters ++ [⟨id, s.iteration, [], 0, members, centroid⟩] } }

/-- Lines 381-382: `for child_ID_to_remove in children: self.current_clusters.remove(...)`, both being list objects. Python reads
position `i` of the list in iteration `i`. -/
def hRemoveAllH (current children : Nat) : Nat → Nat → Lists Nat → Except PyErr (Lists Nat)
  | 0, _, _ => .error .outOfFuel
  | fuel + 1, i, ints => do
    match (← listAt ints children)[i]? with
    | none => return ints
    | some c => hRemoveAllH current children fuel (i + 1) (ints.set current (← hRemove (← listAt ints current) c))

/-- Lines 425-441. -/
def hCreateH (env : HierEnv V δ) (vectors : Dict α V) (s : HStateH α V δ) (children : Nat) (id : Nat) :
    Except PyErr (HStateH α V δ) := do
  let addresses ← (← listAt s.heap.ints children).mapM fun c => dget s.storage c
  let nodes ← addresses.mapM fun a => clusterAt s.heap a
  -- lines 731-733
  let depth := match (nodes.map fun n => n.depth).max? with
    | none => 0
    | some d => d + 1
  -- lines 736-738
  let members := (← addresses.mapM fun a => membersAt s.heap a).flatten
  let centroid ← hCentroid env vectors members
  let current ← listAt s.heap.ints s.current
  return { s with
    storage := dset s.storage id s.heap.clusters.length
    heap := {
      lists := s.heap.lists ++ [members]
      ints := s.heap.ints.set s.current (current ++ [id])
      clusters := s.heap.clusters ++ [⟨id, s.iteration, addresses, depth, s.heap.lists.length, centroid⟩] } }

/-- `_add_new_cluster_by_merging_clusters`, lines 366-443; `children` is the address of a list. -/
def hAddMergeH (env : HierEnv V δ) (vectors : Dict α V) (s : HStateH α V δ) (children : Nat) :
    Except PyErr (Nat × HStateH α V δ) := do
  let ints ← hRemoveAllH s.current children ((← listAt s.heap.ints children).length + 1) 0 s.heap.ints
  -- line 427
  match (dkeys s.storage).max? with
  | none => .error (.valueError "max")
  | some k => return (k + 1, ← hCreateH env vectors { s with heap := { s.heap with ints := ints } } children (k + 1))

/-- `_compute_distance`, lines 448-513. -/
def hComputeDistanceH (env : HierEnv V δ) (link : Linkage) (m : Manager α) (table : Dict α (Dict α δ))
    (storage : Dict Nat Nat) (h : HHeap α V) (i j : Nat) : Except PyErr (WithTop δ) := do
  let ai ← dget storage i
  let aj ← dget storage j
  let xs ← membersAt h ai
  let ys ← membersAt h aj
  if ← hHasCannotLink m xs ys then return ⊤
  else
    let ci ← clusterAt h ai
    let cj ← clusterAt h aj
    return ((← hLinkage env link table ⟨ci.iteration, ci.children, ci.depth, xs, ci.centroid⟩
      ⟨cj.iteration, cj.children, cj.depth, ys, cj.centroid⟩ : δ) : WithTop δ)

/-- Lines 222-228. -/
def hInitDistancesH (env : HierEnv V δ) (link : Linkage) (m : Manager α) (table : Dict α (Dict α δ))
    (s : HStateH α V δ) : Except PyErr (Dict Nat (Dict Nat (WithTop δ))) := do
  let current ← listAt s.heap.ints s.current
  (current.flatMap fun i => (current.filter fun j => decide (i < j)).map fun j => (i, j)).foldlM
    (fun distances p => do
      let d ← hComputeDistanceH env link m table s.storage s.heap p.1 p.2
      return hSetDistance distances d p.1 p.2) []

/-- `_get_the_two_clostest_clusters`, lines 567-604. -/
def hClosestH (s : HStateH α V δ) : Except PyErr (Option (Nat × Nat)) := do
  let current ← listAt s.heap.ints s.current
  let items ← (current.flatMap fun i => (current.filter fun j => decide (i < j)).map fun j => (i, j)).mapM
    fun p => do
      let d ← hGetDistance s.distances p.1 p.2
      let xs ← membersAt s.heap (← dget s.storage p.1)
      let ys ← membersAt s.heap (← dget s.storage p.2)
      return (p, d, xs.length + ys.length)
  match pyMinBy (fun (it : (Nat × Nat) × WithTop δ × Nat) => toLex (it.2.1, it.2.2)) items with
  | none => .error (.valueError "min")
  | some it => if it.2.1 = ⊤ then return none else return some it.1

/-- Lines 271-276. -/
def hUpdateDistancesH (env : HierEnv V δ) (link : Linkage) (m : Manager α) (table : Dict α (Dict α δ))
    (s : HStateH α V δ) (merged : Nat) : Except PyErr (Dict Nat (Dict Nat (WithTop δ))) := do
  let current ← listAt s.heap.ints s.current
  current.foldlM
    (fun distances c => do
      if c ≠ merged then
        let d ← hComputeDistanceH env link m table s.storage s.heap c merged
        return hSetDistance distances d c merged
      else return distances) s.distances

/-- A new list of cluster IDs. -/
def HStateH.newInts (s : HStateH α V δ) (l : List Nat) : HStateH α V δ :=
  { s with heap := { s.heap with ints := s.heap.ints ++ [l] } }

/-- Lines 263-279: merge the two clusters; the argument of lines 264-267 is a new list. -/
def hMergeStepH (env : HierEnv V δ) (link : Linkage) (m : Manager α) (vectors : Dict α V) (table : Dict α (Dict α δ))
    (s : HStateH α V δ) (p : Nat × Nat) : Except PyErr (HStateH α V δ) := do
  let (merged, s1) ← hAddMergeH env vectors (s.newInts [p.1, p.2]) s.heap.ints.length
  let distances ← hUpdateDistancesH env link m table s1 merged
  return { s1 with distances := distances, iteration := s1.iteration + 1 }

/-- Lines 238-279. -/
def hLoopH (env : HierEnv V δ) (link : Linkage) (m : Manager α) (vectors : Dict α V) (table : Dict α (Dict α δ)) :
    Nat → HStateH α V δ → Except PyErr (HStateH α V δ)
  | 0, s => do if (← listAt s.heap.ints s.current).length > 1 then .error .outOfFuel else .ok s
  | fuel + 1, s => do
    if (← listAt s.heap.ints s.current).length > 1 then
      match ← hClosestH s with
      | none => return s
      | some p => hLoopH env link m vectors table fuel (← hMergeStepH env link m vectors table s p)
    else .ok s

/-- Lines 199-234. `get_connected_components` (line 207) returns new lists; they become the members of the first clusters. -/
def hStartH (env : HierEnv V δ) (link : Linkage) (m : Manager α) (vectors : Dict α V) (table : Dict α (Dict α δ))
    (h : HHeap α V) : Except PyErr (HStateH α V δ) := do
  let s ← (List.range' h.lists.length m.components.length).foldlM (hAddLeafH env vectors)
    ⟨h.ints.length, [], [], 0, ⟨h.lists ++ m.components, h.ints ++ [[]], h.clusters⟩⟩
  let distances ← hInitDistancesH env link m table s
  return { s with distances := distances, iteration := 1 }

/-- Lines 309-313; `self.current_clusters.copy()` is a new list. -/
def hFinishH (env : HierEnv V δ) (vectors : Dict α V) (s : HStateH α V δ) : Except PyErr (HStateH α V δ) := do
  let current ← listAt s.heap.ints s.current
  if current.length > 1 then return (← hAddMergeH env vectors (s.newInts current) s.heap.ints.length).2 else .ok s

/-- Lines 199-317: the address of the root, the storage and the objects. -/
def hBuildH (env : HierEnv V δ) (link : Linkage) (m : Manager α) (vectors : Dict α V) (table : Dict α (Dict α δ))
    (h : HHeap α V) : Except PyErr (Nat × Dict Nat Nat × HHeap α V) := do
  let s0 ← hStartH env link m vectors table h
  let s1 ← hLoopH env link m vectors table m.components.length s0
  let s2 ← hFinishH env vectors s1
  match ← listAt s2.heap.ints s2.current with
  | [] => .error .indexError
  | root :: _ => do return (← dget s2.storage root, s2.storage, s2.heap)

/-! ### Cutting the tree -/

/-- The key of lines 640 and 645. -/
def CutBy.keyH (by_ : CutBy) (h : HHeap α V) (a : Nat) : Except PyErr Nat :=
  match by_ with
  | .size => do return (← membersAt h a).length
  | .iteration => do return (← clusterAt h a).iteration

/-- Lines 637-645. -/
def hChoiceH (by_ : CutBy) (h : HHeap α V) (l : List Nat) : Except PyErr Nat := do
  let keyed ← l.mapM fun a => do return (a, ← by_.keyH h a)
  match pyMaxBy (fun (p : Nat × Nat) => p.2) keyed with
  | none => .error (.valueError "max")
  | some p => return p.1

/-- Lines 636-658, with fuel, on a list of `Cluster` objects; `list_of_clusters.remove` compares objects by identity. -/
def hExploreH (by_ : CutBy) (h : HHeap α V) (nb : Int) : Nat → List Nat → Except PyErr (List Nat)
  | 0, l => if (l.length : Int) < nb then .error .outOfFuel else .ok l
  | fuel + 1, l =>
    if (l.length : Int) < nb then do
      let a ← hChoiceH by_ h l
      let r ← clusterAt h a
      if r.children = [] then return l
      else hExploreH by_ h nb fuel (l.erase a ++ r.children)
    else .ok l

/-- Lines 665-672. -/
def hAffectH (ids : List α) (h : HHeap α V) (l : List Nat) : Except PyErr (Dict α Int) :=
  l.foldlM (fun d a => do
    let r ← clusterAt h a
    return (← membersAt h a).foldl (fun d x => dset d x (r.id : Int)) d) (dofList (ids.map fun x => (x, -1)))

/-- `compute_predicted_clusters`, lines 628-678, once the root is known. -/
def hCutH (ids : List α) (h : HHeap α V) (root : Nat) (nb : Int) (by_ : CutBy) : Except PyErr (Dict α Int) := do
  let l ← hExploreH by_ h nb nb.toNat [root]
  renameClusters (← hAffectH ids h l)

/-- The dictionary of lines 810-822; its `members` is the address of a list. -/
inductive HTreeH
  | node (id iteration : Nat) (children : List HTreeH) (depth : Nat) (members : Nat)

/-- `to_dict`, lines 801-824, with at most `k` nested calls: line 822 gives the list of the cluster itself. -/
def hToDictH (h : HHeap α V) : Nat → Nat → Except PyErr HTreeH
  | 0, _ => .error .recursionError
  | k + 1, a => do
    let r ← clusterAt h a
    let children ← r.children.mapM fun c => hToDictH h k c
    return .node r.id r.iteration children r.depth r.members

/-! ### The clustering object -/

/-- The clustering object between calls, with the objects of the program. -/
structure HObjectH (α V : Type) where
  linkage : Linkage
  ids : List α
  root : Option Nat
  storage : Dict Nat Nat
  heap : HHeap α V

/-- `__init__`, lines 86-117, in a program that has the objects `h`. -/
def HObjectH.init (linkage : String) (h : HHeap α V) : Except PyErr (HObjectH α V) := do
  return ⟨← Linkage.parse linkage, [], none, [], h⟩

/-- `compute_predicted_clusters`, lines 609-678. -/
def HObjectH.cut (o : HObjectH α V) (nb : Int) (by_ : CutBy) : Except PyErr (Dict α Int) :=
  match o.root with
  | none => .error (.valueError "clustering_root")
  | some root => hCutH o.ids o.heap root nb by_

/-- `clustering_root.to_dict()`. -/
def HObjectH.export (o : HObjectH α V) (k : Nat) : Except PyErr HTreeH :=
  match o.root with
  | none => .error .attributeError
  | some root => hToDictH o.heap k root

/-- `cluster`, lines 122-328. -/
def HObjectH.cluster (env : HierEnv V δ) (o : HObjectH α V) (m : Manager α) (vectors : Option (Dict α V))
    (nb : Option Int) : HObjectH α V × Except PyErr (Dict α Int) :=
  -- line 155
  let o1 := { o with ids := m.managed }
  match vectors, nb with
  | none, _ => (o1, .error (.valueError "vectors"))
  | some _, none => (o1, .error (.valueError "nb_clusters"))
  | some vs, some n =>
    if n < 2 then (o1, .error (.valueError "nb_clusters"))
    else
      match distanceTable m vs env.metric with
      | .error e => (o1, .error e)
      | .ok table =>
        match hBuildH env o.linkage m vs table o.heap with
        | .error e => ({ o1 with root := none, storage := [] }, .error e)
        | .ok (root, storage, h) =>
          let o2 : HObjectH α V := { o1 with root := some root, storage := storage, heap := h }
          (o2, o2.cut (min n m.managed.length) .size)

end

end Verif
