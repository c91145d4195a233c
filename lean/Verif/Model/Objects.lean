import Verif.Model.KMeans
import Verif.Model.Hierarchical
import Verif.Model.DBScan
import Verif.Model.Spectral
import Verif.Model.Affinity
import Verif.Model.MPC

/-
The clustering classes as objects: the same methods as in the other models, but with every attribute
read from and written to `self`, as the code does. An attribute that no method has set yet is `none`
and reading it raises `AttributeError`. Attributes written before an exception stay written.

The line numbers refer to the file of each class in
/repo/src/cognitivefactory/interactive_clustering/clustering/

The attributes `model`, `tolerance`, `random_seed`, `kargs` and the `nb_clusters = None` of DBSCAN and
affinity propagation are not modelled: no method reads them, except `tolerance`, `random_seed` and
`kargs` where they are arguments of external functions (parts of the `env` parameters).
The computations between two accesses to `self` are those of the other models.
-/

namespace Verif

/-- A method call on an object with attributes `σ`. -/
def Meth (σ β : Type) : Type := σ → σ × Except PyErr β

namespace Meth

instance {σ : Type} : Monad (Meth σ) where
  pure b := fun s => (s, .ok b)
  bind x f := fun s =>
    match x s with
    | (s', .ok b) => f b s'
    | (s', .error e) => (s', .error e)

/-- `self.a` -/
def attr {σ β : Type} (f : σ → Option β) : Meth σ β := fun s =>
  match f s with
  | some b => (s, .ok b)
  | none => (s, .error .attributeError)

/-- an attribute that `__init__` sets to a value of its type -/
def param {σ β : Type} (f : σ → β) : Meth σ β := fun s => (s, .ok (f s))

/-- an attribute that `__init__` sets to `None`, and a use of it as a dictionary -/
def notNone {σ β : Type} (f : σ → Option β) : Meth σ β := fun s =>
  match f s with
  | some b => (s, .ok b)
  | none => (s, .error .typeError)

/-- `self.a = …` -/
def write {σ : Type} (f : σ → σ) : Meth σ Unit := fun s => (f s, .ok ())

/-- a computation that does not touch `self` -/
def lift {σ β : Type} (x : Except PyErr β) : Meth σ β := fun s => (s, x)

/-- `raise` -/
def fail {σ β : Type} (e : PyErr) : Meth σ β := fun s => (s, .error e)

/-- Earlier calls: their results and exceptions are dropped. -/
def history {σ γ β : Type} (call : γ → Meth σ β) (calls : List γ) (s : σ) : σ :=
  calls.foldl (fun s c => (call c s).1) s

end Meth

open Meth

/-- The arguments of a call of `cluster`; `env` are the external functions during this call. -/
structure ClusterCall (ε α V : Type) where
  env : ε
  manager : Manager α
  vectors : Option (Dict α V)
  nb : Option Int

/-! ### `kmeans.py` -/

/-- The attributes of a `KMeansConstrainedClustering`. -/
structure KmSelf (α V : Type) where
  maxIteration : Nat
  manager : Option (Manager α) := none
  ids : Option (List α) := none
  vectors : Option (Dict α V) := none
  nb : Option Nat := none
  predicted : Option (Dict α Int) := none
  clusters : Option (Dict α Int) := none
  centroids : Option (Dict Int V) := none

section
variable {α V δ : Type} [LinearOrder α] [LinearOrder δ]

/-- `compute_centroids`, lines 432-465. -/
def KmSelf.computeCentroids (env : KMeansEnv α V δ) (clusters : Dict α Int) : Meth (KmSelf α V) (Dict Int V) := do
  let vectors ← attr KmSelf.vectors
  let m ← attr KmSelf.manager
  lift (kmCentroids env m vectors clusters)

/-- `initialize_centroids`, lines 400-427. -/
def KmSelf.initializeCentroids (env : KMeansEnv α V δ) : Meth (KmSelf α V) (Dict Int V) := do
  let ids ← attr KmSelf.ids
  let nb ← attr KmSelf.nb
  let vectors ← attr KmSelf.vectors
  lift (kmInitialize env ids vectors nb)

/-- Lines 248-335: `new_clusters` and `new_centroids`. -/
def KmSelf.pass (env : KMeansEnv α V δ) : Meth (KmSelf α V) (Dict α Int × Dict Int V) := do
  -- lines 249-272
  let ids ← attr KmSelf.ids
  let vectors ← attr KmSelf.vectors
  let m ← attr KmSelf.manager
  let centroids ← attr KmSelf.centroids
  let dist ← lift (kmDistances env m vectors centroids)
  -- lines 275-328
  let nb ← attr KmSelf.nb
  let new ← lift (kmAssignAll m ids nb centroids dist ids.length (ids, dofList (ids.map fun x => (x, -1))))
  -- line 335
  let newCentroids ← KmSelf.computeCentroids env new
  return (new, newCentroids)

/-- Lines 240-379; the result is the local variable `new_clusters` (unbound before the first iteration;
`max_iteration` is at least 1). -/
def KmSelf.loop (env : KMeansEnv α V δ) : Nat → Dict α Int → Meth (KmSelf α V) (Dict α Int)
  | 0, new => return new
  | left + 1, _ => do
    let (new, newCentroids) ← KmSelf.pass env
    -- lines 342-369
    let clusters ← attr KmSelf.clusters
    let centroids ← attr KmSelf.centroids
    let converged ← lift (kmConverged env clusters new centroids newCentroids)
    -- lines 376-379
    write fun s => { s with clusters := some new }
    write fun s => { s with centroids := some newCentroids }
    if converged then return new else KmSelf.loop env left new

/-- `_clustering_kmeans_model_COP`, lines 206-395. -/
def KmSelf.cop (env : KMeansEnv α V δ) : Meth (KmSelf α V) (Dict α Int) := do
  -- line 225
  let centroids ← KmSelf.initializeCentroids env
  write fun s => { s with centroids := some centroids }
  -- line 228
  let ids ← attr KmSelf.ids
  write fun s => { s with clusters := some (dofList (ids.map fun x => (x, -1))) }
  -- lines 240-379
  let maxIteration ← param KmSelf.maxIteration
  let new ← KmSelf.loop env maxIteration (dofList (ids.map fun x => (x, -1)))
  -- lines 392-395
  let clusters ← attr KmSelf.clusters
  let renamed ← lift (renameClusters clusters)
  write fun s => { s with clusters := some renamed }
  let centroids ← KmSelf.computeCentroids env new
  write fun s => { s with centroids := some centroids }
  attr KmSelf.clusters

/-- `cluster`, lines 141-201. -/
def KmSelf.cluster (c : ClusterCall (KMeansEnv α V δ) α V) : Meth (KmSelf α V) (Dict α Int) := do
  -- lines 173-174
  write fun s => { s with manager := some c.manager }
  let m ← attr KmSelf.manager
  write fun s => { s with ids := some m.managed }
  -- lines 177-184
  match c.vectors, c.nb with
  | none, _ => fail (.valueError "vectors")
  | some vs, none => do
    write fun s => { s with vectors := some vs }
    fail (.valueError "nb_clusters")
  | some vs, some n => do
    write fun s => { s with vectors := some vs }
    if n < 2 then fail (.valueError "nb_clusters")
    else
      let ids ← attr KmSelf.ids
      write fun s => { s with nb := some (min n.toNat ids.length) }
      -- lines 191-201
      write fun s => { s with predicted := none }
      let d ← KmSelf.cop c.env
      write fun s => { s with predicted := some d }
      notNone KmSelf.predicted

end

/-! ### `hierarchical.py` -/

/-- The attributes of a `HierarchicalConstrainedClustering`. The tree below `clustering_root` is in
`storage` (`clusters_storage`) as long as there is a root. -/
structure HSelf (α V δ : Type) where
  linkage : Linkage
  manager : Option (Manager α) := none
  ids : Option (List α) := none
  vectors : Option (Dict α V) := none
  nb : Option Int := none
  table : Option (Dict α (Dict α δ)) := none
  root : Option Nat := none
  predicted : Option (Dict α Int) := none
  iteration : Option Nat := none
  current : Option (List Nat) := none
  storage : Option (Dict Nat (HCluster α V)) := none
  distances : Option (Dict Nat (Dict Nat (WithTop δ))) := none

section
variable {α V δ : Type} [LinearOrder α] [LinearOrder δ]

/-- The four attributes that the methods change together. -/
def HSelf.state : Meth (HSelf α V δ) (HState α V δ) := do
  let current ← attr HSelf.current
  let storage ← attr HSelf.storage
  let distances ← attr HSelf.distances
  let iteration ← attr HSelf.iteration
  return ⟨current, storage, distances, iteration⟩

def HSelf.setState (t : HState α V δ) : Meth (HSelf α V δ) Unit :=
  write fun s => { s with current := some t.current, storage := some t.storage, distances := some t.distances,
                          iteration := some t.iteration }

/-- `_add_new_cluster_by_setting_members`, lines 333-361; `clusters_distance` is not read. -/
def HSelf.addLeaf (env : HierEnv V δ) (members : List α) : Meth (HSelf α V δ) Unit := do
  let storage ← attr HSelf.storage
  let vectors ← attr HSelf.vectors
  let iteration ← attr HSelf.iteration
  let current ← attr HSelf.current
  let t ← lift (hAddLeaf env vectors ⟨current, storage, [], iteration⟩ members)
  write fun s => { s with current := some t.current, storage := some t.storage }

/-- Lines 222-228. -/
def HSelf.initDistances (env : HierEnv V δ) : Meth (HSelf α V δ) Unit := do
  let link ← param HSelf.linkage
  let m ← attr HSelf.manager
  let table ← attr HSelf.table
  let t ← HSelf.state
  let d ← lift (hInitDistances env link m table t)
  write fun s => { s with distances := some d }

/-- Lines 238-279: the `while` loop, with fuel. -/
def HSelf.loop (env : HierEnv V δ) : Nat → Meth (HSelf α V δ) Unit
  | 0 => do
    let current ← attr HSelf.current
    if current.length > 1 then fail .outOfFuel else return ()
  | fuel + 1 => do
    let current ← attr HSelf.current
    if current.length > 1 then
      let t ← HSelf.state
      match ← lift (hClosest t) with
      | none => return ()
      | some p => do
        let link ← param HSelf.linkage
        let m ← attr HSelf.manager
        let vectors ← attr HSelf.vectors
        let table ← attr HSelf.table
        let t' ← lift (hMergeStep env link m vectors table t p)
        HSelf.setState t'
        HSelf.loop env fuel
    else return ()

/-- `compute_predicted_clusters`, lines 609-678. -/
def HSelf.cut (nb : Int) (by_ : CutBy) : Meth (HSelf α V δ) (Dict α Int) := do
  match ← param HSelf.root with
  | none => fail (.valueError "clustering_root")
  | some root => do
    let storage ← attr HSelf.storage
    let ids ← attr HSelf.ids
    lift (hCut ids storage root nb by_)

/-- Lines 198-316: the ID of the root. -/
def HSelf.tree (env : HierEnv V δ) : Meth (HSelf α V δ) Nat := do
  -- lines 198-205
  write fun s => { s with predicted := none }
  write fun s => { s with iteration := some 0 }
  write fun s => { s with current := some [] }
  write fun s => { s with storage := some [] }
  -- lines 208-218
  let m ← attr HSelf.manager
  m.components.foldlM (fun _ members => HSelf.addLeaf env members) ()
  -- lines 221-231
  write fun s => { s with distances := some [] }
  HSelf.initDistances env
  write fun s => { s with iteration := some 1 }
  -- lines 238-279
  HSelf.loop env m.components.length
  -- lines 309-313
  let t ← HSelf.state
  let vectors ← attr HSelf.vectors
  let t' ← lift (hFinish env vectors t)
  HSelf.setState t'
  -- lines 316-317
  match ← attr HSelf.current with
  | [] => fail .indexError
  | root :: _ => do
    let storage ← attr HSelf.storage
    let _ ← lift (dget storage root)
    return root

/-- Lines 196-328. -/
def HSelf.build (env : HierEnv V δ) : Meth (HSelf α V δ) (Dict α Int) := do
  -- line 197
  write fun s => { s with root := none }
  -- lines 198-317
  let root ← HSelf.tree env
  write fun s => { s with root := some root }
  -- lines 324-328
  let nb ← attr HSelf.nb
  let d ← HSelf.cut nb .size
  write fun s => { s with predicted := some d }
  notNone HSelf.predicted

/-- `cluster`, lines 122-328. -/
def HSelf.cluster (c : ClusterCall (HierEnv V δ) α V) : Meth (HSelf α V δ) (Dict α Int) := do
  -- lines 154-155
  write fun s => { s with manager := some c.manager }
  let m ← attr HSelf.manager
  write fun s => { s with ids := some m.managed }
  -- lines 158-165
  match c.vectors, c.nb with
  | none, _ => fail (.valueError "vectors")
  | some vs, none => do
    write fun s => { s with vectors := some vs }
    fail (.valueError "nb_clusters")
  | some vs, some n => do
    write fun s => { s with vectors := some vs }
    if n < 2 then fail (.valueError "nb_clusters")
    else
      let ids ← attr HSelf.ids
      write fun s => { s with nb := some (min n ids.length) }
      -- lines 168-180
      let vectors ← attr HSelf.vectors
      let m ← attr HSelf.manager
      let table ← lift (distanceTable m vectors c.env.metric)
      write fun s => { s with table := some table }
      HSelf.build c.env

end

/-! ### `dbscan.py` -/

/-- The attributes of a `DBScanConstrainedClustering`. -/
structure DbSelf (α V δ : Type) where
  params : DbParams δ
  manager : Option (Manager α) := none
  ids : Option (List α) := none
  vectors : Option (Dict α V) := none
  table : Option (Dict α (Dict α δ)) := none
  predicted : Option (Dict α Int) := none
  labels : Option (Dict α DLabel) := none
  locals : Option (Dict α (List α)) := none
  cores : Option (Dict α (List α)) := none
  regular : Int := 0
  single : Int := 0
  total : Int := 0

section
variable {α V δ : Type} [LinearOrder α] [LinearOrder δ]

/-- Lines 240-297: one iteration. -/
def DbSelf.localStep (x : α) : Meth (DbSelf α V δ) Unit := do
  let labels ← attr DbSelf.labels
  let locals ← attr DbSelf.locals
  let ids ← attr DbSelf.ids
  let table ← attr DbSelf.table
  let p ← param DbSelf.params
  let m ← attr DbSelf.manager
  let t ← lift (dbLocalStep p m table ids (labels, locals) x)
  write fun s => { s with labels := some t.1, locals := some t.2 }

/-- Lines 304-432. -/
def DbSelf.mergeMustLinks (env : DbEnv α V δ) : Meth (DbSelf α V δ) Unit := do
  let ids ← attr DbSelf.ids
  let m ← attr DbSelf.manager
  -- lines 304-327
  let compatible ← lift (dbCompatible m ids)
  let locals ← attr DbSelf.locals
  let clustersOf := dbClustersOf ids locals
  -- lines 333-414
  let t ← ids.foldlM (fun (t : List α × Dict α α) x => do
    let labels ← attr DbSelf.labels
    let locals ← attr DbSelf.locals
    let cores ← attr DbSelf.cores
    let u ← lift (dbMergeStep env labels locals clustersOf compatible (t.1, t.2, cores) x)
    write fun s => { s with cores := some u.2.2 }
    return (u.1, u.2.1)) ([], dofList (ids.map fun x => (x, env.none)))
  -- lines 417-423
  ids.foldlM (fun _ x => do
    let cores ← attr DbSelf.cores
    let u ← lift (dbClean t.2 cores x)
    write fun s => { s with cores := some u }) ()
  -- lines 427-432
  ids.foldlM (fun _ x => do
    let cores ← attr DbSelf.cores
    let u ← lift (dbCleanSingle cores x)
    write fun s => { s with cores := some u }) ()

/-- Lines 438-501, one iteration. -/
def DbSelf.growStep (env : DbEnv α V δ) (x : α) : Meth (DbSelf α V δ) Unit := do
  let locals ← attr DbSelf.locals
  let cores ← attr DbSelf.cores
  let table ← attr DbSelf.table
  let p ← param DbSelf.params
  let m ← attr DbSelf.manager
  let t ← lift (dbGrowStep env p m table (cores, locals) x)
  write fun s => { s with cores := some t.1, locals := some t.2 }

/-- Lines 508-551. -/
def DbSelf.finish : Meth (DbSelf α V δ) (Dict α Int) := do
  -- lines 508-512
  let cores ← attr DbSelf.cores
  let predicted ← notNone DbSelf.predicted
  let t := (dvals cores).foldl dbFinalCore (predicted, 0)
  write fun s => { s with predicted := some t.1 }
  -- lines 515-528
  let locals ← attr DbSelf.locals
  let _ ← (dkeys locals).foldlM (fun (label : Int) x => do
    let locals ← attr DbSelf.locals
    let predicted ← notNone DbSelf.predicted
    let p ← param DbSelf.params
    let u ← lift (dbFinalLocal p (locals, predicted, label) x)
    write fun s => { s with locals := some u.1, predicted := some u.2.1 }
    return u.2.2) t.2
  -- lines 531-533
  let predicted ← notNone DbSelf.predicted
  let renamed ← lift (renameClusters predicted)
  write fun s => { s with predicted := some renamed }
  -- line 536
  let predicted ← notNone DbSelf.predicted
  write fun s => { s with regular := (dvals predicted).dedup.length }
  -- lines 539-543
  let ids ← attr DbSelf.ids
  let predicted ← notNone DbSelf.predicted
  let u := ids.foldl dbIgnore (predicted, -1)
  write fun s => { s with predicted := some u.1 }
  -- lines 546-551
  write fun s => { s with single := -(u.2 + 1) }
  write fun s => { s with total := s.regular + s.single }
  notNone DbSelf.predicted

/-- `cluster`, lines 155-551. -/
def DbSelf.cluster (c : ClusterCall (DbEnv α V δ) α V) : Meth (DbSelf α V δ) (Dict α Int) := do
  -- lines 187-188
  write fun s => { s with manager := some c.manager }
  let m ← attr DbSelf.manager
  write fun s => { s with ids := some m.managed }
  -- lines 191-198
  match c.vectors, c.nb with
  | none, _ => fail (.valueError "vectors")
  | some vs, some _ => do
    write fun s => { s with vectors := some vs }
    fail (.valueError "nb_clusters")
  | some vs, none => do
    write fun s => { s with vectors := some vs }
    -- lines 205-217
    let vectors ← attr DbSelf.vectors
    let m ← attr DbSelf.manager
    let table ← lift (distanceTable m vectors c.env.metric)
    write fun s => { s with table := some table }
    -- lines 224-233
    write fun s => { s with predicted := some [] }
    let ids ← attr DbSelf.ids
    write fun s => { s with labels := some (dofList (ids.map fun x => (x, .unlabeled))) }
    write fun s => { s with locals := some [] }
    write fun s => { s with cores := some (dofList (ids.map fun x => (x, []))) }
    -- lines 239-297
    ids.foldlM (fun _ x => DbSelf.localStep x) ()
    -- lines 304-432
    DbSelf.mergeMustLinks c.env
    -- lines 438-501
    let cores ← attr DbSelf.cores
    (dkeys cores).foldlM (fun _ x => DbSelf.growStep c.env x) ()
    -- lines 508-551
    DbSelf.finish

end

/-! ### `spectral.py` -/

/-- The attributes of a `SpectralConstrainedClustering`. -/
structure SpecSelf (α V κ : Type) where
  nbComponents : Option Int
  manager : Option (Manager α) := none
  ids : Option (List α) := none
  vectors : Option (Dict α V) := none
  nb : Option Nat := none
  currentNbComponents : Option Int := none
  similarity : Option (Mat κ) := none
  predicted : Option (Dict α Int) := none

section
variable {α V κ : Type} [LinearOrder α]

/-- `clustering_spectral_model_SPEC`, lines 216-298. -/
def SpecSelf.spec (env : SpecEnv V κ) : Meth (SpecSelf α V κ) (Dict α Int) := do
  let ids ← attr SpecSelf.ids
  let m ← attr SpecSelf.manager
  -- lines 238-264
  ids.zipIdx.foldlM (fun _ p => ids.zipIdx.foldlM (fun _ q => do
    let S ← attr SpecSelf.similarity
    let S' ← lift (specStep env m p S q)
    write fun s => { s with similarity := some S' }) ()) ()
  -- lines 275-287
  let nb ← attr SpecSelf.nb
  let S ← attr SpecSelf.similarity
  let labels ← lift (env.solve nb S)
  -- lines 290-298
  let items ← lift (ids.zipIdx.mapM (specEntry labels))
  lift (renameClusters (dofList items))

/-- Lines 179-183: `current_nb_components`. -/
def specComponents (nbComponents : Option Int) (nb : Nat) : Int :=
  match nbComponents with
  | some k => if (nb : Int) < k then k else nb
  | none => nb

/-- `cluster`, lines 133-211. -/
def SpecSelf.cluster (c : ClusterCall (SpecEnv V κ) α V) : Meth (SpecSelf α V κ) (Dict α Int) := do
  -- lines 165-166
  write fun s => { s with manager := some c.manager }
  let m ← attr SpecSelf.manager
  write fun s => { s with ids := some m.managed }
  -- lines 169-176
  match c.vectors, c.nb with
  | none, _ => fail (.valueError "vectors")
  | some vs, none => do
    write fun s => { s with vectors := some vs }
    fail (.valueError "nb_clusters")
  | some vs, some n => do
    write fun s => { s with vectors := some vs }
    if n < 2 then fail (.valueError "nb_clusters")
    else
      let ids ← attr SpecSelf.ids
      write fun s => { s with nb := some (min n.toNat ids.length) }
      -- lines 179-183
      let k ← param SpecSelf.nbComponents
      let nb ← attr SpecSelf.nb
      write fun s => { s with currentNbComponents := some (specComponents k nb) }
      -- lines 186-189
      let vectors ← attr SpecSelf.vectors
      let m ← attr SpecSelf.manager
      let rows ← lift (stackRows m vectors)
      write fun s => { s with similarity := some (rows.map fun v => rows.map fun w => c.env.kernel v w) }
      -- lines 196-211
      write fun s => { s with predicted := none }
      let d ← SpecSelf.spec c.env
      write fun s => { s with predicted := some d }
      notNone SpecSelf.predicted

end

/-! ### `affinity_propagation.py` -/

/-- The attributes of an `AffinityPropagationConstrainedClustering`. -/
structure ApSelf (α V : Type) where
  params : ApParams
  manager : Option (Manager α) := none
  ids : Option (List α) := none
  vectors : Option (Dict α V) := none
  predicted : Option (Dict α Int) := none

section
variable {α V κ μ θ : Type} [LinearOrder α] [LinearOrder κ]

/-- Lines 216-222, with the IDs and the manager read from the object. -/
def apCannotLinksOf (ids : List α) (m : Manager α) : Except PyErr (List (Nat × Nat)) := do
  let pairs := (List.range ids.length).flatMap fun i =>
    ((List.range ids.length).filter fun j => decide (i < j)).map fun j => (i, j)
  pairs.filterM fun q => do
    let c ← m.getAdded (← lget ids q.1) (← lget ids q.2)
    return decide (c.map Prod.fst = some .cannotLink)

/-- Line 209: `vstack(self.vectors[data_ID] for data_ID in self.list_of_data_IDs)`. -/
def stackRowsOf (ids : List α) (vectors : Dict α V) : Except PyErr (List V) := do
  let rows ← ids.mapM fun x => dget vectors x
  if rows.isEmpty then throw (.valueError "vstack")
  return rows

/-- `cluster`, lines 152-241. -/
def ApSelf.cluster (c : ClusterCall (ApEnv V κ μ θ) α V) : Meth (ApSelf α V) (Dict α Int) := do
  -- lines 184-185
  write fun s => { s with manager := some c.manager }
  let m ← attr ApSelf.manager
  write fun s => { s with ids := some m.managed }
  -- lines 188-195
  match c.vectors, c.nb with
  | none, _ => fail (.valueError "vectors")
  | some vs, some _ => do
    write fun s => { s with vectors := some vs }
    fail (.valueError "nb_clusters")
  | some vs, none => do
    write fun s => { s with vectors := some vs }
    -- lines 202-209
    write fun s => { s with predicted := none }
    let ids ← attr ApSelf.ids
    let vectors ← attr ApSelf.vectors
    let rows ← lift (stackRowsOf ids vectors)
    let S := rows.map fun v => rows.map fun w => c.env.neg (c.env.dist v w)
    -- lines 212-222
    let m ← attr ApSelf.manager
    let mls ← lift (m.components.mapM fun l => l.mapM fun x => dget (dofList ids.zipIdx) x)
    let cls ← lift (apCannotLinksOf ids m)
    -- lines 225-241
    let p ← param ApSelf.params
    let labels ← lift (apRun c.env p S mls cls)
    let items ← lift (labels.zipIdx.mapM (apEntry ids))
    let d ← lift (renameClusters (dofList items))
    write fun s => { s with predicted := some d }
    notNone ApSelf.predicted

end

/-! ### `mpckmeans.py` -/

/-- The attributes of a `MPCKMeansConstrainedClustering` (`ml_graph` and `cl_graph` stay empty,
`cluster_centers` is never read). -/
structure MpcSelf (α V : Type) where
  params : MpcParams
  manager : Option (Manager α) := none
  ids : Option (List α) := none
  vectors : Option (Dict α V) := none
  nb : Option Nat := none
  ml : Option (List (Nat × Nat)) := none
  cl : Option (List (Nat × Nat)) := none
  labels : Option (List Int) := none
  predicted : Option (Dict α Int) := none

section
variable {α V κ θ : Type} [LinearOrder α] [LinearOrder κ]

/-- Lines 215-241 with the IDs and the manager read from the object. -/
def mpcPairsOf (ids : List α) (m : Manager α) (k : CType) : Except PyErr (List (Nat × Nat)) := do
  let pairs := ids.zipIdx.flatMap fun p => ids.zipIdx.map fun q => (p, q)
  let kept ← pairs.filterM fun pq => do return decide ((← m.getInferred pq.2.1 pq.1.1) = some k)
  return kept.map fun pq => (pq.1.2, pq.2.2)

/-- `cluster`, lines 159-287. -/
def MpcSelf.cluster (c : ClusterCall (MpcEnv V κ θ) α V) : Meth (MpcSelf α V) (Dict α Int) := do
  -- lines 193-194
  write fun s => { s with manager := some c.manager }
  let m ← attr MpcSelf.manager
  write fun s => { s with ids := some m.managed }
  -- lines 197-204
  match c.vectors, c.nb with
  | none, _ => fail (.valueError "vectors")
  | some vs, none => do
    write fun s => { s with vectors := some vs }
    fail (.valueError "nb_clusters")
  | some vs, some n => do
    write fun s => { s with vectors := some vs }
    if n < 2 then fail (.valueError "nb_clusters")
    else
      let ids ← attr MpcSelf.ids
      write fun s => { s with nb := some (min n.toNat ids.length) }
      -- lines 216-241
      let m ← attr MpcSelf.manager
      let ml ← lift (mpcPairsOf ids m .mustLink)
      write fun s => { s with ml := some ml }
      let cl ← lift (mpcPairsOf ids m .cannotLink)
      write fun s => { s with cl := some cl }
      -- lines 243-277: `X` and `id_names` come from the argument `vectors`
      let p ← param MpcSelf.params
      let nb ← attr MpcSelf.nb
      let ml ← attr MpcSelf.ml
      let cl ← attr MpcSelf.cl
      let labels ← lift (mpcLabels c.env p ids.length nb ml cl (dvals vs))
      write fun s => { s with labels := some labels }
      -- line 279
      let labels ← attr MpcSelf.labels
      let items ← lift ((labels.zipIdx.filter fun q => decide (q.1 ≠ -1)).mapM fun q => do return (← lget (dkeys vs) q.2, q.1))
      write fun s => { s with predicted := some (dofList items) }
      -- line 281
      let predicted ← notNone MpcSelf.predicted
      let renamed ← lift (renameClusters predicted)
      write fun s => { s with predicted := some renamed }
      -- lines 283-287
      let predicted ← notNone MpcSelf.predicted
      write fun s => { s with predicted := some (ids.foldl (fun d x => if x ∈ dkeys d then d else dset d x (-1)) predicted) }
      notNone MpcSelf.predicted

end

end Verif
