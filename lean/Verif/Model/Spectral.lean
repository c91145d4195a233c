import Verif.Model.Matrix
import Verif.Model.Rename

/-
Model of `clustering/spectral.py`, class `SpectralConstrainedClustering`.
All line numbers refer to
/repo/src/cognitivefactory/interactive_clustering/clustering/spectral.py

`pairwise_kernels` and scikit-learn's `SpectralClustering` are parameters: the kernel is any
function of two rows, the solver any function of the number of clusters and the matrix, which may
raise. `verbose`, the type check of the manager and `current_nb_components` (lines 179-183, never
read again) are not modelled.
-/

namespace Verif

/-- What the code takes from numpy / scikit-learn. -/
structure SpecEnv (V κ : Type) where
  /-- the `rbf` kernel of two rows, lines 186-189 -/
  kernel : V → V → κ
  /-- `1.0` -/
  one : κ
  /-- `0.0` -/
  zero : κ
  /-- `SpectralClustering(n_clusters, …).fit_predict(X)` and `labels_.tolist()`, lines 275-287 -/
  solve : Nat → Mat κ → Except PyErr (List Int)

/-- The parameters kept by `__init__`, lines 93-128. -/
structure SpecParams where
  model : String
  nbComponents : Option Int
  deriving DecidableEq, Repr

/-- `__init__`, lines 110-119. -/
def SpecParams.init (model : String) (nbComponents : Option Int) : Except PyErr SpecParams :=
  if model ≠ "SPEC" then .error (.valueError "model")
  else if (nbComponents.any fun n => decide (n < 2)) = true then .error (.valueError "nb_components")
  else .ok ⟨model, nbComponents⟩

/-- The attributes after a call: number of clusters, matrix, prediction. -/
structure SpecObject (α κ : Type) where
  nbClusters : Nat
  similarity : Mat κ
  predicted : Dict α Int
  deriving DecidableEq

section
variable {α V κ : Type} [LinearOrder α]

/-- Lines 239-264, one pair of (ID, index). -/
def specStep (env : SpecEnv V κ) (m : Manager α) (p : α × Nat) (S : Mat κ) (q : α × Nat) : Except PyErr (Mat κ) := do
  -- lines 241-242
  if q.2 < p.2 then return S
  -- lines 245-253
  else if (← m.getInferred p.1 q.1) = some .mustLink then
    mset (← mset S p.2 q.2 env.one) q.2 p.2 env.one
  -- lines 256-264
  else if (← m.getInferred p.1 q.1) = some .cannotLink then
    mset (← mset S p.2 q.2 env.zero) q.2 p.2 env.zero
  else return S

/-- Lines 238-264: the constraints are written in the matrix. -/
def specImprint (env : SpecEnv V κ) (m : Manager α) (S : Mat κ) : Except PyErr (Mat κ) :=
  m.managed.zipIdx.foldlM (fun S p => m.managed.zipIdx.foldlM (specStep env m p) S) S

/-- Lines 290-292, one entry: `list_of_clusters[ID]`. -/
def specEntry (labels : List Int) (p : α × Nat) : Except PyErr (α × Int) :=
  match labels[p.2]? with
  | some c => .ok (p.1, c)
  | none => .error .indexError

/-- `cluster`, lines 133-211, with `clustering_spectral_model_SPEC`, lines 216-298. `vectors = none`
stands for an argument that is not a `dict`. -/
def specCluster (env : SpecEnv V κ) (m : Manager α) (vectors : Option (Dict α V)) (nb : Option Int) :
    Except PyErr (SpecObject α κ) :=
  match vectors, nb with
  | none, _ => .error (.valueError "vectors")
  | some _, none => .error (.valueError "nb_clusters")
  | some vectors, some nb => do
    -- lines 174-176
    if nb < 2 then throw (.valueError "nb_clusters")
    let k := min nb.toNat m.managed.length
    -- lines 186-189
    let rows ← stackRows m vectors
    -- lines 238-264
    let S ← specImprint env m (rows.map fun v => rows.map fun w => env.kernel v w)
    -- lines 275-287
    let labels ← env.solve k S
    -- lines 290-295
    let items ← m.managed.zipIdx.mapM (specEntry labels)
    let predicted ← renameClusters (dofList items)
    return ⟨k, S, predicted⟩

end

end Verif
