import Mathlib.Algebra.Order.Field.Rat
import Verif.Py.Basic
import Verif.Model.Constraints
import Verif.Model.Sampling

/-
Model of the three factories and of the constructors they call, under
/repo/src/cognitivefactory/interactive_clustering/:
constraints/factory.py lines 24-59, sampling/factory.py lines 22-75, clustering/factory.py lines 29-99,
and the `__init__` methods (lines given below).

Option values are `None`, booleans, integers, finite floats (exact rationals) and strings; other python objects,
`nan` and infinities are not modelled. Algorithm and manager names are strings. The warnings of the classes in
development are not modelled (a caller that turns warnings into exceptions is outside the model).
-/

namespace Verif

/-- Values of keyword arguments. -/
inductive PyVal
  | none
  | bool (b : Bool)
  | int (i : Int)
  | float (q : Rat)
  | str (s : String)
  deriving DecidableEq, Repr

/-- The number that is compared by `<`; `none` when the comparison with a number raises `TypeError`. -/
def PyVal.num : PyVal → Option Rat
  | .bool b => some (if b then 1 else 0)
  | .int i => some i
  | .float q => some q
  | _ => .none

/-- `**kargs` -/
abbrev Kwargs := Dict String PyVal

/-- `f(k1=v1, …, **kargs)`: python raises `TypeError` for a keyword given twice. -/
def callWith (explicit kargs : Kwargs) : Except PyErr Kwargs :=
  if (dkeys explicit).any (fun k => decide (k ∈ dkeys kargs)) = true then .error .typeError
  else .ok (explicit ++ kargs)

/-- The test made on an option before it is stored. -/
inductive Check
  /-- stored as it is -/
  | any
  /-- `v not in {…}`, `v != …` -/
  | oneOf (l : List PyVal)
  /-- `v < bound` -/
  | atLeast (bound : Rat)
  /-- `v <= bound` -/
  | moreThan (bound : Rat)
  /-- `(v is not None) and (v < bound)` -/
  | noneOrAtLeast (bound : Rat)
  /-- `not isinstance(v, bool)` -/
  | boolean
  deriving DecidableEq, Repr

/-- Line `if …: raise ValueError(…)`; `name` is the tag of the exception. -/
def Check.run (name : String) : Check → PyVal → Except PyErr Unit
  | .any, _ => .ok ()
  | .oneOf l, v => if v ∈ l then .ok () else .error (.valueError name)
  | .atLeast bound, v =>
    match v.num with
    | none => .error .typeError
    | some q => if q < bound then .error (.valueError name) else .ok ()
  | .moreThan bound, v =>
    match v.num with
    | none => .error .typeError
    | some q => if q ≤ bound then .error (.valueError name) else .ok ()
  | .noneOrAtLeast bound, v =>
    if v = .none then .ok ()
    else match v.num with
      | none => .error .typeError
      | some q => if q < bound then .error (.valueError name) else .ok ()
  | .boolean, v =>
    match v with
    | .bool _ => .ok ()
    | _ => .error (.valueError name)

/-- An option of a constructor: name, default value, test. -/
structure Opt where
  name : String
  default : PyVal
  check : Check

/-- The name of the option in the message of the exception: `w` is called `weight` there (clustering/mpckmeans.py,
line 139). -/
def Opt.tag (o : Opt) : String := if o.name = "w" then "weight" else o.name

/-- An object: its option attributes and `self.kargs`. -/
structure PyObject where
  attrs : Dict String PyVal
  kargs : Kwargs
  deriving DecidableEq

/-- An `__init__` that tests and stores its options one after the other, called with keywords `kw`.
The keyword `self` is already bound by the call. -/
def construct (opts : List Opt) (kw : Kwargs) : Except PyErr PyObject :=
  if "self" ∈ dkeys kw then .error .typeError
  else do
    let attrs ← opts.mapM fun o => do
      let v := (dget? kw o.name).getD o.default
      o.check.run o.tag v
      return (o.name, v)
    return ⟨attrs, kw.filter fun p => decide (p.1 ∉ opts.map Opt.name)⟩

/-- clustering/affinity_propagation.py, lines 94-146. The order is that of the tests. -/
def apOpts : List Opt :=
  [⟨"max_iteration", .int 150, .atLeast 1⟩, ⟨"convergence_iteration", .int 10, .atLeast 1⟩,
   ⟨"absolute_must_links", .bool true, .any⟩, ⟨"random_seed", .none, .any⟩]

/-- clustering/dbscan.py, lines 98-150. -/
def dbOpts : List Opt :=
  [⟨"eps", .float (1 / 2), .moreThan 0⟩, ⟨"min_samples", .int 5, .moreThan 0⟩, ⟨"random_seed", .none, .any⟩]

/-- clustering/hierarchical.py, lines 86-117. -/
def hierOpts : List Opt :=
  [⟨"linkage", .str "ward", .oneOf [.str "ward", .str "average", .str "complete", .str "single"]⟩,
   ⟨"random_seed", .none, .any⟩]

/-- clustering/kmeans.py, lines 92-136. -/
def kmOpts : List Opt :=
  [⟨"model", .str "COP", .oneOf [.str "COP"]⟩, ⟨"max_iteration", .int 150, .atLeast 1⟩,
   ⟨"tolerance", .float (1 / 10000), .atLeast 0⟩, ⟨"random_seed", .none, .any⟩]

/-- clustering/mpckmeans.py, lines 95-149. -/
def mpcOpts : List Opt :=
  [⟨"model", .str "MPC", .oneOf [.str "MPC"]⟩, ⟨"max_iteration", .int 150, .atLeast 1⟩,
   ⟨"w", .float 1, .atLeast 0⟩, ⟨"random_seed", .none, .any⟩]

/-- clustering/spectral.py, lines 93-128. -/
def specOpts : List Opt :=
  [⟨"model", .str "SPEC", .oneOf [.str "SPEC"]⟩, ⟨"nb_components", .none, .noneOrAtLeast 2⟩,
   ⟨"random_seed", .none, .any⟩]

/-- sampling/clusters_based.py, lines 67-110. (This class does not keep `kargs`.) -/
def samplerOpts : List Opt :=
  [⟨"random_seed", .none, .any⟩,
   ⟨"clusters_restriction", .none, .oneOf [.none, .str "same_cluster", .str "different_clusters"]⟩,
   ⟨"distance_restriction", .none, .oneOf [.none, .str "closest_neighbors", .str "farthest_neighbors"]⟩,
   ⟨"without_added_constraints", .bool true, .boolean⟩, ⟨"without_inferred_constraints", .bool true, .boolean⟩]

/-- The six classes of constrained clustering. -/
inductive ClusteringClass
  | affinityPropagation
  | dbscan
  | hierarchical
  | kmeans
  | mpckmeans
  | spectral
  deriving DecidableEq, Repr

def ClusteringClass.opts : ClusteringClass → List Opt
  | .affinityPropagation => apOpts
  | .dbscan => dbOpts
  | .hierarchical => hierOpts
  | .kmeans => kmOpts
  | .mpckmeans => mpcOpts
  | .spectral => specOpts

/-- `clustering_factory`, clustering/factory.py lines 29-99. -/
def clusteringFactory (algorithm : String) (kargs : Kwargs) : Except PyErr (ClusteringClass × PyObject) := do
  -- lines 62-70
  if algorithm ∉ ["affinity_propagation", "dbscan", "hierarchical", "kmeans", "mpckmeans", "spectral"] then
    throw (.valueError "algorithm")
  -- lines 75-96
  let c := if algorithm = "affinity_propagation" then ClusteringClass.affinityPropagation
    else if algorithm = "dbscan" then .dbscan
    else if algorithm = "hierarchical" then .hierarchical
    else if algorithm = "mpckmeans" then .mpckmeans
    else if algorithm = "spectral" then .spectral
    else .kmeans
  return (c, ← construct c.opts kargs)

/-- `sampling_factory`, sampling/factory.py lines 22-75. -/
def samplingFactory (algorithm : String) (kargs : Kwargs) : Except PyErr PyObject := do
  -- lines 48-54
  if algorithm ∉ ["random", "random_in_same_cluster", "farthest_in_same_cluster", "closest_in_different_clusters"] then
    throw (.valueError "algorithm")
  -- lines 57-59
  if algorithm = "random_in_same_cluster" then
    construct samplerOpts (← callWith [("clusters_restriction", .str "same_cluster")] kargs)
  -- lines 62-65
  else if algorithm = "farthest_in_same_cluster" then
    construct samplerOpts (← callWith [("distance_restriction", .str "farthest_neighbors"),
      ("clusters_restriction", .str "same_cluster")] kargs)
  -- lines 68-71
  else if algorithm = "closest_in_different_clusters" then
    construct samplerOpts (← callWith [("distance_restriction", .str "closest_neighbors"),
      ("clusters_restriction", .str "different_clusters")] kargs)
  -- lines 73-75
  else construct samplerOpts kargs

/-- `managing_factory`, constraints/factory.py lines 24-59; `BinaryConstraintsManager.__init__`,
constraints/binary.py lines 70-118, takes any other keyword (`list_of_data_IDs` and `manager` are bound by the
call of the factory and cannot be in `kargs`). -/
def managingFactory {α : Type} [LinearOrder α] (ids : List α) (manager : String) (kargs : Kwargs) :
    Except PyErr (Manager α × Kwargs) := do
  -- lines 52-53
  if manager ≠ "binary" then throw (.valueError "manager")
  -- line 59
  if "self" ∈ dkeys kargs then throw .typeError
  return (Manager.init ids, kargs)

/-- The typed view of a sampling object used by the model of `sample` (Model/Sampling.lean). -/
def PyObject.sampler (o : PyObject) : Option Sampler := do
  let c ← dget? o.attrs "clusters_restriction"
  let d ← dget? o.attrs "distance_restriction"
  let a ← dget? o.attrs "without_added_constraints"
  let i ← dget? o.attrs "without_inferred_constraints"
  let str : PyVal → Option String := fun v => match v with | .str s => some s | _ => .none
  let bool : PyVal → Option Bool := fun v => match v with | .bool b => some b | _ => .none
  (Sampler.init (str c) (str d) (bool a) (bool i)).toOption

end Verif
