import Verif.Spec.Manager
import Verif.Spec.Labels
import Verif.Model.KMeans
import Verif.Model.Hierarchical
import Verif.Model.DBScan
import Mathlib.Order.Monotone.Defs

/-
Specification vocabulary for renaming of IDs (C86): `f` gives every ID another name.
-/

namespace Verif

variable {α β V : Type} [LinearOrder α] [LinearOrder β]

/-- The same call with the other names. -/
def Op.mapIds (f : α → β) : Op α → Op β
  | .addDataID x => .addDataID (f x)
  | .deleteDataID x => .deleteDataID (f x)
  | .addConstraint x y ty v => .addConstraint (f x) (f y) ty v
  | .deleteConstraint x y => .deleteConstraint (f x) (f y)

/-- A call that deletes something. -/
def Op.deletes : Op α → Bool
  | .deleteDataID _ => true
  | .deleteConstraint _ _ => true
  | _ => false

/-- `m'` answers with the other names what `m` answers. -/
structure Renamed (f : α → β) (m : Manager α) (m' : Manager β) : Prop where
  managed : m'.managed = m.managed.map f
  added : ∀ x y, m'.getAdded (f x) (f y) = m.getAdded x y
  inferred : ∀ x y, m'.getInferred (f x) (f y) = m.getInferred x y
  complete : m'.complete = m.complete
  components : List.Forall₂ (fun c c' => c'.Perm (c.map f)) m.components m'.components

/-- A dictionary with the other names as keys. -/
def renameKeys {ν : Type} (f : α → β) (d : Dict α ν) : Dict β ν := d.map fun p => (f p.1, p.2)

/-- The same vectors of the managed IDs, under the other names. -/
def RenamedVectors (f : α → β) (m : Manager α) (vectors : Dict α V) (vectors' : Dict β V) : Prop :=
  ∀ x ∈ m.managed, dget? vectors' (f x) = dget? vectors x

/-- The same IDs have a label and the same groups of IDs have equal labels; if the order of the names is the same, the
labels themselves are the same. -/
structure RenamedLabels (f : α → β) (r : Dict α Int) (r' : Dict β Int) : Prop where
  keys : (dkeys r').Perm ((dkeys r).map f)
  groups : ∀ x ∈ dkeys r, ∀ y ∈ dkeys r, (dget? r' (f x) = dget? r' (f y) ↔ dget? r x = dget? r y)
  labels : StrictMono f → r' = renameKeys f r

/-- The same error, or two results in the relation `R`. -/
def SameOutcome {ρ ρ' : Type} (R : ρ → ρ' → Prop) : Except PyErr ρ → Except PyErr ρ' → Prop
  | .ok r, .ok r' => R r r'
  | .error e, .error e' => e = e'
  | _, _ => False

/-- The environments of KMeans do the same under the other names. -/
structure RenamedKMeans {δ : Type} (f : α → β) (m : Manager α) (env : KMeansEnv α V δ) (env' : KMeansEnv β V δ) : Prop where
  metric : env'.metric = env.metric
  mean : env'.mean = env.mean
  small : env'.small = env.small
  enum : env'.enum = env.enum
  shuffle : env'.shuffle (m.managed.map f) = (env.shuffle m.managed).map f

/-- The same cluster of the dendrogram with the other names. -/
def HCluster.mapIds (f : α → β) (c : HCluster α V) : HCluster β V := ⟨c.iteration, c.children, c.depth, c.members.map f, c.centroid⟩

/-- The same object of the hierarchical clustering with the other names. -/
def HObject.mapIds (f : α → β) (o : HObject α V) : HObject β V :=
  ⟨o.linkage, o.ids.map f, o.root, o.storage.map fun q => (q.1, q.2.mapIds f)⟩

/-- The same object of C-DBScan with the other names, up to the order inside the core clusters. -/
structure RenamedDb (f : α → β) (o : DbObject α) (o' : DbObject β) : Prop where
  predicted : o'.predicted = o.predicted.map (renameKeys f)
  labels : o'.labels = renameKeys f o.labels
  locals : o'.locals = o.locals.map fun q => (f q.1, q.2.map f)
  cores : List.Forall₂ (fun q q' => q'.1 = f q.1 ∧ q'.2.Perm (q.2.map f)) o.cores o'.cores
  counts : o'.regular = o.regular ∧ o'.single = o.single ∧ o'.total = o.total

end Verif
