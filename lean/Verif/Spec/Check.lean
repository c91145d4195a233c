import Verif.Spec.Manager
import Verif.Spec.Questions

/-
Checking a clustering by questions: first about pairs in one cluster, then about pairs in different
clusters.
-/

namespace Verif

variable {α V δ : Type} [LinearOrder α] [LinearOrder δ]

/-- The pairs that a session asks about, in order. -/
def asked (truth : α → Nat) (m : Manager α) : List (Round α V δ) → Except PyErr (List (α × α))
  | [] => .ok []
  | r :: rs => do
    let batch ← r.sampler.sample m (some r.nb) r.clustering r.vectors r.metric r.pick
    let rest ← asked truth (← annotate truth m batch) rs
    return batch ++ rest

/-- The labels are the classes. -/
def RightLabels (truth : α → Nat) (ids : List α) (labels : Dict α Int) : Prop :=
  ∀ x ∈ ids, ∀ y ∈ ids, dget? labels x = dget? labels y ↔ truth x = truth y

/-- The answer about a pair is the one that the labels predict. -/
def Predicted (truth : α → Nat) (labels : Dict α Int) (p : α × α) : Prop :=
  dget? labels p.1 = dget? labels p.2 ↔ truth p.1 = truth p.2

/-- The number of clusters. -/
def checkCount (labels : Dict α Int) (ids : List α) : Nat := (ids.toFinset.image (dget? labels)).card

/-- The constraints of the manager are satisfied by the labels. -/
def LabelsSatisfy (m : Manager α) (labels : Dict α Int) : Prop :=
  ∀ x y, (AddedAs m .mustLink x y → dget? labels x = dget? labels y) ∧ (AddedAs m .cannotLink x y → dget? labels x ≠ dget? labels y)

/-- A round with one question, about a pair of unknown relation in one cluster (or in different clusters) of the
labels. -/
structure OneQuestion (restriction : ClustersRestriction) (labels : Dict α Int) (m : Manager α) (r : Round α V δ) : Prop where
  one : r.nb = 1
  restricted : r.sampler.clusters = some restriction
  unknown : r.sampler.withoutInferred = true
  labels : r.clustering = some labels
  pick : RandomSample r.pick
  inputs : InputsGiven r.sampler m r.clustering r.vectors

end Verif
