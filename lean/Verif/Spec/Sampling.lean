import Mathlib.Data.List.Perm.Subperm
import Verif.Model.Sampling

/-
Specification vocabulary for sampling.
-/

namespace Verif

variable {α V δ : Type} [LinearOrder α] [LinearOrder δ]

/-- The pairs the user allows: ordered pairs of managed IDs that respect the clusters restriction
and whose constraint is not already added / inferred when the options say so. -/
structure Eligible (cfg : Sampler) (m : Manager α) (clustering : Option (Dict α Int)) (p : α × α) : Prop where
  left : p.1 ∈ m.managed
  right : p.2 ∈ m.managed
  ordered : p.1 < p.2
  same : cfg.clusters = some .sameCluster →
    ∃ d a b, clustering = some d ∧ dget? d p.1 = some a ∧ dget? d p.2 = some b ∧ a = b
  different : cfg.clusters = some .differentClusters →
    ∃ d a b, clustering = some d ∧ dget? d p.1 = some a ∧ dget? d p.2 = some b ∧ a ≠ b
  notAdded : cfg.withoutAdded = true → m.getAdded p.1 p.2 = .ok none
  notInferred : cfg.withoutInferred = true → m.getInferred p.1 p.2 = .ok none

/-- What `random.sample(l, k)` guarantees: `k` of the elements (positions drawn without
replacement), in any order. -/
def RandomSample {ι : Type} (pick : List ι → Nat → List ι) : Prop :=
  ∀ l k, k ≤ l.length → (pick l k).length = k ∧ (pick l k).Subperm l

/-- The inputs needed by the restrictions are there: a label for each managed ID with a clusters
restriction, a vector for each managed ID (and at least one ID) with a distance restriction. -/
structure InputsGiven (cfg : Sampler) (m : Manager α) (clustering : Option (Dict α Int))
    (vectors : Option (Dict α V)) : Prop where
  labels : cfg.clusters ≠ none → ∃ d, clustering = some d ∧ ∀ x ∈ m.managed, ∃ c, dget? d x = some c
  vectors : cfg.distance ≠ none → m.managed ≠ [] ∧ ∃ d, vectors = some d ∧ ∀ x ∈ m.managed, ∃ v, dget? d x = some v

/-- Distance between the vectors of the two IDs of a pair (as a relation: both must have one). -/
def DistanceIs (vectors : Option (Dict α V)) (metric : V → V → δ) (p : α × α) (d : δ) : Prop :=
  ∃ vs v w, vectors = some vs ∧ dget? vs p.1 = some v ∧ dget? vs p.2 = some w ∧ d = metric v w

/-- The default configuration of `ClustersBasedConstraintsSampling()`. -/
def defaultSampler : Sampler := ⟨none, none, true, true⟩

/-! ### Interactive annotation -/

/-- The ordered pairs of managed IDs about which nothing is known. -/
def unknownPairs (m : Manager α) : List (α × α) :=
  (m.managed.flatMap fun x => m.managed.map fun y => (x, y)).filter fun p =>
    decide (p.1 < p.2) && match m.getInferred p.1 p.2 with | .ok none => true | _ => false

/-- The answer of an annotator who knows the true cluster of every ID. -/
def truthAnswer (truth : α → Nat) (x y : α) : String :=
  if truth x = truth y then "MUST_LINK" else "CANNOT_LINK"

/-- Annotate a batch of pairs; an exception stops the session. -/
def annotate (truth : α → Nat) (m : Manager α) (batch : List (α × α)) : Except PyErr (Manager α) :=
  batch.foldlM (fun m p => match Manager.addConstraint p.1 p.2 (truthAnswer truth p.1 p.2) 1 m with
    | .ok _ m' => .ok m'
    | .error e _ => .error e) m

/-- What the user decides in one round: sampler, size of the batch, clustering, vectors, and the
random choice. -/
structure Round (α V δ : Type) where
  sampler : Sampler
  nb : Int
  clustering : Option (Dict α Int)
  vectors : Option (Dict α V)
  metric : V → V → δ
  pick : List (α × α) → Nat → List (α × α)

/-- A session: in each round sample a batch and annotate it. -/
def session (truth : α → Nat) (m : Manager α) : List (Round α V δ) → Except PyErr (Manager α)
  | [] => .ok m
  | r :: rs => do
    let batch ← r.sampler.sample m (some r.nb) r.clustering r.vectors r.metric r.pick
    session truth (← annotate truth m batch) rs

end Verif
