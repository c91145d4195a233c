import Verif.Spec.Sampling
import Verif.Spec.Clustering
import Verif.Spec.KMeans
import Verif.Model.Hierarchical

/-
The interactive clustering loop as a program over the API: cluster, sample, annotate, repeat. The
package has no function for it (its documentation shows it, `/repo/docs/usage.md`); the calls are
those of the models.
-/

namespace Verif

variable {α V δ : Type} [LinearOrder α] [LinearOrder δ]

/-- A clustering object that always returns labels respecting the constraints: COP-KMeans or
hierarchical clustering, with any parameters (an earlier use of the hierarchical object included). -/
inductive Algo (α V δ : Type) where
  | kmeans (env : KMeansEnv α V δ) (maxIteration : Nat)
  | hierarchical (env : HierEnv V δ) (object : HObject α V)

/-- The parameters are admissible. -/
def Algo.Ok : Algo α V δ → Prop
  | .kmeans env maxIteration => env.Ok ∧ ∃ model it tol, kmInit model it tol = .ok maxIteration
  | .hierarchical _ _ => True

/-- The value returned by the call `cluster(manager, nb_clusters, vectors)`. -/
def Algo.run (a : Algo α V δ) (m : Manager α) (vectors : Dict α V) (nb : Int) : Except PyErr (Dict α Int) :=
  match a with
  | .kmeans env maxIteration => (kmCluster env maxIteration m (some vectors) (some nb)).map Prod.fst
  | .hierarchical env object => (object.cluster env m (some vectors) (some nb)).2

/-- One iteration: what the user chooses. -/
structure Iteration (α V δ : Type) where
  algo : Algo α V δ
  nbClusters : Int
  sampler : Sampler
  nbPairs : Int
  metric : V → V → δ
  pick : List (α × α) → Nat → List (α × α)

/-- The choices are admissible. -/
structure Iteration.Ok (i : Iteration α V δ) : Prop where
  algo : i.algo.Ok
  clusters : 2 ≤ i.nbClusters
  pairs : 0 ≤ i.nbPairs
  pick : RandomSample i.pick

/-- Cluster with the constraints known so far, sample pairs with this clustering, annotate them. -/
def Iteration.run (i : Iteration α V δ) (truth : α → Nat) (vectors : Dict α V) (m : Manager α) :
    Except PyErr (Manager α) := do
  let labels ← i.algo.run m vectors i.nbClusters
  let batch ← i.sampler.sample m (some i.nbPairs) (some labels) (some vectors) i.metric i.pick
  annotate truth m batch

/-- The whole loop. -/
def interactive (truth : α → Nat) (vectors : Dict α V) (m : Manager α) : List (Iteration α V δ) → Except PyErr (Manager α)
  | [] => .ok m
  | i :: rest => do interactive truth vectors (← i.run truth vectors m) rest

end Verif
