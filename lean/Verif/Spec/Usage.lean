import Verif.Spec.Bounds
import Verif.Spec.Sampling
import Verif.Spec.Clustering
import Verif.Spec.KMeans
import Verif.Model.Bounds

/-
The program of `/repo/docs/usage.md`, lines 40-153: initialization, then iterations of sampling,
annotation (a refused annotation is printed and skipped), choice of the number of clusters and
COP-KMeans. The calls are those of the models. Text preprocessing and vectorization (lines 22-50) are
left out, the vectors are given; `usageTexts` of Spec/Tfidf.lean adds them.
-/

namespace Verif

variable {α V δ : Type} [LinearOrder α] [LinearOrder δ]

/-- Lines 108-123: annotate a batch, skipping annotations refused with a `ValueError`. The annotator
may look at anything, also at the constraints known so far. -/
def annotateTry (answer : Manager α → α → α → CType) (m : Manager α) (batch : List (α × α)) : Except PyErr (Manager α) :=
  batch.foldlM (fun m p => match Manager.addConstraint p.1 p.2 (answer m p.1 p.2).toStr 1 m with
    | .ok _ m' => .ok m'
    | .error (.valueError _) m' => .ok m'
    | .error e _ => .error e) m

/-- What the program does not determine, for each iteration: numpy and the random choices. -/
structure Chance (α V δ : Type) where
  env : KMeansEnv α V δ
  pick : List (α × α) → Nat → List (α × α)
  orders : List (α ⊕ Nat) → (α ⊕ Nat → α ⊕ Nat → Bool) → Orders α

/-- Lines 70-153, repeated until the constraints are complete (line 79); `outOfFuel` if they are not
after the given number of iterations. `150` is the default `max_iteration`. -/
def usageLoop (vectors : Dict α V) (answer : Manager α → α → α → CType) :
    List (Chance α V δ) → Manager α → Dict α Int → Except PyErr (Manager α × Dict α Int)
  | chances, m, labels =>
    if m.complete then .ok (m, labels)
    else match chances with
      | [] => .error .outOfFuel
      | c :: rest => do
        let batch ← defaultSampler.sample m (some 3) none (none : Option (Dict α V)) c.env.metric c.pick
        let m ← annotateTry answer m batch
        let range ← m.minMax c.orders
        let result ← kmCluster c.env 150 m (some vectors) (some (((range.1 + range.2) / 2 : Nat) : Int))
        usageLoop vectors answer rest m result.1

/-- The whole program. -/
def usage (ids : List α) (vectors : Dict α V) (answer : Manager α → α → α → CType) (first : KMeansEnv α V δ)
    (chances : List (Chance α V δ)) : Except PyErr (Manager α × Dict α Int) := do
  let m := Manager.init ids
  let result ← kmCluster first 150 m (some vectors) (some 2)
  usageLoop vectors answer chances m result.1

/-- The numpy and random parts do what they should. -/
structure Chance.Ok (c : Chance α V δ) : Prop where
  env : c.env.Ok
  pick : RandomSample c.pick
  orders : ∀ nodes adj, (c.orders nodes adj).Valid nodes

end Verif
