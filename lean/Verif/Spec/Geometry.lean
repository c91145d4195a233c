import Verif.Spec.Names
import Verif.Model.Spectral
import Verif.Model.Affinity
import Mathlib.Analysis.Convex.StrictConvexSpace

/-
Specification vocabulary for other vectors with similar distances (C90).
-/

namespace Verif

variable {α V V' δ δ' : Type} [LinearOrder α] [LinearOrder δ] [LinearOrder δ']

/-- The distance of the vectors of two IDs, if both have one. -/
def distanceOf (metric : V → V → δ) (vectors : Dict α V) (x y : α) : Option δ :=
  match dget? vectors x, dget? vectors y with
  | some v, some w => some (metric v w)
  | _, _ => none

/-- The same managed IDs have a vector. -/
def SameDomain (m : Manager α) (vectors : Dict α V) (vectors' : Dict α V') : Prop :=
  ∀ x ∈ m.managed, (dget? vectors' x).isSome = (dget? vectors x).isSome

/-- The distances between managed IDs are in the same order. -/
def SameOrder (m : Manager α) (metric : V → V → δ) (vectors : Dict α V) (metric' : V' → V' → δ') (vectors' : Dict α V') : Prop :=
  ∀ x ∈ m.managed, ∀ y ∈ m.managed, ∀ z ∈ m.managed, ∀ t ∈ m.managed, ∀ a b a' b',
    distanceOf metric vectors x y = some a → distanceOf metric vectors z t = some b →
    distanceOf metric' vectors' x y = some a' → distanceOf metric' vectors' z t = some b' → (a' ≤ b' ↔ a ≤ b)

/-- The same pairs of managed IDs are within the radius. -/
def SameNeighbors (m : Manager α) (metric : V → V → δ) (vectors : Dict α V) (eps : δ) (metric' : V' → V' → δ')
    (vectors' : Dict α V') (eps' : δ') : Prop :=
  ∀ x ∈ m.managed, ∀ y ∈ m.managed, ∀ a a', distanceOf metric vectors x y = some a → distanceOf metric' vectors' x y = some a' →
    (a' ≤ eps' ↔ a ≤ eps)

/-- Every distance between managed IDs is changed by `ψ`. -/
def DistancesBy (ψ : δ → δ') (m : Manager α) (metric : V → V → δ) (vectors : Dict α V) (metric' : V' → V' → δ')
    (vectors' : Dict α V') : Prop :=
  ∀ x ∈ m.managed, ∀ y ∈ m.managed, distanceOf metric' vectors' x y = (distanceOf metric vectors x y).map ψ

/-- `vectors'` has the images under `φ` of the vectors of the managed IDs. -/
def MovedVectors (φ : V → V') (m : Manager α) (vectors : Dict α V) (vectors' : Dict α V') : Prop :=
  ∀ x ∈ m.managed, dget? vectors' x = (dget? vectors x).map φ

/-- The two objects of the hierarchical clustering have the same tree, up to the centroids. -/
structure SameTree (o : HObject α V) (o' : HObject α V') : Prop where
  linkage : o'.linkage = o.linkage
  ids : o'.ids = o.ids
  root : o'.root = o.root
  storage : (o'.storage.map fun q => (q.1, q.2.iteration, q.2.children, q.2.depth, q.2.members)) =
    o.storage.map fun q => (q.1, q.2.iteration, q.2.children, q.2.depth, q.2.members)

/-- The environments of KMeans do the same with the images under `φ` of the vectors, where `ψ` changes the distances. -/
structure MovedKMeans (φ : V → V') (ψ : δ → δ') (m : Manager α) (env : KMeansEnv α V δ) (env' : KMeansEnv α V' δ') : Prop where
  mono : StrictMono ψ
  metric : ∀ v w, env'.metric (φ v) (φ w) = ψ (env.metric v w)
  mean : ∀ l, l ≠ [] → env'.mean (l.map φ) = φ (env.mean l)
  small : ∀ l, env'.small (l.map fun q => (φ q.1, φ q.2)) = env.small l
  enum : env'.enum = env.enum
  shuffle : env'.shuffle m.managed = env.shuffle m.managed

/-- The environments of the hierarchical clustering do the same with the images under `φ` of the vectors. -/
structure MovedHier (φ : V → V') (ψ : δ → δ') (env : HierEnv V δ) (env' : HierEnv V' δ') : Prop where
  mono : StrictMono ψ
  metric : ∀ v w, env'.metric (φ v) (φ w) = ψ (env.metric v w)
  mean : ∀ l, l ≠ [] → env'.mean (l.map φ) = φ (env.mean l)
  ward : ∀ l i j, env'.ward (l.map ψ) i j = ψ (env.ward l i j)

/-- The same environment with another kernel. -/
def SpecEnv.withKernel {κ : Type} (env : SpecEnv V κ) (kernel : V' → V' → κ) : SpecEnv V' κ := ⟨kernel, env.one, env.zero, env.solve⟩

/-- The same environment with another distance. -/
def ApEnv.withDist {κ μ θ : Type} (env : ApEnv V κ μ θ) (dist : V' → V' → κ) : ApEnv V' κ μ θ :=
  ⟨dist, env.neg, env.median, env.noise, env.zero, env.add, env.double, env.initM, env.initQ, env.stepQ, env.q2, env.update, env.colsum⟩

/-! ### Real vectors, without rounding -/

section Real
variable {E : Type} [NormedAddCommGroup E] [NormedSpace ℝ E]

/-- The mean of a list of vectors. -/
noncomputable def realMean (l : List E) : E := (l.length : ℝ)⁻¹ • l.sum

/-- KMeans of the package, with a tolerance, in exact arithmetic. -/
noncomputable def realKMeans (tolerance : ℝ) (enum : List Int → List Int) (shuffle : List α → List α) : KMeansEnv α E ℝ where
  metric := dist
  mean := realMean
  small l := decide ((l.map fun q => dist q.1 q.2).sum < tolerance)
  enum := enum
  shuffle := shuffle

/-- Hierarchical clustering of the package in exact arithmetic. -/
noncomputable def realHier : HierEnv E ℝ where
  metric := dist
  mean := realMean
  ward l i j := l.sum / (i * j)

/-- C-DBScan of the package in exact arithmetic. -/
noncomputable def realDb (enum : List α → List α) (none : α) : DbEnv α E ℝ where
  metric := dist
  enum := enum
  none := none

noncomputable def realDbParams (eps : ℝ) (minSamples : Nat) : DbParams ℝ := ⟨eps, fun n => decide (eps ≤ n), minSamples⟩

end Real

end Verif
