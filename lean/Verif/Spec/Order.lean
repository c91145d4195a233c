import Verif.Spec.Hierarchical
import Verif.Spec.Inferred

/-
Specification vocabulary for C93: the order in which the IDs were given to the manager.
-/

namespace Verif

variable {α V δ : Type} [LinearOrder α] [LinearOrder δ]

/-- The same IDs, in whatever order, and the same inferred constraints. -/
structure SameUpToOrder (m m' : Manager α) : Prop where
  managed : ∀ x, x ∈ m'.managed ↔ x ∈ m.managed
  inferred : ∀ x y, m'.getInferred x y = m.getInferred x y

/-- The order of two clusters and the order inside the clusters do not matter for their distance. This holds for exact sums. -/
structure Unordered (env : HierEnv V δ) (link : Linkage) : Prop extends OrderFree env link where
  symm : ∀ v w, env.metric w v = env.metric v w
  swap : link = .ward → ∀ l a b, env.ward l b a = env.ward l a b

/-- The two clusters that are merged are strictly the best pair among the clusters that existed: any other pair without a
cannot-link is farther apart, or as far and larger. -/
def StrictMerges (env : HierEnv V δ) (link : Linkage) (m : Manager α) (vectors : Dict α V) (st : Dict Nat (HCluster α V)) : Prop :=
  ∀ i n a b, dget? st i = some n → n.children = [a, b] → ∀ c e, Alive st i c → Alive st i e → c < e → (c, e) ≠ (a, b) →
    ¬ Opposed m (membersOf st c) (membersOf st e) → ∀ d d', LinkageIs env link vectors (membersOf st a) (membersOf st b) d →
      LinkageIs env link vectors (membersOf st c) (membersOf st e) d' →
        ¬ (d' = d ∧ (membersOf st c).length + (membersOf st e).length = (membersOf st a).length + (membersOf st b).length)

/-- Different pairs of IDs have different distances. -/
def DistinctDistances (metric : V → V → δ) (vectors : Dict α V) (ids : List α) : Prop :=
  ∀ x ∈ ids, ∀ y ∈ ids, ∀ x' ∈ ids, ∀ y' ∈ ids, x ≠ y → x' ≠ y' → ∀ v w v' w', dget? vectors x = some v → dget? vectors y = some w →
    dget? vectors x' = some v' → dget? vectors y' = some w' → metric v w = metric v' w' → (x = x' ∧ y = y') ∨ (x = y' ∧ y = x')

end Verif
