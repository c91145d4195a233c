import Verif.Spec.Order
import Verif.Spec.Geometry
import Verif.Model.Sampling

/-
Specification vocabulary for C111: distances that are only approximately known.
-/

namespace Verif

variable {α V V' δ δ' : Type} [LinearOrder α] [LinearOrder δ] [LinearOrder δ']

/-- The merges of the tree `st` are strictly the best ones for the distances of `env`: any other pair of clusters without a cannot-link
that existed is farther apart, or as far and larger. (The tree may come from another environment.) -/
def BestMerges (env : HierEnv V' δ') (link : Linkage) (m : Manager α) (vectors : Dict α V') (st : Dict Nat (HCluster α V)) : Prop :=
  ∀ i n a b, dget? st i = some n → n.children = [a, b] → ∀ c e, Alive st i c → Alive st i e → c < e → (c, e) ≠ (a, b) →
    ¬ Opposed m (membersOf st c) (membersOf st e) → ∀ d d', LinkageIs env link vectors (membersOf st a) (membersOf st b) d →
      LinkageIs env link vectors (membersOf st c) (membersOf st e) d' →
        d < d' ∨ (d = d' ∧ (membersOf st a).length + (membersOf st b).length < (membersOf st c).length + (membersOf st e).length)

section Group
variable [AddCommGroup δ]

/-- At each merge of the tree `st`, any other pair of clusters without a cannot-link is farther apart by more than `μ`. -/
def MergeMargin (μ : δ) (env : HierEnv V δ) (link : Linkage) (m : Manager α) (vectors : Dict α V) (st : Dict Nat (HCluster α V)) : Prop :=
  ∀ i n a b, dget? st i = some n → n.children = [a, b] → ∀ c e, Alive st i c → Alive st i e → c < e → (c, e) ≠ (a, b) →
    ¬ Opposed m (membersOf st c) (membersOf st e) → ∀ d d', LinkageIs env link vectors (membersOf st a) (membersOf st b) d →
      LinkageIs env link vectors (membersOf st c) (membersOf st e) d' → d + μ < d'

/-- The linkage distances of lists of different managed IDs differ by at most `ε`. -/
def LinkageWithin (ε : δ) (link : Linkage) (m : Manager α) (env : HierEnv V δ) (vectors : Dict α V) (env' : HierEnv V' δ)
    (vectors' : Dict α V') : Prop :=
  ∀ xs ys : List α, xs ≠ [] → ys ≠ [] → (xs ++ ys).Nodup → (∀ x ∈ xs ++ ys, x ∈ m.managed) → ∀ d d', LinkageIs env link vectors xs ys d →
    LinkageIs env' link vectors' xs ys d' → |d' - d| ≤ ε

/-- The distances between managed IDs differ by at most `ε`. -/
def DistancesWithin (ε : δ) (m : Manager α) (metric : V → V → δ) (vectors : Dict α V) (metric' : V' → V' → δ) (vectors' : Dict α V') : Prop :=
  ∀ x ∈ m.managed, ∀ y ∈ m.managed, ∀ d d', distanceOf metric vectors x y = some d → distanceOf metric' vectors' x y = some d' → |d' - d| ≤ ε

/-- Different pairs of IDs have distances that differ by more than `μ`. -/
def GapDistances (μ : δ) (metric : V → V → δ) (vectors : Dict α V) (ids : List α) : Prop :=
  ∀ x ∈ ids, ∀ y ∈ ids, ∀ x' ∈ ids, ∀ y' ∈ ids, x ≠ y → x' ≠ y' → ¬ ((x = x' ∧ y = y') ∨ (x = y' ∧ y = x')) → ∀ d d',
    distanceOf metric vectors x y = some d → distanceOf metric vectors x' y' = some d' → μ < |d' - d|

/-- No distance between managed IDs is within `ε` of the radius. -/
def RadiusMargin (ε : δ) (m : Manager α) (metric : V → V → δ) (vectors : Dict α V) (eps : δ) : Prop :=
  ∀ x ∈ m.managed, ∀ y ∈ m.managed, ∀ d, distanceOf metric vectors x y = some d → d + ε ≤ eps ∨ eps + ε < d

end Group

end Verif
