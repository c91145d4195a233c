import Mathlib.Data.List.Dedup
import Verif.Model.Bounds

/-
Specification vocabulary for numbers of clusters.
-/

namespace Verif

variable {α : Type} [LinearOrder α]

/-- An assignment of clusters violates no inferred constraint. -/
def Respects (m : Manager α) (f : α → Nat) : Prop :=
  ∀ x ∈ m.managed, ∀ y ∈ m.managed,
    (m.getInferred x y = .ok (some .mustLink) → f x = f y) ∧
    (m.getInferred x y = .ok (some .cannotLink) → f x ≠ f y)

/-- Number of clusters an assignment uses on the given IDs. -/
def clusterCount (ids : List α) (f : α → Nat) : Nat := (ids.map f).dedup.length

/-- The visiting orders enumerate the nodes of the graph. -/
def Orders.Valid (o : Orders α) (nodes : List (α ⊕ Nat)) : Prop :=
  o.largestFirst.Perm nodes ∧ o.smallestLast.Perm nodes ∧ o.random1.Perm nodes ∧
    o.random2.Perm nodes ∧ o.random3.Perm nodes

end Verif
