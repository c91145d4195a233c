import Mathlib.Algebra.BigOperators.Group.Finset.Basic
import Verif.Model.MPC
import Verif.Spec.Clustering

/-
Specification vocabulary for MPC-KMeans.
-/

namespace Verif

/-- The adjacency sets of `g` are those of the relation `R` on the positions `0, …, n - 1`. -/
def GraphOf (n : Nat) (g : Graph) (R : Nat → Nat → Prop) : Prop :=
  dkeys g = List.range n ∧ ∀ i s, dget? g i = some s → s.Nodup ∧ ∀ j, j ∈ s ↔ R i j

/-- Labels `0, …, nb - 1`. -/
def LabelsBelow (nb : Nat) (labels : List Int) : Prop := ∀ l ∈ labels, 0 ≤ l ∧ l < (nb : Int)

/-- No cluster is empty. -/
def AllUsed (nb : Nat) (labels : List Int) : Prop := ∀ c : Nat, c < nb → (c : Int) ∈ labels

section
variable {V κ θ : Type}

/-- What is assumed of the random number generator and of iteration over sets. -/
structure MpcAssumptions (env : MpcEnv V κ θ) : Prop where
  enum : SetOrder env.enum
  shuffle : ∀ it n, (env.shuffle it n).Perm (List.range n)
  pick : ∀ sizes, sizes ≠ [] → env.pick sizes < sizes.length
  choice : ∀ n k, k ≤ n → (env.choice n k).length = k ∧ ∀ i ∈ env.choice n k, i < n

end

section
variable {α : Type} [LinearOrder α]

/-- The managed IDs at two positions have an inferred constraint of type `t`. -/
def InferredAt (m : Manager α) (t : CType) (i j : Nat) : Prop :=
  ∃ x y, m.managed[i]? = some x ∧ m.managed[j]? = some y ∧ m.getInferred x y = .ok (some t)

/-- `nbhs` are the components of the manager, as lists of positions. -/
structure Neighborhoods (m : Manager α) (nbhs : List (List Nat)) : Prop where
  nodup : ∀ P ∈ nbhs, P.Nodup
  disjoint : nbhs.Pairwise List.Disjoint
  component : ∀ P ∈ nbhs, ∃ c ∈ m.components, ∀ i, i ∈ P ↔ ∃ x ∈ c, m.managed[i]? = some x
  all : ∀ c ∈ m.components, ∃ P ∈ nbhs, ∀ i, i ∈ P ↔ ∃ x ∈ c, m.managed[i]? = some x

/-- The penalised distance to a cluster `c` with centre `y` for the point `x` at position `i`, when the
points assigned so far have the labels `L` (`-1` for the others): the distance, the must-links to
points of other clusters and the cannot-links to points of this cluster. -/
noncomputable def penalised {V κ θ : Type} [AddCommMonoid κ] (env : MpcEnv V κ θ) (A : θ) (far : κ) (m : Manager α)
    (X : List V) (L : Nat → Int) (x y : V) (i : Nat) (c : Int) : κ :=
  open Classical in
  env.termD A x y +
    (∑ j ∈ (Finset.range m.managed.length).filter (fun j => InferredAt m .mustLink i j ∧ 0 ≤ L j ∧ L j ≠ c),
      (X[j]?).elim 0 (env.termM A x)) +
    ∑ j ∈ (Finset.range m.managed.length).filter (fun j => InferredAt m .cannotLink i j ∧ L j = c),
      (X[j]?).elim 0 (env.termC A far x)

end

section
variable {V κ θ : Type} [LinearOrder κ]

/-- Some two points are at a positive distance. -/
def FarApart (env : MpcEnv V κ θ) (A : θ) (X : List V) : Prop :=
  ∃ (i j : Nat) (x y : V), j < i ∧ X[i]? = some x ∧ X[j]? = some y ∧ env.zero < env.mdist A x y

/-- Any two of the points differ, according to the distance and the weights. -/
def FarPoints (env : MpcEnv V κ θ) (points : List V) : Prop :=
  (∀ (i j : Nat) (x y : V), i ≠ j → points[i]? = some x → points[j]? = some y → env.zero < env.dist x y) ∧
  ∀ (s t : Nat) (d : κ), 1 ≤ s → env.zero < d → env.zero < env.weigh s t d

end

end Verif
