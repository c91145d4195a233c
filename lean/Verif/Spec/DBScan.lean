import Verif.Spec.Labels
import Verif.Spec.Clustering
import Verif.Model.DBScan

/-
Specification vocabulary for C-DBScan.
-/

namespace Verif

variable {α V δ : Type} [LinearOrder α] [LinearOrder δ]

/-- The labels that C-DBScan gives to the managed IDs: `k` regular clusters named `0, 1, …, k - 1`
in order of first appearance over the sorted clustered IDs, and `j` ignored IDs named
`-1, -2, …, -j` in the order of the manager. -/
structure DbLabelling (m : Manager α) (d : Dict α Int) (k j : Nat) : Prop where
  split : ∃ regular ignored : Dict α Int, d = regular ++ ignored ∧
    (dkeys regular).Pairwise (· < ·) ∧ (∀ x ∈ dkeys regular, x ∈ m.managed) ∧
    FirstAppearanceOrder (dvals regular) ∧ LabelsAre (dvals regular) k ∧
    dkeys ignored = m.managed.filter (· ∉ dkeys regular) ∧
    dvals ignored = (List.range j).map fun (i : Nat) => -(i : Int) - 1

/-- What the class assumes: `eps` is at least the distance of a vector to itself, which scikit-learn
sets to 0 in the distance matrix, and `min_samples` was accepted by the constructor. -/
structure DbAssumptions (env : DbEnv α V δ) (p : DbParams δ) : Prop where
  enum : SetOrder env.enum
  self : ∀ v, env.metric v v ≤ p.eps

/-- `y` is within the radius of `x`. -/
def Near (env : DbEnv α V δ) (p : DbParams δ) (vectors : Dict α V) (x y : α) : Prop :=
  ∃ v w, dget? vectors x = some v ∧ dget? vectors y = some w ∧ env.metric v w ≤ p.eps

/-- What the density labels mean. -/
structure DensityLabels (env : DbEnv α V δ) (p : DbParams δ) (m : Manager α) (vectors : Dict α V) (labels : Dict α DLabel) :
    Prop where
  /-- every managed ID is labelled, none stays `UNLABELED` -/
  keys : dkeys labels = m.managed
  labelled : ∀ x ∈ m.managed, dget? labels x ≠ some .unlabeled
  /-- a `CORE` ID has `min_samples` IDs around it, without a cannot-link -/
  core : ∀ x, dget? labels x = some .core → ∃ S : List α, S.Nodup ∧ p.minSamples ≤ S.length ∧
    (∀ y ∈ S, y ∈ m.managed ∧ Near env p vectors x y) ∧ ∀ y ∈ S, ∀ z ∈ S, ¬ CannotLinked m y z
  /-- a `NOISE` ID has less than `min_samples` IDs around it that are not `SINGLE_CORE` -/
  noise : ∀ x, dget? labels x = some .noise → ∀ S : List α, S.Nodup →
    (∀ y ∈ S, y ∈ m.managed ∧ Near env p vectors x y ∧ dget? labels y ≠ some .singleCore) → S.length < p.minSamples
  /-- a `SINGLE_CORE` ID is around an ID which has two cannot-linked IDs around it -/
  single : ∀ x, dget? labels x = some .singleCore → ∃ c y z, c ∈ m.managed ∧ Near env p vectors c x ∧
    Near env p vectors c y ∧ Near env p vectors c z ∧ CannotLinked m y z

/-- The last core cluster that contains `x` is that of `c`. -/
def LastCore (cores : Dict α (List α)) (x c : α) : Prop :=
  ∃ A pts B, cores = A ++ (c, pts) :: B ∧ x ∈ pts ∧ ∀ q ∈ B, x ∉ q.2

/-- The cluster of `x`, given the clusters recorded in the object: the last core cluster that contains
`x`, or, if there is none, a local cluster that contains `x` and is big enough. -/
def Owner (p : DbParams δ) (cores locals : Dict α (List α)) (x : α) : α ⊕ α → Prop
  | .inl c => LastCore cores x c
  | .inr c => (∀ q ∈ cores, x ∉ q.2) ∧ ∃ pts, dget? locals c = some pts ∧ x ∈ pts ∧ p.enough pts.length = true

end Verif
