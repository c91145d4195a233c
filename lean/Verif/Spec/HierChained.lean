import Verif.Spec.HierSeparated

/-
Specification vocabulary for single linkage on classes whose IDs are chained, and for correct annotations that spoil a
correct clustering (C107).
-/

namespace Verif

variable {α V δ : Type} [LinearOrder α] [LinearOrder δ]

/-- Inside every class, one goes from any ID to any other by steps that are must-links or shorter than every distance
between two IDs of different classes that are not cannot-linked. -/
def ChainsSeparate (env : HierEnv V δ) (m : Manager α) (vectors : Dict α V) (f : α → Nat) : Prop :=
  ∀ z ∈ m.managed, ∀ t ∈ m.managed, f z ≠ f t → ¬ CannotLinked m z t → ∀ v' w', dget? vectors z = some v' →
    dget? vectors t = some w' → ∀ x ∈ m.managed, ∀ y ∈ m.managed, f x = f y →
    Chain (fun a b => MustLinked m a b ∨ (b ∈ m.managed ∧ f a = f b ∧
      ∃ v w, dget? vectors a = some v ∧ dget? vectors b = some w ∧ env.metric v w < env.metric v' w')) x y

/-- No distance between two IDs of one class is also the distance between two IDs of different classes. -/
def NoTies (env : HierEnv V δ) (vectors : Dict α V) (ids : List α) (f : α → Nat) : Prop :=
  ∀ x ∈ ids, ∀ y ∈ ids, ∀ z ∈ ids, ∀ t ∈ ids, x ≠ y → f x = f y → f z ≠ f t → ∀ v w v' w',
    dget? vectors x = some v → dget? vectors y = some w → dget? vectors z = some v' → dget? vectors t = some w' →
    env.metric v w ≠ env.metric v' w'

/-- `m'` manages the same IDs as `m` and knows at least as much about them. -/
structure KnowsAtLeast (m m' : Manager α) : Prop where
  ids : ∀ x, x ∈ m'.managed ↔ x ∈ m.managed
  must : ∀ x y, MustLinked m x y → MustLinked m' x y
  cannot : ∀ x y, CannotLinked m x y → CannotLinked m' x y

end Verif
