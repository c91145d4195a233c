import Mathlib.Data.Finset.Prod
import Mathlib.Data.Finset.Card
import Verif.Spec.Sampling

/-
How many questions an annotator has to answer.
-/

namespace Verif

variable {α V δ : Type} [LinearOrder α] [LinearOrder δ]

/-- The number of true classes of the IDs. -/
def classes (truth : α → Nat) (ids : List α) : Nat := (ids.toFinset.image truth).card

/-- The pairs of IDs in different true classes. -/
def crossPairs (truth : α → Nat) (ids : List α) : Finset (α × α) :=
  (ids.toFinset ×ˢ ids.toFinset).filter fun p => p.1 < p.2 ∧ truth p.1 ≠ truth p.2

/-- Those about which nothing is known yet. -/
def openCross (truth : α → Nat) (m : Manager α) : Finset (α × α) :=
  (unknownPairs m).toFinset.filter fun p => truth p.1 ≠ truth p.2

/-- The number of questions that a session asks. -/
def questions (truth : α → Nat) (m : Manager α) : List (Round α V δ) → Except PyErr Nat
  | [] => .ok 0
  | r :: rs => do
    let batch ← r.sampler.sample m (some r.nb) r.clustering r.vectors r.metric r.pick
    let rest ← questions truth (← annotate truth m batch) rs
    return batch.length + rest

/-- Two IDs of one class are always nearer to each other than two IDs of different classes. -/
def ClassesApart (truth : α → Nat) (ids : List α) (vectors : Dict α V) (metric : V → V → δ) : Prop :=
  ∀ x ∈ ids, ∀ y ∈ ids, ∀ u ∈ ids, ∀ w ∈ ids, truth x = truth y → truth u ≠ truth w →
    ∀ d e, DistanceIs (some vectors) metric (x, y) d → DistanceIs (some vectors) metric (u, w) e → d < e

/-- One question per round, about the closest (or farthest) pair of unknown relation. -/
def oneByOne (d : DistanceRestriction) (vectors : Dict α V) (metric : V → V → δ) (pick : List (α × α) → Nat → List (α × α)) :
    Round α V δ := ⟨⟨none, some d, true, true⟩, 1, none, some vectors, metric, pick⟩

end Verif
