import Verif.Spec.Manager
import Verif.Spec.Sampling
import Verif.Spec.Questions

/-
Specification vocabulary for mistakes in annotations: an annotation is two IDs with a type; a list of
annotations is given to the manager in order; a mistake is one annotation with the other type.
-/

namespace Verif

variable {α V δ : Type} [LinearOrder α] [LinearOrder δ]

/-- Add a list of annotations in order; the first exception stops. -/
def giveAll (m : Manager α) (l : List (α × α × CType)) : Except PyErr (Manager α) :=
  l.foldlM (fun m a => match Manager.addConstraint a.1 a.2.1 a.2.2.toStr 1 m with
    | .ok _ m' => .ok m'
    | .error e _ => .error e) m

/-- The same annotation with the other type. -/
def mistake : α × α × CType → α × α × CType
  | (x, y, .mustLink) => (x, y, .cannotLink)
  | (x, y, .cannotLink) => (x, y, .mustLink)

/-- All annotations are correct for the labelling. -/
def AgreesAll (f : α → Nat) (l : List (α × α × CType)) : Prop := ∀ a ∈ l, Agrees f a.1 a.2.1 a.2.2

/-- The annotations are about managed IDs. -/
def AboutManaged (m : Manager α) (l : List (α × α × CType)) : Prop :=
  ∀ a ∈ l, a.1 ∈ m.managed ∧ a.2.1 ∈ m.managed

/-- Whichever single annotation of the list is given wrongly, some call of the list is refused. -/
def NoticesMistakes (m : Manager α) (l : List (α × α × CType)) : Prop :=
  ∀ l₁ a l₂, l = l₁ ++ a :: l₂ → giveAll m (l₁ ++ mistake a :: l₂) = .error (.valueError "conflict")

/-- The IDs that are not alone in their class. -/
def inCompany (truth : α → Nat) (ids : List α) : Finset α :=
  ids.toFinset.filter fun x => ∃ y ∈ ids.toFinset, y ≠ x ∧ truth y = truth x

/-- Annotate a batch with any answers at all; an exception stops. -/
def annotateAny (answer : Manager α → α → α → CType) (m : Manager α) (batch : List (α × α)) : Except PyErr (Manager α) :=
  batch.foldlM (fun m p => match Manager.addConstraint p.1 p.2 (answer m p.1 p.2).toStr 1 m with
    | .ok _ m' => .ok m'
    | .error e _ => .error e) m

/-- A session with any answers at all. -/
def sessionAny (answer : Manager α → α → α → CType) (m : Manager α) : List (Round α V δ) → Except PyErr (Manager α)
  | [] => .ok m
  | r :: rs => do
    let batch ← r.sampler.sample m (some r.nb) r.clustering r.vectors r.metric r.pick
    sessionAny answer (← annotateAny answer m batch) rs

end Verif
