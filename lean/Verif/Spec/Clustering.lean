import Verif.Spec.Manager
import Verif.Spec.Labels

/-
Specification vocabulary for clustering results.
-/

namespace Verif

variable {α V : Type} [LinearOrder α]

/-- A labelling respects the constraints of the manager. -/
def LabelsRespect (m : Manager α) (r : Dict α Int) : Prop :=
  ∀ x y, (m.getInferred x y = .ok (some .mustLink) → dget? r x = dget? r y) ∧
    (m.getInferred x y = .ok (some .cannotLink) → dget? r x ≠ dget? r y)

/-- Every managed ID has a vector. -/
def HasVectors (m : Manager α) (vectors : Dict α V) : Prop := ∀ x ∈ m.managed, ∃ v, dget? vectors x = some v

/-- `enum` lists the elements of a set once each, in some order. -/
def SetOrder {ι : Type} (enum : List ι → List ι) : Prop := ∀ l, (enum l).Nodup ∧ ∀ x, x ∈ enum l ↔ x ∈ l

/-- `shuffle` permutes a list. -/
def Shuffles {ι : Type} (shuffle : List ι → List ι) : Prop := ∀ l, (shuffle l).Perm l

end Verif
