import Verif.Spec.Manager

/-
Specification vocabulary for the number of annotations.
-/

namespace Verif

variable {α : Type} [LinearOrder α]

/-- The ordered pairs of different managed IDs with an added constraint of type `t`. -/
def addedPairs (m : Manager α) (t : CType) : List (α × α) :=
  (m.managed.flatMap fun x => m.managed.map fun y => (x, y)).filter fun p =>
    decide (p.1 < p.2) && match m.getAdded p.1 p.2 with | .ok (some (t', _)) => decide (t' = t) | _ => false

/-- Managers made by annotating, one after the other, pairs whose relation is not known yet. -/
inductive Economical : Manager α → Prop
  | init (ids : List α) : Economical (Manager.init ids)
  | add {m m' : Manager α} {x y : α} {ty : String} {v : Rat} {r : Bool} (h : Economical m)
      (hnew : m.getInferred x y = .ok none) (hc : Manager.addConstraint x y ty v m = .ok r m') : Economical m'

end Verif
