import Mathlib.Logic.Relation
import Verif.Model.Constraints

/-
Independent specification of what a set of added constraints entails.
-/

namespace Verif

/-- `x` and `y` are joined by a (possibly empty) chain of steps of the relation `em`. -/
def Chain {α : Type} (em : α → α → Prop) (x y : α) : Prop := Relation.ReflTransGen em x y

/-- Some separation step `ec` joins the chain class of `x` to the chain class of `y`. -/
def Separated {α : Type} (em ec : α → α → Prop) (x y : α) : Prop :=
  ∃ u v, Chain em x u ∧ ec u v ∧ Chain em v y

end Verif
