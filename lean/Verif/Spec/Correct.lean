import Verif.Spec.Mistakes

/-
Specification vocabulary for several mistakes in a list of annotations.
-/

namespace Verif

variable {α : Type}

/-- `l'` has the questions of `l`, and exactly `n` of them are answered differently. -/
inductive WithMistakes [LinearOrder α] : Nat → List (α × α × CType) → List (α × α × CType) → Prop
  | nil : WithMistakes 0 [] []
  | right {n l l'} (a) : WithMistakes n l l' → WithMistakes n (a :: l) (a :: l')
  | wrong {n l l'} (a) : WithMistakes n l l' → WithMistakes (n + 1) (a :: l) (mistake a :: l')

/-- How many annotations of the list the labelling contradicts. -/
def misfits (f : α → Nat) (l : List (α × α × CType)) : Nat :=
  l.countP fun a => decide (¬ (f a.1 = f a.2.1 ↔ a.2.2 = .mustLink))

/-- Two labellings of the IDs that have the same classes. -/
def SameClasses (ids : List α) (f g : α → Nat) : Prop := ∀ x ∈ ids, ∀ y ∈ ids, (f x = f y ↔ g x = g y)

/-- The list, given to a new manager, is accepted and completes the constraints, and if between 1 and `e` of its annotations are wrong, it
is refused. -/
def Detects [LinearOrder α] (ids : List α) (e : Nat) (l : List (α × α × CType)) : Prop :=
  (∃ m, giveAll (Manager.init ids) l = .ok m ∧ m.complete = true) ∧
  ∀ n l', 0 < n → n ≤ e → WithMistakes n l l' → giveAll (Manager.init ids) l' = .error (.valueError "conflict")

/-- If at most `j` of the annotations are wrong, the true classes are still the only ones that contradict at most `j` of them. -/
def Corrects [LinearOrder α] (ids : List α) (truth : α → Nat) (j : Nat) (l : List (α × α × CType)) : Prop :=
  ∀ n l', n ≤ j → WithMistakes n l l' → misfits truth l' ≤ j ∧ ∀ f, misfits f l' ≤ j → SameClasses ids f truth

end Verif
