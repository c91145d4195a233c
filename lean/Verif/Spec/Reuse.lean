import Verif.Model.Objects
import Mathlib.Data.List.Basic
import Verif.Py.Basic

/-
Vocabulary for reused objects: an object is a state `σ`; an operation gives the object after it and
its answer, a value or an exception.
-/

namespace Verif

variable {σ ω β : Type}

/-- The object after some operations, whatever they answered. -/
inductive Used (step : ω → σ → σ × Except PyErr β) (fresh : σ) : σ → Prop
  | new : Used step fresh fresh
  | next {s : σ} (o : ω) : Used step fresh s → Used step fresh (step o s).1

/-- The answer of `o` does not depend on what was done with the object before. -/
def SameAnswer (step : ω → σ → σ × Except PyErr β) (fresh : σ) (o : ω) : Prop :=
  ∀ s, Used step fresh s → (step o s).2 = (step o fresh).2

/-- When `o` succeeds on a new object, it succeeds on a used one and leaves the same object. -/
def SameObject (step : ω → σ → σ × Except PyErr β) (fresh : σ) (o : ω) : Prop :=
  ∀ s, Used step fresh s → (∃ b, (step o fresh).2 = .ok b) → step o s = step o fresh

section
variable {α V δ : Type} [LinearOrder α] [LinearOrder δ]

/-- The operations on a hierarchical object: `cluster` and `compute_predicted_clusters`. -/
def HSelf.op : ClusterCall (HierEnv V δ) α V ⊕ Int × CutBy → Meth (HSelf α V δ) (Dict α Int)
  | .inl c => HSelf.cluster c
  | .inr q => HSelf.cut q.1 q.2

/-- The object that `__init__` makes (`hierarchical.py` lines 86-117). -/
def HSelf.fresh {α V δ : Type} (linkage : Linkage) : HSelf α V δ :=
  ⟨linkage, none, none, none, none, none, none, none, none, none, none, none⟩

end

end Verif
