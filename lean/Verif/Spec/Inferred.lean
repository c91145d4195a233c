import Verif.Spec.Manager
import Verif.Model.Hierarchical

/-
Specification vocabulary for C89: two managers with the same inferred constraints.
-/

namespace Verif

variable {α V δ : Type} [LinearOrder α]

/-- The same managed list and the same inferred constraints, from whatever annotations. -/
structure SameInferred (m m' : Manager α) : Prop where
  managed : m'.managed = m.managed
  inferred : ∀ x y, m'.getInferred x y = m.getInferred x y

/-- The order of the vectors (average linkage) or of the distances (ward linkage) does not matter. This holds for exact sums;
single and complete linkage need nothing. -/
structure OrderFree (env : HierEnv V δ) (link : Linkage) : Prop where
  mean : link = .average → ∀ l l', l.Perm l' → env.mean l' = env.mean l
  metric : link = .ward → ∀ v w, env.metric w v = env.metric v w
  ward : link = .ward → ∀ l l' a b, l.Perm l' → env.ward l' a b = env.ward l a b

end Verif
