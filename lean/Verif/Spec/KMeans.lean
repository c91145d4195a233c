import Verif.Spec.Clustering
import Verif.Model.KMeans

/-
Specification vocabulary for COP-KMeans.
-/

namespace Verif

variable {α V δ : Type} [LinearOrder α] [LinearOrder δ]

/-- What is assumed of the environment of KMeans. -/
structure KMeansEnv.Ok (env : KMeansEnv α V δ) : Prop where
  enum : SetOrder env.enum
  shuffle : Shuffles env.shuffle

/-- Inside a pass, with the clusters given so far in `new`: the cluster `c` has a centroid and no
ID cannot-linked to `x`. -/
def Admissible (m : Manager α) (centroids : Dict Int V) (new : Dict α Int) (x : α) (c : Int) : Prop :=
  c ∈ dkeys centroids ∧ ∀ y ∈ m.managed, dget? new y = some c → m.getInferred x y ≠ .ok (some .cannotLink)


/-- The dictionaries of centroids that a run goes through: the initial one and those made by passes. -/
inductive RunCentroids (env : KMeansEnv α V δ) (m : Manager α) (vectors : Dict α V) (nb : Nat) : Dict Int V → Prop
  | init {c} : kmInitialize env m.managed vectors nb = .ok c → RunCentroids env m vectors nb c
  | pass {c new c'} : RunCentroids env m vectors nb c → kmPass env m vectors nb c = .ok (new, c') →
      RunCentroids env m vectors nb c'

/-- The states (IDs still to assign, labels) that a pass goes through. -/
inductive InPass (m : Manager α) (nb : Nat) (centroids : Dict Int V) (dist : Dict α (Dict Int δ)) :
    List α × Dict α Int → Prop
  | start : InPass m nb centroids dist (m.managed, dofList (m.managed.map fun x => (x, -1)))
  | step {s x s'} : InPass m nb centroids dist s → s.1.getLast? = some x →
      kmAssign m m.managed nb centroids dist x (s.1.dropLast, s.2) = .ok s' → InPass m nb centroids dist s'

end Verif
