import Verif.Spec.Loop
import Verif.Spec.Check
import Verif.Spec.HierSeparated

/-
What the interactive loop computes and asks on its way.
-/

namespace Verif

variable {α V δ : Type} [LinearOrder α] [LinearOrder δ]

/-- For each iteration of the loop, its clustering and the pairs that the annotator is asked about. -/
def loopTrace (truth : α → Nat) (vectors : Dict α V) (m : Manager α) :
    List (Iteration α V δ) → Except PyErr (List (Dict α Int × List (α × α)))
  | [] => .ok []
  | i :: rest => do
    let labels ← i.algo.run m vectors i.nbClusters
    let batch ← i.sampler.sample m (some i.nbPairs) (some labels) (some vectors) i.metric i.pick
    let tail ← loopTrace truth vectors (← annotate truth m batch) rest
    return (labels, batch) :: tail

/-- All pairs that were asked about. -/
def traceAsked (tr : List (Dict α Int × List (α × α))) : List (α × α) := tr.flatMap Prod.snd

/-- Whatever correct annotations the algorithm is given, it returns the classes. -/
def FindsClasses (a : Algo α V δ) (vectors : Dict α V) (ids : List α) (truth : α → Nat) (nb : Int) : Prop :=
  ∀ m : Manager α, Reachable m → m.managed = ids → Satisfies m truth → ∃ r, a.run m vectors nb = .ok r ∧ GivesClasses ids truth r

/-- An iteration that asks one question about a pair of unknown relation, in one cluster or in different clusters, after a
clustering by an algorithm that finds the classes. -/
structure ConfirmStep (restriction : ClustersRestriction) (vectors : Dict α V) (ids : List α) (truth : α → Nat) (i : Iteration α V δ) :
    Prop where
  ok : i.Ok
  one : i.nbPairs = 1
  restricted : i.sampler.clusters = some restriction
  unknown : i.sampler.withoutInferred = true
  finds : FindsClasses i.algo vectors ids truth i.nbClusters

end Verif
