import Mathlib.Logic.Relation
import Verif.Spec.DBScan

/-
Specification vocabulary to compare C-DBScan with DBSCAN.
-/

namespace Verif

variable {α V δ : Type} [LinearOrder α] [LinearOrder δ]

/-- Two managed IDs that are within the radius of each other, or must-linked. -/
def Bond (env : DbEnv α V δ) (p : DbParams δ) (m : Manager α) (vectors : Dict α V) (x y : α) : Prop :=
  x ∈ m.managed ∧ y ∈ m.managed ∧
    (Near env p vectors x y ∨ Near env p vectors y x ∨ m.getInferred x y = .ok (some .mustLink))

/-- A chain of managed IDs joins `x` and `y`, consecutive ones being within the radius or must-linked. -/
def Bonded (env : DbEnv α V δ) (p : DbParams δ) (m : Manager α) (vectors : Dict α V) : α → α → Prop :=
  Relation.ReflTransGen (Bond env p m vectors)

/-- A core point of DBSCAN: `min_samples` IDs within the radius. -/
def DbscanCore (env : DbEnv α V δ) (p : DbParams δ) (m : Manager α) (vectors : Dict α V) (x : α) : Prop :=
  x ∈ m.managed ∧ ∃ S : List α, S.Nodup ∧ p.minSamples ≤ S.length ∧ ∀ y ∈ S, y ∈ m.managed ∧ Near env p vectors x y

/-- `y` is directly density-reachable from `x`. -/
def Reaches (env : DbEnv α V δ) (p : DbParams δ) (m : Manager α) (vectors : Dict α V) (x y : α) : Prop :=
  DbscanCore env p m vectors x ∧ y ∈ m.managed ∧ Near env p vectors x y

/-- `x` and `y` are density-connected: both are density-reachable from one ID. The clusters of DBSCAN
are made of density-connected points. -/
def DensityConnected (env : DbEnv α V δ) (p : DbParams δ) (m : Manager α) (vectors : Dict α V) (x y : α) : Prop :=
  ∃ c, Relation.ReflTransGen (Reaches env p m vectors) c x ∧ Relation.ReflTransGen (Reaches env p m vectors) c y

end Verif
