import Verif.Spec.KMeans
import Mathlib.Algebra.Order.Group.Abs
import Mathlib.Algebra.Order.Ring.Rat

/-
Specification vocabulary for C121: COP-KMeans with distances and means that are only approximately known.
-/

namespace Verif

variable {α V V' δ δ' : Type} [LinearOrder α] [LinearOrder δ] [LinearOrder δ']

/-- `c` and `c'` are made from the same IDs: the vectors of one ID, or the means of the vectors of some managed IDs, each with its
environment and its vectors. -/
inductive SameSource (env : KMeansEnv α V δ) (env' : KMeansEnv α V' δ') (m : Manager α) (vectors : Dict α V) (vectors' : Dict α V') :
    V → V' → Prop
  | vector {x v v'} : x ∈ m.managed → dget? vectors x = some v → dget? vectors' x = some v' → SameSource env env' m vectors vectors' v v'
  | mean {S w w'} : S ≠ [] → S.Sublist m.managed → List.Forall₂ (fun x v => dget? vectors x = some v) S w →
      List.Forall₂ (fun x v => dget? vectors' x = some v) S w' → SameSource env env' m vectors vectors' (env.mean w) (env'.mean w')

/-- In every pass of the run of `env`, each decision between the centroids `p` (a nearest one) and `q` of two clusters that the ID with
vector `v` may join satisfies `P v p q`. -/
def EachDecision (env : KMeansEnv α V δ) (m : Manager α) (vectors : Dict α V) (nb : Nat) (P : α → V → V → V → Prop) : Prop :=
  ∀ C, RunCentroids env m vectors nb C → ∀ dist, kmDistances env m vectors C = .ok dist → ∀ s, InPass m nb C dist s →
    ∀ x, s.1.getLast? = some x → ∀ v, dget? vectors x = some v → ∀ a p, Admissible m C s.2 x a → dget? C a = some p →
      (∀ c r, Admissible m C s.2 x c → dget? C c = some r → env.metric v p ≤ env.metric v r) →
        ∀ b q, Admissible m C s.2 x b → dget? C b = some q → a ≠ b → P x v p q

/-- Both environments agree on every comparison with the tolerance in the run of `env`. -/
def SameStops (env : KMeansEnv α V δ) (env' : KMeansEnv α V' δ') (m : Manager α) (vectors : Dict α V) (vectors' : Dict α V') (nb : Nat) :
    Prop :=
  ∀ C new C₁, RunCentroids env m vectors nb C → kmPass env m vectors nb C = .ok (new, C₁) → ∀ l : List ((V × V') × (V × V')),
    (∀ p ∈ l, SameSource env env' m vectors vectors' p.1.1 p.1.2 ∧ SameSource env env' m vectors vectors' p.2.1 p.2.2) →
    List.Forall₂ (fun k p => dget? C k = some p.1.1 ∧ dget? C₁ k = some p.2.1) (dkeys C) l →
      env'.small (l.map fun p => (p.1.2, p.2.2)) = env.small (l.map fun p => (p.1.1, p.2.1))

section Group
variable [AddCommGroup δ]

/-- At each decision, the other centroids are farther than the nearest one by more than `μ`. -/
def CenterMargin (μ : δ) (env : KMeansEnv α V δ) (m : Manager α) (vectors : Dict α V) (nb : Nat) : Prop :=
  EachDecision env m vectors nb fun _ v p q => env.metric v p + μ < env.metric v q

/-- The distances of a managed ID to the vector of an ID or to the mean of some IDs differ by at most `ε`. -/
def CentersWithin (ε : δ) (env : KMeansEnv α V δ) (env' : KMeansEnv α V' δ) (m : Manager α) (vectors : Dict α V) (vectors' : Dict α V') :
    Prop :=
  ∀ x ∈ m.managed, ∀ v v', dget? vectors x = some v → dget? vectors' x = some v' → ∀ c c',
    SameSource env env' m vectors vectors' c c' → |env'.metric v' c' - env.metric v c| ≤ ε

end Group

/-- COP-KMeans in exact arithmetic, for vectors with one coordinate. -/
def lineKmEnv (tolerance : ℚ) (enum : List Int → List Int) (shuffle : List α → List α) : KMeansEnv α ℚ ℚ where
  metric x y := if x ≤ y then y - x else x - y
  mean l := l.sum / l.length
  small l := decide ((l.map fun p => if p.1 ≤ p.2 then p.2 - p.1 else p.1 - p.2).sum < tolerance)
  enum := enum
  shuffle := shuffle

/-- In every pass of the run, the sum of the moves of the `k` centroids is not within `k * η` of the tolerance. -/
def StopMargin (η tolerance : ℚ) (env : KMeansEnv α ℚ ℚ) (m : Manager α) (vectors : Dict α ℚ) (nb : Nat) : Prop :=
  ∀ C new C₁, RunCentroids env m vectors nb C → kmPass env m vectors nb C = .ok (new, C₁) → ∀ l : List (ℚ × ℚ),
    List.Forall₂ (fun k p => dget? C k = some p.1 ∧ dget? C₁ k = some p.2) (dkeys C) l →
      l.length * η < |(l.map fun p => |p.1 - p.2|).sum - tolerance|

end Verif
