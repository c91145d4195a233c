import Mathlib.Algebra.Order.Group.Abs
import Verif.Spec.Messages

/-
Affinity propagation (absolute must-links) with rounding errors. Specification vocabulary: what it
means that numbers are computed approximately, and that a run in exact arithmetic takes no close
decision.
-/

namespace Verif

section
variable {α V V' κ θ : Type} [Field κ] [LinearOrder κ]

/-- Two arrays of the same shape whose entries differ by at most `σ`. -/
def MatNear (σ : κ) (M M' : Mat κ) : Prop := List.Forall₂ (List.Forall₂ fun a b => |b - a| ≤ σ) M M'

/-- No entry exceeds `B`. -/
def MatWithin (B : κ) (M : Mat κ) : Prop := ∀ row ∈ M, ∀ a ∈ row, |a| ≤ B

/-- The messages of two runs differ by at most `e`. -/
def MessagesNear (n : Nat) (e : κ) (s s' : ApMessages κ) : Prop :=
  ∀ i < n, ∀ k < n, |entry s'.avail i k - entry s.avail i k| ≤ e ∧ |entry s'.resp i k - entry s.resp i k| ≤ e

/-- No number of an iteration exceeds `B`; `τ` and `e` are to spare. -/
def MessagesWithin (n : Nat) (B τ e : κ) (S : Mat κ) (s : ApMessages κ) : Prop :=
  ∀ i < n, ∀ k < n, |entry S i k| + τ ≤ B ∧ |entry s.avail i k| + e ≤ B ∧ |entry s.resp i k| + e ≤ B

/-- The error of the messages after some iterations, when the similarities have the error `τ` and each
iteration adds the error `u`. -/
def apError (n : Nat) (τ u : κ) : Nat → κ
  | 0 => 0
  | k + 1 => n * (apError n τ u k + τ) + u

/-- Arithmetic with errors, for `n` groups and numbers up to `B`: similarities of groups are within `σ`, the
preference within `τ`, one iteration within `u`, the sums of line 439 within `γ`. Line 417
is exact: the sign of a rounded sum of two numbers is that of the sum. -/
structure ApNear (env : ApEnv V κ (ApMessages κ) θ) (n : Nat) (σ τ u γ B : κ) : Prop where
  le : σ ≤ τ
  median : ∀ W W', Square n W → MatWithin B W → MatNear σ W W' → |env.median W' - npMedian W| ≤ τ
  initM : env.initM n = ⟨tabulate n fun _ _ => 0, tabulate n fun _ _ => 0⟩
  update : ∀ S s, Square n S → MessagesWithin n B 0 0 S s →
    MessagesNear n u (apUpdate S s).1 (env.update S s).1 ∧
      (env.update S s).2 = (List.range n).map fun k => decide (0 < entry (env.update S s).1.avail k k + entry (env.update S s).1.resp k k)
  colsum : ∀ S S' ii, Square n S → MatWithin B S → MatNear τ S S' → ii.Nodup → (∀ i ∈ ii, i < n) →
    List.Forall₂ (fun a b => |b - a| ≤ γ) (apColsum S ii) (env.colsum S' ii)

/-- The greatest number exceeds the others by more than `2 ε`. -/
def GreatestMargin (ε : κ) (values : List κ) : Prop :=
  ∃ c < values.length, ∀ d < values.length, d ≠ c → ∀ a ∈ values[c]?, ∀ b ∈ values[d]?, b + 2 * ε < a

/-- No iteration decides closely which groups are exemplars. -/
def ApLoopMargin (n : Nat) (τ u B : κ) (conv : Nat) (S : Mat κ) : (left it : Nat) → ApMessages κ → List (List Bool) → Prop
  | 0, _, _, _ => True
  | left + 1, it, s, hist =>
    MessagesWithin n B τ (apError n τ u it) S s ∧
    (∀ k < n, 2 * apError n τ u (it + 1) < |entry (apUpdate S s).1.avail k k + entry (apUpdate S s).1.resp k k|) ∧
    (apStops conv S.length (hist.set (it % conv) (apUpdate S s).2) it (apUpdate S s).2 = false →
      ApLoopMargin n τ u B conv S left (it + 1) (apUpdate S s).1 (hist.set (it % conv) (apUpdate S s).2))

/-- No group has two exemplars of almost the same similarity. -/
def NearestMargin (τ : κ) (S : Mat κ) (I : List Nat) : Prop := ∀ row ∈ S, GreatestMargin τ (I.map fun i => (row[i]?).getD 0)

/-- The assignments and the refinement of lines 434-444 have no close decision. -/
def ApLabelsMargin (τ γ : κ) (S : Mat κ) (I : List Nat) : Prop :=
  NearestMargin τ S I ∧
  match apAssign S I with
  | .error _ => True
  | .ok c =>
    (∀ k < I.length, GreatestMargin γ (apColsum S ((List.range c.length).filter fun i => decide (c[i]? = some k)))) ∧
    match (List.range I.length).mapM (apRefine (apExact (fun (_ _ : Unit) => (0 : κ)) 0 0 fun _ _ => 0) S c) with
    | .error _ => True
    | .ok I' => NearestMargin τ S I'

/-- The run on the groups `mls` of the points with similarities `S` (after the noise) has no close
decision. -/
def ApMargin (τ u γ B : κ) (env : ApEnv V κ (ApMessages κ) θ) (p : ApParams) (S : Mat κ) (mls : List (List Nat)) (cls : List (Nat × Nat)) : Prop :=
  match mls.mapM fun P => mls.mapM fun Q => apMaxLink S P Q with
  | .error _ => True
  | .ok W =>
    let D := setDiagonal W (env.median W)
    MatWithin B W ∧ MatWithin B D ∧
    ApLoopMargin mls.length τ u B p.convergenceIteration D p.maxIteration 0 (env.initM mls.length)
      (List.replicate p.convergenceIteration (List.replicate mls.length false)) ∧
    match apLoop env p D S.length cls p.maxIteration 0 (apInit env p D.length cls) with
    | none => True
    | some q => ApLabelsMargin τ γ D (apExemplars q.1)

end

end Verif
