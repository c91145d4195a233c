import Verif.Model.Affinity
import Verif.Spec.Clustering

/-
Specification vocabulary for affinity propagation.
-/

namespace Verif

/-- An `n × n` array. -/
def Square {κ : Type} (n : Nat) (M : Mat κ) : Prop := M.length = n ∧ ∀ row ∈ M, row.length = n

section
variable {α V κ μ θ : Type} [LinearOrder α] [LinearOrder κ]

/-- Shapes of the arrays that numpy returns, and `x + 0 = x`. -/
structure ApAssumptions (env : ApEnv V κ μ θ) : Prop where
  noise : ∀ n S, Square n S → Square n (env.noise S)
  update : ∀ n S s, Square n S → (env.update S s).2.length = n
  colsum : ∀ S ii, (env.colsum S ii).length = ii.length
  addZero : ∀ x, env.add x env.zero = x

/-- Facts about distances and the median. -/
structure ApDistance (env : ApEnv V κ μ θ) : Prop where
  self : ∀ v w, env.dist v v ≤ env.dist v w
  neg : ∀ a b, a ≤ b → env.neg b ≤ env.neg a
  median : ∀ n S, 0 < n → Square n S → ∃ row ∈ S, ∃ v ∈ row, v ≤ env.median S

/-- All pairs of distinct IDs are equally similar. -/
def Equidistant (env : ApEnv V κ μ θ) (m : Manager α) (vectors : Dict α V) : Prop :=
  ∃ s, ∀ x ∈ m.managed, ∀ y ∈ m.managed, x ≠ y → ∀ v w, dget? vectors x = some v → dget? vectors y = some w →
    env.neg (env.dist v w) = s

/-- `labels` gives every point `i` one of the exemplars of `I`: an exemplar itself, any other point
one of greatest similarity. -/
structure ExemplarLabels (Sp : Mat κ) (I labels : List Nat) : Prop where
  nodup : I.Nodup
  own : ∀ l ∈ I, labels[l]? = some l
  mem : ∀ (i l : Nat), labels[i]? = some l → l ∈ I
  nearest : ∀ (i l : Nat), labels[i]? = some l → i ∉ I →
    ∀ e ∈ I, ∃ a b, mget? Sp i e = some a ∧ mget? Sp i l = some b ∧ a ≤ b

/-- Lists of positions that partition `0, …, n - 1`. -/
structure Closures (n : Nat) (mls : List (List Nat)) : Prop where
  ne : ∀ P ∈ mls, P ≠ []
  lt : ∀ P ∈ mls, ∀ i ∈ P, i < n
  disjoint : mls.Pairwise List.Disjoint
  cover : ∀ i < n, ∃ P ∈ mls, i ∈ P

/-- The exemplars `I` found by the messages and those after the refinement, `I'`. `sums` gives for a group
of points a number for each of them (the sum of the similarities to it). -/
structure RefinedExemplars (sums : List Nat → List κ) (Sp : Mat κ) (I I' : List Nat) : Prop where
  /-- Every one is kept, or replaced by a point that is not an exemplar and to which it is the most
  similar exemplar. -/
  kept : List.Forall₂ (fun e e' => e' = e ∨
    e' ∉ I ∧ ∀ x ∈ I, ∃ a b, mget? Sp e' x = some a ∧ mget? Sp e' e = some b ∧ a ≤ b) I I'
  /-- `c` are the groups around the exemplars `I`; `I'` are the members with the greatest sums. -/
  best : ∃ c : List Nat, c.length = Sp.length ∧ (∀ k e : Nat, I[k]? = some e → c[e]? = some k) ∧
    (∀ i k : Nat, c[i]? = some k → i ∉ I → ∃ e, I[k]? = some e ∧ ∀ x ∈ I, ∃ a b, mget? Sp i x = some a ∧ mget? Sp i e = some b ∧ a ≤ b) ∧
    ∀ k e' : Nat, I'[k]? = some e' → ∃ (ii : List Nat) (j : Nat) (a : κ), ii.Pairwise (· < ·) ∧ (∀ i, i ∈ ii ↔ c[i]? = some k) ∧
      ii[j]? = some e' ∧ (sums ii)[j]? = some a ∧ ∀ b ∈ sums ii, b ≤ a

/-- Between closures (and within one), the greatest similarity of their members. -/
structure GreatestLinks (S : Mat κ) (mls : List (List Nat)) (W : Mat κ) : Prop where
  square : Square mls.length W
  entry : ∀ (a b : Nat) (P Q : List Nat) (v : κ), mls[a]? = some P → mls[b]? = some Q → mget? W a b = some v →
    (∃ i ∈ P, ∃ j ∈ Q, mget? S i j = some v) ∧ ∀ i ∈ P, ∀ j ∈ Q, ∀ w, mget? S i j = some w → w ≤ v

/-- The matrix handed to the message passing in absolute mode: outside the diagonal the matrix of
greatest similarities, on the diagonal its median, the preference. -/
def ClosureMatrix (median : Mat κ → κ) (S : Mat κ) (mls : List (List Nat)) (M : Mat κ) : Prop :=
  ∃ W, GreatestLinks S mls W ∧ Square mls.length M ∧ (∀ a b, a ≠ b → mget? M a b = mget? W a b) ∧
    ∀ a < mls.length, mget? M a a = some (median W)

/-- The labels of the points are those of their closures. -/
def SpreadLabels (mls : List (List Nat)) (labels : List Nat) (r : List Int) : Prop :=
  ∀ (a b i j : Nat) (P Q : List Nat), mls[a]? = some P → mls[b]? = some Q → i ∈ P → j ∈ Q →
    (r[i]? = r[j]? ↔ labels[a]? = labels[b]?)

end

end Verif
