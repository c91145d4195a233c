import Mathlib.Algebra.Order.Field.Basic
import Verif.Spec.MPC

/-
Specification vocabulary for MPC-KMeans with rounding errors (C127). In all definitions `env` computes exactly and `env'` with errors.
-/

namespace Verif

section
variable {V V' κ θ θ' : Type} [Field κ] [LinearOrder κ]

/-- `_objective_fn`, lines 515-537, of a point `x` and a centre `y`, when `ms` are the must-linked points in other clusters and
`cs` the cannot-linked points of this cluster. -/
def objectiveOf (env : MpcEnv V κ θ) (A : θ) (far : κ) (x y : V) (ms cs : List V) : κ :=
  env.add (env.add (env.termD A x y) (ms.foldl (fun t z => env.add t (env.termM A x z)) env.zero))
    (cs.foldl (fun t z => env.add t (env.termC A far x z)) env.zero)

/-- `env'` follows `env` on at most `n` points: the same random numbers; `RV` and `Rθ` say which vectors and metrics stand for each
other, and they are kept by means and by the update of the metric; the errors are at most `ρ` for the distances of the first
centres, `δ` for their weighted distances and for the distances in the metric and `ε` for the objective; `safe` says that the
test of lines 272-273 is not affected. -/
structure MpcNear (env : MpcEnv V κ θ) (env' : MpcEnv V' κ θ') (RV : V → V' → Prop) (Rθ : θ → θ' → Prop) (ρ δ ε : κ) (n : Nat)
    (safe : List V → List V → Prop) : Prop where
  enum : env'.enum = env.enum
  depth : env'.depth = env.depth
  shuffle : env'.shuffle = env.shuffle
  pick : env'.pick = env.pick
  choice : env'.choice = env.choice
  zero : env'.zero = env.zero
  mean : ∀ l l', l ≠ [] → List.Forall₂ RV l l' → RV (env.mean l) (env'.mean l')
  dist : ∀ x x' y y', RV x x' → RV y y' → |env'.dist x' y' - env.dist x y| ≤ ρ
  weigh : ∀ s t d d', s ≤ t → |d' - d| ≤ ρ → |env'.weigh s t d' - env.weigh s t d| ≤ δ
  identity : Rθ env.identity env'.identity
  mdist : ∀ A A' x x' y y', Rθ A A' → RV x x' → RV y y' → |env'.mdist A' x' y' - env.mdist A x y| ≤ δ
  objective : ∀ A A' far far' x x' y y' ms ms' cs cs', Rθ A A' → |far' - far| ≤ δ → RV x x' → RV y y' → List.Forall₂ RV ms ms' →
    List.Forall₂ RV cs cs' → ms.length ≤ n → cs.length ≤ n →
    |objectiveOf env' A' far' x' y' ms' cs' - objectiveOf env A far x y ms cs| ≤ ε
  metric : ∀ X X' labels centers centers' i j far far' ml cl, List.Forall₂ RV X X' → List.Forall₂ RV centers centers' →
    |far' - far| ≤ δ → Rθ (env.metric X labels centers (i, j, far) ml cl) (env'.metric X' labels centers' (i, j, far') ml cl)
  close : ∀ a a' b b', List.Forall₂ RV a a' → List.Forall₂ RV b b' → safe a b → env'.close a' b' = env.close a b

/-! ### Margins of the exact run -/

/-- The smallest number is the smallest one by more than `2 ε`. -/
def LeastMargin (ε : κ) (values : List κ) : Prop :=
  ∃ c < values.length, ∀ d < values.length, d ≠ c → ∀ a ∈ values[c]?, ∀ b ∈ values[d]?, a + 2 * ε < b

/-- The same for the largest distance of a point that may be moved to an empty cluster. -/
def DonorMargin (δ : κ) (donors : Dict Nat κ) : Prop := ∃ q ∈ donors, ∀ r ∈ donors, r.1 ≠ q.1 → r.2 + 2 * δ < q.2

/-- The farthest pair is farther by more than `2 δ` than any other pair, and its distance exceeds `δ`. -/
def FarMargin (δ : κ) (env : MpcEnv V κ θ) (A : θ) (X : List V) (far : Nat × Nat × κ) : Prop :=
  env.zero + δ < far.2.2 ∧
    ∀ i < X.length, ∀ j < i, (i, j) ≠ (far.1, far.2.1) → ∀ x ∈ X[i]?, ∀ y ∈ X[j]?, env.mdist A x y + 2 * δ < far.2.2

/-- The weighted distance of line 379. -/
def weighted (env : MpcEnv V κ θ) (points : List V) (sizes traversed : List Nat) (j : Nat) : Except PyErr κ := do
  return env.weigh (← lget sizes j) sizes.sum (← mpcSetDist env points j traversed)

/-- One step of the traversal: the chosen point is farther by more than `2 δ` than any other. -/
def TraversalStep (δ : κ) (env : MpcEnv V κ θ) (points : List V) (sizes traversed : List Nat) (j : Nat) : Prop :=
  ∀ a ∈ (weighted env points sizes traversed j).toOption, env.zero + δ < a ∧
    ∀ i < points.length, i ∉ traversed → i ≠ j → ∀ b ∈ (weighted env points sizes traversed i).toOption, b + 2 * δ < a

/-- The steps of the traversal (lines 370-385) from the points `traversed` on. -/
def TraversalMargin (δ : κ) (env : MpcEnv V κ θ) (points : List V) (sizes : List Nat) : (left : Nat) → List Nat → Prop
  | 0, _ => True
  | left + 1, traversed =>
    match mpcFarthest env points sizes traversed with
    | .ok t => (∀ j ∈ t.getLast?, TraversalStep δ env points sizes traversed j) ∧ TraversalMargin δ env points sizes left t
    | .error _ => True

/-- The points of a list are assigned one after the other (lines 544-550). -/
def AssignMargin (ε : κ) (env : MpcEnv V κ θ) (A : θ) (far : κ) (X centers : List V) (ml cl : Graph) : List Nat → List Int → Prop
  | [], _ => True
  | i :: is, labels =>
    (∀ values ∈ ((List.range centers.length).mapM (mpcObjective env A far X centers ml cl labels i)).toOption, LeastMargin ε values) ∧
    match mpcAssignStep env A far X centers ml cl labels i with
    | .ok labels => AssignMargin ε env A far X centers ml cl is labels
    | .error _ => True

/-- The empty clusters of a list are filled one after the other (lines 554-572). -/
def FillMargin (δ : κ) (dist : Nat → Nat → Except PyErr κ) : List Nat → List Int × List Nat → Prop
  | [], _ => True
  | c :: cs, s =>
    (∀ donors ∈ (mpcDonors dist s.1 s.2).toOption, DonorMargin δ donors) ∧
    match mpcFillStep dist s c with
    | .ok s => FillMargin δ dist cs s
    | .error _ => True

/-- `_assign_clusters`. -/
def PassMargin (δ ε : κ) (env : MpcEnv V κ θ) (A : θ) (far : κ) (X centers : List V) (ml cl : Graph) (nb it : Nat) : Prop :=
  AssignMargin ε env A far X centers ml cl (env.shuffle it X.length) (List.replicate X.length (-1)) ∧
  ∀ labels ∈ ((env.shuffle it X.length).foldlM (mpcAssignStep env A far X centers ml cl) (List.replicate X.length (-1))).toOption,
    ∀ counts ∈ (bincount labels nb).toOption,
      FillMargin δ (fun p c => do return env.mdist A (← lget X p) (← lget centers c)) (emptyClusters counts) (labels, counts)

/-- The passes of lines 252-277. -/
def LoopMargin (δ ε : κ) (safe : List V → List V → Prop) (env : MpcEnv V κ θ) (X : List V) (ml cl : Graph) (nb : Nat) :
    (left it : Nat) → List V → θ → Prop
  | 0, _, _, _ => True
  | left + 1, it, centers, A =>
    match mpcFarPair env A X with
    | .error _ => True
    | .ok far => FarMargin δ env A X far ∧ PassMargin δ ε env A far.2.2 X centers ml cl nb it ∧
      match mpcAssign env A far.2.2 X centers ml cl nb it with
      | .error _ => True
      | .ok labels => safe centers (mpcCenters env X labels nb) ∧ (env.close centers (mpcCenters env X labels nb) = false →
          LoopMargin δ ε safe env X ml cl nb left (it + 1) (mpcCenters env X labels nb)
            (env.metric X labels (mpcCenters env X labels nb) far ml cl))

/-- A call of `cluster` whose choices all have a margin. -/
def MpcMargin {α : Type} [LinearOrder α] (δ ε : κ) (safe : List V → List V → Prop) (env : MpcEnv V κ θ) (most : Nat) (m : Manager α)
    (X : List V) (nb : Int) : Prop :=
  ∀ mlp clp mlg clg nbhs, mpcPairs m .mustLink = .ok mlp → mpcPairs m .cannotLink = .ok clp →
    mpcPreprocess env.enum env.depth m.managed.length mlp clp = .ok (mlg, clg, nbhs) →
    (∀ means, (nbhs.mapM fun P => do return env.mean (← P.mapM fun i => lget X i)) = .ok means →
      min nb.toNat m.managed.length < nbhs.length →
      TraversalMargin δ env means (nbhs.map List.length) (min nb.toNat m.managed.length - 1) [env.pick (nbhs.map List.length)]) ∧
    ∀ start, mpcInit env X nbhs (min nb.toNat m.managed.length) = .ok start →
      LoopMargin δ ε safe env X mlg clg (min nb.toNat m.managed.length) most 0 start env.identity

end

end Verif
