import Mathlib.Logic.Equiv.Defs
import Verif.Spec.MPCExact

/-
Specification vocabulary for MPC-KMeans on vectors that are moved, mirrored or measured in another unit (C118).
-/

namespace Verif

section
variable {κ : Type} [Field κ] [LinearOrder κ] {D : Nat}

/-- The coordinates are exchanged (`σ`), mirrored (`ε d = ±1`), multiplied by `s` and shifted by `t`. -/
def mpcMove (s : κ) (ε : Fin D → κ) (σ : Equiv.Perm (Fin D)) (t : Fin D → κ) (x : Fin D → κ) : Fin D → κ :=
  fun d => s * ε d * x (σ d) + t d

/-- Line 591-606: what the metric of coordinate `d` is computed from. -/
def mpcWidth (w : κ) (X : List (Fin D → κ)) (labels : List Int) (centers : List (Fin D → κ)) (far : Nat × Nat × κ) (ml cl : Graph)
    (d : Fin D) : κ :=
  mpcTermX X labels centers d + mpcSumM w X labels ml d + mpcSumC w X labels far cl d

/-- The passes (lines 252-277) that are begun when at most `most` are allowed: number of passes done, centres, metric. A pass
follows another one if the centres have moved. -/
inductive MpcPass {V κ θ : Type} [LinearOrder κ] (env : MpcEnv V κ θ) (X : List V) (ml cl : Graph) (nb most : Nat) (start : List V) : Nat → List V → θ → Prop where
  | first : 0 < most → MpcPass env X ml cl nb most start 0 start env.identity
  | next {it : Nat} {centers : List V} {A : θ} {labels : List Int} {far : Nat × Nat × κ} :
      MpcPass env X ml cl nb most start it centers A → mpcFarPair env A X = .ok far →
      mpcAssign env A far.2.2 X centers ml cl nb it = .ok labels →
      env.close centers (mpcCenters env X labels nb) = false → it + 1 < most →
      MpcPass env X ml cl nb most start (it + 1) (mpcCenters env X labels nb) (env.metric X labels (mpcCenters env X labels nb) far ml cl)

/-- The two absolute numbers of the code do not decide after a pass with these centres before and after and these widths, neither in
the old unit nor in the unit `s`: the centres move by more than `10^-6` in both units or in none, and if they do, the
widths are at least `10^-9` in both units. -/
def UnitFreeStep (s : κ) (centers centers' : List (Fin D → κ)) (width : Fin D → κ) : Prop :=
  ((∀ q ∈ centers.zip centers', ∀ d, |q.1 d - q.2 d| ≤ 1 / 10 ^ 6) ∧ ∀ q ∈ centers.zip centers', ∀ d, s * |q.1 d - q.2 d| ≤ 1 / 10 ^ 6) ∨
  ((∃ q ∈ centers.zip centers', ∃ d, 1 / 10 ^ 6 < |q.1 d - q.2 d|) ∧ (∃ q ∈ centers.zip centers', ∃ d, 1 / 10 ^ 6 < s * |q.1 d - q.2 d|) ∧
    ∀ d, 1 / 10 ^ 9 ≤ width d ∧ 1 / 10 ^ 9 ≤ s ^ 2 * width d)

/-- The two absolute numbers decide in no pass. -/
def UnitFree (s : κ) (ch : MpcChoices κ D) (w : κ) (X : List (Fin D → κ)) (ml cl : Graph) (nb most : Nat) (start : List (Fin D → κ)) : Prop :=
  ∀ it centers A far labels, MpcPass (mpcExact ch w) X ml cl nb most start it centers A →
    mpcFarPair (mpcExact ch w) A X = .ok far → mpcAssign (mpcExact ch w) A far.2.2 X centers ml cl nb it = .ok labels →
    UnitFreeStep s centers (mpcCenters (mpcExact ch w) X labels nb)
      (mpcWidth w X labels (mpcCenters (mpcExact ch w) X labels nb) far ml cl)

/-- The two absolute numbers decide in no pass of a call of `cluster`. -/
def UnitFreeCall {α : Type} [LinearOrder α] (s : κ) (ch : MpcChoices κ D) (w : κ) (most : Nat) (m : Manager α) (X : List (Fin D → κ)) (nb : Int) : Prop :=
  ∀ mlp clp mlg clg nbhs start, mpcPairs m .mustLink = .ok mlp → mpcPairs m .cannotLink = .ok clp →
    mpcPreprocess ch.enum ch.depth m.managed.length mlp clp = .ok (mlg, clg, nbhs) →
    mpcInit (mpcExact ch w) X nbhs (min nb.toNat m.managed.length) = .ok start →
    UnitFree s ch w X mlg clg (min nb.toNat m.managed.length) most start

end

end Verif
