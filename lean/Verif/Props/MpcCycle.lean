import Verif.Props.MpcMove

/-
C120: MPC-KMeans with constraints need not converge.
-/

namespace Verif

section
variable {V κ θ : Type} [LinearOrder κ]

theorem mpcLoop_pass {env : MpcEnv V κ θ} {X : List V} {ml cl : Graph} {nb it left : Nat} {c : List V} {A : θ} {labels L : List Int} {far : Nat × Nat × κ}
    {c' : List V} {A' : θ} (hf : mpcFarPair env A X = .ok far) (ha : mpcAssign env A far.2.2 X c ml cl nb it = .ok L) (hc' : mpcCenters env X L nb = c')
    (hA' : env.metric X L c' far ml cl = A') (hc : env.close c c' = false) :
    mpcLoop env X ml cl nb (left + 1) it c A labels = mpcLoop env X ml cl nb left (it + 1) c' A' L := by
  rw [mpcLoop, hf]
  show (mpcAssign env A far.2.2 X c ml cl nb it >>= _) = _
  rw [ha]
  show (if env.close c (mpcCenters env X L nb) = true then _ else _) = _
  rw [hc', if_neg (by rw [hc]; decide), hA']

end

/-- Four data on a line; the constraints determine the clusters {1, 2, 4} and {3}. -/
def mpcCycleManager : Manager Nat := runOps (Manager.init [1, 2, 3, 4])
  [.addConstraint 1 2 "MUST_LINK" 1, .addConstraint 2 4 "MUST_LINK" 1, .addConstraint 1 3 "CANNOT_LINK" 1]

def mpcCycleVec (x : Nat) : Fin 1 → ℚ := fun _ => if x = 1 then -3 else if x = 4 then 1 else -4

def mpcCycleVectors : Dict Nat (Fin 1 → ℚ) := [1, 2, 3, 4].map fun x => (x, mpcCycleVec x)

/-- Exact arithmetic with the weight 1 and the given shuffles. -/
def mpcCycleEnv (f : Nat → Nat → List Nat) : MpcEnv (Fin 1 → ℚ) ℚ (Fin 1 → ℚ) := mpcExact { mpcFirstChoices ratRoot 1 with shuffle := f } 1

/-- The shuffles of the indices of four data: any of the two orders that begin with the first two data. -/
def MpcCycleShuffles (f : Nat → Nat → List Nat) : Prop := ∀ it, f it 4 = [0, 1, 2, 3] ∨ f it 4 = [0, 1, 3, 2]

def mpcCycleX : List (Fin 1 → ℚ) := dvals mpcCycleVectors

def mpcCycleMl : Graph := [(0, [0, 1, 3]), (1, [0, 1, 3]), (2, [2]), (3, [0, 1, 3])]

def mpcCycleCl : Graph := [(0, [2]), (1, [2]), (2, [0, 1, 3]), (3, [2])]

theorem mpcCycle_far (f : Nat → Nat → List Nat) :
    mpcFarPair (mpcCycleEnv f) (fun _ => 1) mpcCycleX = .ok (3, 1, 25) ∧ mpcFarPair (mpcCycleEnv f) (fun _ => 12 / 251) mpcCycleX = .ok (3, 1, 300 / 251) ∧
    mpcFarPair (mpcCycleEnv f) (fun _ => 2 / 7) mpcCycleX = .ok (3, 1, 50 / 7) := by
  have e : ∀ A, mpcFarPair (mpcCycleEnv f) A mpcCycleX = mpcFarPair (mpcCycleEnv fun _ n => List.range n) A mpcCycleX := fun _ => rfl
  simp only [e]
  decide +kernel

theorem mpcCycle_assign {f : Nat → Nat → List Nat} (hf : MpcCycleShuffles f) (A : Fin 1 → ℚ) (far : ℚ) (c : List (Fin 1 → ℚ)) (it : Nat) {L : List Int}
    (h1 : mpcAssign (mpcCycleEnv fun _ _ => [0, 1, 2, 3]) A far mpcCycleX c mpcCycleMl mpcCycleCl 2 0 = .ok L)
    (h2 : mpcAssign (mpcCycleEnv fun _ _ => [0, 1, 3, 2]) A far mpcCycleX c mpcCycleMl mpcCycleCl 2 0 = .ok L) :
    mpcAssign (mpcCycleEnv f) A far mpcCycleX c mpcCycleMl mpcCycleCl 2 it = .ok L := by
  have e : ∀ g i, mpcAssign (mpcCycleEnv g) A far mpcCycleX c mpcCycleMl mpcCycleCl 2 i =
      ((g i 4).foldlM (mpcAssignStep (mpcCycleEnv fun _ _ => []) A far mpcCycleX c mpcCycleMl mpcCycleCl) (List.replicate 4 (-1)) >>=
        mpcRepair (fun p q => do return (mpcCycleEnv fun _ _ => []).mdist A (← lget mpcCycleX p) (← lget c q)) 2) := fun _ _ => rfl
  rw [e] at h1 h2 ⊢
  rcases hf it with h | h
  · rw [h]; exact h1
  · rw [h]; exact h2

theorem mpcCycle_centers (f : Nat → Nat → List Nat) : mpcCenters (mpcCycleEnv f) mpcCycleX [0, 1, 1, 1] 2 = [fun _ => -3, fun _ => -7 / 3] ∧
    mpcCenters (mpcCycleEnv f) mpcCycleX [0, 0, 1, 0] 2 = [fun _ => -2, fun _ => -4] := by
  have e : ∀ L, mpcCenters (mpcCycleEnv f) mpcCycleX L 2 = mpcCenters (mpcCycleEnv fun _ n => List.range n) mpcCycleX L 2 := fun _ => rfl
  simp only [e]
  decide +kernel

/-- The two states of the loop. -/
theorem mpcCycle_loop {f : Nat → Nat → List Nat} (hf : MpcCycleShuffles f) (left : Nat) : ∀ it,
    mpcLoop (mpcCycleEnv f) mpcCycleX mpcCycleMl mpcCycleCl 2 left it [fun _ => -3, fun _ => -7 / 3] (fun _ => 12 / 251) [0, 1, 1, 1] =
      .ok (if left % 2 = 0 then [0, 1, 1, 1] else [0, 0, 1, 0]) ∧
    mpcLoop (mpcCycleEnv f) mpcCycleX mpcCycleMl mpcCycleCl 2 left it [fun _ => -2, fun _ => -4] (fun _ => 2 / 7) [0, 0, 1, 0] =
      .ok (if left % 2 = 0 then [0, 0, 1, 0] else [0, 1, 1, 1]) := by
  induction left with
  | zero => intro it; exact ⟨rfl, rfl⟩
  | succ left ih =>
    intro it
    constructor
    · rw [mpcLoop_pass (mpcCycle_far f).2.1 (mpcCycle_assign hf _ _ _ it (L := [0, 0, 1, 0]) (by decide +kernel) (by decide +kernel)) (mpcCycle_centers f).2
        (A' := fun _ => 2 / 7) (by show mpcUpdate _ _ _ _ _ _ _ = _; decide +kernel) (by show mpcClose _ _ = _; decide +kernel), (ih (it + 1)).2]
      congr 1
      split <;> split <;> first | rfl | omega
    · rw [mpcLoop_pass (mpcCycle_far f).2.2 (mpcCycle_assign hf _ _ _ it (L := [0, 1, 1, 1]) (by decide +kernel) (by decide +kernel)) (mpcCycle_centers f).1
        (A' := fun _ => 12 / 251) (by show mpcUpdate _ _ _ _ _ _ _ = _; decide +kernel) (by show mpcClose _ _ = _; decide +kernel), (ih (it + 1)).1]
      congr 1
      split <;> split <;> first | rfl | omega

/-- C120. Finding: with constraints, the passes of MPC-KMeans need not lead anywhere. The two components are the two clusters asked for, so nothing is
random but the shuffles, and nothing is rounded. With shuffles that begin with the first two data, the result depends on whether the number of
passes is odd or even, however large it is: after an even number of passes all constraints are satisfied, after an odd number none of the
must-link constraints of ID 1. -/
theorem C120_cycle {f : Nat → Nat → List Nat} (hf : MpcCycleShuffles f) (k : Nat) :
    mpcCluster (mpcCycleEnv f) ⟨2 * k + 1⟩ mpcCycleManager (some mpcCycleVectors) (some 2) = .ok [(1, 0), (2, 1), (3, 1), (4, 1)] ∧
    mpcCluster (mpcCycleEnv f) ⟨2 * k + 2⟩ mpcCycleManager (some mpcCycleVectors) (some 2) = .ok [(1, 0), (2, 0), (3, 1), (4, 0)] := by
  have hl : ∀ n, mpcLabels (mpcCycleEnv f) ⟨n + 1⟩ 4 2 [(0, 0), (0, 1), (0, 3), (1, 0), (1, 1), (1, 3), (2, 2), (3, 0), (3, 1), (3, 3)]
      [(0, 2), (1, 2), (2, 0), (2, 1), (2, 3), (3, 2)] mpcCycleX = .ok (if n % 2 = 0 then [0, 1, 1, 1] else [0, 0, 1, 0]) := by
    intro n
    have e1 : mpcPreprocess (mpcCycleEnv f).enum (mpcCycleEnv f).depth 4 [(0, 0), (0, 1), (0, 3), (1, 0), (1, 1), (1, 3), (2, 2), (3, 0), (3, 1), (3, 3)]
        [(0, 2), (1, 2), (2, 0), (2, 1), (2, 3), (3, 2)] = .ok (mpcCycleMl, mpcCycleCl, [[3, 1, 0], [2]]) := by
      show mpcPreprocess List.dedup 1000 _ _ _ = _
      decide +kernel
    have e2 : mpcInit (mpcCycleEnv f) mpcCycleX [[3, 1, 0], [2]] 2 = .ok [fun _ => -2, fun _ => -4] := by
      show mpcInit (mpcCycleEnv fun _ n => List.range n) mpcCycleX [[3, 1, 0], [2]] 2 = _
      decide +kernel
    unfold mpcLabels
    rw [e1]
    simp only [bind, Except.bind, e2]
    show mpcLoop (mpcCycleEnv f) mpcCycleX mpcCycleMl mpcCycleCl 2 (n + 1) 0 [fun _ => -2, fun _ => -4] (fun _ => 1) [] = _
    rw [mpcLoop_pass (mpcCycle_far f).1 (mpcCycle_assign hf _ _ _ 0 (L := [0, 1, 1, 1]) (by decide +kernel) (by decide +kernel)) (mpcCycle_centers f).1
        (A' := fun _ => 12 / 251) (by show mpcUpdate _ _ _ _ _ _ _ = _; decide +kernel) (by show mpcClose _ _ = _; decide +kernel), (mpcCycle_loop hf n 1).1]
  have hm : mpcPairs mpcCycleManager .mustLink = .ok [(0, 0), (0, 1), (0, 3), (1, 0), (1, 1), (1, 3), (2, 2), (3, 0), (3, 1), (3, 3)] := by decide +kernel
  have hc : mpcPairs mpcCycleManager .cannotLink = .ok [(0, 2), (1, 2), (2, 0), (2, 1), (2, 3), (3, 2)] := by decide +kernel
  have hn : mpcCycleManager.managed.length = 4 := by decide +kernel
  have key : ∀ n, mpcCluster (mpcCycleEnv f) ⟨n + 1⟩ mpcCycleManager (some mpcCycleVectors) (some 2) =
      .ok (if n % 2 = 0 then [(1, 0), (2, 1), (3, 1), (4, 1)] else [(1, 0), (2, 0), (3, 1), (4, 0)]) := by
    intro n
    unfold mpcCluster
    simp only [if_neg (show ¬ (2 : Int) < 2 by decide), hm, hc, hn, bind, Except.bind, pure, Except.pure]
    rw [show dvals mpcCycleVectors = mpcCycleX from rfl, show min (Int.toNat 2) 4 = 2 from rfl, hl n]
    by_cases h0 : n % 2 = 0
    · simp only [if_pos h0]
      decide +kernel
    · simp only [if_neg h0]
      decide +kernel
  refine ⟨?_, ?_⟩
  · rw [key, if_pos (by omega)]
  · rw [key, if_neg (by omega)]

/-! ### The theorem applied to a concrete case -/

example : MpcCycleShuffles (fun _ n => List.range n) ∧ MpcAssumptions (mpcCycleEnv fun _ n => List.range n) ∧ Reachable mpcCycleManager ∧
    mpcCluster (mpcCycleEnv fun _ n => List.range n) ⟨150⟩ mpcCycleManager (some mpcCycleVectors) (some 2) = .ok [(1, 0), (2, 0), (3, 1), (4, 0)] ∧
    mpcCluster (mpcCycleEnv fun _ n => List.range n) ⟨151⟩ mpcCycleManager (some mpcCycleVectors) (some 2) = .ok [(1, 0), (2, 1), (3, 1), (4, 1)] :=
  have h : MpcCycleShuffles (fun _ n => List.range n) := fun _ => .inl rfl
  ⟨h, mpcFirst_ok _ _ _, ⟨_, _, rfl⟩, (C120_cycle h 74).2, (C120_cycle h 75).1⟩

end Verif
