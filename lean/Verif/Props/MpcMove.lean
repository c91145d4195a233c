import Verif.Proofs.MpcMove
import Verif.Props.MpcSeparated

/-
C118: MPC-KMeans, in exact arithmetic, on vectors that are moved, mirrored or measured in another unit.
-/

namespace Verif

section
variable {κ : Type} [Field κ] [LinearOrder κ] [IsStrictOrderedRing κ] {D : Nat}
variable {α : Type} [LinearOrder α]

/-- Shifting all vectors, mirroring coordinates and exchanging coordinates changes neither the clusters nor the exceptions. -/
theorem C118_motion {m : Manager α} (h : Reachable m) {ch : MpcChoices κ D} {w : κ} (ha : MpcAssumptions (mpcExact ch w)) (p : MpcParams)
    {vectors : Dict α (Fin D → κ)} (hv : vectors.length = m.managed.length) (nb : Option Int)
    {ε : Fin D → κ} (hε : ∀ d, ε d ^ 2 = 1) (σ : Equiv.Perm (Fin D)) (t : Fin D → κ) :
    mpcCluster (mpcExact ch w) p m (some (vectors.map fun q => (q.1, mpcMove 1 ε σ t q.2))) nb = mpcCluster (mpcExact ch w) p m (some vectors) nb :=
  mpcCluster_move h.inv one_pos hε ha p hv nb (fun _ _ _ _ _ _ _ _ => by rw [one_pow, one_mul, one_mul]) fun _ _ _ _ _ _ _ _ _ _ _ _ _ => UnitOk.one

/-- Measuring the vectors in another unit changes nothing as long as the two absolute numbers of the code do not decide. -/
theorem C118_unit {m : Manager α} (h : Reachable m) {ch : MpcChoices κ D} {w : κ} (ha : MpcAssumptions (mpcExact ch w)) (p : MpcParams)
    (v : α → Fin D → κ) {nb : Int} {s : κ} (hs : 0 < s)
    (hroot : ∀ c ∈ m.components, ∀ c' ∈ m.components,
      ch.sqrt (s ^ 2 * sqDist (meanVec v c) (meanVec v c')) = s * ch.sqrt (sqDist (meanVec v c) (meanVec v c')))
    (hu : UnitFreeCall s ch w p.maxIteration m (m.managed.map v) nb)
    {ε : Fin D → κ} (hε : ∀ d, ε d ^ 2 = 1) (σ : Equiv.Perm (Fin D)) (t : Fin D → κ) :
    mpcCluster (mpcExact ch w) p m (some (m.managed.map fun x => (x, mpcMove s ε σ t (v x)))) (some nb) =
      mpcCluster (mpcExact ch w) p m (some (m.managed.map fun x => (x, v x))) (some nb) := by
  have hvals : dvals (m.managed.map fun x => (x, v x)) = m.managed.map v := by simp [dvals]
  have := mpcCluster_move (σ := σ) (t := t) (vectors := m.managed.map fun x => (x, v x)) h.inv hs hε ha p (by simp) (some nb) ?_ ?_
  · rw [List.map_map] at this
    exact this
  · intro nbhs hN means hm x hx y hy
    rw [hvals] at hm
    obtain ⟨C, hC, -, e⟩ := nbh_means h.inv hN ch w v
    rw [hm] at e
    cases e
    obtain ⟨c, hc, rfl⟩ := List.mem_map.1 hx
    obtain ⟨c', hc', rfl⟩ := List.mem_map.1 hy
    exact hroot c (hC.mem_iff.1 hc) c' (hC.mem_iff.1 hc')
  · intro k hk _ mlp clp mlg clg nbhs start em ec ep ei
    cases hk
    rw [hvals] at ei ⊢
    exact (hu mlp clp mlg clg nbhs start em ec ep ei).ok

end

/-- The square root, rounded down, of a number below `4^b`, two binary digits at a time. -/
def binRoot : (b : Nat) → Nat → Nat
  | 0, _ => 0
  | b + 1, n => if (2 * binRoot b (n / 4) + 1) * (2 * binRoot b (n / 4) + 1) ≤ n then 2 * binRoot b (n / 4) + 1 else 2 * binRoot b (n / 4)

/-- `binRoot` is the square root rounded down. -/
theorem binRoot_spec : ∀ (b n : Nat), n < 4 ^ b → binRoot b n ^ 2 ≤ n ∧ n < (binRoot b n + 1) ^ 2
  | 0, n, h => by
    have : n = 0 := by simpa using h
    subst this
    simp [binRoot]
  | b + 1, n, h => by
    obtain ⟨h1, h2⟩ := binRoot_spec b (n / 4) (by rw [pow_succ] at h; omega)
    unfold binRoot
    generalize binRoot b (n / 4) = r at h1 h2
    have e : (2 * r + 2) ^ 2 = 4 * (r + 1) ^ 2 := by ring
    have e' : (2 * r) ^ 2 = 4 * r ^ 2 := by ring
    split
    · rename_i hle
      refine ⟨by rw [pow_two]; exact hle, ?_⟩
      rw [show 2 * r + 1 + 1 = 2 * r + 2 from rfl, e]
      omega
    · rename_i hlt
      refine ⟨by rw [e']; omega, ?_⟩
      rw [pow_two]
      omega

/-- The square root of a rational number that is a square, for numerators and denominators below `4^64`. -/
def ratRoot (q : ℚ) : ℚ := (binRoot 64 q.num.toNat : ℚ) / binRoot 64 q.den

/-- The hypotheses of `C118_motion` with constraints, and what the motion does. -/
example : Reachable mpcFarManager ∧ MpcAssumptions (mpcExact (mpcFirstChoices ratRoot 1) 1) ∧ (∀ _ : Fin 1, (-1 : ℚ) ^ 2 = 1) ∧
    (mpcFarManager.managed.map fun x => (x, mpcFarVec x)).length = mpcFarManager.managed.length ∧
    (mpcFarManager.managed.map fun x => mpcMove 1 (fun _ => -1) (Equiv.refl _) (fun _ => 3) (mpcFarVec x) 0) = [3, 2, 1, -37, -38] :=
  ⟨⟨_, _, rfl⟩, mpcFirst_ok _ _ _, fun _ => by norm_num, by simp, by decide +kernel⟩

/-- The hypotheses of `C118_unit`, with the default number of passes. -/
example : Reachable mpcFarManager ∧ MpcAssumptions (mpcExact (mpcFirstChoices ratRoot 1) 1) ∧ (0 : ℚ) < 1 / 1000 ∧
    (∀ c ∈ mpcFarManager.components, ∀ c' ∈ mpcFarManager.components, ratRoot ((1 / 1000) ^ 2 * sqDist (meanVec mpcFarVec c) (meanVec mpcFarVec c')) =
      1 / 1000 * ratRoot (sqDist (meanVec mpcFarVec c) (meanVec mpcFarVec c'))) ∧
    UnitFreeCall (1 / 1000) (mpcFirstChoices ratRoot 1) 1 150 mpcFarManager (mpcFarManager.managed.map mpcFarVec) 2 :=
  ⟨⟨_, _, rfl⟩, mpcFirst_ok _ _ _, by norm_num, by decide +kernel, unitFree_of_test (by decide +kernel)⟩

/-- Finding: the unit matters. The same seventeen vectors, measured in a unit `10^5` times as large, are clustered differently,
because the widths fall below `10^-9`. -/
theorem C118_unit_matters :
    mpcCluster (mpcExact (mpcFirstChoices ratRoot 2) 1) ⟨150⟩ (Manager.init mpcPlaneIds) (some (mpcPlaneIds.map fun x => (x, mpcPlaneVec x))) (some 2) =
      .ok (mpcPlaneIds.map fun x => (x, if 2 ≤ x ∧ x ≤ 11 then 1 else 0)) ∧
    mpcCluster (mpcExact (mpcFirstChoices ratRoot 2) 1) ⟨150⟩ (Manager.init mpcPlaneIds)
      (some (mpcPlaneIds.map fun x => (x, mpcMove (1 / 10 ^ 5) (fun _ => 1) (Equiv.refl _) (fun _ => 0) (mpcPlaneVec x)))) (some 2) =
      .ok (mpcPlaneIds.map fun x => (x, if x ≤ 11 then 0 else 1)) :=
  ⟨by decide +kernel, by decide +kernel⟩

/-- Rotation by the angle with sine `4/5` and cosine `3/5`. -/
def planeTurn (x : Fin 2 → ℚ) : Fin 2 → ℚ := ![3 / 5 * x 0 - 4 / 5 * x 1, 4 / 5 * x 0 + 3 / 5 * x 1]

/-- Finding: rotations matter, though they keep all distances: the metric has one weight for each coordinate. -/
theorem C118_rotation : (∀ x y, sqDist (planeTurn x) (planeTurn y) = sqDist x y) ∧
    mpcCluster (mpcExact (mpcFirstChoices ratRoot 2) 1) ⟨150⟩ (Manager.init mpcPlaneIds) (some (mpcPlaneIds.map fun x => (x, mpcPlaneVec x))) (some 2) =
      .ok (mpcPlaneIds.map fun x => (x, if 2 ≤ x ∧ x ≤ 11 then 1 else 0)) ∧
    mpcCluster (mpcExact (mpcFirstChoices ratRoot 2) 1) ⟨150⟩ (Manager.init mpcPlaneIds)
      (some (mpcPlaneIds.map fun x => (x, planeTurn (mpcPlaneVec x)))) (some 2) = .ok (mpcPlaneIds.map fun x => (x, if x ≤ 11 then 0 else 1)) := by
  refine ⟨fun x y => ?_, by decide +kernel, by decide +kernel⟩
  simp only [sqDist, planeTurn, Fin.sum_univ_two, Matrix.cons_val_zero, Matrix.cons_val_one]
  ring

end Verif
