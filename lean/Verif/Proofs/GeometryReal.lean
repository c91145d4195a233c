import Verif.Spec.Geometry
import Mathlib.Analysis.Convex.StrictConvexBetween

/-
Lemmas for C90, fourth part: maps that multiply all distances by the same number.
-/

namespace Verif

variable {E F : Type} [NormedAddCommGroup E] [NormedSpace ℝ E] [NormedAddCommGroup F] [NormedSpace ℝ F]

/-- Such a map is a linear map and a translation. -/
theorem similar_affine [StrictConvexSpace ℝ F] {φ : E → F} {c : ℝ} (hc : 0 < c) (hφ : ∀ v w, dist (φ v) (φ w) = c * dist v w) :
    ∃ (L : E →ₗ[ℝ] F) (b : F), ∀ v, φ v = L v + b := by
  have hi : Isometry fun v => c⁻¹ • φ v := by
    refine Isometry.of_dist_eq fun v w => ?_
    rw [dist_smul₀, hφ, Real.norm_eq_abs, abs_of_pos (inv_pos.2 hc), inv_mul_cancel_left₀ hc.ne']
  let A := hi.affineIsometryOfStrictConvexSpace
  refine ⟨c • A.linearIsometry.toLinearMap, φ 0, fun v => ?_⟩
  have h1 : A v = A.linearIsometry v + A 0 := by
    have := A.map_vadd 0 v
    simpa using this
  have h2 : ∀ w, A w = c⁻¹ • φ w := fun w => rfl
  rw [h2, h2] at h1
  have h3 := congrArg (c • ·) h1
  simp only [smul_add, smul_inv_smul₀ hc.ne'] at h3
  exact h3

theorem realMean_map [StrictConvexSpace ℝ F] {φ : E → F} {c : ℝ} (hc : 0 < c) (hφ : ∀ v w, dist (φ v) (φ w) = c * dist v w)
    (l : List E) (hl : l ≠ []) : realMean (l.map φ) = φ (realMean l) := by
  obtain ⟨L, b, h⟩ := similar_affine hc hφ
  have hsum : ∀ l : List E, (l.map φ).sum = L l.sum + (l.length : ℝ) • b := by
    intro l
    induction l with
    | nil => simp
    | cons v l ih =>
      rw [List.map_cons, List.sum_cons, ih, h, List.sum_cons, map_add, List.length_cons]
      push_cast
      rw [add_smul, one_smul]
      abel
  have hn : (l.length : ℝ) ≠ 0 := by
    have : l.length ≠ 0 := fun h => hl (List.length_eq_zero_iff.1 h)
    exact_mod_cast this
  unfold realMean
  rw [List.length_map, hsum, h, map_smul, smul_add, inv_smul_smul₀ hn]

end Verif
