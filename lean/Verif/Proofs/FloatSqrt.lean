import Mathlib.Analysis.Real.Sqrt
import Verif.Proofs.Float

/-
`flSqrt` is the square root, rounded to nearest.
-/

namespace Verif

/-- Above `2 ^ h` the floats are multiples of `2 ^ (h - 52)`. -/
theorem IsFloat.multiple {x : ℚ} (hx : IsFloat x) {h : ℤ} (hge : 2 ^ h ≤ x) : ∃ t : ℤ, x = t * 2 ^ (h - 52) := by
  have hx0 : 0 < x := lt_of_lt_of_le (by positivity) hge
  have hbe : h ≤ binExp x := by
    have := (binExp_spec hx0.ne').2
    rw [abs_of_pos hx0] at this
    have := (zpow_lt_zpow_iff_right₀ (by norm_num : (1 : ℚ) < 2)).1 (hge.trans_lt this)
    omega
  refine ⟨roundEven (x / 2 ^ (binExp x - 52)) * 2 ^ (binExp x - h).toNat, ?_⟩
  conv_lhs => rw [← hx.fl_eq]
  unfold fl
  push_cast
  rw [mul_assoc, ← zpow_natCast, ← zpow_add₀ (by norm_num)]
  congr 2
  omega

/-- The two candidates of `flSqrt`. -/
theorem flSqrt_spec {q : ℚ} (hq : 0 < q) : ∃ (t : ℕ) (h : ℤ), 2 ^ 52 ≤ t ∧ t < 2 ^ 53 ∧
    (t : ℚ) ^ 2 * (2 ^ (h - 52)) ^ 2 ≤ q ∧ q < ((t : ℚ) + 1) ^ 2 * (2 ^ (h - 52)) ^ 2 ∧
    ((q ≤ ((t : ℚ) + 1 / 2) ^ 2 * (2 ^ (h - 52)) ^ 2 ∧ flSqrt q = t * 2 ^ (h - 52)) ∨
      (((t : ℚ) + 1 / 2) ^ 2 * (2 ^ (h - 52)) ^ 2 ≤ q ∧ flSqrt q = (t + 1) * 2 ^ (h - 52))) := by
  obtain ⟨h1, h2⟩ := binExp_spec hq.ne'
  rw [abs_of_pos hq] at h1 h2
  set h := binExp q / 2 with hh
  have hp : (0 : ℚ) < 2 ^ (h - 52) := by positivity
  have hp2 : (0 : ℚ) < (2 ^ (h - 52)) ^ 2 := by positivity
  have e1 : (2 : ℚ) ^ 104 * (2 ^ (h - 52)) ^ 2 = 2 ^ (2 * h) := by
    rw [← zpow_natCast (2 ^ (h - 52)) 2, ← zpow_mul, ← zpow_natCast 2 104, ← zpow_add₀ (by norm_num)]
    congr 1
    push_cast
    ring
  have e2 : (2 : ℚ) ^ 106 * (2 ^ (h - 52)) ^ 2 = 2 ^ (2 * h + 2) := by
    rw [← zpow_natCast (2 ^ (h - 52)) 2, ← zpow_mul, ← zpow_natCast 2 106, ← zpow_add₀ (by norm_num)]
    congr 1
    push_cast
    ring
  have lo : (2 : ℚ) ^ (2 * h) ≤ q := le_trans (zpow_le_zpow_right₀ (by norm_num) (by omega)) h1
  have hi : q < (2 : ℚ) ^ (2 * h + 2) := lt_of_lt_of_le h2 (zpow_le_zpow_right₀ (by norm_num) (by omega))
  set y := q / (2 ^ (h - 52)) ^ 2 with hy
  have hyq : y * (2 ^ (h - 52)) ^ 2 = q := div_mul_cancel₀ _ hp2.ne'
  have ylo : (2 : ℚ) ^ 104 ≤ y := by rw [hy, le_div_iff₀ hp2, e1]; exact lo
  have yhi : y < (2 : ℚ) ^ 106 := by rw [hy, div_lt_iff₀ hp2, e2]; exact hi
  set n := ⌊y⌋.toNat with hn
  have hf0 : 0 ≤ ⌊y⌋ := Int.floor_nonneg.2 (le_trans (by norm_num) ylo)
  have hnf : (n : ℤ) = ⌊y⌋ := Int.toNat_of_nonneg hf0
  have nle : (n : ℚ) ≤ y := by
    have := Int.floor_le y
    rw [← hnf] at this
    exact_mod_cast this
  have ylt : y < (n : ℚ) + 1 := by
    have := Int.lt_floor_add_one y
    rw [← hnf] at this
    exact_mod_cast this
  set t := Nat.sqrt n with ht
  have t1 : t * t ≤ n := Nat.sqrt_le n
  have t2 : n < (t + 1) * (t + 1) := Nat.lt_succ_sqrt n
  have nlo : 2 ^ 104 ≤ n := by
    have : (2 ^ 104 : ℤ) ≤ ⌊y⌋ := Int.le_floor.2 (by push_cast; exact ylo)
    omega
  have nhi : n < 2 ^ 106 := by
    have : (n : ℚ) < 2 ^ 106 := lt_of_le_of_lt nle yhi
    exact_mod_cast this
  have c1 : (t : ℚ) ^ 2 ≤ y := by
    refine le_trans ?_ nle
    rw [sq]; exact_mod_cast t1
  have c2 : y < ((t : ℚ) + 1) ^ 2 := by
    refine lt_of_lt_of_le ylt ?_
    rw [sq]; exact_mod_cast t2
  have hfl : flSqrt q = if q < ((t : ℚ) + 1 / 2) ^ 2 * (2 ^ (h - 52)) ^ 2 then (t : ℚ) * 2 ^ (h - 52)
      else if ((t : ℚ) + 1 / 2) ^ 2 * (2 ^ (h - 52)) ^ 2 < q then ((t : ℚ) + 1) * 2 ^ (h - 52)
      else if t % 2 = 0 then (t : ℚ) * 2 ^ (h - 52) else ((t : ℚ) + 1) * 2 ^ (h - 52) := by
    unfold flSqrt
    rw [if_neg (not_le.2 hq)]
  refine ⟨t, h, ?_, ?_, ?_, ?_, ?_⟩
  · by_contra hlt
    have : (t + 1) * (t + 1) ≤ 2 ^ 52 * 2 ^ 52 := Nat.mul_le_mul (by omega) (by omega)
    omega
  · by_contra hge
    have : 2 ^ 53 * 2 ^ 53 ≤ t * t := Nat.mul_le_mul (by omega) (by omega)
    omega
  · calc _ ≤ y * (2 ^ (h - 52)) ^ 2 := by gcongr
      _ = q := hyq
  · calc q = y * (2 ^ (h - 52)) ^ 2 := hyq.symm
      _ < _ := by gcongr
  · rw [hfl]
    split_ifs with g1 g2 g3
    · exact .inl ⟨g1.le, rfl⟩
    · exact .inr ⟨g2.le, rfl⟩
    · exact .inl ⟨not_lt.1 g2, rfl⟩
    · exact .inr ⟨not_lt.1 g1, rfl⟩

theorem flSqrt_zero : flSqrt 0 = 0 := by unfold flSqrt; rw [if_pos le_rfl]

theorem flSqrt_isFloat (q : ℚ) : IsFloat (flSqrt q) := by
  by_cases hq : 0 < q
  · obtain ⟨t, h, -, h2, -, -, ⟨-, e⟩ | ⟨-, e⟩⟩ := flSqrt_spec hq
    · exact ⟨t, h - 52, by rw [abs_of_nonneg (by positivity)]; omega, by rw [e]; norm_num⟩
    · exact ⟨t + 1, h - 52, by rw [abs_of_nonneg (by positivity)]; omega, by rw [e]; norm_num⟩
  · unfold flSqrt
    rw [if_pos (not_lt.1 hq)]
    exact ⟨0, 0, by norm_num, by norm_num⟩

/-- No float is nearer to the square root. -/
theorem flSqrt_nearest {q : ℚ} (hq : 0 ≤ q) {x : ℚ} (hx : IsFloat x) : |(flSqrt q : ℝ) - √(q : ℝ)| ≤ |(x : ℝ) - √(q : ℝ)| := by
  rcases hq.eq_or_lt with rfl | hq
  · rw [flSqrt_zero]; simp
  obtain ⟨t, h, ht1, ht2, lo, hi, hcase⟩ := flSqrt_spec hq
  have hp : (0 : ℚ) < 2 ^ (h - 52) := by positivity
  have hpow : ((2 ^ 52 : ℕ) : ℚ) * 2 ^ (h - 52) = 2 ^ h := by
    conv_rhs => rw [show h = 52 + (h - 52) by ring, zpow_add₀ (by norm_num)]
    norm_num
  have out : x ≤ t * 2 ^ (h - 52) ∨ (t + 1) * 2 ^ (h - 52) ≤ x := by
    rcases lt_or_ge x (2 ^ h) with hlt | hge
    · left
      refine hlt.le.trans ?_
      rw [← hpow]
      have : ((2 ^ 52 : ℕ) : ℚ) ≤ t := by exact_mod_cast ht1
      gcongr
    · obtain ⟨k, rfl⟩ := hx.multiple hge
      rcases le_or_gt k t with hk | hk
      · left
        have : (k : ℚ) ≤ t := by exact_mod_cast hk
        gcongr
      · right
        have : (t : ℚ) + 1 ≤ k := by exact_mod_cast hk
        gcongr
  set u : ℚ := 2 ^ (h - 52)
  have sqrt_le' : ∀ {a : ℚ}, 0 ≤ a → a ^ 2 ≤ q → (a : ℝ) ≤ √(q : ℝ) := by
    intro a _ h'
    apply Real.le_sqrt_of_sq_le
    exact_mod_cast h'
  have le_sqrt' : ∀ {a : ℚ}, 0 ≤ a → q ≤ a ^ 2 → √(q : ℝ) ≤ (a : ℝ) := by
    intro a ha h'
    rw [Real.sqrt_le_left (by exact_mod_cast ha)]
    exact_mod_cast h'
  have s1 : ((t * u : ℚ) : ℝ) ≤ √(q : ℝ) := sqrt_le' (by positivity) (by rw [mul_pow]; exact lo)
  have s2 : √(q : ℝ) ≤ (((t + 1) * u : ℚ) : ℝ) := le_sqrt' (by positivity) (by rw [mul_pow]; exact hi.le)
  have hx1 : (x : ℝ) ≤ ((t * u : ℚ) : ℝ) ∨ (((t + 1) * u : ℚ) : ℝ) ≤ (x : ℝ) := by
    rcases out with h' | h'
    · exact .inl (by exact_mod_cast h')
    · exact .inr (by exact_mod_cast h')
  have hmid : (((t + 1 / 2) * u : ℚ) : ℝ) = (((t * u : ℚ) : ℝ) + (((t + 1) * u : ℚ) : ℝ)) / 2 := by push_cast; ring
  rcases hcase with ⟨hm, e⟩ | ⟨hm, e⟩
  · have s3 : √(q : ℝ) ≤ (((t + 1 / 2) * u : ℚ) : ℝ) := le_sqrt' (by positivity) (by rw [mul_pow]; exact hm)
    rw [e, abs_of_nonpos (by linarith)]
    rcases hx1 with h' | h'
    · rw [abs_of_nonpos (by linarith)]; linarith
    · rw [abs_of_nonneg (by linarith)]; linarith
  · have s3 : (((t + 1 / 2) * u : ℚ) : ℝ) ≤ √(q : ℝ) := sqrt_le' (by positivity) (by rw [mul_pow]; exact hm)
    rw [e, abs_of_nonneg (by linarith)]
    rcases hx1 with h' | h'
    · rw [abs_of_nonpos (by linarith)]; linarith
    · rw [abs_of_nonneg (by linarith)]; linarith

end Verif
