import Verif.Model.FloatDot
import Verif.Spec.FloatDot
import Verif.Props.FloatDist
import Mathlib.Algebra.Order.BigOperators.Ring.Finset
import Mathlib.Algebra.Order.Chebyshev

/-
Lemmas for C122: errors of sums of products in any order.
-/

namespace Verif

/-! ### Sums of products -/

/-- The exact sum. -/
def dotOf (l : List (ℚ × ℚ)) : ℚ := (l.map fun p => p.1 * p.2).sum

/-- The sum of the absolute values. -/
def absDot (l : List (ℚ × ℚ)) : ℚ := (l.map fun p => |p.1 * p.2|).sum

theorem absDot_nonneg (l : List (ℚ × ℚ)) : 0 ≤ absDot l := by
  refine List.sum_nonneg fun x hx => ?_
  obtain ⟨p, -, rfl⟩ := List.mem_map.1 hx
  exact abs_nonneg _

theorem abs_dotOf (l : List (ℚ × ℚ)) : |dotOf l| ≤ absDot l := by
  induction l with
  | nil => simp [dotOf, absDot]
  | cons p l ih =>
    have h1 : dotOf (p :: l) = p.1 * p.2 + dotOf l := by simp [dotOf]
    have h2 : absDot (p :: l) = |p.1 * p.2| + absDot l := by simp [absDot]
    rw [h1, h2]
    exact (abs_add_le _ _).trans (by linarith)

theorem fl_err' (q : ℚ) : |fl q - q| ≤ 1 / 2 ^ 53 * |q| := by
  rw [one_div_mul_eq_div]; exact fl_err q

/-- The error of a sum of products in any order. -/
theorem flDot_err {l : List (ℚ × ℚ)} {s : ℚ} (h : FlDot l s) :
    IsFloat s ∧ (l = [] → s = 0) ∧ |s - dotOf l| ≤ ((1 + 1 / 2 ^ 53) ^ l.length - 1) * absDot l := by
  have hu : (0 : ℚ) ≤ 1 / 2 ^ 53 := by positivity
  induction h with
  | nil =>
    refine ⟨?_, fun _ => rfl, by simp [dotOf, absDot]⟩
    rw [← fl_zero]; exact fl_isFloat 0
  | prod x y =>
    refine ⟨fl_isFloat _, fun h => absurd h (List.cons_ne_nil _ _), ?_⟩
    have := fl_err' (x * y)
    simp only [dotOf, absDot, List.map_cons, List.map_nil, List.sum_cons, List.sum_nil, add_zero, List.length_cons, List.length_nil, zero_add, pow_one]
    linarith
  | @add l r t a b _ _ hp ihl ihr =>
    refine ⟨fl_isFloat _, fun ht => ?_, ?_⟩
    · subst ht
      have h0 := List.nil_perm.1 hp
      obtain ⟨h1, h2⟩ := List.append_eq_nil_iff.1 h0
      rw [ihl.2.1 h1, ihr.2.1 h2, add_zero, fl_zero]
    · have e1 : dotOf t = dotOf l + dotOf r := by
        unfold dotOf
        rw [(hp.map _).sum_eq, List.map_append, List.sum_append]
      have e2 : absDot t = absDot l + absDot r := by
        unfold absDot
        rw [(hp.map _).sum_eq, List.map_append, List.sum_append]
      have e3 : t.length = l.length + r.length := by rw [hp.length_eq, List.length_append]
      by_cases hl : l = []
      · have ha := ihl.2.1 hl
        subst hl
        rw [ha, zero_add, ihr.1.fl_eq, e1, e2, e3]
        simpa [dotOf, absDot] using ihr.2.2
      by_cases hr : r = []
      · have hb := ihr.2.1 hr
        subst hr
        rw [hb, add_zero, ihl.1.fl_eq, e1, e2, e3]
        simpa [dotOf, absDot] using ihl.2.2
      rw [e1, e2, e3]
      have hl1 : 1 ≤ l.length := List.length_pos_iff.2 hl
      have hr1 : 1 ≤ r.length := List.length_pos_iff.2 hr
      have g1 := ihl.2.2
      have g2 := ihr.2.2
      have m1 := absDot_nonneg l
      have m2 := absDot_nonneg r
      have d1 := abs_dotOf l
      have d2 := abs_dotOf r
      have f := fl_err' (a + b)
      have one : (1 : ℚ) ≤ 1 + 1 / 2 ^ 53 := by linarith
      have p1 : (1 + 1 / 2 ^ 53 : ℚ) ^ l.length * (1 + 1 / 2 ^ 53) ≤ (1 + 1 / 2 ^ 53) ^ (l.length + r.length) := by
        rw [← pow_succ]; exact pow_le_pow_right₀ one (by omega)
      have p2 : (1 + 1 / 2 ^ 53 : ℚ) ^ r.length * (1 + 1 / 2 ^ 53) ≤ (1 + 1 / 2 ^ 53) ^ (l.length + r.length) := by
        rw [← pow_succ]; exact pow_le_pow_right₀ one (by omega)
      generalize (1 + 1 / 2 ^ 53 : ℚ) ^ (l.length + r.length) = γ at *
      generalize (1 + 1 / 2 ^ 53 : ℚ) ^ l.length = α at *
      generalize (1 + 1 / 2 ^ 53 : ℚ) ^ r.length = β at *
      generalize (1 / 2 ^ 53 : ℚ) = u at *
      have hab : |a + b| ≤ α * absDot l + β * absDot r := by
        have e : a + b = (a - dotOf l) + (b - dotOf r) + dotOf l + dotOf r := by ring
        rw [e]
        have := abs_add_le ((a - dotOf l) + (b - dotOf r) + dotOf l) (dotOf r)
        have := abs_add_le ((a - dotOf l) + (b - dotOf r)) (dotOf l)
        have := abs_add_le (a - dotOf l) (b - dotOf r)
        linarith
      have e : fl (a + b) - (dotOf l + dotOf r) = (fl (a + b) - (a + b)) + ((a - dotOf l) + (b - dotOf r)) := by ring
      rw [e]
      have t1 := abs_add_le (fl (a + b) - (a + b)) ((a - dotOf l) + (b - dotOf r))
      have t2 := abs_add_le (a - dotOf l) (b - dotOf r)
      have t3 := mul_le_mul_of_nonneg_left hab hu
      have q1 := mul_le_mul_of_nonneg_right p1 m1
      have q2 := mul_le_mul_of_nonneg_right p2 m2
      nlinarith
  | @fma l t a x y _ hp ihl =>
    refine ⟨fl_isFloat _, fun ht => ?_, ?_⟩
    · subst ht
      exact absurd (List.nil_perm.1 hp) (List.cons_ne_nil _ _)
    · have e1 : dotOf t = x * y + dotOf l := by
        unfold dotOf
        rw [(hp.map _).sum_eq, List.map_cons, List.sum_cons]
      have e2 : absDot t = |x * y| + absDot l := by
        unfold absDot
        rw [(hp.map _).sum_eq, List.map_cons, List.sum_cons]
      have e3 : t.length = l.length + 1 := by rw [hp.length_eq, List.length_cons]
      rw [e1, e2, e3]
      have g1 := ihl.2.2
      have m1 := absDot_nonneg l
      have d1 := abs_dotOf l
      have f := fl_err' (a + x * y)
      have one : (1 : ℚ) ≤ (1 + 1 / 2 ^ 53) ^ l.length := one_le_pow₀ (by linarith)
      rw [pow_succ]
      generalize (1 + 1 / 2 ^ 53 : ℚ) ^ l.length = α at *
      generalize (1 / 2 ^ 53 : ℚ) = u at *
      have hab : |a + x * y| ≤ α * absDot l + |x * y| := by
        have e : a + x * y = (a - dotOf l) + dotOf l + x * y := by ring
        rw [e]
        have := abs_add_le ((a - dotOf l) + dotOf l) (x * y)
        have := abs_add_le (a - dotOf l) (dotOf l)
        linarith
      have e : fl (a + x * y) - (x * y + dotOf l) = (fl (a + x * y) - (a + x * y)) + (a - dotOf l) := by ring
      rw [e]
      have t1 := abs_add_le (fl (a + x * y) - (a + x * y)) (a - dotOf l)
      have t3 := mul_le_mul_of_nonneg_left hab hu
      have q := abs_nonneg (x * y)
      have q2 : 0 ≤ (α - 1) * |x * y| := mul_nonneg (by linarith) q
      have q3 : 0 ≤ (α - 1) * u * |x * y| := mul_nonneg (mul_nonneg (by linarith) hu) q
      nlinarith

/-! ### The square of the distance -/

variable {D : Nat}

theorem dotOf_entries (x y : Fin D → ℚ) : dotOf (entries x y) = ∑ i, x i * y i := by
  unfold dotOf entries
  rw [List.map_ofFn, List.sum_ofFn]
  rfl

theorem absDot_entries (x y : Fin D → ℚ) : absDot (entries x y) = ∑ i, |x i| * |y i| := by
  unfold absDot entries
  rw [List.map_ofFn, List.sum_ofFn]
  exact Finset.sum_congr rfl fun i _ => abs_mul _ _

theorem length_entries (x y : Fin D → ℚ) : (entries x y).length = D := by simp [entries]

theorem square_core {u G p a b s t xx xy yy axy : ℚ} (hu : 0 ≤ u) (hG : 1 ≤ G) (n1 : 0 ≤ axy) (n2 : 0 ≤ xx) (n3 : 0 ≤ yy)
    (hxy : |xy| ≤ axy) (h1 : |p - xy| ≤ (G - 1) * axy) (h2 : |a - xx| ≤ (G - 1) * xx) (h3 : |b - yy| ≤ (G - 1) * yy)
    (r1 : |s - (-2 * p + a)| ≤ u * |-2 * p + a|) (r2 : |t - (s + b)| ≤ u * |s + b|) (hT : 0 ≤ xx - 2 * xy + yy) :
    |max 0 t - (xx - 2 * xy + yy)| ≤ (G * (1 + u) ^ 2 - 1) * (xx + 2 * axy + yy) := by
  have k1 := abs_le.1 h1
  have k2 := abs_le.1 h2
  have k3 := abs_le.1 h3
  have kb := abs_le.1 hxy
  have e0 : |(-2 * p + a + b) - (xx - 2 * xy + yy)| ≤ (G - 1) * (xx + 2 * axy + yy) := by
    rw [abs_le]
    constructor <;> linarith
  have hGy : 0 ≤ G * yy := by positivity
  have hGx : 0 ≤ G * xx := by positivity
  have s1 : |-2 * p + a| ≤ G * (xx + 2 * axy + yy) := by
    rw [abs_le]
    constructor <;> linarith
  have up : xx - 2 * xy + yy ≤ xx + 2 * axy + yy := by linarith
  generalize xx + 2 * axy + yy = M at *
  generalize xx - 2 * xy + yy = T at *
  have r1' := r1.trans (mul_le_mul_of_nonneg_left s1 hu)
  have s2 : |s + b| ≤ (1 + u) * G * M := by
    have e : s + b = (s - (-2 * p + a)) + ((-2 * p + a + b) - T) + T := by ring
    rw [e]
    have t1 := abs_add_le ((s - (-2 * p + a)) + ((-2 * p + a + b) - T)) T
    have t2 := abs_add_le (s - (-2 * p + a)) ((-2 * p + a + b) - T)
    rw [abs_of_nonneg hT] at t1
    linarith
  have r2' := r2.trans (mul_le_mul_of_nonneg_left s2 hu)
  have tot : |t - T| ≤ (G * (1 + u) ^ 2 - 1) * M := by
    have e : t - T = (t - (s + b)) + (s - (-2 * p + a)) + ((-2 * p + a + b) - T) := by ring
    rw [e]
    have t1 := abs_add_le ((t - (s + b)) + (s - (-2 * p + a))) ((-2 * p + a + b) - T)
    have t2 := abs_add_le (t - (s + b)) (s - (-2 * p + a))
    linarith
  have tot' := abs_le.1 tot
  rcases max_cases (0 : ℚ) t with ⟨h, h'⟩ | ⟨h, h'⟩
  · rw [h, abs_le]
    constructor <;> linarith
  · rw [h]; exact tot

/-- The number under the square root. -/
theorem flSquare_err {x y : Fin D → ℚ} {p a b : ℚ} (hp : FlDot (entries x y) p) (ha : FlDot (entries x x) a) (hb : FlDot (entries y y) b) :
    |max 0 (fl (fl (-2 * p + a) + b)) - ∑ i, (x i - y i) ^ 2| ≤
      ((1 + 1 / 2 ^ 53) ^ (D + 2) - 1) * ∑ i, (|x i| + |y i|) ^ 2 := by
  have hu : (0 : ℚ) ≤ 1 / 2 ^ 53 := by positivity
  have h1 := (flDot_err hp).2.2
  have h2 := (flDot_err ha).2.2
  have h3 := (flDot_err hb).2.2
  rw [dotOf_entries, absDot_entries, length_entries] at h1 h2 h3
  have eT : ∑ i, (x i - y i) ^ 2 = ∑ i, x i * x i - 2 * ∑ i, x i * y i + ∑ i, y i * y i := by
    rw [Finset.mul_sum, ← Finset.sum_sub_distrib, ← Finset.sum_add_distrib]
    exact Finset.sum_congr rfl fun i _ => by ring
  have eM : ∑ i, (|x i| + |y i|) ^ 2 = ∑ i, |x i| * |x i| + 2 * ∑ i, |x i| * |y i| + ∑ i, |y i| * |y i| := by
    rw [Finset.mul_sum, ← Finset.sum_add_distrib, ← Finset.sum_add_distrib]
    exact Finset.sum_congr rfl fun i _ => by ring
  have b1 : |∑ i, x i * y i| ≤ ∑ i, |x i| * |y i| := by
    refine (Finset.abs_sum_le_sum_abs _ _).trans (le_of_eq (Finset.sum_congr rfl fun i _ => abs_mul _ _))
  have c2 : ∑ i, |x i| * |x i| = ∑ i, x i * x i := Finset.sum_congr rfl fun i _ => abs_mul_abs_self _
  have c3 : ∑ i, |y i| * |y i| = ∑ i, y i * y i := Finset.sum_congr rfl fun i _ => abs_mul_abs_self _
  have n1 : 0 ≤ ∑ i, |x i| * |y i| := Finset.sum_nonneg fun i _ => by positivity
  have n2 : 0 ≤ ∑ i, x i * x i := Finset.sum_nonneg fun i _ => mul_self_nonneg _
  have n3 : 0 ≤ ∑ i, y i * y i := Finset.sum_nonneg fun i _ => mul_self_nonneg _
  have nT : 0 ≤ ∑ i, (x i - y i) ^ 2 := Finset.sum_nonneg fun i _ => sq_nonneg _
  rw [c2] at h2 eM
  rw [c3] at h3 eM
  rw [eM]
  rw [eT] at nT ⊢
  rw [pow_add]
  exact square_core hu (one_le_pow₀ (by linarith)) n1 n2 n3 b1 h1 h2 h3 (fl_err' _) (fl_err' _) nT

/-! ### Lengths -/

theorem sqrt_add_sum (a b : Fin D → ℝ) : √(∑ i, (a i + b i) ^ 2) ≤ √(∑ i, a i ^ 2) + √(∑ i, b i ^ 2) := by
  have ha : 0 ≤ ∑ i, a i ^ 2 := Finset.sum_nonneg fun i _ => sq_nonneg _
  have hb : 0 ≤ ∑ i, b i ^ 2 := Finset.sum_nonneg fun i _ => sq_nonneg _
  have hc : ∑ i, a i * b i ≤ √(∑ i, a i ^ 2) * √(∑ i, b i ^ 2) := by
    rw [← Real.sqrt_mul ha]
    exact Real.le_sqrt_of_sq_le (Finset.sum_mul_sq_le_sq_mul_sq _ _ _)
  apply Real.sqrt_le_iff.2
  refine ⟨by positivity, ?_⟩
  have e : ∑ i, (a i + b i) ^ 2 = ∑ i, a i ^ 2 + 2 * ∑ i, a i * b i + ∑ i, b i ^ 2 := by
    rw [Finset.mul_sum, ← Finset.sum_add_distrib, ← Finset.sum_add_distrib]
    exact Finset.sum_congr rfl fun i _ => by ring
  rw [e, add_sq, Real.sq_sqrt ha, Real.sq_sqrt hb]
  linarith

theorem euclid_triangle (x y z : Fin D → ℚ) : euclid x z ≤ euclid x y + euclid y z := by
  have := sqrt_add_sum (fun i => (x i : ℝ) - y i) (fun i => (y i : ℝ) - z i)
  unfold euclid
  refine le_of_eq_of_le ?_ this
  congr 1
  exact Finset.sum_congr rfl fun i _ => by ring

theorem euclid_comm (x y : Fin D → ℚ) : euclid x y = euclid y x := by
  unfold euclid
  congr 1
  exact Finset.sum_congr rfl fun i _ => by ring

theorem euclid_le_both (x y : Fin D → ℚ) : euclid x y ≤ bothLength x y := by
  unfold euclid bothLength
  apply Real.sqrt_le_sqrt
  refine Finset.sum_le_sum fun i _ => ?_
  rw [← sq_abs ((x i : ℝ) - y i)]
  apply pow_le_pow_left₀ (abs_nonneg _)
  exact abs_sub _ _

theorem sqrt_sum_le {f : Fin D → ℝ} {b r : ℝ} (hr : 0 ≤ r) (h : ∀ i, |f i| ≤ b) (hbr : D * b ^ 2 ≤ r ^ 2) : √(∑ i, f i ^ 2) ≤ r := by
  apply Real.sqrt_le_iff.2
  refine ⟨hr, le_trans ?_ hbr⟩
  have : ∑ i, f i ^ 2 ≤ ∑ _i : Fin D, b ^ 2 := Finset.sum_le_sum fun i _ => by
    rw [← sq_abs (f i)]
    exact pow_le_pow_left₀ (abs_nonneg _) (h i) 2
  simpa using this

/-- `(1 + u)^n - 1` is at most `2 n u` as long as that is at most 1. -/
theorem pow_le_linear {u : ℝ} (hu : 0 ≤ u) (n : ℕ) (h : 2 * (n * u) ≤ 1) : (1 + u) ^ n ≤ 1 + 2 * (n * u) := by
  induction n with
  | zero => simp
  | succ n ih =>
    push_cast at h ⊢
    have h1 := ih (by linarith)
    rw [pow_succ]
    have h2 : (1 + u) ^ n * (1 + u) ≤ (1 + 2 * (n * u)) * (1 + u) := mul_le_mul_of_nonneg_right h1 (by linarith)
    refine h2.trans ?_
    have h3 : 2 * ((n : ℝ) * u) * u ≤ 1 * u := mul_le_mul_of_nonneg_right (by linarith) hu
    nlinarith

end Verif
