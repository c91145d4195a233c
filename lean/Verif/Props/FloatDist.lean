import Verif.Proofs.FloatSqrt
import Verif.Model.FloatVec
import Verif.Props.Geometry

/-
C99: distances as floats, for vectors with one entry.
-/

namespace Verif

/-! ### Powers of two -/

theorem binExp_unique {q : ℚ} (hq : q ≠ 0) {e : ℤ} (h1 : (2 : ℚ) ^ e ≤ |q|) (h2 : |q| < (2 : ℚ) ^ (e + 1)) : binExp q = e := by
  obtain ⟨g1, g2⟩ := binExp_spec hq
  have a := (zpow_lt_zpow_iff_right₀ (by norm_num : (1 : ℚ) < 2)).1 (h1.trans_lt g2)
  have b := (zpow_lt_zpow_iff_right₀ (by norm_num : (1 : ℚ) < 2)).1 (g1.trans_lt h2)
  omega

theorem binExp_scale (k : ℤ) {q : ℚ} (hq : q ≠ 0) : binExp (2 ^ k * q) = binExp q + k := by
  obtain ⟨g1, g2⟩ := binExp_spec hq
  have hk : (0 : ℚ) < 2 ^ k := by positivity
  apply binExp_unique (mul_ne_zero hk.ne' hq)
  · rw [abs_mul, abs_of_pos hk, add_comm, zpow_add₀ (by norm_num)]
    gcongr
  · rw [abs_mul, abs_of_pos hk, show binExp q + k + 1 = k + (binExp q + 1) by ring, zpow_add₀ (by norm_num)]
    gcongr

theorem fl_scale (k : ℤ) (q : ℚ) : fl (2 ^ k * q) = 2 ^ k * fl q := by
  by_cases hq : q = 0
  · subst hq; simp [fl_zero]
  unfold fl
  rw [binExp_scale k hq]
  have hk : (2 : ℚ) ^ k ≠ 0 := by positivity
  have e : (2 : ℚ) ^ (binExp q + k - 52) = 2 ^ k * 2 ^ (binExp q - 52) := by
    rw [← zpow_add₀ (by norm_num)]; congr 1; ring
  rw [e, mul_div_mul_left _ _ hk]
  ring

theorem flSqrt_scale (k : ℤ) (q : ℚ) : flSqrt ((2 ^ k) ^ 2 * q) = 2 ^ k * flSqrt q := by
  have hk : (0 : ℚ) < 2 ^ k := by positivity
  by_cases hq : q ≤ 0
  · unfold flSqrt
    rw [if_pos hq, if_pos (mul_nonpos_of_nonneg_of_nonpos (by positivity) hq), mul_zero]
  · have hq := not_le.1 hq
    have hq' : 0 < (2 ^ k) ^ 2 * q := by positivity
    have e0 : ((2 : ℚ) ^ k) ^ 2 = 2 ^ (2 * k) := by
      rw [← zpow_natCast (2 ^ k) 2, ← zpow_mul]; congr 1; push_cast; ring
    have e1 : binExp ((2 ^ k) ^ 2 * q) / 2 = binExp q / 2 + k := by
      rw [e0, binExp_scale _ hq.ne']; omega
    have e2 : (2 : ℚ) ^ (binExp ((2 ^ k) ^ 2 * q) / 2 - 52) = 2 ^ k * 2 ^ (binExp q / 2 - 52) := by
      rw [e1, ← zpow_add₀ (by norm_num)]; congr 1; ring
    unfold flSqrt
    rw [if_neg (not_le.2 hq), if_neg (not_le.2 hq')]
    dsimp only
    rw [e2]
    set u : ℚ := 2 ^ (binExp q / 2 - 52)
    have e3 : (2 ^ k) ^ 2 * q / (2 ^ k * u) ^ 2 = q / u ^ 2 := by
      rw [mul_pow, mul_div_mul_left _ _ (by positivity)]
    rw [e3]
    set t := Nat.sqrt ⌊q / u ^ 2⌋.toNat
    have e4 : ((t : ℚ) + 1 / 2) ^ 2 * (2 ^ k * u) ^ 2 = (2 ^ k) ^ 2 * (((t : ℚ) + 1 / 2) ^ 2 * u ^ 2) := by ring
    rw [e4]
    have c1 : ((2 ^ k) ^ 2 * q < (2 ^ k) ^ 2 * (((t : ℚ) + 1 / 2) ^ 2 * u ^ 2)) ↔ q < ((t : ℚ) + 1 / 2) ^ 2 * u ^ 2 :=
      mul_lt_mul_iff_right₀ (by positivity)
    have c2 : ((2 ^ k) ^ 2 * (((t : ℚ) + 1 / 2) ^ 2 * u ^ 2) < (2 ^ k) ^ 2 * q) ↔ ((t : ℚ) + 1 / 2) ^ 2 * u ^ 2 < q :=
      mul_lt_mul_iff_right₀ (by positivity)
    simp only [c1, c2]
    split_ifs <;> ring

/-! ### The distance -/

/-- The square root is rounded to nearest, and its relative error is at most `2 ^ (-53)`. -/
theorem C99_sqrt {q : ℚ} (hq : 0 ≤ q) : IsFloat (flSqrt q) ∧ (∀ x : ℚ, IsFloat x → |(flSqrt q : ℝ) - √(q : ℝ)| ≤ |(x : ℝ) - √(q : ℝ)|) ∧
    |(flSqrt q : ℝ) - √(q : ℝ)| ≤ √(q : ℝ) / 2 ^ 53 := by
  refine ⟨flSqrt_isFloat q, fun x hx => flSqrt_nearest hq hx, ?_⟩
  rcases hq.eq_or_lt with rfl | hq
  · rw [flSqrt_zero]; simp
  obtain ⟨t, h, ht1, -, lo, hi, hcase⟩ := flSqrt_spec hq
  set u : ℚ := 2 ^ (h - 52)
  have hu : 0 < u := by positivity
  have sqrt_le' : ∀ {a : ℚ}, 0 ≤ a → a ^ 2 ≤ q → (a : ℝ) ≤ √(q : ℝ) := by
    intro a _ h'
    apply Real.le_sqrt_of_sq_le
    exact_mod_cast h'
  have le_sqrt' : ∀ {a : ℚ}, 0 ≤ a → q ≤ a ^ 2 → √(q : ℝ) ≤ (a : ℝ) := by
    intro a ha h'
    rw [Real.sqrt_le_left (by exact_mod_cast ha)]
    exact_mod_cast h'
  have s1 : ((t * u : ℚ) : ℝ) ≤ √(q : ℝ) := sqrt_le' (by positivity) (by rw [mul_pow]; exact lo)
  have s2 : √(q : ℝ) ≤ (((t + 1) * u : ℚ) : ℝ) := le_sqrt' (by positivity) (by rw [mul_pow]; exact hi.le)
  have hbig : (2 : ℝ) ^ 52 * (u : ℝ) ≤ √(q : ℝ) := by
    refine le_trans ?_ s1
    push_cast
    have : (2 : ℝ) ^ 52 ≤ (t : ℝ) := by exact_mod_cast ht1
    have : (0 : ℝ) < u := by exact_mod_cast hu
    gcongr
  have hhalf : (u : ℝ) / 2 ≤ √(q : ℝ) / 2 ^ 53 := by
    rw [le_div_iff₀ (by positivity)]
    calc (u : ℝ) / 2 * 2 ^ 53 = 2 ^ 52 * u := by ring
      _ ≤ _ := hbig
  refine le_trans ?_ hhalf
  push_cast at s1 s2
  rcases hcase with ⟨hm, e⟩ | ⟨hm, e⟩
  · have s3 : √(q : ℝ) ≤ (((t + 1 / 2) * u : ℚ) : ℝ) := le_sqrt' (by positivity) (by rw [mul_pow]; exact hm)
    rw [e, abs_le]
    push_cast at s3 ⊢
    constructor <;> linarith
  · have s3 : (((t + 1 / 2) * u : ℚ) : ℝ) ≤ √(q : ℝ) := sqrt_le' (by positivity) (by rw [mul_pow]; exact hm)
    rw [e, abs_le]
    push_cast at s3 ⊢
    constructor <;> linarith

/-- What is under the square root. -/
def flDistSq (x y : ℚ) : ℚ := max 0 (fl (fl (-2 * fl (x * y) + fl (x * x)) + fl (y * y)))

theorem flDist_eq (x y : ℚ) : flDist x y = flSqrt (flDistSq x y) := rfl

theorem flSqrt_nonneg (q : ℚ) : 0 ≤ flSqrt q := by
  by_cases hq : 0 < q
  · obtain ⟨t, h, -, -, -, -, ⟨-, e⟩ | ⟨-, e⟩⟩ := flSqrt_spec hq <;> rw [e] <;> positivity
  · unfold flSqrt
    rw [if_pos (not_lt.1 hq)]

/-- The computed distance is a float, not negative, and 0 from a vector to itself. -/
theorem C99_distance (x y : ℚ) : IsFloat (flDist x y) ∧ 0 ≤ flDist x y ∧ flDist x x = 0 := by
  refine ⟨flSqrt_isFloat _, flSqrt_nonneg _, ?_⟩
  have h1 : fl (-2 * fl (x * x) + fl (x * x)) = -fl (x * x) := by
    rw [show -2 * fl (x * x) + fl (x * x) = -fl (x * x) by ring, fl_neg, (fl_isFloat _).fl_eq]
  unfold flDist
  rw [h1, neg_add_cancel, fl_zero, max_self, flSqrt_zero]

/-- The square before the square root: all errors together. -/
theorem C99_square (x y : ℚ) : |flDistSq x y - (x - y) ^ 2| ≤ ((1 + 1 / 2 ^ 53) ^ 3 - 1) * (|x| + |y|) ^ 2 := by
  have hu : (0 : ℚ) ≤ 1 / 2 ^ 53 := by positivity
  have herr : ∀ q : ℚ, |fl q - q| ≤ 1 / 2 ^ 53 * |q| := fun q => by
    rw [one_div_mul_eq_div]; exact fl_err q
  set ε : ℚ := 1 / 2 ^ 53
  set M := (|x| + |y|) ^ 2 with hM
  have hMs : M = |x * x| + 2 * |x * y| + |y * y| := by rw [hM, abs_mul, abs_mul, abs_mul]; ring
  have p0 := abs_nonneg (x * y)
  have a0 := abs_nonneg (x * x)
  have b0 := abs_nonneg (y * y)
  have p1 := abs_le.1 (herr (x * y))
  have a1 := abs_le.1 (herr (x * x))
  have b1 := abs_le.1 (herr (y * y))
  have hM0 : 0 ≤ M := by rw [hMs]; positivity
  set p := fl (x * y)
  set a := fl (x * x)
  set b := fl (y * y)
  -- before the additions are rounded
  have e0 : |(-2 * p + a + b) - (x - y) ^ 2| ≤ ε * M := by
    rw [hMs, abs_le]
    constructor <;> nlinarith
  have hsq : (x - y) ^ 2 ≤ M := by
    rw [hMs, abs_of_nonneg (mul_self_nonneg x), abs_of_nonneg (mul_self_nonneg y)]
    have := neg_abs_le (x * y)
    nlinarith
  have hsq0 : 0 ≤ (x - y) ^ 2 := sq_nonneg _
  have habsxy : ∀ {z : ℚ}, |z| ≤ |z| := le_rfl
  have s1 : |-2 * p + a| ≤ (1 + ε) * M := by
    have hx1 := le_abs_self (x * y)
    have hx2 := neg_abs_le (x * y)
    have hxx : |x * x| = x * x := abs_of_nonneg (mul_self_nonneg x)
    rw [hMs, abs_le]
    constructor <;> nlinarith [mul_nonneg hu p0, mul_nonneg hu a0, mul_nonneg hu b0]
  have e1 := abs_le.1 ((herr (-2 * p + a)).trans (mul_le_mul_of_nonneg_left s1 hu))
  set s := fl (-2 * p + a)
  have e0' := abs_le.1 e0
  have s2 : |s + b| ≤ (1 + ε) ^ 2 * M := by
    rw [abs_le]
    constructor <;> nlinarith [mul_nonneg hu hM0, mul_nonneg (mul_nonneg hu hu) hM0]
  have e2 := abs_le.1 ((herr (s + b)).trans (mul_le_mul_of_nonneg_left s2 hu))
  have tot : |fl (s + b) - (x - y) ^ 2| ≤ ((1 + ε) ^ 3 - 1) * M := by
    rw [abs_le]
    constructor <;> nlinarith
  have tot' := abs_le.1 tot
  show |max 0 (fl (s + b)) - (x - y) ^ 2| ≤ _
  rcases max_cases (0 : ℚ) (fl (s + b)) with ⟨h, h'⟩ | ⟨h, h'⟩
  · rw [h, abs_le]
    constructor <;> linarith
  · rw [h]; exact tot

/-- The error of the distance is at most `2 ^ (-25)` of the size of the vectors. -/
theorem C99_error (x y : ℚ) : |(flDist x y : ℝ) - (|(x : ℝ) - y|)| ≤ (|(x : ℝ)| + |(y : ℝ)|) / 2 ^ 25 := by
  have hd0 : 0 ≤ flDistSq x y := le_max_left _ _
  set D := flDistSq x y with hD
  set S : ℝ := |(x : ℝ)| + |(y : ℝ)| with hS
  have hS0 : 0 ≤ S := by positivity
  have hD0 : (0 : ℝ) ≤ D := by exact_mod_cast hd0
  have h1 := (C99_sqrt hd0).2.2
  have h2 : |(D : ℝ) - ((x : ℝ) - y) ^ 2| ≤ ((1 + 1 / 2 ^ 53) ^ 3 - 1) * S ^ 2 := by
    have := C99_square x y
    rw [← hD] at this
    have this := (Rat.cast_le (K := ℝ)).2 this
    push_cast at this
    rw [hS]
    exact this
  have hc : ((1 + 1 / 2 ^ 53 : ℝ) ^ 3 - 1) ≤ (3 / 2 ^ 27) ^ 2 := by norm_num
  have hsq : ((x : ℝ) - y) ^ 2 ≤ S ^ 2 := by
    apply sq_le_sq'
    · rw [hS]; linarith [neg_abs_le (x : ℝ), le_abs_self (y : ℝ)]
    · rw [hS]; linarith [le_abs_self (x : ℝ), neg_abs_le (y : ℝ)]
  have h2' := abs_le.1 (h2.trans (mul_le_mul_of_nonneg_right hc (sq_nonneg S)))
  -- the two square roots differ by at most the root of the difference
  have hw : 0 ≤ 3 / 2 ^ 27 * S := by positivity
  have hroot : |√(D : ℝ) - (|(x : ℝ) - y|)| ≤ 3 / 2 ^ 27 * S := by
    have hr0 := Real.sqrt_nonneg (D : ℝ)
    have hr1 := Real.sq_sqrt hD0
    have ha0 := abs_nonneg ((x : ℝ) - y)
    have ha1 := sq_abs ((x : ℝ) - y)
    rw [abs_le]
    constructor
    · by_contra hlt
      have hlt := not_le.1 hlt
      nlinarith
    · by_contra hlt
      have hlt := not_le.1 hlt
      nlinarith
  have hDS : √(D : ℝ) ≤ 2 * S := by
    rw [Real.sqrt_le_left (by positivity)]
    nlinarith [sq_nonneg S]
  have h3 : |(flSqrt D : ℝ) - √(D : ℝ)| ≤ 2 * S / 2 ^ 53 := h1.trans (by gcongr)
  rw [flDist_eq, ← hD]
  calc |(flSqrt D : ℝ) - (|(x : ℝ) - y|)| ≤ |(flSqrt D : ℝ) - √(D : ℝ)| + |√(D : ℝ) - (|(x : ℝ) - y|)| := abs_sub_le _ _ _
    _ ≤ 2 * S / 2 ^ 53 + 3 / 2 ^ 27 * S := add_le_add h3 hroot
    _ ≤ S / 2 ^ 25 := by
      rw [le_div_iff₀ (by positivity)]
      nlinarith

/-- Multiplying both vectors by a power of two multiplies the computed distance, without any error. -/
theorem C99_scale (k : ℤ) (x y : ℚ) : flDist (2 ^ k * x) (2 ^ k * y) = 2 ^ k * flDist x y := by
  have hk : (0 : ℚ) ≤ (2 ^ k) ^ 2 := by positivity
  have e0 : ((2 : ℚ) ^ k) ^ 2 = 2 ^ (2 * k) := by
    rw [← zpow_natCast (2 ^ k) 2, ← zpow_mul]; congr 1; push_cast; ring
  have h : ∀ a b : ℚ, fl (2 ^ k * a * (2 ^ k * b)) = (2 ^ k) ^ 2 * fl (a * b) := fun a b => by
    rw [show 2 ^ k * a * (2 ^ k * b) = (2 ^ k) ^ 2 * (a * b) by ring, e0, fl_scale]
  have h' : ∀ a : ℚ, fl ((2 ^ k) ^ 2 * a) = (2 ^ k) ^ 2 * fl a := fun a => by rw [e0, fl_scale]
  unfold flDist
  rw [h, h, h, show -2 * ((2 ^ k) ^ 2 * fl (x * y)) + (2 ^ k) ^ 2 * fl (x * x) = (2 ^ k) ^ 2 * (-2 * fl (x * y) + fl (x * x)) by ring,
    h', ← mul_add, h', ← flSqrt_scale, mul_max_of_nonneg _ _ hk, mul_zero]

/-- So hierarchical clustering in floats gives the same groups after multiplying all vectors by a power of two, for each linkage. -/
theorem C99_scale_hierarchical {α : Type} [LinearOrder α] {m : Manager α} (hm : Reachable m) (k : ℤ) {o o' : HObject α ℚ}
    (ho : SameTree o o') {vs vs' : Dict α ℚ} (hv : MovedVectors (fun v => 2 ^ k * v) m vs vs') (nb : Option Int) :
    (o'.cluster flHierEnv m (some vs') nb).2 = (o.cluster flHierEnv m (some vs) nb).2 := by
  have hsum : ∀ (l : List ℚ) (s : ℚ), (l.map fun v => 2 ^ k * v).foldl (fun s x => fl (s + x)) (2 ^ k * s) =
      2 ^ k * l.foldl (fun s x => fl (s + x)) s := by
    intro l
    induction l with
    | nil => intro s; rfl
    | cons a l ih =>
      intro s
      rw [List.map_cons, List.foldl_cons, List.foldl_cons, ← mul_add, fl_scale, ih]
  have hsum0 : ∀ l : List ℚ, (l.map fun v => 2 ^ k * v).foldl (fun s x => fl (s + x)) 0 = 2 ^ k * l.foldl (fun s x => fl (s + x)) 0 := by
    intro l
    have := hsum l 0
    rwa [mul_zero] at this
  have he : MovedHier (fun v : ℚ => 2 ^ k * v) (fun d : ℚ => 2 ^ k * d) flHierEnv flHierEnv := by
    refine ⟨fun a b h => ?_, fun v w => C99_scale k v w, fun l _ => ?_, fun l i j => ?_⟩
    · have : (0 : ℚ) < 2 ^ k := by positivity
      show (2 : ℚ) ^ k * a < 2 ^ k * b
      gcongr
    · show flMean (l.map _) = 2 ^ k * flMean l
      unfold flMean
      rw [hsum0, List.length_map, mul_assoc, fl_scale]
    · show flWard (l.map _) i j = 2 ^ k * flWard l i j
      unfold flWard
      rw [hsum0, mul_div_assoc, fl_scale]
  exact (C90_hierarchical_moved hm he ho hv nb).1

/-! ### What is lost -/

/-- Vectors that are any power of two apart can have the computed distance 0. -/
theorem C99_zero (k : ℤ) : ∃ x y : ℚ, IsFloat x ∧ IsFloat y ∧ |x - y| = 2 ^ k ∧ flDist x y = 0 := by
  refine ⟨2 ^ k * 2 ^ 27, 2 ^ k * (2 ^ 27 + 1), ⟨2 ^ 27, k, by norm_num, by push_cast; ring⟩,
    ⟨2 ^ 27 + 1, k, by norm_num, by push_cast; ring⟩, ?_, ?_⟩
  · rw [← mul_sub, show (2 ^ 27 : ℚ) - (2 ^ 27 + 1) = -1 by ring, mul_neg_one, abs_neg, abs_of_pos (by positivity)]
  · rw [C99_scale]
    have : flDist (2 ^ 27) (2 ^ 27 + 1) = 0 := by decide +kernel
    rw [this, mul_zero]

/-- The computed distance is not symmetric: 0.3 and 0.6 are the floats nearest to these numbers. -/
theorem C99_not_symmetric : flDist (fl (3 / 10)) (fl (6 / 10)) ≠ flDist (fl (6 / 10)) (fl (3 / 10)) := by decide +kernel

/-- The triangle inequality can fail by a factor of any size: the sum of two computed distances is 0, the third one is not. -/
theorem C99_no_triangle : ∃ x y z : ℚ, IsFloat x ∧ IsFloat y ∧ IsFloat z ∧ flDist x y + flDist y z = 0 ∧ 2 ≤ flDist x z := by
  refine ⟨2 ^ 27 + 1, 2 ^ 27 + 3, 2 ^ 27 + 2, ⟨2 ^ 27 + 1, 0, by norm_num, by norm_num⟩, ⟨2 ^ 27 + 3, 0, by norm_num, by norm_num⟩,
    ⟨2 ^ 27 + 2, 0, by norm_num, by norm_num⟩, by decide +kernel, by decide +kernel⟩

/-- Moving all vectors can change the groups, although the moved vectors are exact: 0, 2 and 3 become 2^28, 2^28 + 2 and 2^28 + 3. -/
theorem C99_moved : ∃ (m : Manager Nat) (o : HObject Nat ℚ) (vs vs' : Dict Nat ℚ) (r r' : Dict Nat Int), Reachable m ∧
    MovedVectors (fun v => v + 2 ^ 28) m vs vs' ∧ vs = [(1, 0), (2, 2), (3, 3)] ∧
    (o.cluster flHierEnv m (some vs) (some 2)).2 = .ok r ∧ (o.cluster flHierEnv m (some vs') (some 2)).2 = .ok r' ∧
    dget? r 2 = dget? r 3 ∧ dget? r 1 ≠ dget? r 2 ∧ dget? r' 1 = dget? r' 2 ∧ dget? r' 2 ≠ dget? r' 3 := by
  refine ⟨Manager.init [1, 2, 3], ⟨.single, [], none, []⟩, _, [(1, 2 ^ 28), (2, 2 ^ 28 + 2), (3, 2 ^ 28 + 3)],
    [(1, 0), (2, 1), (3, 1)], [(1, 0), (2, 0), (3, 1)], ⟨_, [], rfl⟩, ?_, rfl, by decide +kernel, by decide +kernel,
    by decide +kernel, by decide +kernel, by decide +kernel, by decide +kernel⟩
  unfold MovedVectors
  decide +kernel

/-! ### Concrete cases -/

/-- The floats nearest to 0.1 and 0.4: the computed distance is 0.30000000000000004. -/
example : flDist (fl (1 / 10)) (fl (4 / 10)) = 1351079888211149 / 2 ^ 52 ∧ fl (3 / 10) = 5404319552844595 / 2 ^ 54 := by decide +kernel

example := C99_sqrt (q := 2) (by norm_num)

/- All vectors of the demo multiplied by 8. -/
example := C99_scale_hierarchical (m := Manager.init [1, 2, 3]) ⟨_, [], rfl⟩ 3 (o := ⟨.average, [], none, []⟩) (o' := ⟨.average, [], none, []⟩)
  ⟨rfl, rfl, rfl, rfl⟩ (vs := [(1, 0), (2, 2), (3, 3)]) (vs' := [(1, 0), (2, 16), (3, 24)]) (by unfold MovedVectors; decide +kernel) (some 2)

end Verif
