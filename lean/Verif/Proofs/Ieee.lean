import Verif.Spec.Ieee
import Verif.Proofs.FloatTfidf

/-
Rounding with the range of binary64.
-/

namespace Verif

set_option exponentiation.threshold 2000

theorem two_zpow_neg (n : Nat) : (2 : ℚ) ^ (-(n : ℤ)) = 1 / 2 ^ n := by
  rw [zpow_neg, zpow_natCast, one_div]

theorem grid_zpow {z k : ℤ} (hk : -1074 ≤ k) : Grid (z * 2 ^ k) := by
  obtain ⟨n, hn⟩ := Int.eq_ofNat_of_zero_le (show 0 ≤ k + 1074 by omega)
  refine ⟨z * 2 ^ n, ?_⟩
  have : k = (n : ℤ) + -((1074 : Nat) : ℤ) := by omega
  rw [this, zpow_add₀ (by norm_num), two_zpow_neg, zpow_natCast]
  push_cast
  ring

theorem Grid.zero : Grid 0 := ⟨0, by simp⟩

theorem Grid.add {a b : ℚ} (ha : Grid a) (hb : Grid b) : Grid (a + b) := by
  obtain ⟨x, rfl⟩ := ha
  obtain ⟨y, rfl⟩ := hb
  exact ⟨x + y, by push_cast; ring⟩

theorem Grid.neg {a : ℚ} (ha : Grid a) : Grid (-a) := by
  obtain ⟨x, rfl⟩ := ha
  exact ⟨-x, by push_cast; ring⟩

/-- A small multiple of the smallest number is a float. -/
theorem Grid.small {q : ℚ} (h : Grid q) (hq : |q| < 1 / 2 ^ 1022) : fl q = q := by
  obtain ⟨z, rfl⟩ := h
  have hz : |(z : ℚ)| < 2 ^ 52 := by
    rw [abs_div, abs_of_pos (show (0 : ℚ) < 2 ^ 1074 by positivity), div_lt_div_iff₀ (by positivity) (by positivity), one_mul] at hq
    have e : (2 : ℚ) ^ 1074 = 2 ^ 52 * 2 ^ 1022 := by rw [← pow_add]
    rw [e] at hq
    exact lt_of_mul_lt_mul_right hq (by positivity)
  have hz' : |z| ≤ 2 ^ 53 := by
    have : |z| < 2 ^ 52 := by exact_mod_cast hz
    omega
  have := fl_exact (m := z) (k := -((1074 : Nat) : ℤ)) hz'
  rw [two_zpow_neg, mul_one_div] at this
  exact this

theorem binExp_ge {q : ℚ} {k : ℤ} (h : (2 : ℚ) ^ k ≤ |q|) : k ≤ binExp q := by
  have hq : q ≠ 0 := by
    rintro rfl
    rw [abs_zero] at h
    exact absurd (show (0 : ℚ) < 2 ^ k by positivity) (not_lt.2 h)
  have := lt_of_le_of_lt h (binExp_spec hq).2
  have := (zpow_lt_zpow_iff_right₀ (by norm_num : (1 : ℚ) < 2)).1 this
  omega

theorem grid_fl {q : ℚ} (h : 1 / 2 ^ 1022 ≤ |q|) : Grid (fl q) := by
  have h1 : (-((1022 : Nat) : ℤ)) ≤ binExp q := binExp_ge (by rw [two_zpow_neg]; exact h)
  exact grid_zpow (by omega)

theorem Grid.fl {q : ℚ} (h : Grid q) : Grid (fl q) := by
  rcases lt_or_ge |q| (1 / 2 ^ 1022) with hq | hq
  · rw [h.small hq]
    exact h
  · exact grid_fl hq

theorem abs_fl_lt {q : ℚ} (h : |q| ≤ 2 ^ 1023) : |fl q| < 2 ^ 1024 := by
  have h1 := fl_err q
  have h2 := abs_sub_abs_le_abs_sub (fl q) q
  have h3 : |q| / 2 ^ 53 ≤ 2 ^ 1023 / 2 ^ 53 := div_le_div_of_nonneg_right h (by positivity)
  have h4 : (2 : ℚ) ^ 1023 / 2 ^ 53 < 2 ^ 1023 := div_lt_self (by positivity) (by norm_num)
  have e : (2 : ℚ) ^ 1024 = 2 * 2 ^ 1023 := by rw [← pow_succ']
  linarith

theorem rnd64_normal {q : ℚ} (h1 : 1 / 2 ^ 1022 ≤ |q|) (h2 : |q| ≤ 2 ^ 1023) : rnd64 q = some (fl q) := by
  unfold rnd64
  rw [if_neg (not_lt.2 h1)]
  exact if_pos (abs_fl_lt h2)

theorem rnd64_grid {q : ℚ} (h1 : Grid q) (h2 : |q| ≤ 2 ^ 1023) : rnd64 q = some (fl q) := by
  rcases lt_or_ge |q| (1 / 2 ^ 1022) with hq | hq
  · obtain ⟨z, hz⟩ := id h1
    have e : (roundEven (q * 2 ^ 1074) : ℚ) / 2 ^ 1074 = fl q := by
      rw [h1.small hq, hz, div_mul_cancel₀ _ (by positivity), roundEven_int]
    unfold rnd64
    rw [if_pos hq, e]
    exact if_pos (abs_fl_lt h2)
  · exact rnd64_normal hq h2

theorem rnd64_mid {q : ℚ} (h1 : q = 0 ∨ 1 / 2 ^ 1022 ≤ |q|) (h2 : |q| ≤ 2 ^ 1023) : rnd64 q = some (fl q) := by
  rcases h1 with rfl | h1
  · exact rnd64_grid Grid.zero h2
  · exact rnd64_normal h1 h2

theorem grid_mul {x y : ℚ} (hx : IsFloat x) (hy : IsFloat y) (h : x * y = 0 ∨ 1 / 2 ^ 900 ≤ |x * y|) : Grid (x * y) := by
  rcases h with h | h
  · rw [h]
    exact Grid.zero
  obtain ⟨m, i, hm, rfl⟩ := hx
  obtain ⟨n, j, hn, rfl⟩ := hy
  have e : (m * 2 ^ i * (n * 2 ^ j) : ℚ) = ((m * n : ℤ) : ℚ) * 2 ^ (i + j) := by
    rw [zpow_add₀ (by norm_num)]
    push_cast
    ring
  rw [e] at h ⊢
  apply grid_zpow
  have hmn : |((m * n : ℤ) : ℚ)| ≤ 2 ^ 106 := by
    have : |m * n| ≤ 2 ^ 106 := by
      rw [abs_mul]
      calc |m| * |n| ≤ 2 ^ 53 * 2 ^ 53 := mul_le_mul hm hn (abs_nonneg _) (by norm_num)
        _ = 2 ^ 106 := by norm_num
    exact_mod_cast this
  rw [abs_mul, abs_of_pos (show (0 : ℚ) < 2 ^ (i + j) by positivity)] at h
  have h2 : (2 : ℚ) ^ (-((900 : Nat) : ℤ)) ≤ 2 ^ (((106 : Nat) : ℤ) + (i + j)) := by
    rw [two_zpow_neg, zpow_add₀ (by norm_num), zpow_natCast]
    exact h.trans (mul_le_mul_of_nonneg_right hmn (by positivity))
  have := (zpow_le_zpow_iff_right₀ (by norm_num : (1 : ℚ) < 2)).1 h2
  push_cast at this
  omega

theorem isFloat_one : IsFloat 1 := ⟨1, 0, by norm_num, by simp⟩

theorem grid_float {x : ℚ} (hx : IsFloat x) (h : x = 0 ∨ 1 / 2 ^ 900 ≤ |x|) : Grid x := by
  have := grid_mul hx isFloat_one (by simpa using h)
  simpa using this

theorem isFloat_zero : IsFloat 0 := ⟨0, 0, by norm_num, by simp⟩

/-- `rnd64` gives the nearest number of binary64. -/
theorem rnd64_nearest {q r : ℚ} (h : rnd64 q = some r) : Is64 r ∧ ∀ x, Is64 x → |r - q| ≤ |x - q| := by
  have h' : (if |if |q| < 1 / 2 ^ 1022 then (roundEven (q * 2 ^ 1074) : ℚ) / 2 ^ 1074 else fl q| < 2 ^ 1024 then
    some (if |q| < 1 / 2 ^ 1022 then (roundEven (q * 2 ^ 1074) : ℚ) / 2 ^ 1074 else fl q) else none) = some r := h
  clear h
  rename' h' => h
  split_ifs at h with h1 h2 h2
  · obtain rfl := Option.some.inj h
    have hz : |(roundEven (q * 2 ^ 1074))| ≤ 2 ^ 52 := by
      have hb : |q * 2 ^ 1074| < 2 ^ 52 := by
        rw [abs_mul, abs_of_pos (show (0 : ℚ) < 2 ^ 1074 by positivity)]
        have e : (2 : ℚ) ^ 1074 = 2 ^ 52 * 2 ^ 1022 := by rw [← pow_add]
        rw [e]
        rw [lt_div_iff₀ (by positivity)] at h1
        nlinarith [show (0 : ℚ) < 2 ^ 52 by positivity]
      have e : ((2 ^ 52 : ℤ) : ℚ) = 2 ^ 52 := by norm_num
      have hb := abs_lt.1 hb
      rw [← e] at hb
      have a1 := roundEven_mono hb.1.le
      have a2 := roundEven_mono hb.2.le
      rw [← Int.cast_neg, roundEven_int] at a1
      rw [roundEven_int] at a2
      exact abs_le.2 ⟨a1, a2⟩
    refine ⟨⟨⟨_, -((1074 : Nat) : ℤ), hz.trans (by norm_num), by rw [two_zpow_neg, mul_one_div]⟩, ⟨_, rfl⟩, h2⟩, ?_⟩
    rintro x ⟨-, ⟨z, rfl⟩, -⟩
    have hp : (0 : ℚ) < 2 ^ 1074 := by positivity
    have e : ∀ t : ℤ, |(t : ℚ) / 2 ^ 1074 - q| = |(t : ℚ) - q * 2 ^ 1074| / 2 ^ 1074 := fun t => by
      rw [← abs_of_pos hp, ← abs_div, abs_of_pos hp]
      congr 1
      field_simp
    rw [e, e]
    exact div_le_div_of_nonneg_right (roundEven_nearest _ _) hp.le
  · obtain rfl := Option.some.inj h
    exact ⟨⟨fl_isFloat q, grid_fl (not_lt.1 h1), h2⟩, fun x hx => fl_nearest q hx.1⟩

/-! ### Sums of products -/

theorem pow_le_two {n : Nat} (h : n ≤ 2 ^ 52) : (1 + 1 / 2 ^ 53 : ℚ) ^ n ≤ 2 := by
  have h1 : (n : ℝ) ≤ 2 ^ 52 := by exact_mod_cast h
  have h2 := pow_le_linear (u := 1 / 2 ^ 53) (by positivity) n (by linarith)
  have h3 : (1 + 1 / 2 ^ 53 : ℝ) ^ n ≤ 2 := h2.trans (by linarith)
  have := (Rat.cast_le (K := ℝ) (p := (1 + 1 / 2 ^ 53 : ℚ) ^ n) (q := 2)).1 (by push_cast; exact h3)
  exact this

/-- The pairs of entries that can be multiplied and added. -/
def Pairs64 (l : List (ℚ × ℚ)) : Prop := (∀ p ∈ l, Entry64 450 p.1 ∧ Entry64 450 p.2) ∧ l.length ≤ 2 ^ 52

theorem Entry64.mul {x y : ℚ} (hx : Entry64 450 x) (hy : Entry64 450 y) :
    Grid (x * y) ∧ (x * y = 0 ∨ 1 / 2 ^ 900 ≤ |x * y|) ∧ |x * y| ≤ 2 ^ 900 := by
  have e : (2 : ℚ) ^ 900 = 2 ^ 450 * 2 ^ 450 := by rw [← pow_add]
  have h : x * y = 0 ∨ 1 / 2 ^ 900 ≤ |x * y| := by
    rcases hx.2.1 with h | h
    · exact .inl (by rw [h, zero_mul])
    rcases hy.2.1 with h' | h'
    · exact .inl (by rw [h', mul_zero])
    right
    rw [abs_mul, e, ← one_div_mul_one_div]
    exact mul_le_mul h h' (by positivity) (abs_nonneg _)
  refine ⟨grid_mul hx.1 hy.1 h, h, ?_⟩
  rw [abs_mul, e]
  exact mul_le_mul hx.2.2 hy.2.2 (abs_nonneg _) (by positivity)

theorem Pairs64.bound {l : List (ℚ × ℚ)} (h : Pairs64 l) {s : ℚ} (hs : FlDot l s) : |s| ≤ 2 ^ 953 := by
  have h1 := (flDot_err hs).2.2
  have h2 := abs_dotOf l
  have h3 := pow_le_two h.2
  have h4 := absDot_nonneg l
  have h5 : absDot l ≤ 2 ^ 52 * 2 ^ 900 := by
    have : absDot l ≤ l.length * 2 ^ 900 := by
      have hl := h.1
      clear h hs h1 h2 h3 h4
      induction l with
      | nil => simp [absDot]
      | cons p l ih =>
        have e : absDot (p :: l) = |p.1 * p.2| + absDot l := by simp [absDot]
        have := ih fun q hq => hl q (by simp [hq])
        have h6 := ((hl p (by simp)).1.mul (hl p (by simp)).2).2.2
        rw [e, List.length_cons]
        push_cast
        linarith
    refine this.trans (mul_le_mul_of_nonneg_right ?_ (by positivity))
    exact_mod_cast h.2
  have h6 : |s| ≤ |s - dotOf l| + |dotOf l| := by
    have := abs_add_le (s - dotOf l) (dotOf l)
    rwa [sub_add_cancel] at this
  have h7 : ((1 + 1 / 2 ^ 53 : ℚ) ^ l.length - 1) * absDot l ≤ 1 * absDot l := mul_le_mul_of_nonneg_right (by linarith) h4
  have e : (2 : ℚ) ^ 953 = 2 * (2 ^ 52 * 2 ^ 900) := by rw [← pow_add, ← pow_succ']
  linarith

theorem Pairs64.perm {l t : List (ℚ × ℚ)} (h : Pairs64 t) (hs : l.Subperm t) : Pairs64 l :=
  ⟨fun p hp => h.1 p (hs.subset hp), hs.length_le.trans h.2⟩

theorem pow_le_1023 {n : Nat} (h : n ≤ 1023) : (2 : ℚ) ^ n ≤ 2 ^ 1023 := pow_le_pow_right₀ (by norm_num) h

/-- Sums of products in the range are those with unbounded exponents. -/
theorem flDot64_eq {l : List (ℚ × ℚ)} {o : Option ℚ} (h : FlDot64 l o) : Pairs64 l → ∃ s, o = some s ∧ FlDot l s ∧ Grid s := by
  induction h with
  | nil => exact fun _ => ⟨0, rfl, .nil, Grid.zero⟩
  | prod x y =>
    intro hl
    obtain ⟨h1, -, h3⟩ := (hl.1 (x, y) (by simp)).1.mul (hl.1 (x, y) (by simp)).2
    exact ⟨_, rnd64_grid h1 (h3.trans (pow_le_1023 (by norm_num))), .prod x y, h1.fl⟩
  | @add l r t a b _ _ ht ih1 ih2 =>
    intro hl
    obtain ⟨s, rfl, h1, g1⟩ := ih1 (hl.perm ((List.sublist_append_left l r).subperm.trans ht.symm.subperm))
    obtain ⟨s', rfl, h2, g2⟩ := ih2 (hl.perm ((List.sublist_append_right l r).subperm.trans ht.symm.subperm))
    have b1 := (hl.perm ((List.sublist_append_left l r).subperm.trans ht.symm.subperm)).bound h1
    have b2 := (hl.perm ((List.sublist_append_right l r).subperm.trans ht.symm.subperm)).bound h2
    have hb : |s + s'| ≤ 2 ^ 1023 := by
      have := abs_add_le s s'
      have e : (2 : ℚ) ^ 954 = 2 * 2 ^ 953 := by rw [← pow_succ']
      have := pow_le_1023 (n := 954) (by norm_num)
      linarith
    exact ⟨_, rnd64_grid (g1.add g2) hb, .add h1 h2 ht, (g1.add g2).fl⟩
  | @fma l t a x y _ ht ih =>
    intro hl
    have hl' := hl.perm ((List.sublist_cons_self (x, y) l).subperm.trans ht.symm.subperm)
    obtain ⟨s, rfl, h1, g1⟩ := ih hl'
    have b1 := hl'.bound h1
    have hm : (x, y) ∈ t := ht.symm.subset (by simp)
    obtain ⟨g2, -, h3⟩ := (hl.1 (x, y) hm).1.mul (hl.1 (x, y) hm).2
    have hb : |s + x * y| ≤ 2 ^ 1023 := by
      have := abs_add_le s (x * y)
      have e : (2 : ℚ) ^ 954 = 2 * 2 ^ 953 := by rw [← pow_succ']
      have := pow_le_1023 (n := 954) (by norm_num)
      have : (2 : ℚ) ^ 900 ≤ 2 ^ 953 := pow_le_pow_right₀ (by norm_num) (by norm_num)
      dsimp only at h3
      linarith
    exact ⟨_, rnd64_grid (g1.add g2) hb, .fma h1 ht, (g1.add g2).fl⟩

theorem pairs64_entries {D : Nat} (hD : D ≤ 2 ^ 52) {x y : Fin D → ℚ} (hx : ∀ i, Entry64 450 (x i)) (hy : ∀ i, Entry64 450 (y i)) :
    Pairs64 (entries x y) := by
  refine ⟨fun p hp => ?_, by rw [length_entries]; exact hD⟩
  obtain ⟨i, rfl⟩ := (List.mem_ofFn).1 hp
  exact ⟨hx i, hy i⟩

theorem fl_bound {q b : ℚ} (h : |q| ≤ b) : |fl q| ≤ 2 * b := by
  have h1 := fl_err q
  have h2 := abs_sub_abs_le_abs_sub (fl q) q
  have h3 : |q| / 2 ^ 53 ≤ |q| := div_le_self (abs_nonneg q) (by norm_num)
  linarith

/-- Distances in the range are those with unbounded exponents. -/
theorem flEuclid64_low {D : Nat} (hD : D ≤ 2 ^ 52) {x y : Fin D → ℚ} (hx : ∀ i, Entry64 450 (x i)) (hy : ∀ i, Entry64 450 (y i))
    {o : Option ℚ} (h : FlEuclid64 x y o) :
    ∃ s, o = some s ∧ FlEuclid x y s ∧ 0 ≤ s ∧ (IsFloat s ∧ (s = 0 ∨ 1 / 2 ^ 900 ≤ |s|)) ∧ s ≤ 2 ^ 900 := by
  rcases h with ⟨rfl, rfl⟩ | ⟨p, a, b, hp, ha, hb, rfl⟩
  · exact ⟨0, rfl, .inl ⟨rfl, rfl⟩, le_rfl, ⟨isFloat_zero, .inl rfl⟩, by positivity⟩
  obtain ⟨p, rfl, h1, g1⟩ := flDot64_eq hp (pairs64_entries hD hx hy)
  obtain ⟨a, rfl, h2, g2⟩ := flDot64_eq ha (pairs64_entries hD hx hx)
  obtain ⟨b, rfl, h3, g3⟩ := flDot64_eq hb (pairs64_entries hD hy hy)
  have b1 := (pairs64_entries hD hx hy).bound h1
  have b2 := (pairs64_entries hD hx hx).bound h2
  have b3 := (pairs64_entries hD hy hy).bound h3
  have p2 : ∀ {k l : Nat}, k ≤ l → (2 : ℚ) ^ k ≤ 2 ^ l := fun h => pow_le_pow_right₀ (by norm_num) h
  have ps : ∀ k : Nat, (2 : ℚ) ^ (k + 1) = 2 * 2 ^ k := fun k => pow_succ' _ _
  have e0 : fl (-2 * p) = -2 * p := by
    have hf := (flDot_err h1).1
    obtain ⟨m, k, hm, rfl⟩ := hf
    have e : (-2 * (m * 2 ^ k) : ℚ) = ((-m : ℤ) : ℚ) * 2 ^ (k + 1) := by
      rw [zpow_add_one₀ (by norm_num)]
      push_cast
      ring
    rw [e]
    exact fl_exact (by rwa [abs_neg])
  have g0 : Grid (-2 * p) := by
    have := (g1.add g1).neg
    rwa [show -(p + p) = -2 * p by ring] at this
  have c0 : |-2 * p| ≤ 2 ^ 954 := by
    rw [abs_mul, ps 953, show |(-2 : ℚ)| = 2 by norm_num]
    exact mul_le_mul_of_nonneg_left b1 (by norm_num)
  have r0 : rnd64 (-2 * p) = some (-2 * p) := by rw [rnd64_grid g0 (c0.trans (p2 (by norm_num))), e0]
  have c1 : |-2 * p + a| ≤ 2 ^ 955 := by
    have := abs_add_le (-2 * p) a
    have := ps 954
    have := p2 (k := 953) (l := 954) (by norm_num)
    linarith
  have r1 := rnd64_grid (g0.add g2) (c1.trans (p2 (by norm_num)))
  have d1 := fl_bound c1
  have c2 : |fl (-2 * p + a) + b| ≤ 2 ^ 957 := by
    have := abs_add_le (fl (-2 * p + a)) b
    have := ps 955
    have := ps 956
    have := p2 (k := 953) (l := 956) (by norm_num)
    linarith
  have r2 := rnd64_grid ((g0.add g2).fl.add g3) (c2.trans (p2 (by norm_num)))
  have d2 := fl_bound c2
  refine ⟨flSqrt (max 0 (fl (fl (-2 * p + a) + b))), ?_, .inr ⟨p, a, b, h1, h2, h3, rfl⟩, ?_⟩
  · show (rnd64 (-2 * p) >>= fun u => rnd64 (u + a) >>= fun u => rnd64 (u + b) >>= fun u => some (flSqrt (max 0 u))) = _
    rw [r0, Option.bind_eq_bind, Option.bind_some, r1, Option.bind_some, r2]
    rfl
  have gu := ((g0.add g2).fl.add g3).fl
  generalize fl (fl (-2 * p + a) + b) = u at d2 gu
  rcases le_or_gt u 0 with hu | hu
  · rw [max_eq_left hu, flSqrt_zero]
    exact ⟨le_rfl, ⟨isFloat_zero, .inl rfl⟩, by positivity⟩
  rw [max_eq_right hu.le]
  have hn := flSqrt_nearBy hu.le
  have h0 : (0 : ℝ) ≤ flSqrt u := hn.2.1
  have hk : (1 + 1 / 2 ^ 52 : ℝ) ^ 1 ≤ 2 := by norm_num
  refine ⟨by exact_mod_cast h0, ?_, ?_⟩
  · refine ⟨flSqrt_isFloat u, .inr ?_⟩
    have h1 : (1 / 2 ^ 1074 : ℚ) ≤ u := by
      obtain ⟨z, rfl⟩ := gu
      have hz : 0 < z := by
        by_contra hz
        have : (z : ℚ) ≤ 0 := by exact_mod_cast not_lt.1 hz
        exact absurd (div_nonpos_of_nonpos_of_nonneg this (by positivity)) (not_le.2 hu)
      have : (1 : ℚ) ≤ z := by exact_mod_cast hz
      exact div_le_div_of_nonneg_right this (by positivity)
    have h2 : (1 / 2 ^ 537 : ℝ) ≤ √(u : ℝ) := by
      apply Real.le_sqrt_of_sq_le
      have : ((1 / 2 ^ 1074 : ℚ) : ℝ) ≤ u := (Rat.cast_le (K := ℝ)).2 h1
      push_cast at this
      rw [div_pow, one_pow, ← pow_mul]
      exact this
    have h3 : (1 / 2 ^ 538 : ℝ) ≤ flSqrt u := by
      have h4 := hn.2.2.1
      have h5 : (flSqrt u : ℝ) * (1 + 1 / 2 ^ 52) ^ 1 ≤ flSqrt u * 2 := mul_le_mul_of_nonneg_left hk h0
      have e : (1 / 2 ^ 537 : ℝ) = 1 / 2 ^ 538 * 2 := by
        rw [show (2 : ℝ) ^ 538 = 2 ^ 537 * 2 from pow_succ _ _]
        field_simp
      rw [e] at h2
      linarith
    have h6 : (1 / 2 ^ 538 : ℚ) ≤ flSqrt u := by
      apply (Rat.cast_le (K := ℝ)).1
      push_cast
      exact h3
    have h7 : (1 / 2 ^ 900 : ℚ) ≤ 1 / 2 ^ 538 := one_div_le_one_div_of_le (by positivity) (p2 (by norm_num))
    exact (h7.trans h6).trans (le_abs_self _)
  · have h1 : (u : ℝ) ≤ 2 ^ 958 := by
      have : u ≤ 2 ^ 958 := by
        have := le_abs_self u
        have := ps 957
        linarith
      have := (Rat.cast_le (K := ℝ)).2 this
      push_cast at this
      exact this
    have h2 : √(u : ℝ) ≤ 2 ^ 479 := by
      rw [Real.sqrt_le_left (by positivity), ← pow_mul]
      exact h1
    have h3 : (flSqrt u : ℝ) ≤ 2 ^ 900 := by
      have h4 := hn.2.2.2
      have h5 : √(u : ℝ) * (1 + 1 / 2 ^ 52) ^ 1 ≤ √(u : ℝ) * 2 := mul_le_mul_of_nonneg_left hk (Real.sqrt_nonneg _)
      have h6 : (2 : ℝ) ^ 480 = 2 ^ 479 * 2 := pow_succ _ _
      have h7 : (2 : ℝ) ^ 480 ≤ 2 ^ 900 := pow_le_pow_right₀ (by norm_num) (by norm_num)
      linarith
    apply (Rat.cast_le (K := ℝ)).1
    push_cast
    exact h3

theorem flEuclid64_eq {D : Nat} (hD : D ≤ 2 ^ 52) {x y : Fin D → ℚ} (hx : ∀ i, Entry64 450 (x i)) (hy : ∀ i, Entry64 450 (y i))
    {o : Option ℚ} (h : FlEuclid64 x y o) : ∃ s, o = some s ∧ FlEuclid x y s ∧ 0 ≤ s ∧ Grid s ∧ s ≤ 2 ^ 900 := by
  obtain ⟨s, h1, h2, h3, h4, h5⟩ := flEuclid64_low hD hx hy h
  exact ⟨s, h1, h2, h3, grid_float h4.1 h4.2, h5⟩

/-! ### Sums and means -/

theorem base_le_two {k : Nat} (h : k ≤ 2 ^ 50) : (1 + 1 / 2 ^ 52 : ℝ) ^ k ≤ 2 := by
  have h1 : (k : ℝ) ≤ 2 ^ 50 := by exact_mod_cast h
  exact (pow_le_linear (u := 1 / 2 ^ 52) (by positivity) k (by linarith)).trans (by linarith)

theorem NearBy.half {k : Nat} {a b : ℝ} (h : NearBy k a b) (hk : k ≤ 2 ^ 50) : a ≤ 2 * b ∧ b ≤ 2 * a := by
  have h1 := base_le_two hk
  have h2 := mul_le_mul_of_nonneg_left h1 h.2.1
  have h3 := mul_le_mul_of_nonneg_left h1 h.1
  exact ⟨by linarith [h.2.2.1], by linarith [h.2.2.2]⟩

theorem fl_half (q : ℚ) : |q| ≤ 2 * |fl q| ∧ |fl q| ≤ 2 * |q| := by
  refine ⟨?_, fl_bound le_rfl⟩
  have h1 := fl_err q
  have h2 := abs_sub_abs_le_abs_sub q (fl q)
  rw [abs_sub_comm] at h2
  have h3 : |q| / 2 ^ 53 ≤ |q| / 2 := div_le_div_of_nonneg_left (abs_nonneg q) (by norm_num) (by norm_num)
  linarith

theorem sum_le_of_le {l : List ℚ} {b : ℚ} (h : ∀ x ∈ l, x ≤ b) : l.sum ≤ l.length * b := by
  have := List.sum_le_card_nsmul l b h
  rwa [nsmul_eq_mul] at this

theorem flSum64_eq {l : List ℚ} (h : ∀ x ∈ l, 0 ≤ x ∧ Grid x ∧ x ≤ 2 ^ 900) (hl : l.length ≤ 2 ^ 50) :
    flSum64 l = some (flSum l) ∧ Grid (flSum l) ∧ 0 ≤ flSum l ∧ flSum l ≤ 2 ^ 951 := by
  have hb : ∀ l : List ℚ, (∀ x ∈ l, 0 ≤ x ∧ Grid x ∧ x ≤ 2 ^ 900) → l.length ≤ 2 ^ 50 → 0 ≤ flSum l ∧ flSum l ≤ 2 ^ 951 := by
    intro l h hl
    have hn := flSum_nearBy fun x hx => (h x hx).1
    refine ⟨by exact_mod_cast hn.2.1, ?_⟩
    have h1 : flSum l ≤ 2 * l.sum := by exact_mod_cast (hn.half hl).2
    have h2 := sum_le_of_le fun x hx => (h x hx).2.2
    have h3 : (l.length : ℚ) * 2 ^ 900 ≤ 2 ^ 50 * 2 ^ 900 := mul_le_mul_of_nonneg_right (by exact_mod_cast hl) (by positivity)
    have e : (2 : ℚ) ^ 951 = 2 * (2 ^ 50 * 2 ^ 900) := by rw [← pow_add, ← pow_succ']
    linarith
  refine ⟨?_, ?_, (hb l h hl).1, (hb l h hl).2⟩
  all_goals
    suffices flSum64 l = some (flSum l) ∧ Grid (flSum l) by tauto
    induction l using List.reverseRecOn with
    | nil => exact ⟨rfl, Grid.zero⟩
    | append_singleton l x ih =>
      have h' : ∀ x ∈ l, 0 ≤ x ∧ Grid x ∧ x ≤ 2 ^ 900 := fun y hy => h y (by simp [hy])
      have hl' : l.length ≤ 2 ^ 50 := by
        rw [List.length_append] at hl
        omega
      obtain ⟨ih1, ih2⟩ := ih h' hl'
      have hx := h x (by simp)
      have e : flSum (l ++ [x]) = fl (flSum l + x) := by simp [flSum]
      have e' : flSum64 (l ++ [x]) = (flSum64 l).bind fun s => rnd64 (s + x) := by
        unfold flSum64
        rw [List.foldlM_append]
        simp
      have hb' := hb l h' hl'
      rw [e, e', ih1, Option.bind_some]
      refine ⟨rnd64_grid (ih2.add hx.2.1) ?_, (ih2.add hx.2.1).fl⟩
      rw [abs_of_nonneg (add_nonneg hb'.1 hx.1)]
      have p1 : (2 : ℚ) ^ 900 ≤ 2 ^ 951 := pow_le_pow_right₀ (by norm_num) (by norm_num)
      have p2 : (2 : ℚ) ^ 952 ≤ 2 ^ 1023 := pow_le_pow_right₀ (by norm_num) (by norm_num)
      have p3 : (2 : ℚ) ^ 952 = 2 * 2 ^ 951 := by rw [← pow_succ']
      linarith

theorem Entry64.mono {t t' : Nat} {x : ℚ} (h : Entry64 t x) (ht : t ≤ t') : Entry64 t' x := by
  have p : (2 : ℚ) ^ t ≤ 2 ^ t' := pow_le_pow_right₀ (by norm_num) ht
  refine ⟨h.1, h.2.1.imp_right fun h1 => le_trans ?_ h1, h.2.2.trans p⟩
  exact one_div_le_one_div_of_le (by positivity) p

theorem Entry64.grid {t : Nat} {x : ℚ} (h : Entry64 t x) (ht : t ≤ 900) : Grid x := grid_float h.1 (h.mono ht).2.1

theorem entry64_zero (t : Nat) : Entry64 t 0 := ⟨isFloat_zero, .inl rfl, by rw [abs_zero]; positivity⟩

/-- Means of entries. -/
theorem flMean64_eq {l : List ℚ} (h : ∀ x ∈ l, 0 ≤ x ∧ Entry64 200 x) (hne : l ≠ []) (hl : l.length ≤ 2 ^ 50) :
    flMean64 l = some (flMean l) ∧ Entry64 450 (flMean l) := by
  have p2 : ∀ {k l : Nat}, k ≤ l → (2 : ℚ) ^ k ≤ 2 ^ l := fun h => pow_le_pow_right₀ (by norm_num) h
  have hle : ∀ x ∈ l, x ≤ 2 ^ 200 := fun x hx => (le_abs_self x).trans (h x hx).2.2.2
  obtain ⟨h1, h2, h3, -⟩ := flSum64_eq (l := l) (fun x hx => ⟨(h x hx).1, (h x hx).2.grid (by norm_num), (hle x hx).trans (p2 (by norm_num))⟩) hl
  have hn := flSum_nearBy fun x hx => (h x hx).1
  have u1 : flSum l ≤ 2 * l.sum := by exact_mod_cast (hn.half hl).2
  have u2 : l.sum ≤ 2 * flSum l := by exact_mod_cast (hn.half hl).1
  have u3 := sum_le_of_le hle
  have hpos : (1 : ℚ) ≤ l.length := by exact_mod_cast List.length_pos_iff.2 hne
  have hlen : (l.length : ℚ) ≤ 2 ^ 50 := by exact_mod_cast hl
  have u4 : flSum l ≤ 2 ^ 251 := by
    have h3 : (l.length : ℚ) * 2 ^ 200 ≤ 2 ^ 50 * 2 ^ 200 := mul_le_mul_of_nonneg_right hlen (by positivity)
    have e : (2 : ℚ) ^ 251 = 2 * (2 ^ 50 * 2 ^ 200) := by rw [← pow_add, ← pow_succ']
    linarith
  have u5 : flSum l = 0 ∨ 1 / 2 ^ 201 ≤ flSum l := by
    by_cases hz : ∀ x ∈ l, x = 0
    · left
      have : l.sum = 0 := List.sum_eq_zero hz
      linarith
    · right
      push Not at hz
      obtain ⟨x, hx, hx0⟩ := hz
      have a1 : x ≤ l.sum := List.single_le_sum (fun y hy => (h y hy).1) x hx
      have a2 := (h x hx).2.2.1.resolve_left hx0
      rw [abs_of_nonneg (h x hx).1] at a2
      have e : (1 / 2 ^ 201 : ℚ) * 2 = 1 / 2 ^ 200 := by norm_num
      linarith
  have i1 : (1 : ℚ) / 2 ^ 50 ≤ 1 / l.length := one_div_le_one_div_of_le (by linarith) hlen
  have i2 : (1 : ℚ) / l.length ≤ 1 := by
    rw [div_le_one (by linarith)]
    exact hpos
  have i0 : (0 : ℚ) ≤ 1 / l.length := le_trans (by positivity) i1
  have r1 : rnd64 (1 / l.length) = some (fl (1 / l.length)) := by
    apply rnd64_normal
    · rw [abs_of_nonneg i0]
      exact (one_div_le_one_div_of_le (by positivity) (p2 (by norm_num))).trans i1
    · rw [abs_of_nonneg i0]
      exact i2.trans (one_le_pow₀ (by norm_num))
  have f0 : 0 ≤ fl (1 / (l.length : ℚ)) := by
    rcases i0.eq_or_lt with h | h
    · rw [← h, fl_zero]
    · exact (fl_pos h).le
  obtain ⟨f1, f2⟩ := fl_half (1 / l.length)
  rw [abs_of_nonneg i0, abs_of_nonneg f0] at f1 f2
  have f1 : (1 : ℚ) / 2 ^ 51 ≤ fl (1 / l.length) := by
    have e : (1 / 2 ^ 51 : ℚ) * 2 = 1 / 2 ^ 50 := by norm_num
    linarith
  have f2 : fl (1 / (l.length : ℚ)) ≤ 2 := by linarith
  have hm : flMean l = fl (flSum l * fl (1 / l.length)) := rfl
  have hm64 : flMean64 l = rnd64 (flSum l * fl (1 / l.length)) := by
    unfold flMean64
    rw [h1, r1]
    rfl
  generalize fl (1 / (l.length : ℚ)) = i at *
  generalize flSum l = S at *
  have m0 : 0 ≤ S * i := mul_nonneg h3 f0
  have m1 : S * i = 0 ∨ 1 / 2 ^ 252 ≤ |S * i| := by
    rcases u5 with h | h
    · left
      rw [h, zero_mul]
    · right
      rw [abs_of_nonneg m0]
      have e : (1 / 2 ^ 252 : ℚ) = 1 / 2 ^ 201 * (1 / 2 ^ 51) := by norm_num
      rw [e]
      exact mul_le_mul h f1 (by positivity) h3
  have m2 : |S * i| ≤ 2 ^ 252 := by
    rw [abs_of_nonneg m0, show (2 : ℚ) ^ 252 = 2 ^ 251 * 2 from pow_succ _ _]
    exact mul_le_mul u4 f2 f0 (by positivity)
  rw [hm64, hm]
  refine ⟨rnd64_mid (m1.imp_right fun h => le_trans ?_ h) (m2.trans (p2 (by norm_num))), fl_isFloat _, ?_, ?_⟩
  · exact one_div_le_one_div_of_le (by positivity) (p2 (by norm_num))
  · rcases m1 with h | h
    · left
      rw [h, fl_zero]
    · right
      have := (fl_half (S * i)).1
      have e : (1 / 2 ^ 253 : ℚ) * 2 = 1 / 2 ^ 252 := by norm_num
      exact (one_div_le_one_div_of_le (by positivity) (p2 (by norm_num))).trans (show (1 / 2 ^ 253 : ℚ) ≤ |fl (S * i)| by linarith)
  · have := (fl_half (S * i)).2
    have e : (2 : ℚ) ^ 253 = 2 * 2 ^ 252 := by rw [← pow_succ']
    exact (show |fl (S * i)| ≤ 2 ^ 253 by linarith).trans (p2 (by norm_num))

/-! ### TF-IDF -/

open Classical in
/-- The computation with unbounded exponents that gives the same results in the range. -/
noncomputable def FlCalc64.wide (c : FlCalc64) : FlCalc where
  log := c.log
  dot l := if h : ∃ s, c.dot l = some s ∧ FlDot l s then h.choose else dotSeq l

open Classical in
theorem FlCalc64.wide_ok {c : FlCalc64} (hc : c.Ok) : c.wide.Ok := by
  refine ⟨hc.log, fun l => ?_⟩
  show FlDot l (if h : ∃ s, c.dot l = some s ∧ FlDot l s then h.choose else dotSeq l)
  split_ifs with h
  · exact h.choose_spec.2
  · exact dotSeq_spec l

theorem FlCalc64.wide_dot {c : FlCalc64} (hc : c.Ok) {l : List (ℚ × ℚ)} (hl : Pairs64 l) : c.dot l = some (c.wide.dot l) := by
  obtain ⟨s, h1, h2, -⟩ := flDot64_eq (hc.dot l) hl
  have h : ∃ s, c.dot l = some s ∧ FlDot l s := ⟨s, h1, h2⟩
  have e : c.wide.dot l = h.choose := dif_pos h
  rw [e]
  exact h.choose_spec.1

theorem one_le_idf {n df : Nat} (h : df ≤ n) : 1 ≤ idf n df ∧ idf n df ≤ n + 2 := by
  have h0 : (0 : ℝ) < 1 + df := by positivity
  have h1 : (1 : ℝ) ≤ (1 + n) / (1 + df) := by
    rw [le_div_iff₀ h0]
    have : (df : ℝ) ≤ n := by exact_mod_cast h
    linarith
  have h2 : (1 + n : ℝ) / (1 + df) ≤ 1 + n := div_le_self (by positivity) (by have : (0 : ℝ) ≤ df := by positivity
                                                                              linarith)
  have h3 := Real.log_nonneg h1
  have h4 := Real.log_le_sub_one_of_pos (lt_of_lt_of_le one_pos h1)
  unfold idf
  constructor <;> linarith

variable {c : FlCalc64}

theorem flIdf_bounds (hc : c.Ok) {n df : Nat} (h : df ≤ n) (hn : n ≤ 2 ^ 40) :
    1 / 2 ≤ flIdf c.wide n df ∧ flIdf c.wide n df ≤ 2 ^ 42 := by
  obtain ⟨h1, h2⟩ := one_le_idf h
  obtain ⟨h3, h4⟩ := (flIdf_nearBy (FlCalc64.wide_ok hc) h).half (by norm_num)
  have hn' : (n : ℝ) ≤ 2 ^ 40 := by exact_mod_cast hn
  constructor
  · apply (Rat.cast_le (K := ℝ)).1
    push_cast
    linarith
  · apply (Rat.cast_le (K := ℝ)).1
    push_cast
    linarith

theorem rnd64_range {q : ℚ} {t : Nat} (ht : t ≤ 1000) (h1 : q = 0 ∨ 1 / 2 ^ t ≤ |q|) (h2 : |q| ≤ 2 ^ t) : rnd64 q = some (fl q) := by
  refine rnd64_mid (h1.imp_right fun h => le_trans ?_ h) (h2.trans (pow_le_1023 (by omega)))
  exact one_div_le_one_div_of_le (by positivity) (pow_le_pow_right₀ (by norm_num) (by omega))

theorem entry64_fl {q : ℚ} {t : Nat} (h1 : q = 0 ∨ 1 / 2 ^ t ≤ |q|) (h2 : |q| ≤ 2 ^ t) : Entry64 (t + 1) (fl q) := by
  obtain ⟨a, b⟩ := fl_half q
  refine ⟨fl_isFloat q, ?_, ?_⟩
  · rcases h1 with h | h
    · left
      rw [h, fl_zero]
    · right
      rw [pow_succ, ← one_div_mul_one_div]
      linarith
  · rw [pow_succ]
    linarith

theorem flIdf64_eq (hc : c.Ok) {n df : Nat} (h : df ≤ n) (hn : n ≤ 2 ^ 40) : flIdf64 c n df = some (flIdf c.wide n df) := by
  have hn' : (n : ℚ) ≤ 2 ^ 40 := by exact_mod_cast hn
  have hd' : (df : ℚ) ≤ 2 ^ 40 := by exact_mod_cast h.trans hn
  have n0 : (0 : ℚ) ≤ n := by positivity
  have d0 : (0 : ℚ) ≤ df := by positivity
  have nn : ∀ {q : ℚ}, 0 ≤ q → 0 ≤ fl q := fun {q} hq => by
    rcases hq.eq_or_lt with h | h
    · rw [← h, fl_zero]
    · exact (fl_pos h).le
  have hf : ∀ {q : ℚ}, 0 ≤ q → q ≤ 2 * fl q ∧ fl q ≤ 2 * q := fun {q} hq => by
    have := fl_half q
    rwa [abs_of_nonneg hq, abs_of_nonneg (nn hq)] at this
  have r1 : rnd64 (1 + n) = some (fl (1 + n)) := rnd64_range (t := 50) (by norm_num)
    (.inr (by rw [abs_of_nonneg (by linarith)]; norm_num; linarith)) (by rw [abs_of_nonneg (by linarith)]; linarith)
  have r2 : rnd64 df = some (fl df) := by
    apply rnd64_range (t := 50) (by norm_num)
    · rcases Nat.eq_zero_or_pos df with h | h
      · exact .inl (by rw [h]; simp)
      · have : (1 : ℚ) ≤ df := by exact_mod_cast h
        exact .inr (by rw [abs_of_nonneg d0]; norm_num; linarith)
    · rw [abs_of_nonneg d0]
      linarith
  have f1 := hf (q := 1 + n) (by linarith)
  have f2 := hf d0
  have g1 := nn d0
  have r3 : rnd64 (fl df + 1) = some (fl (fl df + 1)) := rnd64_range (t := 50) (by norm_num)
    (.inr (by rw [abs_of_nonneg (by linarith)]; norm_num; linarith)) (by rw [abs_of_nonneg (by linarith)]; linarith)
  have f3 := hf (q := fl df + 1) (by linarith)
  have hb : (0 : ℚ) < fl (fl df + 1) := by linarith
  have ha : (0 : ℚ) < fl (1 + n) := by linarith
  have r4 : rnd64 (fl (1 + n) / fl (fl df + 1)) = some (fl (fl (1 + n) / fl (fl df + 1))) := by
    apply rnd64_range (t := 100) (by norm_num)
    · right
      rw [abs_of_pos (div_pos ha hb), le_div_iff₀ hb]
      linarith
    · rw [abs_of_pos (div_pos ha hb), div_le_iff₀ hb]
      linarith
  obtain ⟨b1, b2⟩ := flIdf_bounds hc h hn
  have r5 : rnd64 (c.log (fl (fl (1 + n) / fl (fl df + 1))) + 1) = some (flIdf c.wide n df) := by
    have e : flIdf c.wide n df = fl (c.log (fl (fl (1 + n) / fl (fl df + 1))) + 1) := rfl
    rw [e] at b1 b2 ⊢
    obtain ⟨a, b⟩ := fl_half (c.log (fl (fl (1 + n) / fl (fl df + 1))) + 1)
    rw [abs_of_nonneg (show (0 : ℚ) ≤ fl (c.log (fl (fl (1 + n) / fl (fl df + 1))) + 1) by linarith)] at a b
    apply rnd64_range (t := 100) (by norm_num)
    · right
      norm_num at b1 ⊢
      linarith
    · norm_num at b2 ⊢
      linarith
  unfold flIdf64
  simp only [r1, r2, r3, r4, r5, Option.bind_eq_bind, Option.bind_some]

theorem mapM_some {ι κ : Type} {l : List ι} {f : ι → Option κ} {g : ι → κ} (h : ∀ x ∈ l, f x = some (g x)) : l.mapM f = some (l.map g) := by
  induction l with
  | nil => rfl
  | cons a l ih =>
    rw [List.mapM_cons, h a (by simp), ih fun x hx => h x (by simp [hx])]
    rfl

theorem flWeight64_eq (hc : c.Ok) {n df k : Nat} (h : df ≤ n) (hn : n ≤ 2 ^ 40) (hk : k ≤ 2 ^ 40) :
    (do let k ← rnd64 k; let i ← flIdf64 c n df; rnd64 (k * i)) = some (fl (fl k * flIdf c.wide n df)) ∧
    0 ≤ fl (fl k * flIdf c.wide n df) ∧ Entry64 84 (fl (fl k * flIdf c.wide n df)) := by
  have hk' : (k : ℚ) ≤ 2 ^ 40 := by exact_mod_cast hk
  have k0 : (0 : ℚ) ≤ k := by positivity
  have kf : fl (k : ℚ) = k := by
    have := fl_exact (m := (k : ℤ)) (k := 0) (by rw [abs_of_nonneg (by positivity)]; exact_mod_cast hk.trans (by norm_num))
    simpa using this
  have k1 : (k : ℚ) = 0 ∨ (1 : ℚ) ≤ k := by
    rcases Nat.eq_zero_or_pos k with h | h
    · exact .inl (by rw [h]; simp)
    · exact .inr (by exact_mod_cast h)
  obtain ⟨b1, b2⟩ := flIdf_bounds hc h hn
  have r1 : rnd64 (k : ℚ) = some (k : ℚ) := by
    rw [rnd64_range (q := (k : ℚ)) (t := 50) (by norm_num) (k1.imp_right fun h => by rw [abs_of_nonneg k0]; linarith)
      (by rw [abs_of_nonneg k0]; linarith), kf]
  rw [r1, flIdf64_eq hc h hn, kf]
  generalize flIdf c.wide n df = i at b1 b2
  have m0 : 0 ≤ (k : ℚ) * i := mul_nonneg k0 (by linarith)
  have m1 : (k : ℚ) * i = 0 ∨ 1 / 2 ^ 83 ≤ |(k : ℚ) * i| := by
    rcases k1 with h | h
    · exact .inl (by rw [h, zero_mul])
    · right
      rw [abs_of_nonneg m0]
      have : (1 : ℚ) * (1 / 2) ≤ k * i := mul_le_mul h b1 (by norm_num) k0
      norm_num at this ⊢
      linarith
  have m2 : |(k : ℚ) * i| ≤ 2 ^ 83 := by
    rw [abs_of_nonneg m0]
    have : (k : ℚ) * i ≤ 2 ^ 40 * 2 ^ 42 := mul_le_mul hk' b2 (by linarith) (by norm_num)
    norm_num at this ⊢
    linarith
  refine ⟨rnd64_range (t := 83) (by norm_num) m1 m2, ?_, entry64_fl m1 m2⟩
  rcases m0.eq_or_lt with h | h
  · rw [← h, fl_zero]
  · exact (fl_pos h).le

/-- Normalizing a row of weights. -/
theorem flNormalize64_eq (hc : c.Ok) {v : List ℚ} (h : ∀ x ∈ v, 0 ≤ x ∧ Entry64 84 x) (hv : v.length ≤ 2 ^ 40) :
    flNormalize64 c v = some (flNormalize c.wide v) ∧ ∀ x ∈ flNormalize c.wide v, 0 ≤ x ∧ Entry64 200 x := by
  have hP : Pairs64 (v.map fun x => (x, x)) := by
    refine ⟨fun p hp => ?_, by rw [List.length_map]; omega⟩
    obtain ⟨x, hx, rfl⟩ := List.mem_map.1 hp
    exact ⟨(h x hx).2.mono (by norm_num), (h x hx).2.mono (by norm_num)⟩
  have hdot := FlCalc64.wide_dot hc hP
  have hfd := (FlCalc64.wide_ok hc).dot (v.map fun x => (x, x))
  have hnb := (flDot_nearBy hfd fun p hp => by
    obtain ⟨x, -, rfl⟩ := List.mem_map.1 hp
    exact mul_self_nonneg x).half (by rw [List.length_map]; omega)
  unfold flNormalize64 flNormalize
  rw [hdot, Option.bind_eq_bind, Option.bind_some]
  generalize c.wide.dot (v.map fun x => (x, x)) = s at hnb
  by_cases hs : s = 0
  · rw [if_pos hs, if_pos hs]
    exact ⟨rfl, fun x hx => ⟨(h x hx).1, (h x hx).2.mono (by norm_num)⟩⟩
  rw [if_neg hs, if_neg hs]
  have e : dotOf (v.map fun x => (x, x)) = (v.map fun x => x * x).sum := by
    unfold dotOf
    rw [List.map_map]
    rfl
  rw [e] at hnb
  have s1 : (v.map fun x => x * x).sum ≤ 2 * s := by exact_mod_cast hnb.1
  have s2 : s ≤ 2 * (v.map fun x => x * x).sum := by exact_mod_cast hnb.2
  have hsq : ∀ y ∈ v.map (fun x => x * x), 0 ≤ y ∧ y ≤ 2 ^ 168 := fun y hy => by
    obtain ⟨x, hx, rfl⟩ := List.mem_map.1 hy
    have hx2 := (h x hx).2.2.2
    rw [abs_of_nonneg (h x hx).1] at hx2
    refine ⟨mul_self_nonneg x, ?_⟩
    rw [show (2 : ℚ) ^ 168 = 2 ^ 84 * 2 ^ 84 by rw [← pow_add]]
    exact mul_le_mul hx2 hx2 (h x hx).1 (by norm_num)
  have s3 : s ≤ 2 ^ 209 := by
    have a := sum_le_of_le fun y hy => (hsq y hy).2
    rw [List.length_map] at a
    have b : (v.length : ℚ) * 2 ^ 168 ≤ 2 ^ 40 * 2 ^ 168 := mul_le_mul_of_nonneg_right (by exact_mod_cast hv) (by norm_num)
    rw [show (2 : ℚ) ^ 209 = 2 * (2 ^ 40 * 2 ^ 168) by norm_num]
    linarith
  have s4 : 1 / 2 ^ 169 ≤ s := by
    by_cases hz : ∀ x ∈ v, x = 0
    · exfalso
      apply hs
      have : (v.map fun x => x * x).sum = 0 := List.sum_eq_zero fun y hy => by
        obtain ⟨x, hx, rfl⟩ := List.mem_map.1 hy
        rw [hz x hx, zero_mul]
      linarith
    · push Not at hz
      obtain ⟨x, hx, hx0⟩ := hz
      have a1 : x * x ≤ (v.map fun x => x * x).sum := List.single_le_sum (fun y hy => (hsq y hy).1) _ (List.mem_map.2 ⟨x, hx, rfl⟩)
      have a2 := (h x hx).2.2.1.resolve_left hx0
      rw [abs_of_nonneg (h x hx).1] at a2
      have a3 : (1 / 2 ^ 84 : ℚ) * (1 / 2 ^ 84) ≤ x * x := mul_le_mul a2 a2 (by norm_num) (h x hx).1
      rw [show (1 / 2 ^ 169 : ℚ) = 1 / 2 ^ 84 * (1 / 2 ^ 84) / 2 by norm_num]
      linarith
  have s0 : 0 ≤ s := le_trans (by norm_num) s4
  have hr := (flSqrt_nearBy s0).half (by norm_num)
  have q1 : flSqrt s ≤ 2 ^ 106 := by
    have h1 : (s : ℝ) ≤ 2 ^ 209 := by
      have := (Rat.cast_le (K := ℝ)).2 s3
      push_cast at this
      exact this
    have h2 : √(s : ℝ) ≤ 2 ^ 105 := by
      rw [Real.sqrt_le_left (by norm_num), ← pow_mul]
      exact h1.trans (pow_le_pow_right₀ (by norm_num) (by norm_num))
    have h3 : (flSqrt s : ℝ) ≤ 2 ^ 106 := by
      rw [show (2 : ℝ) ^ 106 = 2 * 2 ^ 105 by rw [← pow_succ']]
      linarith [hr.2]
    apply (Rat.cast_le (K := ℝ)).1
    push_cast
    exact h3
  have q2 : 1 / 2 ^ 86 ≤ flSqrt s := by
    have h1 : (1 / 2 ^ 169 : ℝ) ≤ s := by
      have := (Rat.cast_le (K := ℝ)).2 s4
      push_cast at this
      exact this
    have h2 : (1 / 2 ^ 85 : ℝ) ≤ √(s : ℝ) := by
      apply Real.le_sqrt_of_sq_le
      refine le_trans ?_ h1
      rw [div_pow, one_pow, ← pow_mul]
      exact one_div_le_one_div_of_le (by norm_num) (pow_le_pow_right₀ (by norm_num) (by norm_num))
    have h3 : (1 / 2 ^ 86 : ℝ) ≤ flSqrt s := by
      rw [show (1 / 2 ^ 86 : ℝ) = 1 / 2 ^ 85 / 2 by norm_num]
      linarith [hr.1]
    apply (Rat.cast_le (K := ℝ)).1
    push_cast
    exact h3
  have q0 : 0 < flSqrt s := lt_of_lt_of_le (by norm_num) q2
  have key : ∀ x ∈ v, 0 ≤ x / flSqrt s ∧ (x / flSqrt s = 0 ∨ 1 / 2 ^ 199 ≤ |x / flSqrt s|) ∧ |x / flSqrt s| ≤ 2 ^ 199 := fun x hx => by
    obtain ⟨h0, -, h1, h2⟩ := h x hx
    have m0 := div_nonneg h0 q0.le
    rw [abs_of_nonneg h0] at h1 h2
    rw [abs_of_nonneg m0]
    refine ⟨m0, h1.imp (fun h => by rw [h, zero_div]) fun h => ?_, ?_⟩
    · rw [le_div_iff₀ q0]
      have : (1 / 2 ^ 199 : ℚ) * flSqrt s ≤ 1 / 2 ^ 199 * 2 ^ 106 := mul_le_mul_of_nonneg_left q1 (by norm_num)
      norm_num at this h ⊢
      linarith
    · rw [div_le_iff₀ q0]
      have : (2 ^ 199 : ℚ) * (1 / 2 ^ 86) ≤ 2 ^ 199 * flSqrt s := mul_le_mul_of_nonneg_left q2 (by norm_num)
      norm_num at this h2 ⊢
      linarith
  refine ⟨mapM_some fun x hx => rnd64_range (t := 199) (by norm_num) (key x hx).2.1 (key x hx).2.2, fun y hy => ?_⟩
  obtain ⟨x, hx, rfl⟩ := List.mem_map.1 hy
  refine ⟨?_, entry64_fl (key x hx).2.1 (key x hx).2.2⟩
  rcases (key x hx).1.eq_or_lt with h | h
  · rw [← h, fl_zero]
  · exact (fl_pos h).le

variable {e : TfidfEnv}

theorem flRow64_eq (hc : c.Ok) {docs : List (List (List Char))} (h1 : docs.length ≤ 2 ^ 40) (h2 : docs.flatten.length ≤ 2 ^ 40)
    {d : List (List Char)} (hd : d ∈ docs) :
    (do flNormalize64 c (← flWeights64 c docs d)) = some (flNormalize c.wide (flWeights c.wide docs d)) ∧
    ∀ x ∈ flNormalize c.wide (flWeights c.wide docs d), 0 ≤ x ∧ Entry64 200 x := by
  have hlen : d.length ≤ 2 ^ 40 := by
    obtain ⟨l, r, rfl⟩ := List.append_of_mem hd
    simp only [List.flatten_append, List.flatten_cons, List.length_append] at h2
    omega
  have hvoc : (vocabulary docs).length ≤ 2 ^ 40 := by
    unfold vocabulary
    rw [List.length_insertionSort]
    exact (List.length_filter_le _ _).trans ((List.dedup_sublist _).length_le.trans h2)
  have hw : ∀ t, _ := fun t => flWeight64_eq hc (docFreq_le (docs := docs) t) h1 (List.count_le_length (a := t).trans hlen)
  have e1 : flWeights64 c docs d = some (flWeights c.wide docs d) := mapM_some fun t _ => (hw t).1
  rw [e1, Option.bind_eq_bind, Option.bind_some]
  apply flNormalize64_eq hc
  · intro x hx
    obtain ⟨t, -, rfl⟩ := List.mem_map.1 hx
    exact (hw t).2
  · unfold flWeights
    rw [List.length_map]
    exact hvoc

end Verif
