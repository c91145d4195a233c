import Verif.Model.IeeeLink
import Verif.Proofs.Ieee
import Verif.Props.FloatLink

/-
Sums of floats within the range of binary64, with the compensation of Python 3.12.
-/

namespace Verif

set_option exponentiation.threshold 2000

theorem Grid.sub {a b : ℚ} (ha : Grid a) (hb : Grid b) : Grid (a - b) := by
  rw [sub_eq_add_neg]
  exact ha.add hb.neg

/-- One step of the sum, with both numbers small enough. -/
theorem neuStep64_eq {p : ℚ × ℚ} {x A : ℚ} (hA : A ≤ 2 ^ 952) (g1 : Grid p.1) (g2 : Grid p.2) (gx : Grid x) (h1 : |p.1| ≤ A) (hx : |x| ≤ A)
    (h2 : |p.2| ≤ 2 ^ 980) : neuStep64 p x = some (neuStep p x) ∧ Grid (neuStep p x).1 ∧ Grid (neuStep p x).2 ∧
      |(neuStep p x).2| ≤ (|p.2| + 16 * A) * (1 + 1 / 2 ^ 53) := by
  have hA0 : 0 ≤ A := (abs_nonneg _).trans h1
  have p0 : ∀ {k : Nat}, k ≤ 1023 → (2 : ℚ) ^ k ≤ 2 ^ 1023 := fun h => pow_le_pow_right₀ (by norm_num) h
  have two : ∀ q : ℚ, |fl q| ≤ |q| * (1 + 1 / 2 ^ 53) := fun q => by
    have := fl_err q
    have := abs_add_le (fl q - q) q
    rw [sub_add_cancel] at this
    have : |q| * (1 + 1 / 2 ^ 53) = |q| + |q| / 2 ^ 53 := by ring
    linarith
  have two' : ∀ q : ℚ, |fl q| ≤ |q| * (5 / 4) := fun q => (two q).trans (mul_le_mul_of_nonneg_left (by norm_num) (abs_nonneg _))
  have e16 : 16 * A ≤ 2 ^ 956 := by
    have : (2 : ℚ) ^ 956 = 16 * 2 ^ 952 := by rw [show (16 : ℚ) = 2 ^ 4 by norm_num, ← pow_add]
    linarith
  have small : ∀ {q : ℚ}, Grid q → |q| ≤ 16 * A → rnd64 q = some (fl q) := fun g h => rnd64_grid g (h.trans (e16.trans (p0 (by norm_num))))
  have b0 : |p.1 + x| ≤ 2 * A := by
    have := abs_add_le p.1 x
    linarith
  have gt := (g1.add gx).fl
  have r0 := small (g1.add gx) (by linarith)
  have b1 : |fl (p.1 + x)| ≤ 5 / 2 * A := by
    have := two' (p.1 + x)
    linarith
  have key : ∀ {a b : ℚ}, Grid a → Grid b → |a| ≤ A → |b| ≤ A → rnd64 (a - fl (p.1 + x)) = some (fl (a - fl (p.1 + x))) ∧
      rnd64 (fl (a - fl (p.1 + x)) + b) = some (fl (fl (a - fl (p.1 + x)) + b)) ∧ Grid (fl (fl (a - fl (p.1 + x)) + b)) ∧
      |fl (fl (a - fl (p.1 + x)) + b)| ≤ 16 * A := by
    intro a b ga gb ha hb
    have c1 : |a - fl (p.1 + x)| ≤ 7 / 2 * A := by
      have := abs_sub a (fl (p.1 + x))
      linarith
    have c2 := two' (a - fl (p.1 + x))
    have g := (ga.sub gt).fl
    have c3 := abs_add_le (fl (a - fl (p.1 + x))) b
    have c4 := two' (fl (a - fl (p.1 + x)) + b)
    exact ⟨small (ga.sub gt) (by linarith), small (g.add gb) (by linarith), (g.add gb).fl, by linarith⟩
  have fin : ∀ {d : ℚ}, Grid d → |d| ≤ 16 * A → rnd64 (p.2 + d) = some (fl (p.2 + d)) ∧ Grid (fl (p.2 + d)) ∧
      |fl (p.2 + d)| ≤ (|p.2| + 16 * A) * (1 + 1 / 2 ^ 53) := by
    intro d gd hd
    have c := abs_add_le p.2 d
    refine ⟨rnd64_grid (g2.add gd) ?_, (g2.add gd).fl, (two _).trans (mul_le_mul_of_nonneg_right (by linarith) (by norm_num))⟩
    have q1 : (2 : ℚ) ^ 956 ≤ 2 ^ 980 := pow_le_pow_right₀ (by norm_num) (by norm_num)
    have q2 : (2 : ℚ) ^ 981 = 2 * 2 ^ 980 := by rw [← pow_succ']
    have q3 : (2 : ℚ) ^ 981 ≤ 2 ^ 1023 := p0 (by norm_num)
    linarith
  by_cases hc : |x| ≤ |p.1|
  · obtain ⟨k1, k2, k3, k4⟩ := key g1 gx h1 hx
    obtain ⟨f1, f2, f3⟩ := fin k3 k4
    unfold neuStep64 neuStep
    simp only [if_pos hc, r0, Option.bind_eq_bind, Option.bind_some, k1, k2, f1]
    exact ⟨rfl, gt, f2, f3⟩
  · obtain ⟨k1, k2, k3, k4⟩ := key gx g1 hx h1
    obtain ⟨f1, f2, f3⟩ := fin k3 k4
    unfold neuStep64 neuStep
    simp only [if_neg hc, r0, Option.bind_eq_bind, Option.bind_some, k1, k2, f1]
    exact ⟨rfl, gt, f2, f3⟩

theorem neuSum_fst (l : List ℚ) : (l.foldl neuStep (0, 0)).1 = flSum l := by
  have h : ∀ (l : List ℚ) (p : ℚ × ℚ), (l.foldl neuStep p).1 = l.foldl (fun s x => fl (s + x)) p.1 := by
    intro l
    induction l with
    | nil => intro p; rfl
    | cons x l ih => intro p; rw [List.foldl_cons, ih]; rfl
  rw [h]
  rfl

theorem neuSum64_eq {l : List ℚ} (h : ∀ x ∈ l, 0 ≤ x ∧ Grid x ∧ x ≤ 2 ^ 900) (hl : l.length ≤ 2 ^ 23) :
    neuSum64 l = some (neuSum l) ∧ Grid (neuSum l) ∧ |neuSum l| ≤ 2 ^ 990 := by
  have key : l.foldlM neuStep64 (0, 0) = some (l.foldl neuStep (0, 0)) ∧ Grid (l.foldl neuStep (0, 0)).1 ∧ Grid (l.foldl neuStep (0, 0)).2 ∧
      |(l.foldl neuStep (0, 0)).2| ≤ l.length * 2 ^ 957 := by
    induction l using List.reverseRecOn with
    | nil => exact ⟨rfl, Grid.zero, Grid.zero, by simp⟩
    | append_singleton l x ih =>
      have h' : ∀ x ∈ l, 0 ≤ x ∧ Grid x ∧ x ≤ 2 ^ 900 := fun y hy => h y (by simp [hy])
      have hl' : l.length ≤ 2 ^ 23 := by
        rw [List.length_append] at hl
        omega
      obtain ⟨i1, i2, i3, i4⟩ := ih h' hl'
      have hx := h x (by simp)
      obtain ⟨-, -, s1, s2⟩ := flSum64_eq h' (hl'.trans (by norm_num))
      have e := neuSum_fst l
      rw [List.foldlM_append, i1, List.foldl_append]
      have hn : (l.length : ℚ) ≤ 2 ^ 23 := by exact_mod_cast hl'
      have q1 : (2 : ℚ) ^ 980 = 2 ^ 23 * 2 ^ 957 := by rw [← pow_add]
      have q2 : (16 : ℚ) * 2 ^ 952 = 1 / 2 * 2 ^ 957 := by
        rw [show (2 : ℚ) ^ 957 = 2 ^ 5 * 2 ^ 952 by rw [← pow_add]]
        ring
      have q3 : (2 : ℚ) ^ 951 ≤ 2 ^ 952 := pow_le_pow_right₀ (by norm_num) (by norm_num)
      have q4 : (2 : ℚ) ^ 900 ≤ 2 ^ 952 := pow_le_pow_right₀ (by norm_num) (by norm_num)
      have hA : (0 : ℚ) < 2 ^ 957 := by positivity
      have i5 : |(l.foldl neuStep (0, 0)).2| ≤ 2 ^ 980 := by
        rw [q1]
        exact i4.trans (mul_le_mul_of_nonneg_right hn hA.le)
      obtain ⟨k1, k2, k3, k4⟩ := neuStep64_eq (A := 2 ^ 952) le_rfl i2 i3 hx.2.1 (by rw [e, abs_of_nonneg s1]; linarith)
        (by rw [abs_of_nonneg hx.1]; linarith) i5
      refine ⟨?_, k2, k3, ?_⟩
      · show ((some _ : Option _).bind fun p => [x].foldlM neuStep64 p) = _
        rw [Option.bind_some, List.foldlM_cons, k1]
        rfl
      · refine k4.trans ?_
        rw [q2, List.length_append, List.length_singleton]
        push_cast
        generalize (2 : ℚ) ^ 957 = Z at *
        generalize |(l.foldl neuStep (0, 0)).2| = C at *
        have j1 : C + 1 / 2 * Z ≤ (l.length + 1 / 2) * Z := by linarith
        have j2 : (C + 1 / 2 * Z) * (1 + 1 / 2 ^ 53) ≤ (l.length + 1 / 2) * Z * (1 + 1 / 2 ^ 53) := mul_le_mul_of_nonneg_right j1 (by norm_num)
        have j3 : ((l.length : ℚ) + 1 / 2) * (1 + 1 / 2 ^ 53) ≤ l.length + 1 := by
          have : (l.length : ℚ) * (1 / 2 ^ 53) ≤ 2 ^ 23 * (1 / 2 ^ 53) := mul_le_mul_of_nonneg_right hn (by positivity)
          have e : ((l.length : ℚ) + 1 / 2) * (1 + 1 / 2 ^ 53) = l.length + 1 / 2 + (l.length * (1 / 2 ^ 53) + 1 / 2 * (1 / 2 ^ 53)) := by ring
          rw [e]
          norm_num at this ⊢
          linarith
        have j4 := mul_le_mul_of_nonneg_right j3 hA.le
        linarith
  obtain ⟨k1, k2, k3, k4⟩ := key
  obtain ⟨-, -, s1, s2⟩ := flSum64_eq h (hl.trans (by norm_num))
  have e := neuSum_fst l
  have hn : (l.length : ℚ) ≤ 2 ^ 23 := by exact_mod_cast hl
  have q1 : (2 : ℚ) ^ 980 = 2 ^ 23 * 2 ^ 957 := by rw [← pow_add]
  have k5 : |(l.foldl neuStep (0, 0)).2| ≤ 2 ^ 980 := by
    rw [q1]
    exact k4.trans (mul_le_mul_of_nonneg_right hn (by positivity))
  have hb : |(l.foldl neuStep (0, 0)).1 + (l.foldl neuStep (0, 0)).2| ≤ 2 ^ 989 := by
    have := abs_add_le (l.foldl neuStep (0, 0)).1 (l.foldl neuStep (0, 0)).2
    rw [e, abs_of_nonneg s1] at this
    rw [e]
    have q2 : (2 : ℚ) ^ 951 ≤ 2 ^ 980 := pow_le_pow_right₀ (by norm_num) (by norm_num)
    have q3 : (2 : ℚ) ^ 981 = 2 * 2 ^ 980 := by rw [← pow_succ']
    have q4 : (2 : ℚ) ^ 981 ≤ 2 ^ 989 := pow_le_pow_right₀ (by norm_num) (by norm_num)
    linarith
  refine ⟨?_, (k2.add k3).fl, ?_⟩
  · unfold neuSum64
    rw [k1, Option.bind_eq_bind, Option.bind_some]
    exact rnd64_grid (k2.add k3) (hb.trans (pow_le_pow_right₀ (by norm_num) (by norm_num)))
  · have := fl_bound hb
    refine this.trans ?_
    rw [← pow_succ'] <;> exact pow_le_pow_right₀ (by norm_num) (by norm_num)

/-- The sum of numbers that are 0 or not too small. -/
theorem pySum64_eq {l : List ℚ} (h : ∀ x ∈ l, 0 ≤ x ∧ (IsFloat x ∧ (x = 0 ∨ 1 / 2 ^ 900 ≤ |x|)) ∧ x ≤ 2 ^ 900) (hl : l.length ≤ 2 ^ 23)
    {o : Option ℚ} (ho : PySum64 l o) : ∃ t, o = some t ∧ PySum l t ∧ (t = 0 ∨ 1 / 2 ^ 901 ≤ |t|) ∧ |t| ≤ 2 ^ 990 := by
  have hg : ∀ x ∈ l, 0 ≤ x ∧ Grid x ∧ x ≤ 2 ^ 900 := fun x hx => ⟨(h x hx).1, grid_float (h x hx).2.1.1 (h x hx).2.1.2, (h x hx).2.2⟩
  have hsum : ∃ t, o = some t ∧ PySum l t ∧ |t| ≤ 2 ^ 990 := by
    rcases ho with rfl | rfl
    · obtain ⟨s1, -, s2, s3⟩ := flSum64_eq hg (hl.trans (by norm_num))
      exact ⟨_, s1, .inl rfl, by rw [abs_of_nonneg s2]; exact s3.trans (pow_le_pow_right₀ (by norm_num) (by norm_num))⟩
    · obtain ⟨s1, -, s2⟩ := neuSum64_eq hg hl
      exact ⟨_, s1, .inr rfl, s2⟩
  obtain ⟨t, h1, h2, h3⟩ := hsum
  refine ⟨t, h1, h2, ?_, h3⟩
  have hs := C123_sum h2 hl
  have habs : (l.map fun x => |x|) = l := by
    conv_rhs => rw [← List.map_id l]
    exact List.map_congr_left fun x hx => abs_of_nonneg (h x hx).1
  rw [habs] at hs
  have hn : (l.length : ℚ) ≤ 2 ^ 23 := by exact_mod_cast hl
  have hS0 : 0 ≤ l.sum := List.sum_nonneg fun x hx => (h x hx).1
  have hk : (10 * (l.length : ℚ) + 2) / 2 ^ 53 ≤ 1 / 2 := by
    rw [div_le_div_iff₀ (by positivity) (by positivity)]
    linarith
  have hs' := hs.trans (mul_le_mul_of_nonneg_right hk hS0)
  by_cases h0 : l.sum = 0
  · left
    rw [h0] at hs'
    simpa using hs'
  · right
    have : ∃ x ∈ l, x ≠ 0 := by
      by_contra hc
      push Not at hc
      exact h0 (List.sum_eq_zero hc)
    obtain ⟨x, hx, hx0⟩ := this
    have hx1 := (h x hx).2.1.2.resolve_left hx0
    rw [abs_of_nonneg (h x hx).1] at hx1
    have hx2 : x ≤ l.sum := List.single_le_sum (fun y hy => (h y hy).1) x hx
    have e : (1 : ℚ) / 2 ^ 901 = 1 / 2 * (1 / 2 ^ 900) := by
      rw [show (2 : ℚ) ^ 901 = 2 * 2 ^ 900 from pow_succ' _ _]
      field_simp
    have a1 := (abs_le.1 hs').1
    have a2 := le_abs_self t
    rw [e]
    linarith

end Verif
