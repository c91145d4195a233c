import Mathlib.Tactic.Linarith
import Mathlib.Tactic.Positivity
import Mathlib.Tactic.FieldSimp
import Mathlib.Tactic.Ring
import Mathlib.Algebra.Order.Field.Rat
import Mathlib.Algebra.Order.BigOperators.Group.List
import Mathlib.Data.Rat.Lemmas
import Verif.Py.Float
import Verif.Spec.Float

/-
Facts about rounding to binary64.
-/

namespace Verif

/-! ### Rounding to an integer -/

theorem roundEven_mem (x : ℚ) : roundEven x = ⌊x⌋ ∨ roundEven x = ⌊x⌋ + 1 := by
  unfold roundEven
  split_ifs <;> simp

theorem roundEven_err (x : ℚ) : |(roundEven x : ℚ) - x| ≤ 1 / 2 := by
  have h1 := Int.floor_le x
  have h2 := Int.lt_floor_add_one x
  unfold roundEven
  rw [abs_le]
  split_ifs with h h' h'' <;> push_cast <;> constructor <;> linarith

theorem roundEven_int (n : ℤ) : roundEven n = n := by
  unfold roundEven
  rw [Int.floor_intCast, if_pos (by norm_num)]

theorem roundEven_mono {x y : ℚ} (h : x ≤ y) : roundEven x ≤ roundEven y := by
  rcases (Int.floor_mono h).lt_or_eq with hf | hf
  · rcases roundEven_mem x with e | e <;> rcases roundEven_mem y with e' | e' <;> omega
  · unfold roundEven
    rw [hf]
    have : x - ⌊y⌋ ≤ y - ⌊y⌋ := by linarith
    split_ifs <;> first | omega | (exfalso; linarith)

theorem roundEven_neg (x : ℚ) : roundEven (-x) = -roundEven x := by
  by_cases hx : x = ⌊x⌋
  · rw [hx, ← Int.cast_neg, roundEven_int, roundEven_int]
  · have h1 := Int.floor_le x
    have h2 := Int.lt_floor_add_one x
    have h3 : (⌊x⌋ : ℚ) < x := lt_of_le_of_ne h1 (Ne.symm hx)
    have hf : ⌊-x⌋ = -⌊x⌋ - 1 := by
      rw [Int.floor_eq_iff]
      push_cast
      constructor <;> linarith
    unfold roundEven
    rw [hf]
    push_cast
    split_ifs <;> first | omega | (exfalso; linarith)

/-! ### The exponent -/

theorem binExp_spec {q : ℚ} (hq : q ≠ 0) : (2 : ℚ) ^ binExp q ≤ |q| ∧ |q| < (2 : ℚ) ^ (binExp q + 1) := by
  set a := q.num.natAbs with ha
  set b := q.den with hb
  have ha0 : a ≠ 0 := by rw [ha]; simpa using hq
  have hb0 : b ≠ 0 := q.den_nz
  have hab : |q| = (a : ℚ) / (b : ℚ) := by
    conv_lhs => rw [← Rat.num_div_den q]
    rw [abs_div, Nat.abs_cast, ha, Nat.cast_natAbs, Int.cast_abs]
  have a1 : (2 : ℚ) ^ ((Nat.log2 a : ℕ) : ℤ) ≤ a := by
    rw [zpow_natCast]
    exact_mod_cast Nat.log2_self_le ha0
  have a2 : (a : ℚ) < (2 : ℚ) ^ ((Nat.log2 a : ℕ) + 1 : ℤ) := by
    rw [← Nat.cast_succ, zpow_natCast]
    exact_mod_cast Nat.lt_log2_self
  have b1 : (2 : ℚ) ^ ((Nat.log2 b : ℕ) : ℤ) ≤ b := by
    rw [zpow_natCast]
    exact_mod_cast Nat.log2_self_le hb0
  have b2 : (b : ℚ) < (2 : ℚ) ^ ((Nat.log2 b : ℕ) + 1 : ℤ) := by
    rw [← Nat.cast_succ, zpow_natCast]
    exact_mod_cast Nat.lt_log2_self
  have hbpos : (0 : ℚ) < b := by exact_mod_cast Nat.pos_of_ne_zero hb0
  set la : ℤ := ((Nat.log2 a : ℕ) : ℤ)
  set lb : ℤ := ((Nat.log2 b : ℕ) : ℤ)
  have hup : |q| < (2 : ℚ) ^ (la - lb + 1) := by
    rw [hab, div_lt_iff₀ hbpos]
    calc (a : ℚ) < 2 ^ (la + 1) := a2
      _ = 2 ^ (la - lb + 1) * 2 ^ lb := by rw [← zpow_add₀ (by norm_num)]; congr 1; ring
      _ ≤ 2 ^ (la - lb + 1) * b := by gcongr
  have hlow : (2 : ℚ) ^ (la - lb - 1) ≤ |q| := by
    rw [hab, le_div_iff₀ hbpos]
    calc (2 : ℚ) ^ (la - lb - 1) * b ≤ 2 ^ (la - lb - 1) * 2 ^ (lb + 1) := by gcongr
      _ = 2 ^ la := by rw [← zpow_add₀ (by norm_num)]; congr 1; ring
      _ ≤ a := a1
  have he : binExp q = if |q| < (2 : ℚ) ^ (la - lb) then la - lb - 1 else la - lb := rfl
  rw [he]
  split_ifs with h
  · exact ⟨hlow, by rwa [sub_add_cancel]⟩
  · exact ⟨not_lt.1 h, hup⟩

theorem binExp_neg (q : ℚ) : binExp (-q) = binExp q := by
  unfold binExp
  simp only [Rat.neg_num, Rat.neg_den, Int.natAbs_neg, abs_neg]

theorem binExp_mono {p q : ℚ} (hp : 0 < p) (h : p ≤ q) : binExp p ≤ binExp q := by
  have h1 := (binExp_spec hp.ne').1
  have h2 := (binExp_spec (hp.trans_le h).ne').2
  rw [abs_of_pos hp] at h1
  rw [abs_of_pos (hp.trans_le h)] at h2
  have := (zpow_lt_zpow_iff_right₀ (by norm_num : (1 : ℚ) < 2)).1 (h1.trans_lt (h.trans_lt h2))
  omega

/-! ### Rounding to 53 bits -/

theorem fl_zero : fl 0 = 0 := by decide +kernel

theorem fl_neg (q : ℚ) : fl (-q) = -fl q := by
  unfold fl
  rw [binExp_neg, neg_div, roundEven_neg]
  push_cast
  ring

/-- The relative error is at most `2 ^ (-53)`. -/
theorem fl_err (q : ℚ) : |fl q - q| ≤ |q| / 2 ^ 53 := by
  by_cases hq : q = 0
  · subst hq; rw [fl_zero]; simp
  · have h1 := (binExp_spec hq).1
    have hp : (0 : ℚ) < 2 ^ (binExp q - 52) := by positivity
    have h2 := roundEven_err (q / 2 ^ (binExp q - 52))
    have h3 : fl q - q = ((roundEven (q / 2 ^ (binExp q - 52)) : ℚ) - q / 2 ^ (binExp q - 52)) * 2 ^ (binExp q - 52) := by
      unfold fl
      field_simp
    rw [h3, abs_mul, abs_of_pos hp, le_div_iff₀ (by norm_num)]
    calc |(roundEven (q / 2 ^ (binExp q - 52)) : ℚ) - q / 2 ^ (binExp q - 52)| * 2 ^ (binExp q - 52) * 2 ^ 53
        ≤ 1 / 2 * 2 ^ (binExp q - 52) * 2 ^ 53 := by gcongr
      _ = 2 ^ binExp q := by
        rw [zpow_sub₀ (by norm_num)]
        norm_num
        ring
      _ ≤ |q| := h1

/-- Numbers of 53 bits are not changed. -/
theorem fl_exact {m k : ℤ} (hm : |m| ≤ 2 ^ 53) : fl (m * 2 ^ k) = m * 2 ^ k := by
  by_cases h0 : m = 0
  · subst h0; simp [fl_zero]
  have hq : (m * 2 ^ k : ℚ) ≠ 0 := mul_ne_zero (by exact_mod_cast h0) (by positivity)
  obtain ⟨h1, -⟩ := binExp_spec hq
  set e := binExp (m * 2 ^ k : ℚ) with he
  have hm' : |(m : ℚ)| ≤ 2 ^ (53 : ℤ) := by
    rw [← Int.cast_abs]; exact_mod_cast hm
  have hk : (0 : ℚ) < 2 ^ k := by positivity
  have habs : |(m * 2 ^ k : ℚ)| = |(m : ℚ)| * 2 ^ k := by rw [abs_mul, abs_of_pos hk]
  have hle : e ≤ k + 53 := by
    have : (2 : ℚ) ^ e ≤ 2 ^ (k + 53) := by
      calc (2 : ℚ) ^ e ≤ |(m : ℚ)| * 2 ^ k := by rw [← habs]; exact h1
        _ ≤ 2 ^ (53 : ℤ) * 2 ^ k := by gcongr
        _ = 2 ^ (k + 53) := by rw [← zpow_add₀ (by norm_num)]; congr 1; ring
    exact (zpow_le_zpow_iff_right₀ (by norm_num)).1 this
  have hint : ∃ n : ℤ, (m * 2 ^ k : ℚ) / 2 ^ (e - 52) = n := by
    rcases hle.lt_or_eq with hlt | heq
    · refine ⟨m * 2 ^ (k - (e - 52)).toNat, ?_⟩
      push_cast
      rw [div_eq_iff (by positivity), mul_assoc, ← zpow_natCast, ← zpow_add₀ (by norm_num)]
      congr 2
      omega
    · have hge : (2 : ℚ) ^ (53 : ℤ) ≤ |(m : ℚ)| := by
        have : (2 : ℚ) ^ (53 : ℤ) * 2 ^ k ≤ |(m : ℚ)| * 2 ^ k := by
          rw [← habs, ← zpow_add₀ (by norm_num), show (53 : ℤ) + k = e by omega]; exact h1
        exact le_of_mul_le_mul_right this hk
      have heq' : |m| = 2 ^ 53 := by
        have : (2 : ℚ) ^ 53 ≤ ((|m| : ℤ) : ℚ) := by rw [Int.cast_abs]; exact_mod_cast hge
        have : (2 : ℤ) ^ 53 ≤ |m| := by exact_mod_cast this
        omega
      rcases (abs_eq (by positivity)).1 heq' with hmm | hmm
      · refine ⟨2 ^ 52, ?_⟩
        rw [hmm, heq, div_eq_iff (by positivity), show k + 53 - 52 = 1 + k by ring, zpow_add₀ (by norm_num)]
        push_cast
        ring
      · refine ⟨-2 ^ 52, ?_⟩
        rw [hmm, heq, div_eq_iff (by positivity), show k + 53 - 52 = 1 + k by ring, zpow_add₀ (by norm_num)]
        push_cast
        norm_num
        ring
  obtain ⟨n, hn⟩ := hint
  unfold fl
  rw [← he, hn, roundEven_int, ← hn]
  field_simp

theorem fl_one : fl 1 = 1 := by
  have := fl_exact (m := 1) (k := 0) (by norm_num)
  simpa using this

/-- Powers of two bound the rounded number as they bound the number. -/
theorem fl_le_zpow {q : ℚ} (hq : 0 < q) : fl q ≤ 2 ^ (binExp q + 1) ∧ 2 ^ binExp q ≤ fl q := by
  obtain ⟨h1, h2⟩ := binExp_spec hq.ne'
  rw [abs_of_pos hq] at h1 h2
  have hp : (0 : ℚ) < 2 ^ (binExp q - 52) := by positivity
  have e1 : ((2 ^ 53 : ℤ) : ℚ) * 2 ^ (binExp q - 52) = 2 ^ (binExp q + 1) := by
    rw [show binExp q + 1 = 53 + (binExp q - 52) by ring, zpow_add₀ (by norm_num)]; norm_num
  have e2 : ((2 ^ 52 : ℤ) : ℚ) * 2 ^ (binExp q - 52) = 2 ^ binExp q := by
    conv_rhs => rw [show binExp q = 52 + (binExp q - 52) by ring, zpow_add₀ (by norm_num)]
    norm_num
  unfold fl
  constructor
  · rw [← e1]
    gcongr
    rw [← roundEven_int (2 ^ 53)]
    apply roundEven_mono
    rw [div_le_iff₀ hp, e1]; exact h2.le
  · rw [← e2]
    gcongr
    rw [← roundEven_int (2 ^ 52)]
    apply roundEven_mono
    rw [le_div_iff₀ hp, e2]; exact h1

theorem fl_mono_pos {p q : ℚ} (hp : 0 < p) (h : p ≤ q) : fl p ≤ fl q := by
  have hq := hp.trans_le h
  rcases (binExp_mono hp h).lt_or_eq with hlt | heq
  · calc fl p ≤ 2 ^ (binExp p + 1) := (fl_le_zpow hp).1
      _ ≤ 2 ^ binExp q := zpow_le_zpow_right₀ (by norm_num) (by omega)
      _ ≤ fl q := (fl_le_zpow hq).2
  · unfold fl
    rw [heq]
    have hpp : (0 : ℚ) < 2 ^ (binExp q - 52) := by positivity
    gcongr
    apply roundEven_mono
    gcongr

theorem fl_pos {q : ℚ} (hq : 0 < q) : 0 < fl q := lt_of_lt_of_le (by positivity) (fl_le_zpow hq).2

/-- Rounding keeps the order. -/
theorem fl_mono {p q : ℚ} (h : p ≤ q) : fl p ≤ fl q := by
  rcases lt_trichotomy p 0 with hp | rfl | hp
  · rcases lt_trichotomy q 0 with hq | rfl | hq
    · have := fl_mono_pos (p := -q) (q := -p) (by linarith) (by linarith)
      rw [fl_neg, fl_neg] at this
      linarith
    · have := fl_pos (q := -p) (by linarith)
      rw [fl_neg] at this
      rw [fl_zero]; linarith
    · have h1 := fl_pos (q := -p) (by linarith)
      have h2 := fl_pos hq
      rw [fl_neg] at h1
      linarith
  · rcases h.lt_or_eq with hq | rfl
    · rw [fl_zero]; exact (fl_pos hq).le
    · exact le_rfl
  · exact fl_mono_pos hp h

theorem fl_isFloat (q : ℚ) : IsFloat (fl q) := by
  rcases lt_trichotomy q 0 with h | rfl | h
  · obtain ⟨h1, -⟩ := fl_le_zpow (q := -q) (by linarith)
    have h2 := fl_pos (q := -q) (by linarith)
    rw [fl_neg, binExp_neg] at h1
    rw [fl_neg] at h2
    refine ⟨_, _, ?_, rfl⟩
    have hp : (0 : ℚ) < 2 ^ (binExp q - 52) := by positivity
    have e1 : (2 : ℚ) ^ (binExp q + 1) = 2 ^ 53 * 2 ^ (binExp q - 52) := by
      rw [show binExp q + 1 = 53 + (binExp q - 52) by ring, zpow_add₀ (by norm_num)]; norm_num
    rw [e1] at h1
    unfold fl at h1 h2
    rw [← neg_mul] at h1 h2
    have g1 := le_of_mul_le_mul_right h1 hp
    have g2 := (mul_pos_iff_of_pos_right hp).1 h2
    have g1 : -roundEven (q / 2 ^ (binExp q - 52)) ≤ 2 ^ 53 := by exact_mod_cast g1
    have g2 : 0 < -roundEven (q / 2 ^ (binExp q - 52)) := by exact_mod_cast g2
    rw [abs_le]; omega
  · exact ⟨0, 0, by norm_num, by rw [fl_zero]; norm_num⟩
  · obtain ⟨h1, -⟩ := fl_le_zpow h
    have h2 := fl_pos h
    refine ⟨_, _, ?_, rfl⟩
    have hp : (0 : ℚ) < 2 ^ (binExp q - 52) := by positivity
    have e1 : (2 : ℚ) ^ (binExp q + 1) = 2 ^ 53 * 2 ^ (binExp q - 52) := by
      rw [show binExp q + 1 = 53 + (binExp q - 52) by ring, zpow_add₀ (by norm_num)]; norm_num
    rw [e1] at h1
    unfold fl at h1 h2
    have g1 := le_of_mul_le_mul_right h1 hp
    have g2 := (mul_pos_iff_of_pos_right hp).1 h2
    have g1 : roundEven (q / 2 ^ (binExp q - 52)) ≤ 2 ^ 53 := by exact_mod_cast g1
    have g2 : 0 < roundEven (q / 2 ^ (binExp q - 52)) := by exact_mod_cast g2
    rw [abs_le]; omega

theorem IsFloat.fl_eq {x : ℚ} (h : IsFloat x) : fl x = x := by
  obtain ⟨m, k, hm, rfl⟩ := h
  exact fl_exact hm

theorem roundEven_nearest (x : ℚ) (t : ℤ) : |(roundEven x : ℚ) - x| ≤ |(t : ℚ) - x| := by
  have h1 := Int.floor_le x
  have h2 := Int.lt_floor_add_one x
  rcases le_or_gt t ⌊x⌋ with ht | ht
  · have ht' : (t : ℚ) ≤ ⌊x⌋ := by exact_mod_cast ht
    rw [abs_of_nonpos (show (t : ℚ) - x ≤ 0 by linarith), abs_le]
    unfold roundEven
    split_ifs <;> push_cast <;> constructor <;> linarith
  · have ht' : (⌊x⌋ : ℚ) + 1 ≤ t := by exact_mod_cast ht
    rw [abs_of_nonneg (show 0 ≤ (t : ℚ) - x by linarith), abs_le]
    unfold roundEven
    split_ifs <;> push_cast <;> constructor <;> linarith

theorem fl_nearest_pos {q : ℚ} (hq : 0 < q) {x : ℚ} (hx : IsFloat x) : |fl q - q| ≤ |x - q| := by
  obtain ⟨h1, -⟩ := binExp_spec hq.ne'
  rw [abs_of_pos hq] at h1
  have hp : (0 : ℚ) < 2 ^ (binExp q - 52) := by positivity
  have e2 : ((2 ^ 52 : ℤ) : ℚ) * 2 ^ (binExp q - 52) = 2 ^ binExp q := by
    conv_rhs => rw [show binExp q = 52 + (binExp q - 52) by ring, zpow_add₀ (by norm_num)]
    norm_num
  -- an integer multiple of the unit that is at least as near as `x`
  have key : ∃ t : ℤ, |t * 2 ^ (binExp q - 52) - q| ≤ |x - q| := by
    rcases lt_or_ge x (2 ^ binExp q) with hlt | hge
    · refine ⟨2 ^ 52, ?_⟩
      rw [e2, abs_of_nonpos (by linarith), abs_of_nonpos (by linarith)]
      linarith
    · have hx0 : 0 < x := lt_of_lt_of_le (by positivity) hge
      have hbe : binExp q ≤ binExp x := by
        have := (binExp_spec hx0.ne').2
        rw [abs_of_pos hx0] at this
        have := (zpow_lt_zpow_iff_right₀ (by norm_num : (1 : ℚ) < 2)).1 (hge.trans_lt this)
        omega
      refine ⟨roundEven (x / 2 ^ (binExp x - 52)) * 2 ^ (binExp x - binExp q).toNat, ?_⟩
      have : (((roundEven (x / 2 ^ (binExp x - 52)) * 2 ^ (binExp x - binExp q).toNat : ℤ) : ℚ)) * 2 ^ (binExp q - 52) = x := by
        conv_rhs => rw [← hx.fl_eq]
        unfold fl
        push_cast
        rw [mul_assoc, ← zpow_natCast, ← zpow_add₀ (by norm_num)]
        congr 2
        omega
      rw [this]
  obtain ⟨t, ht⟩ := key
  refine le_trans ?_ ht
  have h3 : ∀ t : ℤ, |t * 2 ^ (binExp q - 52) - q| = |(t : ℚ) - q / 2 ^ (binExp q - 52)| * 2 ^ (binExp q - 52) := by
    intro t
    rw [← abs_of_pos hp, ← abs_mul, abs_of_pos hp, sub_mul, div_mul_cancel₀ _ hp.ne']
  unfold fl
  rw [h3, h3]
  exact mul_le_mul_of_nonneg_right (roundEven_nearest _ t) hp.le

/-- No float is nearer. -/
theorem fl_nearest (q : ℚ) {x : ℚ} (hx : IsFloat x) : |fl q - q| ≤ |x - q| := by
  rcases lt_trichotomy q 0 with h | rfl | h
  · have hx' : IsFloat (-x) := by
      obtain ⟨m, k, hm, rfl⟩ := hx
      exact ⟨-m, k, by rwa [abs_neg], by push_cast; ring⟩
    have := fl_nearest_pos (q := -q) (by linarith) hx'
    rw [fl_neg, ← abs_neg, ← abs_neg (-x - -q)] at this
    convert this using 2 <;> ring
  · rw [fl_zero]; simp
  · exact fl_nearest_pos h hx

end Verif
