import Verif.Spec.FloatTfidf
import Verif.Props.FloatDot
import Verif.Props.Tfidf
import Mathlib.Algebra.BigOperators.Field

/-
Lemmas for C124: relative errors.
-/

namespace Verif

namespace NearBy

theorem base_pow (k : Nat) : (1 : ℝ) ≤ (1 + 1 / 2 ^ 52) ^ k := one_le_pow₀ (by norm_num)

variable {k l : Nat} {a b c d : ℝ}

theorem refl (h : 0 ≤ a) : NearBy 0 a a := ⟨h, h, by simp, by simp⟩

theorem mono (h : NearBy k a b) (hkl : k ≤ l) : NearBy l a b := by
  have h1 : (1 + 1 / 2 ^ 52 : ℝ) ^ k ≤ (1 + 1 / 2 ^ 52) ^ l := pow_le_pow_right₀ (by norm_num) hkl
  exact ⟨h.1, h.2.1, h.2.2.1.trans (mul_le_mul_of_nonneg_left h1 h.2.1), h.2.2.2.trans (mul_le_mul_of_nonneg_left h1 h.1)⟩

theorem trans (h : NearBy k a b) (h' : NearBy l b c) : NearBy (k + l) a c := by
  have hk := (zero_le_one.trans (base_pow k))
  have hl := (zero_le_one.trans (base_pow l))
  refine ⟨h.1, h'.2.1, ?_, ?_⟩
  · calc a ≤ b * _ := h.2.2.1
      _ ≤ (c * (1 + 1 / 2 ^ 52) ^ l) * (1 + 1 / 2 ^ 52) ^ k := mul_le_mul_of_nonneg_right h'.2.2.1 hk
      _ = _ := by rw [pow_add]; ring
  · calc c ≤ b * _ := h'.2.2.2
      _ ≤ (a * (1 + 1 / 2 ^ 52) ^ k) * (1 + 1 / 2 ^ 52) ^ l := mul_le_mul_of_nonneg_right h.2.2.2 hl
      _ = _ := by rw [pow_add]; ring

theorem mul (h : NearBy k a b) (h' : NearBy l c d) : NearBy (k + l) (a * c) (b * d) := by
  have hk := (zero_le_one.trans (base_pow k))
  have hl := (zero_le_one.trans (base_pow l))
  refine ⟨mul_nonneg h.1 h'.1, mul_nonneg h.2.1 h'.2.1, ?_, ?_⟩
  · calc a * c ≤ (b * _) * (d * _) := mul_le_mul h.2.2.1 h'.2.2.1 h'.1 (mul_nonneg h.2.1 hk)
      _ = _ := by rw [pow_add]; ring
  · calc b * d ≤ (a * _) * (c * _) := mul_le_mul h.2.2.2 h'.2.2.2 h'.2.1 (mul_nonneg h.1 hk)
      _ = _ := by rw [pow_add]; ring

theorem zero_iff (h : NearBy k a b) : b = 0 ↔ a = 0 := by
  have h1 := h.2.2.1
  have h2 := h.2.2.2
  constructor
  · intro e
    rw [e, zero_mul] at h1
    exact le_antisymm h1 h.1
  · intro e
    rw [e, zero_mul] at h2
    exact le_antisymm h2 h.2.1

theorem inv (h : NearBy k a b) : NearBy k a⁻¹ b⁻¹ := by
  by_cases ha : a = 0
  · have hb := h.zero_iff.2 ha
    subst ha hb
    simpa using h
  have hb : b ≠ 0 := fun e => ha (h.zero_iff.1 e)
  have ha' : 0 < a := lt_of_le_of_ne h.1 (Ne.symm ha)
  have hb' : 0 < b := lt_of_le_of_ne h.2.1 (Ne.symm hb)
  have hk : (0 : ℝ) < (1 + 1 / 2 ^ 52) ^ k := zero_lt_one.trans_le (base_pow k)
  refine ⟨inv_nonneg.2 h.1, inv_nonneg.2 h.2.1, ?_, ?_⟩
  · rw [inv_mul_eq_div, inv_eq_one_div, div_le_div_iff₀ ha' hb', one_mul, mul_comm]
    exact h.2.2.2
  · rw [inv_mul_eq_div, inv_eq_one_div, div_le_div_iff₀ hb' ha', one_mul, mul_comm]
    exact h.2.2.1

theorem div (h : NearBy k a b) (h' : NearBy l c d) : NearBy (k + l) (a / c) (b / d) := by
  rw [div_eq_mul_inv, div_eq_mul_inv]
  exact h.mul h'.inv

theorem add (h : NearBy k a b) (h' : NearBy k c d) : NearBy k (a + c) (b + d) :=
  ⟨add_nonneg h.1 h'.1, add_nonneg h.2.1 h'.2.1, by rw [add_mul]; exact add_le_add h.2.2.1 h'.2.2.1,
    by rw [add_mul]; exact add_le_add h.2.2.2 h'.2.2.2⟩

theorem sqrt (h : NearBy k a b) : NearBy k (√a) (√b) := by
  have hk := base_pow k
  have h0 : (0 : ℝ) ≤ (1 + 1 / 2 ^ 52) ^ k := zero_le_one.trans hk
  have hs : √((1 + 1 / 2 ^ 52 : ℝ) ^ k) ≤ (1 + 1 / 2 ^ 52) ^ k := by
    rw [Real.sqrt_le_left h0, sq]
    exact le_mul_of_one_le_left h0 hk
  refine ⟨Real.sqrt_nonneg _, Real.sqrt_nonneg _, ?_, ?_⟩
  · calc √a ≤ √(b * (1 + 1 / 2 ^ 52) ^ k) := Real.sqrt_le_sqrt h.2.2.1
      _ = √b * √((1 + 1 / 2 ^ 52) ^ k) := Real.sqrt_mul h.2.1 _
      _ ≤ _ := mul_le_mul_of_nonneg_left hs (Real.sqrt_nonneg _)
  · calc √b ≤ √(a * (1 + 1 / 2 ^ 52) ^ k) := Real.sqrt_le_sqrt h.2.2.2
      _ = √a * √((1 + 1 / 2 ^ 52) ^ k) := Real.sqrt_mul h.1 _
      _ ≤ _ := mul_le_mul_of_nonneg_left hs (Real.sqrt_nonneg _)

/-- From an error to a factor. -/
theorem of_err (ha : 0 ≤ a) (h : |b - a| ≤ a / 2 ^ 53) : NearBy 1 a b := by
  obtain ⟨h1, h2⟩ := abs_le.1 h
  have hb : 0 ≤ b := by
    have : a / 2 ^ 53 ≤ a := div_le_self ha (by norm_num)
    linarith
  refine ⟨ha, hb, ?_, ?_⟩
  · rw [pow_one]
    have : a - a / 2 ^ 53 ≤ b := by linarith
    have h3 : (a - a / 2 ^ 53) * (1 + 1 / 2 ^ 52) ≤ b * (1 + 1 / 2 ^ 52) := mul_le_mul_of_nonneg_right this (by norm_num)
    refine le_trans ?_ h3
    norm_num
    linarith
  · rw [pow_one]
    norm_num at h2 ⊢
    linarith

/-- From a factor to an error. -/
theorem err (h : NearBy k a b) : |b - a| ≤ ((1 + 1 / 2 ^ 52) ^ k - 1) * a := by
  have hk := base_pow k
  obtain ⟨h0, h1, h2, h3⟩ := h
  rw [abs_le]
  generalize (1 + 1 / 2 ^ 52 : ℝ) ^ k = g at *
  refine ⟨?_, by linarith⟩
  rcases le_total b a with h | h
  · have := mul_le_mul_of_nonneg_right h (sub_nonneg.2 hk)
    linarith
  · have := mul_nonneg (sub_nonneg.2 hk) h0
    linarith

theorem sqrt' (h : NearBy (2 * k) a b) : NearBy k (√a) (√b) := by
  have hk := base_pow k
  have h0 : (0 : ℝ) ≤ (1 + 1 / 2 ^ 52) ^ k := zero_le_one.trans hk
  have hs : √((1 + 1 / 2 ^ 52 : ℝ) ^ (2 * k)) = (1 + 1 / 2 ^ 52) ^ k := by rw [mul_comm, pow_mul, Real.sqrt_sq h0]
  refine ⟨Real.sqrt_nonneg _, Real.sqrt_nonneg _, ?_, ?_⟩
  · calc √a ≤ √(b * (1 + 1 / 2 ^ 52) ^ (2 * k)) := Real.sqrt_le_sqrt h.2.2.1
      _ = _ := by rw [Real.sqrt_mul h.2.1, hs]
  · calc √b ≤ √(a * (1 + 1 / 2 ^ 52) ^ (2 * k)) := Real.sqrt_le_sqrt h.2.2.2
      _ = _ := by rw [Real.sqrt_mul h.1, hs]

theorem sum {ι : Type} {f g : ι → ℝ} {l : List ι} (h : ∀ t ∈ l, NearBy k (f t) (g t)) : NearBy k (l.map f).sum (l.map g).sum := by
  induction l with
  | nil => exact (NearBy.refl le_rfl).mono (Nat.zero_le _)
  | cons t l ih =>
    rw [List.map_cons, List.map_cons, List.sum_cons, List.sum_cons]
    exact (h t List.mem_cons_self).add (ih fun t ht => h t (List.mem_cons_of_mem _ ht))

end NearBy

theorem fl_nearBy {q : ℚ} (hq : 0 ≤ q) : NearBy 1 (q : ℝ) (fl q : ℝ) := by
  apply NearBy.of_err (by exact_mod_cast hq)
  have h := fl_err q
  rw [abs_of_nonneg hq] at h
  have := (Rat.cast_le (K := ℝ)).2 h
  push_cast at this
  exact this

theorem flSqrt_nearBy {q : ℚ} (hq : 0 ≤ q) : NearBy 1 (√(q : ℝ)) (flSqrt q : ℝ) :=
  .of_err (Real.sqrt_nonneg _) (C99_sqrt hq).2.2

theorem fl_nearBy' {k : Nat} {a : ℝ} {q : ℚ} (h : NearBy k a q) : NearBy (k + 1) a (fl q : ℝ) :=
  h.trans (fl_nearBy (by exact_mod_cast h.2.1))

/-- A sum of products that are not negative. -/
theorem flDot_nearBy {l : List (ℚ × ℚ)} {s : ℚ} (h : FlDot l s) (hn : ∀ p ∈ l, 0 ≤ p.1 * p.2) : NearBy l.length (dotOf l : ℝ) (s : ℝ) := by
  induction h with
  | nil => simpa [dotOf] using NearBy.refl (le_refl (0 : ℝ))
  | prod x y =>
    have := fl_nearBy (hn (x, y) (by simp))
    simpa [dotOf] using this
  | @add l r t a b hl hr hp ihl ihr =>
    have e1 : dotOf t = dotOf l + dotOf r := by
      unfold dotOf
      rw [(hp.map _).sum_eq, List.map_append, List.sum_append]
    have e3 : t.length = l.length + r.length := by rw [hp.length_eq, List.length_append]
    have gl := ihl fun p h => hn p (hp.mem_iff.2 (List.mem_append_left _ h))
    have gr := ihr fun p h => hn p (hp.mem_iff.2 (List.mem_append_right _ h))
    by_cases h1 : l = []
    · have ha := (flDot_err hl).2.1 h1
      rw [ha, zero_add, (flDot_err hr).1.fl_eq, e1, e3, h1]
      simpa [dotOf] using gr
    by_cases h2 : r = []
    · have hb := (flDot_err hr).2.1 h2
      rw [hb, add_zero, (flDot_err hl).1.fl_eq, e1, e3, h2]
      simpa [dotOf] using gl
    have hl1 : 1 ≤ l.length := List.length_pos_iff.2 h1
    have hr1 : 1 ≤ r.length := List.length_pos_iff.2 h2
    rw [e1, e3]
    have g := (gl.mono (l := max l.length r.length) (le_max_left _ _)).add (gr.mono (l := max l.length r.length) (le_max_right _ _))
    rw [← Rat.cast_add, ← Rat.cast_add] at g
    exact (fl_nearBy' g).mono (by omega)
  | @fma l t a x y hl hp ihl =>
    have e1 : dotOf t = x * y + dotOf l := by
      unfold dotOf
      rw [(hp.map _).sum_eq, List.map_cons, List.sum_cons]
    have e3 : t.length = l.length + 1 := by rw [hp.length_eq, List.length_cons]
    have gl := ihl fun p h => hn p (hp.mem_iff.2 (List.mem_cons_of_mem _ h))
    have g0 : NearBy 0 ((x * y : ℚ) : ℝ) ((x * y : ℚ) : ℝ) := .refl (by exact_mod_cast hn (x, y) (hp.mem_iff.2 List.mem_cons_self))
    have g := gl.add (g0.mono (Nat.zero_le _))
    rw [← Rat.cast_add, ← Rat.cast_add] at g
    rw [e1, e3, add_comm (x * y)]
    exact fl_nearBy' g

variable {c : FlCalc}

/-- The inverse document frequency. -/
theorem flIdf_nearBy (hc : c.Ok) {n df : Nat} (h : df ≤ n) : NearBy 6 (idf n df) (flIdf c n df : ℝ) := by
  have hdf : (df : ℝ) ≤ n := by exact_mod_cast h
  have n1 : NearBy 1 (1 + n : ℝ) (fl (1 + n) : ℝ) := by
    have := fl_nearBy (q := 1 + n) (by positivity)
    push_cast at this
    exact this
  have d1 : NearBy 1 (df : ℝ) (fl df : ℝ) := by
    have := fl_nearBy (q := df) (by positivity)
    push_cast at this
    exact this
  have d2 : NearBy 2 (1 + df : ℝ) (fl (fl df + 1) : ℝ) := by
    have := d1.add ((NearBy.refl zero_le_one).mono (l := 1) (by omega))
    rw [add_comm (1 : ℝ)]
    apply fl_nearBy' (k := 1)
    push_cast
    exact this
  set x : ℝ := (1 + n) / (1 + df) with hx
  set q : ℚ := fl (fl (1 + n) / fl (fl df + 1)) with hq
  have x1 : 1 ≤ x := by rw [hx, le_div_iff₀ (by positivity)]; linarith
  have hnear : NearBy 4 x (q : ℝ) := by
    apply fl_nearBy' (k := 3)
    push_cast
    exact n1.div d2
  have q0 : (0 : ℝ) < q := lt_of_le_of_ne hnear.2.1 fun e => by
    have := hnear.zero_iff.1 e.symm
    linarith
  have q0' : 0 < q := by exact_mod_cast q0
  have hlog := hc.log q q0'
  -- the logarithm of the factor
  have gpos : (0 : ℝ) < (1 + 1 / 2 ^ 52) ^ 4 := by positivity
  have hg : Real.log ((1 + 1 / 2 ^ 52 : ℝ) ^ 4) ≤ 4 / 2 ^ 52 := by
    rw [Real.log_pow]
    have := Real.log_le_sub_one_of_pos (x := (1 + 1 / 2 ^ 52 : ℝ)) (by positivity)
    push_cast
    linarith
  have l1 : Real.log x ≤ Real.log q + 4 / 2 ^ 52 := by
    have := Real.log_le_log (by linarith) hnear.2.2.1
    rw [Real.log_mul q0.ne' gpos.ne'] at this
    linarith
  have l2 : Real.log q ≤ Real.log x + 4 / 2 ^ 52 := by
    have := Real.log_le_log q0 hnear.2.2.2
    rw [Real.log_mul (by linarith) gpos.ne'] at this
    linarith
  have l0 : 0 ≤ Real.log x := Real.log_nonneg x1
  have labs : |Real.log q| ≤ Real.log x + 4 / 2 ^ 52 := by
    rw [abs_le]
    constructor <;> linarith
  obtain ⟨e1, e2⟩ := abs_le.1 (hlog.trans (div_le_div_of_nonneg_right labs (by positivity)))
  have hidf : idf n df = Real.log x + 1 := rfl
  apply fl_nearBy' (k := 5)
  push_cast
  rw [hidf]
  set L := Real.log x with hL
  have low : L - (4 / 2 ^ 52 + (L + 4 / 2 ^ 52) / 2 ^ 50) ≤ (c.log q : ℝ) := by linarith
  have high : (c.log q : ℝ) ≤ L + (4 / 2 ^ 52 + (L + 4 / 2 ^ 52) / 2 ^ 50) := by linarith
  have g5 : (1 + 5 / 2 ^ 52 : ℝ) ≤ (1 + 1 / 2 ^ 52) ^ 5 := by norm_num
  have hy : (0 : ℝ) ≤ (c.log q : ℝ) + 1 := by
    norm_num at low
    linarith
  refine ⟨by linarith, hy, ?_, ?_⟩
  · refine le_trans ?_ (mul_le_mul_of_nonneg_left g5 hy)
    norm_num at low ⊢
    linarith
  · refine le_trans ?_ (mul_le_mul_of_nonneg_left g5 (by linarith))
    norm_num at high ⊢
    linarith

/-- The entries before normalization. -/
theorem flWeight_nearBy (hc : c.Ok) (docs : List (List (List Char))) (d : List (List Char)) (t : List Char) :
    NearBy 8 (d.count t * idf docs.length (docFreq docs t)) (fl (fl (d.count t) * flIdf c docs.length (docFreq docs t)) : ℝ) := by
  apply fl_nearBy' (k := 7)
  have h1 := fl_nearBy (q := d.count t) (by positivity)
  have h2 := h1.mul (flIdf_nearBy hc (docFreq_le (docs := docs) t))
  push_cast at h2 ⊢
  exact h2

/-- Normalization. -/
theorem flNormalize_nearBy (hc : c.Ok) {ι : Type} {l : List ι} {f : ι → ℝ} {g : ι → ℚ} (h : ∀ t ∈ l, NearBy 8 (f t) (g t)) :
    ∃ (v : ι → ℝ) (v' : ι → ℚ), normalizeRow (l.map f) = l.map v ∧ flNormalize c (l.map g) = l.map v' ∧
      ∀ t ∈ l, NearBy (l.length + 18) (v t) (v' t) := by
  set s := c.dot ((l.map g).map fun x => (x, x)) with hs
  have e : dotOf ((l.map g).map fun x => (x, x)) = (l.map fun t => g t * g t).sum := by
    unfold dotOf
    rw [List.map_map, List.map_map]
    rfl
  have h1 : NearBy (2 * 8) (l.map fun t => f t ^ 2).sum ((dotOf ((l.map g).map fun x => (x, x)) : ℚ) : ℝ) := by
    rw [e]
    have : (((l.map fun t => g t * g t).sum : ℚ) : ℝ) = (l.map fun t => (g t : ℝ) * g t).sum := by
      push_cast
      rw [List.map_map]
      congr 1
      refine List.map_congr_left fun t _ => ?_
      simp
    rw [this]
    refine NearBy.sum fun t ht => ?_
    rw [sq]
    exact (h t ht).mul (h t ht)
  have h2 : NearBy l.length ((dotOf ((l.map g).map fun x => (x, x)) : ℚ) : ℝ) (s : ℝ) := by
    have := flDot_nearBy (hc.dot ((l.map g).map fun x => (x, x))) (by
      intro p hp
      obtain ⟨x, -, rfl⟩ := List.mem_map.1 hp
      exact mul_self_nonneg x)
    rwa [List.length_map, List.length_map] at this
  have s0 : 0 ≤ s := by exact_mod_cast h2.2.1
  have h3 : NearBy (l.length + 9) (rowNorm (l.map f)) (flSqrt s : ℝ) := by
    rw [rowNorm_map]
    exact ((h1.sqrt'.trans h2.sqrt).trans (flSqrt_nearBy s0)).mono (by omega)
  have hz : s = 0 ↔ rowNorm (l.map f) = 0 := by
    have := (h1.trans h2).zero_iff
    rw [rowNorm_map, Real.sqrt_eq_zero (sum_map_nonneg fun t _ => sq_nonneg _), ← this]
    norm_cast
  by_cases h0 : s = 0
  · refine ⟨f, g, ?_, ?_, fun t ht => (h t ht).mono (by omega)⟩
    · unfold normalizeRow
      rw [if_pos (hz.1 h0)]
    · unfold flNormalize
      rw [if_pos h0]
  · refine ⟨fun t => f t / rowNorm (l.map f), fun t => fl (g t / flSqrt s), ?_, ?_, fun t ht => ?_⟩
    · unfold normalizeRow
      rw [if_neg (fun e => h0 (hz.2 e)), List.map_map]
      rfl
    · unfold flNormalize
      rw [if_neg h0, List.map_map]
      rfl
    · have := (h t ht).div h3
      rw [← Rat.cast_div] at this
      exact (fl_nearBy' this).mono (by omega)

/-! ### Rows -/

/-- The entry at a position. -/
def at0 {κ : Type} [Zero κ] (v : List κ) (i : Nat) : κ := (v[i]?).getD 0

theorem rowVec_at (D : Nat) (v : List ℚ) (i : Fin D) : rowVec D v i = at0 v i := rfl

theorem sum_at {D : Nat} {v : List ℝ} (h : v.length = D) (f : ℝ → ℝ) : (v.map f).sum = ∑ i : Fin D, f (at0 v i) := by
  have : v.map f = List.ofFn fun i : Fin D => f (at0 v i) := by
    apply List.ext_getElem
    · simp [h]
    · intro i h1 h2
      have hi : i < v.length := by simpa using h1
      simp [at0, hi]
  rw [this, List.sum_ofFn]

theorem rowDist_at {D : Nat} {v w : List ℝ} (hv : v.length = D) (hw : w.length = D) :
    rowDist v w = √(∑ i : Fin D, (at0 v i - at0 w i) ^ 2) := by
  have : List.zipWith (fun x y => (x - y) ^ 2) v w = List.ofFn fun i : Fin D => (at0 v i - at0 w i) ^ 2 := by
    apply List.ext_getElem
    · simp [hv, hw]
    · intro i h1 h2
      have hi : i < v.length := by rw [List.length_zipWith] at h1; omega
      have hj : i < w.length := by omega
      simp [at0, hi, hj]
  unfold rowDist
  rw [this, List.sum_ofFn]

theorem UnitRow.at {D : Nat} {v : List ℝ} (hv : v.length = D) (h : UnitRow v) : √(∑ i : Fin D, at0 v i ^ 2) ≤ 1 := by
  unfold UnitRow at h
  rw [sum_at hv fun x => x ^ 2] at h
  rw [Real.sqrt_le_left zero_le_one, one_pow]
  exact h

theorem TextError.distance {D n : Nat} {η : ℝ} (h : TextError D n η) : DistanceError D η := by
  refine ⟨h.1, h.2.1.trans (by norm_num), le_trans ?_ h.2.2⟩
  have : (0 : ℝ) ≤ n := by positivity
  exact div_le_div_of_nonneg_right (by linarith) (by positivity)

/-- The relative error of the entries is small. -/
theorem TextError.factor {D n k : Nat} {η : ℝ} (h : TextError D n η) (hk : k ≤ D + n + 21) :
    (1 + 1 / 2 ^ 52 : ℝ) ^ k - 1 ≤ η ^ 2 / 2 := by
  obtain ⟨h0, h1, h2⟩ := h
  have hk' : (k : ℝ) ≤ D + n + 21 := by exact_mod_cast hk
  have hη : η ^ 2 ≤ 1 / 64 := by nlinarith
  have h3 : (k : ℝ) / 2 ^ 50 ≤ η ^ 2 := (div_le_div_of_nonneg_right hk' (by positivity)).trans h2
  have h4 : (k : ℝ) * (1 / 2 ^ 52) = k / 2 ^ 50 / 4 := by ring
  have := pow_le_linear (u := (1 / 2 ^ 52 : ℝ)) (by positivity) k (by rw [h4]; linarith)
  rw [h4] at this
  linarith

/-- The computed distance of rows that are known up to a factor. -/
theorem flEuclid_rows {D n k : Nat} {η : ℝ} (hη : TextError D n η) (hk : k ≤ D + n + 21) {v w : List ℝ} {v' w' : List ℚ} (hv : RowNear D k v v')
    (hw : RowNear D k w w') (uv : UnitRow v) (uw : UnitRow w) {s : ℚ} (h : FlEuclid (rowVec D v') (rowVec D w') s) :
    |(s : ℝ) - rowDist v w| ≤ 3 * η ∧ rowDist v w ≤ 2 := by
  obtain ⟨hη0, hη1, -⟩ := id hη
  have hρ := hη.factor hk
  set ρ : ℝ := (1 + 1 / 2 ^ 52 : ℝ) ^ k - 1 with hρd
  have hρ0 : 0 ≤ ρ := by rw [hρd]; linarith [NearBy.base_pow k]
  have hρ1 : ρ ≤ η / 16 := by nlinarith
  have h1 := C122_error hη.distance h
  rw [rowDist_at hv.1 hw.1]
  have near : ∀ {z : List ℝ} {z' : List ℚ}, RowNear D k z z' → ∀ i : Fin D, |(rowVec D z' i : ℝ) - at0 z i| ≤ ρ * at0 z i :=
    fun hz i => (hz.2.2 i.1 i.2).err
  have low : ∀ {z : List ℝ} {z' : List ℚ}, RowNear D k z z' → ∀ i : Fin D, 0 ≤ at0 z i := fun hz i => (hz.2.2 i.1 i.2).1
  have low' : ∀ {z : List ℝ} {z' : List ℚ}, RowNear D k z z' → ∀ i : Fin D, (0 : ℝ) ≤ rowVec D z' i := fun hz i => (hz.2.2 i.1 i.2).2.1
  have scale : ∀ {z : List ℝ} (c : ℝ), 0 ≤ c → √(∑ i : Fin D, (c * at0 z i) ^ 2) = c * √(∑ i : Fin D, at0 z i ^ 2) := fun {z} c hc => by
    have : ∑ i : Fin D, (c * at0 z i) ^ 2 = c ^ 2 * ∑ i : Fin D, at0 z i ^ 2 := by
      rw [Finset.mul_sum]
      exact Finset.sum_congr rfl fun i _ => by ring
    rw [this, Real.sqrt_mul (sq_nonneg c), Real.sqrt_sq hc]
  have nv := uv.at hv.1
  have nw := uw.at hw.1
  -- distances between exact and computed vectors
  have move : ∀ {z : List ℝ} {z' : List ℚ}, RowNear D k z z' → √(∑ i : Fin D, at0 z i ^ 2) ≤ 1 →
      √(∑ i : Fin D, ((rowVec D z' i : ℝ) - at0 z i) ^ 2) ≤ ρ := fun {z z'} hz hn => by
    have : √(∑ i : Fin D, ((rowVec D z' i : ℝ) - at0 z i) ^ 2) ≤ √(∑ i : Fin D, (ρ * at0 z i) ^ 2) := by
      apply Real.sqrt_le_sqrt
      refine Finset.sum_le_sum fun i _ => ?_
      rw [← sq_abs]
      exact pow_le_pow_left₀ (abs_nonneg _) (near hz i) 2
    rw [scale ρ hρ0] at this
    nlinarith
  have mv := move hv nv
  have mw := move hw nw
  have sw : ∀ a b : Fin D → ℝ, √(∑ i, (a i - b i) ^ 2) = √(∑ i, (b i - a i) ^ 2) := fun a b => by
    congr 1
    exact Finset.sum_congr rfl fun i _ => by ring
  have tri : ∀ a b c : Fin D → ℝ, √(∑ i, (a i - c i) ^ 2) ≤ √(∑ i, (a i - b i) ^ 2) + √(∑ i, (b i - c i) ^ 2) := fun a b c => by
    have := sqrt_add_sum (fun i => a i - b i) (fun i => b i - c i)
    simpa using this
  have e : euclid (rowVec D v') (rowVec D w') = √(∑ i : Fin D, ((rowVec D v' i : ℝ) - rowVec D w' i) ^ 2) := rfl
  have t1 := tri (fun i => (rowVec D v' i : ℝ)) (fun i : Fin D => at0 v i) (fun i => (rowVec D w' i : ℝ))
  have t2 := tri (fun i : Fin D => at0 v i) (fun i : Fin D => at0 w i) (fun i => (rowVec D w' i : ℝ))
  have t3 := tri (fun i : Fin D => at0 v i) (fun i => (rowVec D v' i : ℝ)) (fun i : Fin D => at0 w i)
  have t4 := tri (fun i => (rowVec D v' i : ℝ)) (fun i => (rowVec D w' i : ℝ)) (fun i : Fin D => at0 w i)
  have s1 := sw (fun i : Fin D => at0 v i) (fun i => (rowVec D v' i : ℝ))
  have s2 := sw (fun i : Fin D => at0 w i) (fun i => (rowVec D w' i : ℝ))
  have d1 : |euclid (rowVec D v') (rowVec D w') - √(∑ i : Fin D, (at0 v i - at0 w i) ^ 2)| ≤ 2 * ρ := by
    rw [e, abs_le]
    constructor <;> linarith
  have both : bothLength (rowVec D v') (rowVec D w') ≤ 2 * (1 + ρ) := by
    have a1 : bothLength (rowVec D v') (rowVec D w') ≤ √(∑ i : Fin D, ((1 + ρ) * at0 v i + (1 + ρ) * at0 w i) ^ 2) := by
      apply Real.sqrt_le_sqrt
      refine Finset.sum_le_sum fun i _ => pow_le_pow_left₀ (by positivity) ?_ 2
      rw [abs_of_nonneg (low' hv i), abs_of_nonneg (low' hw i)]
      have b1 := (abs_le.1 (near hv i)).2
      have b2 := (abs_le.1 (near hw i)).2
      show _ ≤ (1 + ρ) * at0 v i + (1 + ρ) * at0 w i
      linarith
    have a2 := sqrt_add_sum (fun i : Fin D => (1 + ρ) * at0 v i) (fun i : Fin D => (1 + ρ) * at0 w i)
    have a3 := scale (z := v) (1 + ρ) (by linarith)
    have a4 := scale (z := w) (1 + ρ) (by linarith)
    have a5 : √(∑ i : Fin D, ((1 + ρ) * at0 v i + (1 + ρ) * at0 w i) ^ 2) ≤ (1 + ρ) * 1 + (1 + ρ) * 1 := by
      refine a2.trans ?_
      rw [a3, a4]
      exact add_le_add (mul_le_mul_of_nonneg_left nv (by linarith)) (mul_le_mul_of_nonneg_left nw (by linarith))
    refine a1.trans (a5.trans (by linarith))
  constructor
  · have t := abs_sub_le (s : ℝ) (euclid (rowVec D v') (rowVec D w')) (√(∑ i : Fin D, (at0 v i - at0 w i) ^ 2))
    have k1 := mul_le_mul_of_nonneg_left both hη0
    nlinarith
  · have a2 := sqrt_add_sum (fun i : Fin D => at0 v i) (fun i : Fin D => - at0 w i)
    have a3 : √(∑ i : Fin D, (at0 v i - at0 w i) ^ 2) = √(∑ i : Fin D, (at0 v i + - at0 w i) ^ 2) := by
      congr 1
    rw [a3]
    refine a2.trans ?_
    have a4 : √(∑ i : Fin D, (- at0 w i) ^ 2) = √(∑ i : Fin D, at0 w i ^ 2) := by
      congr 1
      exact Finset.sum_congr rfl fun i _ => by ring
    rw [a4]
    linarith

/-! ### Means -/

theorem flSum_nearBy {l : List ℚ} (h : ∀ x ∈ l, 0 ≤ x) : NearBy l.length (l.sum : ℝ) (flSum l : ℝ) := by
  induction l using List.reverseRecOn with
  | nil => simpa [flSum] using NearBy.refl (le_refl (0 : ℝ))
  | append_singleton l x ih =>
    have e1 : flSum (l ++ [x]) = fl (flSum l + x) := by simp [flSum]
    rw [e1, List.sum_append, List.sum_singleton, List.length_append, List.length_singleton]
    apply fl_nearBy'
    push_cast
    have hx : (0 : ℝ) ≤ x := by exact_mod_cast h x (by simp)
    have := (ih fun y hy => h y (by simp [hy])).add ((NearBy.refl hx).mono (l := l.length) (Nat.zero_le _))
    push_cast at this
    exact this

theorem flMean_nearBy {ι : Type} {k : Nat} {l : List ι} {f : ι → ℝ} {g : ι → ℚ} (h : ∀ t ∈ l, NearBy k (f t) (g t)) :
    NearBy (k + l.length + 2) ((l.map f).sum / l.length) (flMean (l.map g) : ℝ) := by
  have h1 : NearBy k (l.map f).sum (((l.map g).sum : ℚ) : ℝ) := by
    have e : (((l.map g).sum : ℚ) : ℝ) = (l.map fun t => (g t : ℝ)).sum := by
      push_cast
      rw [List.map_map]
      rfl
    rw [e]
    exact NearBy.sum h
  have h2 := flSum_nearBy (l := l.map g) (fun x hx => by
    obtain ⟨t, ht, rfl⟩ := List.mem_map.1 hx
    exact_mod_cast (h t ht).2.1)
  rw [List.length_map] at h2
  have h3 := fl_nearBy (q := 1 / l.length) (by positivity)
  have h4 := (h1.trans h2).mul h3
  have e : flMean (l.map g) = fl (flSum (l.map g) * fl (1 / l.length)) := by
    unfold flMean flSum
    rw [List.length_map]
  rw [e]
  apply fl_nearBy' (k := k + l.length + 1)
  push_cast at h4 ⊢
  rw [mul_one_div] at h4
  exact h4

theorem at0_colwise {κ : Type} [Zero κ] {D : Nat} {f : List κ → κ} {l : List (List κ)} (hne : l ≠ []) (hD : ∀ r ∈ l, r.length = D) :
    (colwise f l).length = D ∧ ∀ i, i < D → at0 (colwise f l) i = f (l.map fun r => at0 r i) := by
  obtain ⟨a, l', rfl⟩ := List.exists_cons_of_ne_nil hne
  have ha := hD a (by simp)
  unfold colwise
  refine ⟨by simp [ha], fun i hi => ?_⟩
  have : i < a.length := by omega
  simp [at0, this]

theorem at0_sumRows {D : Nat} (l : List (List ℝ)) : ∀ r : List ℝ, r.length = D → (∀ s ∈ l, s.length = D) →
    (l.foldl (List.zipWith fun x y => x + y) r).length = D ∧
    ∀ i, i < D → at0 (l.foldl (List.zipWith fun x y => x + y) r) i = at0 r i + (l.map fun s => at0 s i).sum := by
  induction l with
  | nil => intro r hr _; exact ⟨hr, fun i _ => by simp⟩
  | cons s l ih =>
    intro r hr h
    have hs := h s (by simp)
    obtain ⟨h1, h2⟩ := ih (List.zipWith (fun x y => x + y) r s) (by simp [hr, hs]) fun t ht => h t (by simp [ht])
    refine ⟨h1, fun i hi => ?_⟩
    rw [List.foldl_cons, h2 i hi, List.map_cons, List.sum_cons, ← add_assoc]
    congr 1
    have hr' : i < r.length := by omega
    have hs' : i < s.length := by omega
    simp [at0, List.getElem?_zipWith, hr', hs']

theorem at0_rowMean {D : Nat} {l : List (List ℝ)} (hne : l ≠ []) (hD : ∀ r ∈ l, r.length = D) :
    (rowMean l).length = D ∧ ∀ i, i < D → at0 (rowMean l) i = (l.map fun r => at0 r i).sum / (l.map fun r => at0 r i).length := by
  obtain ⟨a, l', rfl⟩ := List.exists_cons_of_ne_nil hne
  obtain ⟨h1, h2⟩ := at0_sumRows l' a (hD a (by simp)) fun s hs => hD s (by simp [hs])
  unfold rowMean
  refine ⟨by rw [List.length_map]; exact h1, fun i hi => ?_⟩
  rw [List.map_cons, List.sum_cons, ← h2 i hi]
  have : i < (l'.foldl (List.zipWith fun x y => x + y) a).length := by omega
  simp [at0, this]

theorem forall₂_pairs {β γ : Type} {R : β → γ → Prop} {l : List β} {l' : List γ} (h : List.Forall₂ R l l') :
    ∃ z : List (β × γ), z.map Prod.fst = l ∧ z.map Prod.snd = l' ∧ ∀ p ∈ z, R p.1 p.2 := by
  induction h with
  | nil => exact ⟨[], rfl, rfl, by simp⟩
  | @cons a b l l' hab _ ih =>
    obtain ⟨z, h1, h2, h3⟩ := ih
    refine ⟨(a, b) :: z, by simp [h1], by simp [h2], ?_⟩
    intro p hp
    rcases List.mem_cons.1 hp with rfl | hp
    · exact hab
    · exact h3 p hp

/-- The mean of rows that are known up to a factor. -/
theorem mean_rows {D k : Nat} {w : List (List ℝ)} {w' : List (List ℚ)} (hne : w ≠ []) (h : List.Forall₂ (RowNear D k) w w') :
    RowNear D (k + w.length + 2) (rowMean w) (colwise flMean w') := by
  obtain ⟨z, rfl, rfl, hz⟩ := forall₂_pairs h
  have hz0 : z ≠ [] := fun e => hne (by simp [e])
  obtain ⟨a1, a2⟩ := at0_rowMean (D := D) (l := z.map Prod.fst) hne (fun r hr => by
    obtain ⟨p, hp, rfl⟩ := List.mem_map.1 hr
    exact (hz p hp).1)
  obtain ⟨b1, b2⟩ := at0_colwise (D := D) (f := flMean) (l := z.map Prod.snd) (by simpa using hz0) (fun r hr => by
    obtain ⟨p, hp, rfl⟩ := List.mem_map.1 hr
    exact (hz p hp).2.1)
  refine ⟨a1, b1, fun i hi => ?_⟩
  have e1 := a2 i hi
  have e2 := b2 i hi
  unfold at0 at e1 e2
  rw [e1, e2, List.map_map, List.map_map, List.length_map, List.length_map]
  exact flMean_nearBy (l := z) fun p hp => (hz p hp).2.2 i hi

theorem norm_sum_rows {D : Nat} {w : List (List ℝ)} (h : ∀ r ∈ w, √(∑ i : Fin D, at0 r i ^ 2) ≤ 1) :
    √(∑ i : Fin D, (w.map fun r => at0 r i).sum ^ 2) ≤ w.length := by
  induction w with
  | nil => simp
  | cons r w ih =>
    have h1 := h r (by simp)
    have h2 := ih fun r hr => h r (by simp [hr])
    have := sqrt_add_sum (fun i : Fin D => at0 r i) (fun i : Fin D => (w.map fun r => at0 r i).sum)
    simp only [List.map_cons, List.sum_cons, List.length_cons]
    push_cast
    linarith

theorem mean_unit {D : Nat} {w : List (List ℝ)} (hne : w ≠ []) (hD : ∀ r ∈ w, r.length = D) (hu : ∀ r ∈ w, UnitRow r) :
    UnitRow (rowMean w) := by
  obtain ⟨a1, a2⟩ := at0_rowMean hne hD
  have hp : (0 : ℝ) < w.length := by exact_mod_cast List.length_pos_iff.2 hne
  have h1 := norm_sum_rows (D := D) (w := w) fun r hr => (hu r hr).at (hD r hr)
  unfold UnitRow
  rw [sum_at a1 fun x => x ^ 2]
  have e : ∑ i : Fin D, at0 (rowMean w) i ^ 2 =
      (∑ i : Fin D, (w.map fun r => at0 r i).sum ^ 2) / w.length ^ 2 := by
    rw [Finset.sum_div]
    refine Finset.sum_congr rfl fun i _ => ?_
    rw [a2 i i.2, List.length_map, div_pow]
  rw [e, div_le_one (by positivity)]
  exact (Real.sqrt_le_left hp.le).1 h1

end Verif
