import Verif.Proofs.Ieee
import Verif.Props.FloatTfidf

/-
C125: the range of binary64. Vectors of texts never leave it; other vectors may.
-/

namespace Verif

set_option exponentiation.threshold 2000

/-! ### Rounding -/

/-- C125. `rnd64` gives a number of binary64 nearest to the exact one. -/
theorem C125_round {q r : ℚ} (h : rnd64 q = some r) : Is64 r ∧ ∀ x, Is64 x → |r - q| ≤ |x - q| := rnd64_nearest h

theorem abs_fl_eq (q : ℚ) : |fl q| = fl |q| := by
  have nn : ∀ {q : ℚ}, 0 ≤ q → 0 ≤ fl q := fun {q} hq => by
    rcases hq.eq_or_lt with h | h
    · rw [← h, fl_zero]
    · exact (fl_pos h).le
  rcases le_total 0 q with h | h
  · rw [abs_of_nonneg h, abs_of_nonneg (nn h)]
  · rw [abs_of_nonpos h, fl_neg, abs_of_nonpos]
    have := nn (neg_nonneg.2 h)
    rw [fl_neg] at this
    linarith

/-- C125. Results are not finite exactly from `2^1024 - 2^970` on. -/
theorem C125_overflow (q : ℚ) : rnd64 q = none ↔ 2 ^ 1024 - 2 ^ 970 ≤ |q| := by
  have hd : rnd64 q = if |if |q| < 1 / 2 ^ 1022 then (roundEven (q * 2 ^ 1074) : ℚ) / 2 ^ 1074 else fl q| < 2 ^ 1024 then
    some (if |q| < 1 / 2 ^ 1022 then (roundEven (q * 2 ^ 1074) : ℚ) / 2 ^ 1074 else fl q) else none := rfl
  have e1 : fl (2 ^ 1024 - 2 ^ 970) = 2 ^ 1024 := by decide +kernel
  have e2 : fl (2 ^ 1024 - 2 ^ 971) = 2 ^ 1024 - 2 ^ 971 := by decide +kernel
  have i2 : IsFloat (2 ^ 1024 - 2 ^ 971) := e2 ▸ fl_isFloat _
  have p1 : (2 : ℚ) ^ 971 = 2 * 2 ^ 970 := by rw [← pow_succ']
  have p0 : (0 : ℚ) < 2 ^ 970 := by positivity
  constructor
  · intro h
    by_contra hq
    push Not at hq
    have key : |fl q| < 2 ^ 1024 := by
      rw [abs_fl_eq]
      generalize |q| = q at hq
      rcases le_total q (2 ^ 1024 - 2 ^ 971) with h1 | h1
      · have := fl_mono h1
        rw [e2] at this
        linarith
      · have h2 := fl_nearest q i2
        rw [abs_of_nonpos (show (2 : ℚ) ^ 1024 - 2 ^ 971 - q ≤ 0 by linarith)] at h2
        have h3 := le_abs_self (fl q - q)
        linarith
    by_cases hs : |q| < 1 / 2 ^ 1022
    · have hb : |q * 2 ^ 1074| ≤ 2 ^ 52 := by
        rw [abs_mul, abs_of_pos (show (0 : ℚ) < 2 ^ 1074 by positivity)]
        have e : (2 : ℚ) ^ 1074 = 2 ^ 52 * 2 ^ 1022 := by rw [← pow_add]
        rw [e]
        rw [lt_div_iff₀ (by positivity)] at hs
        nlinarith [show (0 : ℚ) < 2 ^ 52 by positivity]
      have h1 := roundEven_nearest (q * 2 ^ 1074) 0
      have h2 := abs_sub_abs_le_abs_sub (roundEven (q * 2 ^ 1074) : ℚ) (q * 2 ^ 1074)
      rw [Int.cast_zero, zero_sub, abs_neg] at h1
      have h3 : |(roundEven (q * 2 ^ 1074) : ℚ) / 2 ^ 1074| < 2 ^ 1024 := by
        rw [abs_div, abs_of_pos (show (0 : ℚ) < 2 ^ 1074 by positivity), div_lt_iff₀ (by positivity)]
        have : (2 : ℚ) ^ 53 < 2 ^ 1024 * 2 ^ 1074 := by
          rw [← pow_add]
          exact pow_lt_pow_right₀ (by norm_num) (by norm_num)
        have e : (2 : ℚ) ^ 53 = 2 * 2 ^ 52 := by rw [← pow_succ']
        linarith
      rw [hd, if_pos hs, if_pos h3] at h
      cases h
    · rw [hd, if_neg hs, if_pos key] at h
      cases h
  · intro hq
    have hs : ¬ |q| < 1 / 2 ^ 1022 := by
      have : (1 : ℚ) / 2 ^ 1022 ≤ 1 := (div_le_one (by positivity)).2 (one_le_pow₀ (by norm_num))
      have : (1 : ℚ) ≤ 2 ^ 970 := one_le_pow₀ (by norm_num)
      have : (2 : ℚ) ^ 971 ≤ 2 ^ 1024 := pow_le_pow_right₀ (by norm_num) (by norm_num)
      linarith
    rw [hd, if_neg hs, if_neg]
    rw [abs_fl_eq, not_lt, ← e1]
    exact fl_mono hq

example : rnd64 (2 ^ 1023 * 2) = none ∧ rnd64 (1 / 10) = some (3602879701896397 / 2 ^ 55) ∧
    rnd64 (1 / 2 ^ 1074 * (3 / 4)) = some (1 / 2 ^ 1074) ∧ rnd64 (1 / 2 ^ 1075) = some 0 := by decide +kernel

/-- C125. Additions never lose bits at the lower end of the range: a sum is rounded as with unbounded exponents, unless it is too large. -/
theorem C125_add {a b : ℚ} (ha : Is64 a) (hb : Is64 b) (h : |a + b| ≤ 2 ^ 1023) : rnd64 (a + b) = some (fl (a + b)) :=
  rnd64_grid (ha.2.1.add hb.2.1) h

example : Is64 (1 / 2 ^ 1074) ∧ Is64 3 :=
  ⟨⟨⟨1, -1074, by norm_num, by norm_num [zpow_neg]⟩, ⟨1, by norm_num⟩, by norm_num [abs_of_pos]⟩,
    ⟨⟨3, 0, by norm_num, by norm_num⟩, ⟨3 * 2 ^ 1074, by norm_num⟩, by norm_num⟩⟩

/-! ### Vectors -/

/-- C125. In vectors with at most `2^52` entries that are 0 or between `2^(-450)` and `2^450`, all distances are finite, and those that are
computed with unbounded exponents: what C122 says of them holds. -/
theorem C125_distance {D : Nat} (hD : D ≤ 2 ^ 52) {x y : Fin D → ℚ} (hx : ∀ i, Entry64 450 (x i)) (hy : ∀ i, Entry64 450 (y i))
    {o : Option ℚ} (h : FlEuclid64 x y o) : ∃ s, o = some s ∧ FlEuclid x y s := by
  obtain ⟨s, h1, h2, -⟩ := flEuclid64_eq hD hx hy h
  exact ⟨s, h1, h2⟩

/-- C125. Means of entries that are not negative, and 0 or between `2^(-200)` and `2^200`. -/
theorem C125_mean {l : List ℚ} (h : ∀ x ∈ l, 0 ≤ x ∧ Entry64 200 x) (hne : l ≠ []) (hl : l.length ≤ 2 ^ 50) :
    flMean64 l = some (flMean l) ∧ Entry64 450 (flMean l) := flMean64_eq h hne hl

example : Entry64 450 (1 / 2) ∧ Entry64 450 0 ∧ Entry64 200 (fl (1 / 10)) :=
  ⟨⟨⟨1, -1, by norm_num, by norm_num⟩, .inr (by norm_num [abs_of_pos]), by norm_num [abs_of_pos]⟩, entry64_zero _,
    ⟨fl_isFloat _, .inr (by decide +kernel), by decide +kernel⟩⟩

theorem flDot64_exists (l : List (ℚ × ℚ)) : ∃ o, FlDot64 l o := by
  induction l with
  | nil => exact ⟨_, .nil⟩
  | cons p l ih =>
    obtain ⟨o, h⟩ := ih
    exact ⟨_, .fma h (.refl _)⟩

theorem flEuclid64_exists {D : Nat} (x y : Fin D → ℚ) : ∃ o, FlEuclid64 x y o := by
  obtain ⟨p, hp⟩ := flDot64_exists (entries x y)
  obtain ⟨a, ha⟩ := flDot64_exists (entries x x)
  obtain ⟨b, hb⟩ := flDot64_exists (entries y y)
  exact ⟨_, .inr ⟨p, a, b, hp, ha, hb, rfl⟩⟩

theorem rnd64_tiny {q : ℚ} (h : |q| ≤ 1 / 2 ^ 1075) : rnd64 q = some 0 := by
  have e : roundEven (q * 2 ^ 1074) = 0 := by
    have hb : |q * 2 ^ 1074| ≤ 1 / 2 := by
      rw [abs_mul, abs_of_pos (show (0 : ℚ) < 2 ^ 1074 by positivity)]
      rw [le_div_iff₀ (by positivity), show (2 : ℚ) ^ 1075 = 2 ^ 1074 * 2 from pow_succ _ _] at h
      linarith
    have hb := abs_le.1 hb
    have e1 : roundEven (1 / 2) = 0 := by decide +kernel
    have e2 : roundEven (-(1 / 2)) = 0 := by decide +kernel
    exact le_antisymm (e1 ▸ roundEven_mono hb.2) (e2 ▸ roundEven_mono hb.1)
  have hs : |q| < 1 / 2 ^ 1022 := lt_of_le_of_lt h (one_div_lt_one_div_of_lt (by positivity) (pow_lt_pow_right₀ (by norm_num) (by norm_num)))
  unfold rnd64
  rw [if_pos hs, e]
  norm_num

theorem flDot64_tiny {l : List (ℚ × ℚ)} {o : Option ℚ} (h : FlDot64 l o) : (∀ p ∈ l, |p.1 * p.2| ≤ 1 / 2 ^ 1075) → o = some 0 := by
  have z : rnd64 0 = some 0 := rnd64_tiny (by rw [abs_zero]; positivity)
  induction h with
  | nil => exact fun _ => rfl
  | prod x y => exact fun h => rnd64_tiny (h (x, y) (by simp))
  | add _ _ ht ih1 ih2 =>
    intro h
    rw [ih1 fun p hp => h p (ht.symm.subset (by simp [hp])), ih2 fun p hp => h p (ht.symm.subset (by simp [hp]))]
    show rnd64 (0 + 0) = _
    rw [add_zero, z]
  | @fma l t a x y _ ht ih =>
    intro h
    rw [ih fun p hp => h p (ht.symm.subset (by simp [hp]))]
    show rnd64 (0 + x * y) = _
    rw [zero_add]
    exact rnd64_tiny (h (x, y) (ht.symm.subset (by simp)))

/-- C125. Below the range: between vectors all of whose entries are at most `2^(-538)`, every computed distance is 0. -/
theorem C125_underflow {D : Nat} {x y : Fin D → ℚ} (hx : ∀ i, |x i| ≤ 1 / 2 ^ 538) (hy : ∀ i, |y i| ≤ 1 / 2 ^ 538) {o : Option ℚ}
    (h : FlEuclid64 x y o) : o = some 0 := by
  have key : ∀ x y : Fin D → ℚ, (∀ i, |x i| ≤ 1 / 2 ^ 538) → (∀ i, |y i| ≤ 1 / 2 ^ 538) → ∀ o, FlDot64 (entries x y) o → o = some 0 := by
    intro x y hx hy o h
    refine flDot64_tiny h fun p hp => ?_
    obtain ⟨i, rfl⟩ := (List.mem_ofFn).1 hp
    show |x i * y i| ≤ _
    rw [abs_mul]
    refine (mul_le_mul (hx i) (hy i) (abs_nonneg _) (by positivity)).trans ?_
    rw [one_div_mul_one_div, ← pow_add]
    exact one_div_le_one_div_of_le (by positivity) (pow_le_pow_right₀ (by norm_num) (by norm_num))
  have z : rnd64 0 = some 0 := rnd64_tiny (by rw [abs_zero]; positivity)
  rcases h with ⟨-, h⟩ | ⟨p, a, b, hp, ha, hb, rfl⟩
  · exact h
  rw [key x y hx hy p hp, key x x hx hx a ha, key y y hy hy b hb]
  show (rnd64 (-2 * 0) >>= fun u => rnd64 (u + 0) >>= fun u => rnd64 (u + 0) >>= fun u => some (flSqrt (max 0 u))) = _
  simp only [mul_zero, add_zero, z, Option.bind_eq_bind, Option.bind_some, max_self, flSqrt_zero]

/-- Vectors at a positive distance whose computed distance is 0. -/
example : (∀ i : Fin 2, |(fun _ => 1 / 2 ^ 600 : Fin 2 → ℚ) i| ≤ 1 / 2 ^ 538) ∧ (∀ i : Fin 2, |(fun _ => 0 : Fin 2 → ℚ) i| ≤ 1 / 2 ^ 538) ∧
    (fun _ => 1 / 2 ^ 600 : Fin 2 → ℚ) ≠ fun _ => 0 :=
  ⟨by decide +kernel, by decide +kernel, fun h => absurd (congrFun h 0) (by decide +kernel)⟩

theorem rnd64_nonneg {q r : ℚ} (hq : 0 ≤ q) (h : rnd64 q = some r) : 0 ≤ r := by
  by_contra hr
  push Not at hr
  obtain ⟨-, h2⟩ := rnd64_nearest h
  have := h2 0 ⟨isFloat_zero, Grid.zero, by rw [abs_zero]; positivity⟩
  rw [zero_sub, abs_neg, abs_of_nonneg hq, abs_of_nonpos (by linarith)] at this
  linarith

theorem flDot64_nonneg {l : List (ℚ × ℚ)} {o : Option ℚ} (h : FlDot64 l o) : (∀ p ∈ l, 0 ≤ p.1 * p.2) → ∀ s, o = some s → 0 ≤ s := by
  induction h with
  | nil =>
    intro _ s hs
    cases hs
    exact le_rfl
  | prod x y => exact fun h s hs => rnd64_nonneg (h (x, y) (by simp)) hs
  | @add l r t a b _ _ ht ih1 ih2 =>
    intro h s hs
    cases a with
    | none => cases hs
    | some a =>
      cases b with
      | none => cases hs
      | some b =>
        exact rnd64_nonneg (add_nonneg (ih1 (fun p hp => h p (ht.symm.subset (by simp [hp]))) a rfl)
          (ih2 (fun p hp => h p (ht.symm.subset (by simp [hp]))) b rfl)) hs
  | @fma l t a x y _ ht ih =>
    intro h s hs
    cases a with
    | none => cases hs
    | some a =>
      exact rnd64_nonneg (add_nonneg (ih (fun p hp => h p (ht.symm.subset (by simp [hp]))) a rfl)
        (h (x, y) (ht.symm.subset (by simp)))) hs

theorem rnd64_huge {q : ℚ} (h : 2 ^ 1024 ≤ q) : rnd64 q = none := by
  rw [C125_overflow]
  have : (0 : ℚ) < 2 ^ 970 := by positivity
  exact le_trans (by linarith) (le_abs_self q)

theorem flDot64_huge {l : List (ℚ × ℚ)} {o : Option ℚ} (h : FlDot64 l o) : (∀ p ∈ l, 0 ≤ p.1 * p.2) → (∃ p ∈ l, 2 ^ 1024 ≤ p.1 * p.2) →
    o = none := by
  induction h with
  | nil => exact fun _ ⟨p, hp, _⟩ => by simp at hp
  | prod x y =>
    rintro - ⟨p, hp, h⟩
    rw [List.mem_singleton] at hp
    subst hp
    exact rnd64_huge h
  | @add l r t a b _ _ ht ih1 ih2 =>
    rintro h ⟨p, hp, hp'⟩
    rcases List.mem_append.1 (ht.subset hp) with h1 | h1
    · rw [ih1 (fun q hq => h q (ht.symm.subset (by simp [hq]))) ⟨p, h1, hp'⟩]
      rfl
    · rw [ih2 (fun q hq => h q (ht.symm.subset (by simp [hq]))) ⟨p, h1, hp'⟩]
      cases a <;> rfl
  | @fma l t a x y hl ht ih =>
    rintro h ⟨p, hp, hp'⟩
    have hs : ∀ q ∈ l, 0 ≤ q.1 * q.2 := fun q hq => h q (ht.symm.subset (by simp [hq]))
    rcases List.mem_cons.1 (ht.subset hp) with h1 | h1
    · subst h1
      cases a with
      | none => rfl
      | some a =>
        have := flDot64_nonneg hl hs a rfl
        exact rnd64_huge (by dsimp only at hp'; linarith)
    · rw [ih hs ⟨p, h1, hp'⟩]
      rfl

/-- C125. Above the range: when an entry is at least `2^512`, no computed distance to another vector is finite. -/
theorem C125_infinite {D : Nat} {x y : Fin D → ℚ} (hxy : x ≠ y) {i : Fin D} (hi : 2 ^ 512 ≤ |x i| ∨ 2 ^ 512 ≤ |y i|) {o : Option ℚ}
    (h : FlEuclid64 x y o) : o = none := by
  have key : ∀ x : Fin D → ℚ, 2 ^ 512 ≤ |x i| → ∀ o, FlDot64 (entries x x) o → o = none := by
    intro x hx o h
    refine flDot64_huge h (fun p hp => ?_) ⟨(x i, x i), (List.mem_ofFn).2 ⟨i, rfl⟩, ?_⟩
    · obtain ⟨j, rfl⟩ := (List.mem_ofFn).1 hp
      exact mul_self_nonneg (x j)
    · show 2 ^ 1024 ≤ x i * x i
      rw [← abs_mul_abs_self, show (2 : ℚ) ^ 1024 = 2 ^ 512 * 2 ^ 512 by rw [← pow_add]]
      exact mul_le_mul hx hx (by positivity) (abs_nonneg _)
  rcases h with ⟨h, -⟩ | ⟨p, a, b, hp, ha, hb, rfl⟩
  · exact absurd h hxy
  rcases hi with hi | hi
  · rw [key x hi a ha]
    cases p with
    | none => rfl
    | some p =>
      show (rnd64 (-2 * p)).bind _ = _
      cases rnd64 (-2 * p) <;> rfl
  · rw [key y hi b hb]
    cases p with
    | none => rfl
    | some p =>
      show (rnd64 (-2 * p)).bind _ = _
      cases rnd64 (-2 * p) with
      | none => rfl
      | some u =>
        cases a with
        | none => rfl
        | some a =>
          show (rnd64 (u + a)).bind _ = _
          cases rnd64 (u + a) <;> rfl

example : (fun _ => 2 ^ 512 : Fin 2 → ℚ) ≠ (fun _ => 0) ∧ (2 : ℚ) ^ 512 ≤ |(fun _ => 2 ^ 512 : Fin 2 → ℚ) 0| :=
  ⟨fun h => absurd (congrFun h 0) (by decide +kernel), le_abs_self _⟩

/-! ### Texts -/

variable {c : FlCalc64} {e : TfidfEnv}

/-- C125. The vectors of at most `2^40` texts with at most `2^40` words are finite, and those that are computed with unbounded exponents: what
C124 says of them holds. Their entries are not negative, and 0 or between `2^(-200)` and `2^200`. -/
theorem C125_tfidf (hc : c.Ok) (e : TfidfEnv) : ∃ c' : FlCalc, c'.Ok ∧ ∀ texts, FewTexts e texts →
    flTfidf64 c e texts = (flTfidf c' e texts).map some ∧
    ∀ rows, flTfidf c' e texts = .ok rows → ∀ r ∈ rows, ∀ a ∈ r, 0 ≤ a ∧ Entry64 200 a := by
  refine ⟨c.wide, FlCalc64.wide_ok hc, fun texts ⟨h1, h2⟩ => ?_⟩
  have key := fun d (hd : d ∈ texts.map (tfTerms e)) => flRow64_eq hc (by rw [List.length_map]; exact h1) h2 hd
  unfold flTfidf64 flTfidf
  dsimp only
  split
  · exact ⟨rfl, fun rows h => by cases h⟩
  split
  · exact ⟨rfl, fun rows h => by cases h⟩
  split
  · exact ⟨rfl, fun rows h => by cases h⟩
  refine ⟨?_, fun rows h => ?_⟩
  · rw [mapM_some fun d hd => (key d hd).1]
    rfl
  · cases h
    intro r hr
    obtain ⟨d, hd, rfl⟩ := List.mem_map.1 hr
    exact (key d hd).2

example : FewTexts asciiTfidf equalTexts := by
  unfold FewTexts
  decide +kernel

section
variable {α : Type} [LinearOrder α]

/-- C125. `vectorize`, within the range of binary64. -/
theorem C125_vectors (hc : c.Ok) {tenv : TextEnv (List ℝ)} (ht : tenv.tfidf = tfidf e) {tenv' : TextEnv (List ℚ)}
    (ht' : Tfidf64 c e tenv'.tfidf) {texts : Dict α PyText} (hn : (dkeys texts).Nodup) (hfew : FewTexts e (texts.map fun p => p.2.toStr))
    (model : String) :
    (∀ err, vectorize tenv' texts "tfidf" model = .error err ↔ vectorize tenv texts "tfidf" model = .error err) ∧
    ∀ vs, vectorize tenv texts "tfidf" model = .ok vs → ∃ D vs', vectorize tenv' texts "tfidf" model = .ok vs' ∧ TextVectors D vs vs' ∧
      Rows64 vs' := by
  obtain ⟨c', hc', h64⟩ := C125_tfidf hc e
  obtain ⟨h1, h2⟩ := h64 _ hfew
  set wide : TextEnv (List ℚ) := { tenv' with tfidf := flTfidf c' e } with hw
  have same : tenv'.tfidf (texts.map fun p => p.2.toStr) = wide.tfidf (texts.map fun p => p.2.toStr) := by
    show _ = flTfidf c' e _
    obtain ⟨t1, t2⟩ := ht' (texts.map fun p => p.2.toStr)
    cases hr : flTfidf c' e (texts.map fun p => p.2.toStr) with
    | error err => exact t1 err (by rw [h1, hr]; rfl)
    | ok rows => exact t2 rows (by rw [h1, hr]; rfl)
  have hvec : vectorize tenv' texts "tfidf" model = vectorize wide texts "tfidf" model := by
    have htx : ((dkeys texts).mapM fun x => do return (← dget texts x).toStr : Except PyErr (List (List Char))) =
      .ok (texts.map fun p => p.2.toStr) := texts_ok hn
    unfold vectorize
    simp only [if_true]
    simp only [bind, Except.bind, pure, Except.pure] at htx ⊢
    rw [htx]
    dsimp only
    rw [same]
  obtain ⟨v1, v2⟩ := C124_vectors hc' ht (tenv' := wide) rfl hn model
  rw [hvec]
  refine ⟨v1, fun vs hvs => ?_⟩
  obtain ⟨D, vs', w1, w2⟩ := v2 vs hvs
  refine ⟨D, vs', w1, w2, fun x v hx => ?_⟩
  obtain ⟨u1, u2⟩ := C52_vectorize_tfidf (env := wide) hn model
  cases hr : flTfidf c' e (texts.map fun p => p.2.toStr) with
  | error err =>
    rw [u1 err hr] at w1
    cases w1
  | ok rows =>
    obtain ⟨a1, a2⟩ := u2 rows hr
    rcases Nat.lt_or_ge rows.length texts.length with hlt | hge
    · rw [a1 hlt] at w1
      cases w1
    · obtain ⟨r, b1, b2, b3⟩ := a2 hge
      rw [b1] at w1
      cases w1
      obtain ⟨i, hi⟩ := List.mem_iff_getElem?.1 (b2 ▸ mem_dkeys_of_dget? hx)
      rw [b3 i x hi] at hx
      exact h2 rows hr v (List.mem_of_getElem? hx)

variable {m : Manager α} {vs : Dict α (List ℝ)} {vs' : Dict α (List ℚ)} {D n : Nat} {η : ℝ}

theorem TextError.size (h : TextError D n η) : D ≤ 2 ^ 50 ∧ n ≤ 2 ^ 50 := by
  obtain ⟨h0, h1, h2⟩ := h
  have h3 : η ^ 2 ≤ 1 := by nlinarith
  have h4 : ((D : ℝ) + n + 21) ≤ 2 ^ 50 := by
    rw [div_le_iff₀ (by norm_num)] at h2
    linarith
  have h5 : D + n + 21 ≤ 2 ^ 50 := by exact_mod_cast h4
  omega

theorem entry64_rowVec {D t : Nat} {v : List ℚ} (h : ∀ a ∈ v, Entry64 t a) (i : Fin D) : Entry64 t (rowVec D v i) := by
  unfold rowVec
  cases e : v[i.1]? with
  | none => exact entry64_zero t
  | some a => exact h a (List.mem_of_getElem? e)

/-- C125. The distances between IDs. -/
theorem C125_distances (hη : TextError D n η) (h : TextVectors D vs vs') (h64 : Rows64 vs') {d : List ℚ → List ℚ → ℝ}
    (hd : ComputedRows64 d) : DistancesWithin (3 * η) m rowDist vs d vs' := by
  intro x _ y _ a b ha hb
  unfold distanceOf at ha hb
  cases e1 : dget? vs' x with
  | none => rw [e1] at hb; simp at hb
  | some v' =>
    cases e2 : dget? vs' y with
    | none => rw [e1, e2] at hb; simp at hb
    | some w' =>
      obtain ⟨v, hv, v1, v2⟩ := h.get e1
      obtain ⟨w, hw, w1, w2⟩ := h.get e2
      rw [e1, e2] at hb
      rw [hv, hw] at ha
      cases ha
      cases hb
      obtain ⟨o, h1, h2⟩ := hd D v' w' v1.2.1 w1.2.1
      obtain ⟨s, rfl, h3⟩ := C125_distance (hη.size.1.trans (by norm_num))
        (entry64_rowVec fun a ha => (h64 x v' e1 a ha).2.mono (by norm_num))
        (entry64_rowVec fun a ha => (h64 y w' e2 a ha).2.mono (by norm_num)) h1
      rw [h2 s rfl]
      exact (flEuclid_rows hη (by omega) v1 w1 v2 w2 h3).1

/-- C125. Hierarchical clustering (single, complete) of texts, within the range of binary64. -/
theorem C125_hierarchical (hm : Reachable m) (hη : TextError D n η) (h : TextVectors D vs vs') (h64 : Rows64 vs') {env : HierEnv (List ℝ) ℝ}
    {env' : HierEnv (List ℚ) ℝ} (he : env.metric = rowDist) (he' : ComputedRows64 env'.metric) {o o₁ : HObject α (List ℝ)}
    {o' : HObject α (List ℚ)} (hl : o.linkage = .single ∨ o.linkage = .complete) (ho : SameTree o o') {nb : Option Int} {r : Dict α Int}
    (hr : o.cluster env m (some vs) nb = (o₁, .ok r)) (hgap : GapDistances (6 * η) rowDist vs m.managed) :
    (o'.cluster env' m (some vs') nb).2 = .ok r ∧ SameTree o₁ (o'.cluster env' m (some vs') nb).1 := by
  obtain ⟨vs0, n0, h0, -, -, hv0, -⟩ := hier_args hr
  cases h0
  refine C111_hierarchical hm ho hr (h.has hv0) (ε := 3 * η) (C111_linkage hl hv0 (h.has hv0) (he ▸ C125_distances hη h h64 he')) ?_
  rw [show 3 * η + 3 * η = 6 * η by ring]
  exact C111_gap hl hm hr (he ▸ hgap)

/-- C125. C-DBScan on texts, within the range of binary64. -/
theorem C125_dbscan (hη : TextError D n η) (h : TextVectors D vs vs') (h64 : Rows64 vs') {env : DbEnv α (List ℝ) ℝ}
    {env' : DbEnv α (List ℚ) ℝ} (he : env.metric = rowDist) (he' : ComputedRows64 env'.metric) {p : DbParams ℝ}
    (hmargin : RadiusMargin (3 * η) m rowDist vs p.eps) (henum : env'.enum = env.enum) (hnone : env'.none = env.none) (nb : Option Int) :
    dbCluster env' p m (some vs') nb = dbCluster env p m (some vs) nb :=
  C111_dbscan h.domain (he ▸ C125_distances hη h h64 he') (he ▸ hmargin) rfl henum hnone rfl rfl nb

/-- C125. Sampling of pairs of texts, within the range of binary64. -/
theorem C125_sampling (hm : Reachable m) (hη : TextError D n η) (h : TextVectors D vs vs') (h64 : Rows64 vs') {cfg : Sampler}
    {d : List ℚ → List ℚ → ℝ} (hd : ComputedRows64 d) {clustering : Option (Dict α Int)}
    (hgap : ∀ p q, Eligible cfg m clustering p → Eligible cfg m clustering q → p ≠ q → ∀ a b, distanceOf rowDist vs p.1 p.2 = some a →
      distanceOf rowDist vs q.1 q.2 = some b → 6 * η < |b - a|) (nb : Option Int) (pick : List (α × α) → Nat → List (α × α)) :
    cfg.sample m nb clustering (some vs') d pick = cfg.sample m nb clustering (some vs) rowDist pick :=
  C111_sampling hm h.domain (C125_distances hη h h64 hd) (by
    rw [show 3 * η + 3 * η = 6 * η by ring]
    exact hgap) nb pick

variable {tol : ℚ} {enum : List Int → List Int} {shuffle : List α → List α} {env' : KMeansEnv α (List ℚ) ℝ}

theorem forall₂_choose {β γ : Type} {R : β → Option γ → Prop} {T : β → γ → Prop} {l : List β} {os : List (Option γ)}
    (h : List.Forall₂ R l os) (hT : ∀ b ∈ l, ∀ o, R b o → ∃ s, o = some s ∧ T b s) : ∃ ds, os = ds.map some ∧ List.Forall₂ T l ds := by
  induction h with
  | nil => exact ⟨[], rfl, .nil⟩
  | @cons b o l os a _ ih =>
    obtain ⟨s, rfl, h1⟩ := hT b (by simp) o a
    obtain ⟨ds, rfl, h2⟩ := ih fun b' hb' => hT b' (by simp [hb'])
    exact ⟨s :: ds, rfl, .cons h1 h2⟩

/-- The mean of rows, and where its entries are. -/
theorem colwise64 {l : List (List ℚ)} (hne : l ≠ []) (hl : l.length ≤ 2 ^ 50) (h : ∀ r ∈ l, ∀ a ∈ r, 0 ≤ a ∧ Entry64 200 a) :
    (colwise flMean l).map some = (List.range ((l.head?.map List.length).getD 0)).map (fun i => flMean64 (l.map fun r => (r[i]?).getD 0)) ∧
      ∀ a ∈ colwise flMean l, Entry64 450 a := by
  have key : ∀ i : Nat, flMean64 (l.map fun r => (r[i]?).getD 0) = some (flMean (l.map fun r => (r[i]?).getD 0)) ∧
      Entry64 450 (flMean (l.map fun r => (r[i]?).getD 0)) := fun i => by
    refine C125_mean (fun x hx => ?_) (by simpa using hne) (by rw [List.length_map]; exact hl)
    obtain ⟨r, hr, rfl⟩ := List.mem_map.1 hx
    cases e : r[i]? with
    | none => exact ⟨le_rfl, entry64_zero _⟩
    | some a => exact h r hr a (List.mem_of_getElem? e)
  refine ⟨?_, fun a ha => ?_⟩
  · unfold colwise
    rw [List.map_map]
    exact List.map_congr_left fun i _ => (key i).1.symm
  · obtain ⟨i, -, rfl⟩ := List.mem_map.1 ha
    exact (key i).2

omit [LinearOrder α] in
theorem FlRowKmeans64.rowsOn (hf : FlRowKmeans64 tol env') (hD : D ≤ 2 ^ 50) (hn : n ≤ 2 ^ 50) :
    RowsOn D n (fun v => ∀ a ∈ v, 0 ≤ a ∧ Entry64 200 a) (fun v => ∀ a ∈ v, Entry64 450 a) tol env' where
  sub v h a ha := (h a ha).2.mono (by norm_num)
  metric v w hv hw lv lw := by
    obtain ⟨o, h1, h2⟩ := hf.metric D v w lv lw
    obtain ⟨s, rfl, h3⟩ := C125_distance (hD.trans (by norm_num)) (entry64_rowVec hv) (entry64_rowVec hw) h1
    exact ⟨s, h3, h2 s rfl⟩
  mean l hne hl h := by
    obtain ⟨h1, h2⟩ := colwise64 hne (hl.trans hn) fun r hr => (h r hr).1
    exact ⟨hf.mean l _ h1, h2⟩
  small l hl h := by
    obtain ⟨os, h1, h2⟩ := hf.small l fun p hp => (h p hp).1.2.trans (h p hp).2.2.symm
    obtain ⟨ds, rfl, h3⟩ := forall₂_choose
      (T := fun p s => FlEuclid (rowVec D p.1) (rowVec D p.2) s ∧ 0 ≤ s ∧ Grid s ∧ s ≤ 2 ^ 900) h1 fun p hp o ho => by
        rw [(h p hp).1.2] at ho
        exact flEuclid64_eq (hD.trans (by norm_num)) (entry64_rowVec (h p hp).1.1) (entry64_rowVec (h p hp).2.1) ho
    refine ⟨ds, h3.imp fun _ _ h => h.1, h2 ds _ rfl (flSum64_eq (fun x hx => ?_) ?_).1⟩
    · obtain ⟨p, -, h4⟩ := forall₂_mem_right h3 hx
      exact h4.2
    · rw [← h3.length_eq]
      exact hl.trans hn

/-- C125. COP-KMeans of texts, within the range of binary64. -/
theorem C125_kmeans (he : (rowKmEnv (tol : ℝ) enum shuffle).Ok) (hm : Reachable m) (hvs : HasVectors m vs) (hf : FlRowKmeans64 tol env')
    (hen : env'.enum = enum) (hsh : env'.shuffle = shuffle) (hη : TextError D m.managed.length η) (h : TextVectors D vs vs') (h64 : Rows64 vs')
    {model : String} {i : Int} {neg : Bool} {it : Nat} (hi : kmInit model i neg = .ok it) {nb : Int}
    (hmar : CenterMargin (6 * η) (rowKmEnv (tol : ℝ) enum shuffle) m vs (min nb.toNat m.managed.length))
    (hs : RowMoveMargin (4 * η) tol (rowKmEnv (tol : ℝ) enum shuffle) m vs (min nb.toNat m.managed.length)) {r : Dict α Int}
    {cs : Dict Int (List ℝ)} (hr : kmCluster (rowKmEnv (tol : ℝ) enum shuffle) it m (some vs) (some nb) = .ok (r, cs)) :
    ∃ cs', kmCluster env' it m (some vs') (some nb) = .ok (r, cs') ∧ dkeys cs' = dkeys cs ∧
      ∀ k c c', dget? cs k = some c → dget? cs' k = some c' → RowNear D (D + m.managed.length + 20) c c' :=
  rows_kmeans he hm hvs (hf.rowsOn hη.size.1 hη.size.2) (fun x v hx => h64 x v hx) hen hsh hη h hi hmar hs hr

/-- C125. The program of the documentation, from the texts, with vectors within the range of binary64 and any distances. -/
theorem C125_truthful {δ : Type} [LinearOrder δ] (hc : c.Ok) (hsp : e.isWord ' ' = false) {tenv : TextEnv (List ℚ)}
    (ht : Tfidf64 c e tenv.tfidf) {texts : Dict α PyText}
    (hn : (dkeys texts).Nodup) {pre : Dict α (List Char)} (hp : preprocess tenv {} texts = .ok pre)
    (hfew : FewTexts e (pre.map fun p => p.2)) {x y : α} {s s' : List Char}
    (hxy : x ≠ y) (hx : dget? pre x = some s) (hy : dget? pre y = some s') (hs : ShareWord e s s')
    {answer : Manager α → α → α → CType} {truth : α → Nat} (hans : ∀ m x y, Agrees truth x y (answer m x y))
    (htwo : ∃ x ∈ dkeys texts, ∃ y ∈ dkeys texts, truth x ≠ truth y) {first : KMeansEnv α (List ℚ) δ} (hf : first.Ok)
    {chances : List (Chance α (List ℚ) δ)} (hch : ∀ c ∈ chances, c.Ok)
    (hlen : (dkeys texts).length * ((dkeys texts).length - 1) / 2 ≤ chances.length) :
    ∃ m r, usageTexts tenv texts answer first chances = .ok (m, r) ∧ (∀ x, x ∈ dkeys r ↔ x ∈ dkeys texts) ∧
      ∀ x ∈ dkeys texts, ∀ y ∈ dkeys texts, (dget? r x = dget? r y ↔ truth x = truth y) := by
  set exact : TextEnv (List ℝ) := ⟨tenv.lower, tenv.strip, tenv.nfkd, tenv.combining, tenv.installed, tenv.nlp, fun _ _ => .ok [], tfidf e⟩
    with hex
  have hp' : preprocess exact {} texts = .ok pre := hp
  have hk : dkeys pre = dkeys texts := C52_preprocess_keys hn hp
  have hkeys : dkeys (pre.map fun p => (p.1, PyText.str p.2)) = dkeys pre := by
    unfold dkeys
    rw [List.map_map]
    rfl
  obtain ⟨vs, h1, h2, -⟩ := (C102_program hsp (tenv := exact) rfl hn hp' answer
    (⟨fun _ _ => (0 : Nat), fun _ => [], fun _ => true, id, id⟩ : KMeansEnv α (List ℝ) Nat) []).2 x y s s' hxy hx hy hs
  obtain ⟨D, vs', h3, h4, -⟩ := (C125_vectors hc (tenv := exact) rfl ht (by rw [hkeys, hk]; exact hn) (by
    rw [List.map_map]
    exact hfew) "fr_core_news_md").2 vs h1
  have h5 : usageTexts tenv texts answer first chances = usage (dkeys texts) vs' answer first chances := by
    unfold usageTexts
    rw [hp]
    dsimp only [bind, Except.bind]
    rw [h3]
  rw [h5]
  refine C72_truthful (fun z hz => ?_) hans htwo hf hch hlen
  obtain ⟨v, hv⟩ := h2 z hz
  exact exists_dget?_iff.2 (h4.keys.symm ▸ mem_dkeys_of_dget? hv)

end

/-! ### Examples -/

/-- A computed distance. -/
noncomputable def dist64 (v w : List ℚ) : Option ℚ := (flEuclid64_exists (rowVec v.length v) (rowVec v.length w)).choose

/-- An environment of COP-KMeans in binary64; 0 where the results are not finite. -/
noncomputable def row64Env {α : Type} (tolerance : ℚ) (enum : List Int → List Int) (shuffle : List α → List α) : KMeansEnv α (List ℚ) ℝ where
  metric v w := ((dist64 v w).getD 0 : ℚ)
  mean l := (List.range ((l.head?.map List.length).getD 0)).map fun i => (flMean64 (l.map fun r => (r[i]?).getD 0)).getD 0
  small l := decide ((flSum64 (l.map fun p => (dist64 p.1 p.2).getD 0)).getD 0 < tolerance)
  enum := enum
  shuffle := shuffle

theorem row64_ok {α : Type} (tolerance : ℚ) (enum : List Int → List Int) (shuffle : List α → List α) :
    FlRowKmeans64 tolerance (row64Env tolerance enum shuffle) := by
  have hd : ∀ v w : List ℚ, FlEuclid64 (rowVec v.length v) (rowVec v.length w) (dist64 v w) := fun v w => (flEuclid64_exists _ _).choose_spec
  refine ⟨fun D v w hv hw => ?_, fun l r hr => ?_, fun l hl => ?_⟩
  · subst hv
    refine ⟨dist64 v w, hd v w, fun s hs => ?_⟩
    show (((dist64 v w).getD 0 : ℚ) : ℝ) = s
    rw [hs]
    rfl
  · have := congrArg (List.map fun o : Option ℚ => o.getD 0) hr
    rw [List.map_map, List.map_map] at this
    rw [show ((fun o : Option ℚ => o.getD 0) ∘ some) = id from rfl, List.map_id] at this
    exact this.symm
  · refine ⟨l.map fun p => dist64 p.1 p.2, ?_, fun ds t h1 h2 => ?_⟩
    · rw [List.forall₂_map_right_iff, List.forall₂_same]
      exact fun p _ => hd p.1 p.2
    · have h3 : (l.map fun p => (dist64 p.1 p.2).getD 0) = ds := by
        have := congrArg (List.map fun o : Option ℚ => o.getD 0) h1
        rw [List.map_map, List.map_map, show ((fun o : Option ℚ => o.getD 0) ∘ some) = id from rfl, List.map_id] at this
        exact this
      show decide ((flSum64 (l.map fun p => (dist64 p.1 p.2).getD 0)).getD 0 < tolerance) = true ↔ _
      rw [h3, h2, decide_eq_true_iff]
      rfl

theorem thread_64 : Rows64 threadFloat := by
  have h : ∀ p ∈ slopeLine, 0 ≤ fl (p.2 / 20) ∧ (fl (p.2 / 20) = 0 ∨ 1 / 2 ^ 200 ≤ |fl (p.2 / 20)|) ∧ |fl (p.2 / 20)| ≤ 2 ^ 200 := by
    decide +kernel
  intro x v hx a ha
  have e : dget? threadFloat x = _ := dget?_dmap (f := id) Function.injective_id (fun t => [fl (t / 20)]) slopeLine x
  rw [e] at hx
  obtain ⟨t, ht, rfl⟩ := Option.map_eq_some_iff.1 hx
  rw [List.mem_singleton] at ha
  subst ha
  obtain ⟨h1, h2⟩ := h (x, t) (mem_of_dget? ht)
  exact ⟨h1, fl_isFloat _, h2⟩

/-- The hypotheses of `C125_kmeans`, and what COP-KMeans returns. -/
example : ∃ cs', kmCluster (row64Env (1 / 10000) List.dedup id) 150 (Manager.init [1, 2, 3, 4]) (some threadFloat) (some 2) =
    .ok ([(1, 0), (2, 0), (3, 1), (4, 1)], cs') := by
  obtain ⟨cs, h⟩ := thread_kmeans
  obtain ⟨cs', h1, -⟩ := C125_kmeans (m := Manager.init [1, 2, 3, 4]) thread_env_ok ⟨_, [], rfl⟩ thread_has (row64_ok _ _ _) rfl rfl
    threadError thread_near thread_64 (model := "COP") (i := 150) (neg := false) rfl (nb := 2) thread_margin thread_moves h
  exact ⟨cs', h1⟩

/-- The hypotheses of `C125_hierarchical`, and what hierarchical clustering returns. -/
example : ((⟨.complete, [], none, []⟩ : HObject Nat (List ℚ)).cluster ⟨(row64Env (α := Nat) 0 id id).metric, colwise flMean, fun l a b =>
    l.sum / (a * b : Nat)⟩ (Manager.init [1, 2, 3, 4]) (some threadFloat) (some 2)).2 = .ok [(1, 0), (2, 0), (3, 1), (4, 1)] :=
  (C125_hierarchical (m := Manager.init [1, 2, 3, 4]) (o' := ⟨.complete, [], none, []⟩) ⟨_, [], rfl⟩ threadError thread_near thread_64
    (env := threadExact) rfl (row64_ok (α := Nat) 0 id id).metric (.inr rfl) ⟨rfl, rfl, rfl, rfl⟩
    (Prod.ext_iff.2 ⟨rfl, thread_hier⟩) thread_gap).1

/-- The hypotheses of `C125_dbscan`, and what C-DBScan then does. -/
example : dbCluster ⟨(row64Env (α := Nat) 0 id id).metric, id, 0⟩ ⟨3 / 5, fun n => decide (1 ≤ n), 2⟩ (Manager.init [1, 2, 3, 4]) (some threadFloat) none =
    dbCluster ⟨rowDist, id, 0⟩ ⟨3 / 5, fun n => decide (1 ≤ n), 2⟩ (Manager.init [1, 2, 3, 4]) (some threadRows) none :=
  C125_dbscan threadError thread_near thread_64 rfl (row64_ok (α := Nat) 0 id id).metric thread_radius rfl rfl none

theorem flCalc64_ok : ∃ c : FlCalc64, c.Ok := by
  obtain ⟨c, hc⟩ := flCalc_ok
  exact ⟨⟨c.log, fun l => (flDot64_exists l).choose⟩, hc.log, fun l => (flDot64_exists l).choose_spec⟩

/-- The documented program, from two texts. -/
example : ∃ (tenv : TextEnv (List ℚ)) (m : Manager Nat) (r : Dict Nat Int),
    usageTexts tenv ([(1, .str "red car".toList), (2, .str "my, car".toList)] : Dict Nat PyText) (usageTruth id)
      (row64Env (1 / 10000) List.dedup id) [⟨row64Env (1 / 10000) List.dedup id, fun l k => l.reverse.take k, plainOrders⟩] = .ok (m, r) ∧
    dget? r 1 ≠ dget? r 2 := by
  obtain ⟨c, hc⟩ := flCalc64_ok
  have henv : (row64Env (α := Nat) (1 / 10000) List.dedup id).Ok := ⟨fun l => ⟨List.nodup_dedup l, fun x => List.mem_dedup⟩, fun l => .refl l⟩
  obtain ⟨m, r, h1, -, h3⟩ := C125_truthful hc (e := asciiTfidf) (tenv := ⟨id, id, id, fun _ => false, fun _ => true,
      fun _ s => .ok ((wordPieces (fun c => c != ' ') s).map fun w => ⟨w, w, w.isEmpty, false, false, false, 0⟩), fun _ _ => .ok [],
      fun t => (flTfidf64 c asciiTfidf t).map fun o => o.getD []⟩) (by decide)
    (fun t => ⟨fun err h => by dsimp only; rw [h]; rfl, fun rows h => by dsimp only; rw [h]; rfl⟩)
    (texts := ([(1, .str "red car".toList), (2, .str "my, car".toList)] : Dict Nat PyText)) (by decide)
    (pre := [(1, "red car".toList), (2, "my car".toList)]) (by rfl) (by unfold FewTexts; decide +kernel) (x := 1) (y := 2) (by decide) rfl rfl
    ⟨"car".toList, wordOf_iff.2 (by decide +kernel), wordOf_iff.2 (by decide +kernel)⟩ (answer := usageTruth id) (truth := id)
    (fun m x y => by unfold usageTruth; split <;> assumption) ⟨1, by decide, 2, by decide, by decide⟩ henv
    (chances := [⟨row64Env (1 / 10000) List.dedup id, fun l k => l.reverse.take k, plainOrders⟩])
    (by
      intro c hc
      rw [List.mem_singleton] at hc
      subst hc
      exact ⟨henv, fun l k hk => ⟨by simpa using hk, ((List.take_sublist _ _).subperm).trans (List.reverse_perm l).subperm⟩,
        fun nodes adj => plainOrders_valid nodes adj⟩) (by decide)
  exact ⟨_, m, r, h1, fun h => absurd ((h3 1 (by decide) 2 (by decide)).1 h) (by decide)⟩

end Verif
