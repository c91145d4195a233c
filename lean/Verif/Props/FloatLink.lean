import Verif.Model.FloatLink
import Verif.Spec.FloatLink
import Verif.Props.FloatDot
import Verif.Proofs.HierLoop

/-
C123: hierarchical clustering with the linkages "average" and "ward" in binary64, with all versions of Python.
-/

set_option linter.unusedSectionVars false

namespace Verif

variable {D : Nat}

/-! ### Python's sums of floats -/

theorem neu_state (l : List ℚ) (hl : l.length ≤ 2 ^ 23) :
    |(l.foldl neuStep (0, 0)).1 - l.sum| ≤ 2 * l.length / 2 ^ 53 * (l.map fun x => |x|).sum ∧
    |(l.foldl neuStep (0, 0)).2| ≤ 8 * l.length / 2 ^ 53 * (l.map fun x => |x|).sum ∧ |l.sum| ≤ (l.map fun x => |x|).sum := by
  induction l using List.reverseRecOn with
  | nil => simp
  | append_singleton l x ih =>
    have hl2 : l.length + 1 ≤ 2 ^ 23 := by simpa using hl
    obtain ⟨h1, h2, h3⟩ := ih (by omega)
    have hk : (l.length : ℚ) + 1 ≤ 2 ^ 23 := by exact_mod_cast hl2
    have hk0 : (0 : ℚ) ≤ l.length := by positivity
    rw [List.foldl_append, List.foldl_cons, List.foldl_nil, List.sum_append, List.map_append, List.sum_append, List.length_append]
    simp only [List.map_cons, List.map_nil, List.sum_cons, List.sum_nil, add_zero, List.length_cons, List.length_nil, zero_add]
    push_cast
    generalize (l.map fun x => |x|).sum = A at *
    generalize l.foldl neuStep (0, 0) = p at *
    generalize l.sum = S at *
    generalize (l.length : ℚ) = k at *
    have hx := abs_nonneg x
    have hA0 : 0 ≤ A := (abs_nonneg S).trans h3
    have hxA : |x| ≤ A + |x| := by linarith
    have hAA : A ≤ A + |x| := by linarith
    obtain ⟨s, c⟩ := p
    show |fl (s + x) - (S + x)| ≤ _ ∧ |fl (c + if |x| ≤ |s| then fl (fl (s - fl (s + x)) + x) else fl (fl (x - fl (s + x)) + s))| ≤ _ ∧ _
    dsimp only at h1 h2
    generalize hA' : A + |x| = A' at *
    have hA'0 : 0 ≤ A' := by linarith
    have hku : 2 * k / 2 ^ 53 ≤ 1 / 2 ^ 29 := by
      rw [div_le_div_iff₀ (by positivity) (by positivity)]
      nlinarith
    have hsS : |s - S| ≤ 1 / 2 ^ 29 * A' :=
      h1.trans ((mul_le_mul_of_nonneg_right hku hA0).trans (mul_le_mul_of_nonneg_left hAA (by positivity)))
    have hSA : |S + x| ≤ A' := by
      have := abs_add_le S x
      linarith
    have hsx : |s + x| ≤ (1 + 1 / 2 ^ 29) * A' := by
      have := abs_add_le (s - S) (S + x)
      rw [show s - S + (S + x) = s + x by ring] at this
      linarith
    have hs : |s| ≤ (1 + 1 / 2 ^ 29) * A' := by
      have := abs_add_le (s - S) S
      rw [sub_add_cancel] at this
      linarith
    have ht := fl_err (s + x)
    generalize fl (s + x) = t at *
    have ht1 : |t - (s + x)| ≤ (1 + 1 / 2 ^ 29) * A' / 2 ^ 53 := ht.trans (by gcongr)
    have hfirst : |t - (S + x)| ≤ 2 * (k + 1) / 2 ^ 53 * A' := by
      have a1 := abs_add_le (t - (s + x)) (s - S)
      rw [show t - (s + x) + (s - S) = t - (S + x) by ring] at a1
      have a2 : 2 * k / 2 ^ 53 * A ≤ 2 * k / 2 ^ 53 * A' := mul_le_mul_of_nonneg_left hAA (by positivity)
      have a3 : 2 * (k + 1) / 2 ^ 53 * A' = 2 * k / 2 ^ 53 * A' + 2 / 2 ^ 53 * A' := by ring
      have a4 : (1 + 1 / 2 ^ 29) * A' / 2 ^ 53 ≤ 2 / 2 ^ 53 * A' := by
        rw [show (1 + 1 / 2 ^ 29) * A' / 2 ^ 53 = (1 + 1 / 2 ^ 29) / 2 ^ 53 * A' by ring]
        exact mul_le_mul_of_nonneg_right (by norm_num) hA'0
      linarith
    refine ⟨hfirst, ?_, hSA⟩
    -- the compensation of this step
    have key : ∀ a b : ℚ, |b| ≤ (1 + 1 / 2 ^ 29) * A' → a + b = s + x → |fl (fl (a - t) + b)| ≤ 6 / 2 ^ 53 * A' := by
      intro a b hb hab
      have b1 : |a - t| ≤ 3 * A' := by
        have := abs_add_le (-(t - (s + x))) (-b)
        rw [abs_neg, abs_neg, show -(t - (s + x)) + -b = a - t by rw [← hab]; ring] at this
        have e1 : (1 + 1 / 2 ^ 29) * A' / 2 ^ 53 ≤ A' / 2 := by
          rw [show (1 + 1 / 2 ^ 29) * A' / 2 ^ 53 = (1 + 1 / 2 ^ 29) / 2 ^ 53 * A' by ring, show A' / 2 = 1 / 2 * A' by ring]
          exact mul_le_mul_of_nonneg_right (by norm_num) hA'0
        have e2 : (1 + 1 / 2 ^ 29) * A' ≤ 2 * A' := mul_le_mul_of_nonneg_right (by norm_num) hA'0
        linarith
      have b2 := (fl_err (a - t)).trans (div_le_div_of_nonneg_right b1 (by positivity))
      generalize fl (a - t) = y at *
      have b3 : |y + b| ≤ 5 / 2 ^ 53 * A' := by
        have := abs_add_le (y - (a - t)) (-(t - (s + x)))
        rw [abs_neg, show y - (a - t) + -(t - (s + x)) = y + b by rw [← hab]; ring] at this
        have e1 : (1 + 1 / 2 ^ 29) * A' / 2 ^ 53 ≤ 2 / 2 ^ 53 * A' := by
          rw [show (1 + 1 / 2 ^ 29) * A' / 2 ^ 53 = (1 + 1 / 2 ^ 29) / 2 ^ 53 * A' by ring]
          exact mul_le_mul_of_nonneg_right (by norm_num) hA'0
        have e2 : 5 / 2 ^ 53 * A' = 3 * A' / 2 ^ 53 + 2 / 2 ^ 53 * A' := by ring
        linarith
      have b4 := fl_err (y + b)
      have b5 := abs_add_le (fl (y + b) - (y + b)) (y + b)
      rw [sub_add_cancel] at b5
      have e3 : |y + b| / 2 ^ 53 ≤ 1 / 2 ^ 53 * A' := by
        rw [show |y + b| / 2 ^ 53 = 1 / 2 ^ 53 * |y + b| by ring]
        refine mul_le_mul_of_nonneg_left (b3.trans ?_) (by positivity)
        calc 5 / 2 ^ 53 * A' ≤ 1 * A' := mul_le_mul_of_nonneg_right (by norm_num) hA'0
          _ = A' := one_mul _
      have e4 : 6 / 2 ^ 53 * A' = 1 / 2 ^ 53 * A' + 5 / 2 ^ 53 * A' := by ring
      linarith
    have hz : |if |x| ≤ |s| then fl (fl (s - t) + x) else fl (fl (x - t) + s)| ≤ 6 / 2 ^ 53 * A' := by
      split
      · refine key s x (hxA.trans ?_) rfl
        calc A' = 1 * A' := (one_mul _).symm
          _ ≤ (1 + 1 / 2 ^ 29) * A' := mul_le_mul_of_nonneg_right (by norm_num) hA'0
      · exact key x s hs (add_comm _ _)
    generalize (if |x| ≤ |s| then fl (fl (s - t) + x) else fl (fl (x - t) + s)) = z at *
    have c1 := fl_err (c + z)
    have c2 := abs_add_le (fl (c + z) - (c + z)) (c + z)
    rw [sub_add_cancel] at c2
    have c3 : |c + z| ≤ 8 * k / 2 ^ 53 * A' + 6 / 2 ^ 53 * A' := by
      have := abs_add_le c z
      have : 8 * k / 2 ^ 53 * A ≤ 8 * k / 2 ^ 53 * A' := mul_le_mul_of_nonneg_left hAA (by positivity)
      linarith
    have c4 : |c + z| / 2 ^ 53 ≤ 1 / 2 ^ 53 * A' := by
      rw [show |c + z| / 2 ^ 53 = 1 / 2 ^ 53 * |c + z| by ring]
      refine mul_le_mul_of_nonneg_left (c3.trans ?_) (by positivity)
      rw [← add_mul]
      have : 8 * k / 2 ^ 53 + 6 / 2 ^ 53 ≤ 1 := by linarith
      calc (8 * k / 2 ^ 53 + 6 / 2 ^ 53) * A' ≤ 1 * A' := mul_le_mul_of_nonneg_right this hA'0
        _ = A' := one_mul _
    have c5 : 8 * (k + 1) / 2 ^ 53 * A' = 8 * k / 2 ^ 53 * A' + 6 / 2 ^ 53 * A' + 2 / 2 ^ 53 * A' := by ring
    have c6 : 1 / 2 ^ 53 * A' ≤ 2 / 2 ^ 53 * A' := mul_le_mul_of_nonneg_right (by norm_num) hA'0
    linarith

theorem flSum_dot (l : List ℚ) : FlDot (l.map fun x => (x, 1)) (flSum l) := by
  induction l using List.reverseRecOn with
  | nil => exact .nil
  | append_singleton l x ih =>
    have h := FlDot.fma (x := x) (y := 1) (t := (l ++ [x]).map fun x => (x, 1)) ih (by simp)
    rw [mul_one] at h
    have e : flSum (l ++ [x]) = fl (flSum l + x) := by simp [flSum]
    rw [e]
    exact h

/-- The error of `sum` with all versions of Python, for up to `2^23` floats. -/
theorem C123_sum {l : List ℚ} {t : ℚ} (h : PySum l t) (hl : l.length ≤ 2 ^ 23) :
    |t - l.sum| ≤ (10 * l.length + 2) / 2 ^ 53 * (l.map fun x => |x|).sum := by
  have hk : (l.length : ℚ) ≤ 2 ^ 23 := by exact_mod_cast hl
  have hk0 : (0 : ℚ) ≤ l.length := by positivity
  obtain ⟨h1, h2, h3⟩ := neu_state l hl
  have hA0 : 0 ≤ (l.map fun x => |x|).sum := (abs_nonneg _).trans h3
  rcases h with rfl | rfl
  · have h4 := C122_dot (flSum_dot l)
    rw [List.map_map, List.map_map, List.length_map] at h4
    simp only [Function.comp_def, mul_one, List.map_id'] at h4
    refine h4.trans (mul_le_mul_of_nonneg_right ?_ hA0)
    have hu : (0 : ℝ) ≤ 1 / 2 ^ 53 := by positivity
    have hkR : (l.length : ℝ) ≤ 2 ^ 23 := by exact_mod_cast hk
    have hkR0 : (0 : ℝ) ≤ l.length := by positivity
    have h5 := pow_le_linear hu l.length (by
      have : 2 * ((l.length : ℝ) * (1 / 2 ^ 53)) ≤ 2 * (2 ^ 23 * (1 / 2 ^ 53)) := by gcongr
      refine this.trans ?_
      norm_num)
    have h6 : (((1 + 1 / 2 ^ 53) ^ l.length : ℚ) : ℝ) ≤ ((1 + 2 * (l.length * (1 / 2 ^ 53)) : ℚ) : ℝ) := by
      push_cast
      exact h5
    have h7 : ((1 + 1 / 2 ^ 53) ^ l.length : ℚ) ≤ 1 + 2 * (l.length * (1 / 2 ^ 53)) := by exact_mod_cast h6
    have h8 : 2 * ((l.length : ℚ) * (1 / 2 ^ 53)) ≤ (10 * l.length + 2) / 2 ^ 53 := by
      rw [show 2 * ((l.length : ℚ) * (1 / 2 ^ 53)) = (2 * l.length) / 2 ^ 53 by ring]
      exact div_le_div_of_nonneg_right (by linarith) (by positivity)
    linarith
  · unfold neuSum
    dsimp only
    generalize l.foldl neuStep (0, 0) = p at *
    generalize (l.map fun x => |x|).sum = A at *
    generalize l.sum = S at *
    generalize (l.length : ℚ) = k at *
    have a1 := fl_err (p.1 + p.2)
    have a2 : |p.1 + p.2 - S| ≤ 10 * k / 2 ^ 53 * A := by
      have := abs_add_le (p.1 - S) p.2
      rw [show p.1 - S + p.2 = p.1 + p.2 - S by ring] at this
      have e : 10 * k / 2 ^ 53 * A = 2 * k / 2 ^ 53 * A + 8 * k / 2 ^ 53 * A := by ring
      linarith
    have a3 : |p.1 + p.2| ≤ 2 * A := by
      have := abs_add_le (p.1 + p.2 - S) S
      rw [sub_add_cancel] at this
      have e : 10 * k / 2 ^ 53 * A ≤ 1 * A := by
        refine mul_le_mul_of_nonneg_right ?_ hA0
        rw [div_le_one (by positivity)]
        linarith
      linarith
    have a4 : |p.1 + p.2| / 2 ^ 53 ≤ 2 / 2 ^ 53 * A := by
      rw [show 2 / 2 ^ 53 * A = 2 * A / 2 ^ 53 by ring]
      exact div_le_div_of_nonneg_right a3 (by positivity)
    have a5 := abs_add_le (fl (p.1 + p.2) - (p.1 + p.2)) (p.1 + p.2 - S)
    rw [show fl (p.1 + p.2) - (p.1 + p.2) + (p.1 + p.2 - S) = fl (p.1 + p.2) - S by ring] at a5
    have e : (10 * k + 2) / 2 ^ 53 * A = 2 / 2 ^ 53 * A + 10 * k / 2 ^ 53 * A := by ring
    linarith

/-! ### Linkages -/

section
variable {α : Type} [LinearOrder α] {m : Manager α} {vs : Dict α (Fin D → ℚ)} {B R : ℚ} {η : ℝ} {env' : HierEnv (Fin D → ℚ) ℝ}

/-- Means of vectors of managed IDs. -/
theorem vecMean_near (hv : VectorsUpTo m vs B R) (hn : m.managed.length ≤ 2 ^ 20) {xs : List α} {w : List (Fin D → ℚ)} (hne : xs ≠ [])
    (hnd : xs.Nodup) (hsub : ∀ x ∈ xs, x ∈ m.managed) (h : List.Forall₂ (fun x v => dget? vs x = some v) xs w) (i : Fin D) :
    |exactMean w i| ≤ B ∧ |flMeanVec w i - exactMean w i| ≤ B / 2 ^ 31 := by
  obtain ⟨hB, hB0, -, -⟩ := hv
  have hb : ∀ v ∈ w.map fun v => v i, |v| ≤ B := fun t ht => by
    obtain ⟨v, hv, rfl⟩ := List.mem_map.1 ht
    obtain ⟨x, hx, hxv⟩ := forall₂_mem_right h hv
    exact hB x (hsub x hx) v hxv i
  have hne' : w ≠ [] := by
    rintro rfl
    cases h
    exact hne rfl
  have hlen : (w.map fun v => v i).length ≤ 2 ^ 20 := by
    rw [List.length_map, ← h.length_eq]
    exact (hnd.subperm hsub).length_le.trans hn
  have hm := C121_float_mean (l := w.map fun v => v i) (by simpa using hne') hb hlen
  rw [List.length_map] at hm
  refine ⟨?_, hm⟩
  have hpos : (0 : ℚ) < w.length := by exact_mod_cast List.length_pos_iff.2 hne'
  show |(w.map fun v => v i).sum / w.length| ≤ B
  have := abs_sum_le hb
  rw [List.length_map] at this
  rw [abs_div, abs_of_pos hpos, div_le_iff₀ hpos, mul_comm]
  exact this

theorem vectors_unique {xs : List α} {w w' : List (Fin D → ℚ)} (h : List.Forall₂ (fun x v => dget? vs x = some v) xs w)
    (h' : List.Forall₂ (fun x v => dget? vs x = some v) xs w') : w' = w := by
  induction h generalizing w' with
  | nil => cases h'; rfl
  | cons a _ ih =>
    cases h' with
    | cons b t =>
      rw [a] at b
      cases b
      rw [ih t]

/-- The distances of the linkage "average" are off by at most `3 * η * R`. -/
theorem C123_average_within (hf : FlHier env') (hη : DistanceError D η) (hv : VectorsUpTo m vs B R) (hn : m.managed.length ≤ 2 ^ 20) :
    LinkageWithin (3 * η * R) .average m euclidHierEnv vs env' vs := by
  intro xs ys hx hy hnd hman d d' hd hd'
  obtain ⟨v, w, h1, h2, rfl⟩ := hd
  obtain ⟨v', w', h1', h2', rfl⟩ := hd'
  rw [vectors_unique h1 h1', vectors_unique h2 h2', hf.mean]
  have a1 := vecMean_near hv hn hx (hnd.sublist (List.sublist_append_left _ _)) (fun x h => hman x (List.mem_append_left _ h)) h1
  have a2 := vecMean_near hv hn hy (hnd.sublist (List.sublist_append_right _ _)) (fun x h => hman x (List.mem_append_right _ h)) h2
  obtain ⟨s, h3, h4⟩ := hf.metric (flMeanVec v) (flMeanVec w)
  obtain ⟨-, hB0, hR0, hBR⟩ := hv
  rw [h4]
  exact flEuclid_near hη hB0 hR0 hBR (fun i => (a1 i).1) (fun i => (a2 i).1) (fun i => (a1 i).2) (fun i => (a2 i).2) h3

theorem flEuclid_nonneg {x y : Fin D → ℚ} {s : ℚ} (h : FlEuclid x y s) : 0 ≤ s := by
  rcases h with ⟨-, rfl⟩ | ⟨p, a, b, -, -, -, rfl⟩
  · exact le_rfl
  · have hq : 0 ≤ max 0 (fl (fl (-2 * p + a) + b)) := le_max_left _ _
    generalize max 0 (fl (fl (-2 * p + a) + b)) = q at hq
    have h1 := (abs_le.1 (C99_sqrt hq).2.2).1
    have h2 := Real.sqrt_nonneg (q : ℝ)
    have h3 : √(q : ℝ) / 2 ^ 53 ≤ √(q : ℝ) := div_le_self h2 (by norm_num)
    have : (0 : ℝ) ≤ flSqrt q := by linarith
    exact_mod_cast this

theorem error_low (hη : DistanceError D η) : (1 : ℝ) / 2 ^ 25 ≤ η := by
  have h3 : ((1 : ℝ) / 2 ^ 25) ^ 2 ≤ η ^ 2 := by
    refine le_trans ?_ hη.2.2
    have : (0 : ℝ) ≤ D := by positivity
    have e : (2 : ℝ) / 2 ^ 50 ≤ ((D : ℝ) + 2) / 2 ^ 50 := div_le_div_of_nonneg_right (by linarith) (by positivity)
    refine le_trans ?_ e
    norm_num
  exact (pow_le_pow_iff_left₀ (by positivity) hη.1 (by norm_num)).1 h3

/-- The linkage "ward" with rounded sums and quotients, for distances that are off by at most `δ` and at most `M`. -/
theorem ward_rounded {V V' : Type} {env : HierEnv V ℝ} {env' : HierEnv V' ℝ} (hw0 : ∀ l i j, env.ward l i j = l.sum / (i * j)) {vs : Dict α V}
    {vs' : Dict α V'} {δ M : ℝ} (hd0 : DistancesWithin δ m env.metric vs env'.metric vs') {P : ℚ → Prop}
    (hex : ∀ x ∈ m.managed, ∀ v, dget? vs' x = some v → ∀ y ∈ m.managed, ∀ w, dget? vs' y = some w →
      ∃ s : ℚ, 0 ≤ s ∧ P s ∧ env'.metric v w = s ∧ (s : ℝ) ≤ M)
    (hward : ∀ (l : List ℚ) i j, (∀ s ∈ l, 0 ≤ s ∧ P s) → l.length ≤ 2 ^ 23 → 0 < i → 0 < j → i + j ≤ 2 ^ 12 → ∃ t, PySum l t ∧
      env'.ward (l.map fun s : ℚ => (s : ℝ)) i j = (fl (t / (i * j : Nat)) : ℚ)) (hn : m.managed.length ≤ 2 ^ 12) :
    LinkageWithin (δ * m.managed.length / 2 + 1 / 2 ^ 26 * (M * m.managed.length / 2)) .ward m env vs env' vs' := by
  intro xs ys hx hy hnd hman d d' hd hd'
  -- the same distances with an exact sum
  have step1 := C111_ward (m := m) (env := env) (env' := ⟨env'.metric, env'.mean, fun l i j => l.sum / (i * j)⟩) hw0
    (fun _ _ _ => rfl) (vs := vs) (vs' := vs') hd0 xs ys hx hy hnd hman
  have step2 := C111_ward (m := m) (env := ⟨fun _ _ => (0 : ℝ), env'.mean, fun l i j => l.sum / (i * j)⟩)
    (env' := ⟨env'.metric, env'.mean, fun l i j => l.sum / (i * j)⟩) (fun _ _ _ => rfl) (fun _ _ _ => rfl) (vs := vs') (vs' := vs') (ε := M)
    (fun x hx y hy e e' h h' => by
      unfold distanceOf at h h'
      cases e1 : dget? vs' x with
      | none => rw [e1] at h; simp at h
      | some v =>
        cases e2 : dget? vs' y with
        | none => rw [e1, e2] at h; simp at h
        | some w =>
          rw [e1, e2] at h h'
          simp only [Option.some.injEq] at h h'
          subst h; subst h'
          rw [sub_zero]
          obtain ⟨s, s1, -, s2, s3⟩ := hex x hx v e1 y hy w e2
          rw [show (HierEnv.metric _ v w : ℝ) = _ from s2, abs_of_nonneg (by exact_mod_cast s1)]
          exact s3) xs ys hx hy hnd hman
  obtain ⟨ds', h1', rfl⟩ := hd'
  have h5 := step1 d _ hd ⟨ds', h1', rfl⟩
  have h6 := step2 (((laterPairs (xs ++ ys)).map fun _ => (0 : ℝ)).sum / (xs.length * ys.length)) _ ⟨_, by
    rw [List.forall₂_map_right_iff]
    rw [List.forall₂_same]
    intro p hp
    obtain ⟨s, -, hs⟩ := forall₂_mem_left h1' hp
    obtain ⟨v, w, e1, e2, -⟩ := hs
    exact ⟨v, w, e1, e2, rfl⟩, rfl⟩ ⟨ds', h1', rfl⟩
  dsimp only at h5 h6
  have hz : ((laterPairs (xs ++ ys)).map fun _ => (0 : ℝ)).sum = 0 := by simp
  rw [hz, zero_div, sub_zero] at h6
  -- the rounded sum
  have hq : ∃ q : List ℚ, ds' = q.map (fun s : ℚ => (s : ℝ)) ∧ ∀ s ∈ q, 0 ≤ s ∧ P s := by
    clear h5 h6 hd step1 step2
    have hL : ∀ p ∈ laterPairs (xs ++ ys), p.1 ∈ m.managed ∧ p.2 ∈ m.managed := fun p hp =>
      ⟨hman _ (laterPairs_mem hp).1, hman _ (laterPairs_mem hp).2⟩
    generalize laterPairs (xs ++ ys) = L at h1' hL
    induction h1' with
    | nil => exact ⟨[], rfl, by simp⟩
    | @cons p _ _ _ a _ ih =>
      obtain ⟨q, rfl, hq⟩ := ih fun p hp => hL p (List.mem_cons_of_mem _ hp)
      obtain ⟨v, w, e1, e2, e⟩ := a
      obtain ⟨s, h7, hP, h8, -⟩ := hex _ (hL p List.mem_cons_self).1 v e1 _ (hL p List.mem_cons_self).2 w e2
      refine ⟨s :: q, by rw [e, h8]; rfl, ?_⟩
      intro t ht
      rcases List.mem_cons.1 ht with rfl | ht
      · exact ⟨h7, hP⟩
      · exact hq t ht
  obtain ⟨q, rfl, hqP⟩ := hq
  have hq0 : ∀ s ∈ q, 0 ≤ s := fun s hs => (hqP s hs).1
  have hN : xs.length + ys.length ≤ m.managed.length := by
    rw [← List.length_append]
    exact (hnd.subperm hman).length_le
  have hlen : ∀ l : List α, 2 * (laterPairs l).length + l.length = l.length * l.length := by
    intro l
    induction l with
    | nil => rfl
    | cons a l ih =>
      rw [laterPairs, List.length_append, List.length_map, List.length_cons]
      nlinarith
  have hq23 : q.length ≤ 2 ^ 23 := by
    have e1 := h1'.length_eq
    rw [List.length_map] at e1
    have e2 := hlen (xs ++ ys)
    rw [e1, List.length_append] at e2
    have e3 : (xs.length + ys.length) * (xs.length + ys.length) ≤ 2 ^ 12 * 2 ^ 12 := Nat.mul_le_mul (by omega) (by omega)
    omega
  obtain ⟨t, ht, hw⟩ := hward q xs.length ys.length hqP hq23 (List.length_pos_iff.2 hx) (List.length_pos_iff.2 hy) (by omega)
  have hs := C123_sum ht hq23
  have habs : (q.map fun x => |x|) = q := by
    conv_rhs => rw [← List.map_id q]
    exact List.map_congr_left fun x hx => abs_of_nonneg (hq0 x hx)
  rw [habs] at hs
  have hsum : (q.map fun s : ℚ => (s : ℝ)).sum = ((q.sum : ℚ) : ℝ) := by
    push_cast
    rfl
  have hS0 : 0 ≤ q.sum := List.sum_nonneg hq0
  have hp : (0 : ℚ) < xs.length * ys.length := by
    have a1 : 0 < xs.length := List.length_pos_iff.2 hx
    have a2 : 0 < ys.length := List.length_pos_iff.2 hy
    exact_mod_cast Nat.mul_pos a1 a2
  rw [hsum] at h5 h6
  rw [hw]
  have hk : (q.length : ℚ) ≤ 2 ^ 23 := by exact_mod_cast hq23
  have hround : |fl (t / (xs.length * ys.length : Nat)) - q.sum / (xs.length * ys.length)| ≤ 1 / 2 ^ 26 * (q.sum / (xs.length * ys.length)) := by
    push_cast
    generalize (xs.length * ys.length : ℚ) = P at hp
    have a1 := fl_err (t / P)
    have a2 : |t / P - q.sum / P| ≤ (10 * q.length + 2) / 2 ^ 53 * (q.sum / P) := by
      rw [← sub_div, abs_div, abs_of_pos hp, ← mul_div_assoc]
      exact div_le_div_of_nonneg_right hs hp.le
    have hW : 0 ≤ q.sum / P := div_nonneg hS0 hp.le
    generalize q.sum / P = W at *
    generalize t / P = T at *
    have a3 : (10 * (q.length : ℚ) + 2) / 2 ^ 53 ≤ 11 / 2 ^ 30 := by
      rw [div_le_div_iff₀ (by positivity) (by positivity)]
      linarith
    have a4 : |T - W| ≤ 11 / 2 ^ 30 * W := a2.trans (mul_le_mul_of_nonneg_right a3 hW)
    have a5 : |T| ≤ 2 * W := by
      have := abs_add_le (T - W) W
      rw [sub_add_cancel, abs_of_nonneg hW] at this
      linarith
    have a6 : |T| / 2 ^ 53 ≤ 2 / 2 ^ 53 * W := by
      rw [show 2 / 2 ^ 53 * W = 2 * W / 2 ^ 53 by ring]
      exact div_le_div_of_nonneg_right a5 (by positivity)
    have a7 := abs_add_le (fl T - T) (T - W)
    rw [show fl T - T + (T - W) = fl T - W by ring] at a7
    linarith
  have hround' : |((fl (t / (xs.length * ys.length : Nat)) : ℚ) : ℝ) - ((q.sum : ℚ) : ℝ) / (xs.length * ys.length)| ≤
      1 / 2 ^ 26 * (((q.sum : ℚ) : ℝ) / (xs.length * ys.length)) := by
    have := (Rat.cast_le (K := ℝ)).2 hround
    push_cast at this ⊢
    exact this
  generalize ((fl (t / (xs.length * ys.length : Nat)) : ℚ) : ℝ) = F at *
  generalize ((q.sum : ℚ) : ℝ) / (xs.length * ys.length) = W at *
  have h7 := le_of_abs_le h6
  have h8 : 1 / 2 ^ 26 * W ≤ 1 / 2 ^ 26 * (M * m.managed.length / 2) := mul_le_mul_of_nonneg_left h7 (by positivity)
  have h9 := abs_sub_le F W d
  linarith

/-- The distances of the linkage "ward" for up to `2^12` IDs are off by at most `2 * N * η * R`, where `N` is the number of IDs. -/
theorem C123_ward_within (hf : FlHier env') (hη : DistanceError D η) (hv : VectorsUpTo m vs B R) (hn : m.managed.length ≤ 2 ^ 12) :
    LinkageWithin (2 * m.managed.length * η * R) .ward m euclidHierEnv vs env' vs := by
  have hd0 := C122_distances hη hv hf.metric
  have hR0 : (0 : ℝ) ≤ R := by exact_mod_cast hv.2.2.1
  have hex : ∀ x ∈ m.managed, ∀ v, dget? vs x = some v → ∀ y ∈ m.managed, ∀ w, dget? vs y = some w →
      ∃ s : ℚ, 0 ≤ s ∧ True ∧ env'.metric v w = s ∧ (s : ℝ) ≤ 4 * R := by
    intro x hx v hxv y hy w hyw
    have h1 := hd0 x hx y hy _ _ (by unfold distanceOf; rw [hxv, hyw]) (by unfold distanceOf; rw [hxv, hyw])
    have h2 : euclid v w ≤ 2 * R := by
      refine (euclid_le_both _ _).trans (bothLength_le (b := 2 * B) (by positivity) (fun i => ?_) ?_)
      · have a1 : |(v i : ℝ)| ≤ B := by exact_mod_cast hv.1 x hx v hxv i
        have a2 : |(w i : ℝ)| ≤ B := by exact_mod_cast hv.1 y hy w hyw i
        linarith
      · have : (D : ℝ) * (B : ℝ) ^ 2 ≤ (R : ℝ) ^ 2 := by exact_mod_cast hv.2.2.2
        nlinarith
    have h3 : 0 ≤ euclid v w := Real.sqrt_nonneg _
    have h4 : 2 * η * R ≤ 2 * R := by
      have := mul_le_mul_of_nonneg_right hη.2.1 hR0
      linarith
    have h5 := abs_le.1 h1
    obtain ⟨s, h7, h8⟩ := hf.metric v w
    refine ⟨s, flEuclid_nonneg h7, trivial, h8, ?_⟩
    rw [← h8]
    linarith
  have h := ward_rounded (env := euclidHierEnv) (fun _ _ _ => rfl) hd0 hex (fun l i j _ _ _ _ _ => hf.ward l i j) hn
  intro xs ys hx hy hnd hman d d' hd hd'
  refine (h xs ys hx hy hnd hman d d' hd hd').trans ?_
  have hηl := error_low hη
  have hN0 : (0 : ℝ) ≤ m.managed.length := by positivity
  have e3 : (1 : ℝ) / 2 ^ 25 * (m.managed.length * R) ≤ η * (m.managed.length * R) :=
    mul_le_mul_of_nonneg_right hηl (mul_nonneg hN0 hR0)
  have e4 : 2 * η * (R : ℝ) * m.managed.length / 2 = η * (m.managed.length * R) := by ring
  have e5 : 2 * (m.managed.length : ℝ) * η * R = η * (m.managed.length * R) + η * (m.managed.length * R) := by ring
  have e6 : (1 : ℝ) / 2 ^ 26 * (4 * R * m.managed.length / 2) = 1 / 2 ^ 25 * (m.managed.length * R) := by ring
  linarith

/-- Hierarchical clustering with the linkage "average" returns in binary64 what it returns in exact arithmetic, when each merge of the
exact tree wins by more than `6 * η * R`. -/
theorem C123_average (hm : Reachable m) (hf : FlHier env') (hη : DistanceError D η) (hv : VectorsUpTo m vs B R)
    (hn : m.managed.length ≤ 2 ^ 20) {o o₁ o' : HObject α (Fin D → ℚ)} (hl : o.linkage = .average) (ho : SameTree o o') {nb : Option Int}
    {r : Dict α Int} (hr : o.cluster euclidHierEnv m (some vs) nb = (o₁, .ok r))
    (hmargin : MergeMargin (6 * η * R) euclidHierEnv .average m vs o₁.storage) :
    (o'.cluster env' m (some vs) nb).2 = .ok r ∧ SameTree o₁ (o'.cluster env' m (some vs) nb).1 := by
  obtain ⟨vs0, n0, h0, -, -, hv0, -⟩ := hier_args hr
  cases h0
  refine C111_hierarchical hm ho hr hv0 (ε := 3 * η * R) (hl ▸ C123_average_within hf hη hv hn) ?_
  rw [show 3 * η * R + 3 * η * R = 6 * η * R by ring, hl]
  exact hmargin

/-- The same with the linkage "ward", when each merge of the exact tree wins by more than `4 * N * η * R`. -/
theorem C123_ward (hm : Reachable m) (hf : FlHier env') (hη : DistanceError D η) (hv : VectorsUpTo m vs B R)
    (hn : m.managed.length ≤ 2 ^ 12) {o o₁ o' : HObject α (Fin D → ℚ)} (hl : o.linkage = .ward) (ho : SameTree o o') {nb : Option Int}
    {r : Dict α Int} (hr : o.cluster euclidHierEnv m (some vs) nb = (o₁, .ok r))
    (hmargin : MergeMargin (4 * m.managed.length * η * R) euclidHierEnv .ward m vs o₁.storage) :
    (o'.cluster env' m (some vs) nb).2 = .ok r ∧ SameTree o₁ (o'.cluster env' m (some vs) nb).1 := by
  obtain ⟨vs0, n0, h0, -, -, hv0, -⟩ := hier_args hr
  cases h0
  refine C111_hierarchical hm ho hr hv0 (ε := 2 * m.managed.length * η * R) (hl ▸ C123_ward_within hf hη hv hn) ?_
  rw [show 2 * m.managed.length * η * R + 2 * m.managed.length * η * R = 4 * m.managed.length * η * R by ring, hl]
  exact hmargin

/-- Without any margin: no merge of the run in binary64 is, computed exactly, more than twice the error farther apart than another pair of
clusters that existed and that has no cannot-link. -/
theorem C123_near_best (hm : Reachable m) (hf : FlHier env') (hη : DistanceError D η) (hv : VectorsUpTo m vs B R)
    (hn : m.managed.length ≤ 2 ^ 12) {o o₁ : HObject α (Fin D → ℚ)} {nb : Option Int} {r : Dict α Int}
    (hr : o.cluster env' m (some vs) nb = (o₁, .ok r)) {i a b : Nat} {n : HCluster α (Fin D → ℚ)} (hi : dget? o₁.storage i = some n)
    (hc : n.children = [a, b]) {c e : Nat} (hca : Alive o₁.storage i c) (hea : Alive o₁.storage i e) (hce : c < e)
    (hop : ¬ Opposed m (membersOf o₁.storage c) (membersOf o₁.storage e)) {d d' : ℝ}
    (hd : LinkageIs euclidHierEnv o.linkage vs (membersOf o₁.storage a) (membersOf o₁.storage b) d)
    (hd' : LinkageIs euclidHierEnv o.linkage vs (membersOf o₁.storage c) (membersOf o₁.storage e) d') :
    d ≤ d' + (6 + 4 * m.managed.length) * η * R := by
  obtain ⟨vs0, n0, h0, -, -, hv0, -⟩ := hier_args hr
  cases h0
  have hηR : 0 ≤ η * R := mul_nonneg hη.1 (by exact_mod_cast hv.2.2.1)
  have hN0 : (0 : ℝ) ≤ m.managed.length := by positivity
  have hNR : 0 ≤ (m.managed.length : ℝ) * (η * R) := mul_nonneg hN0 hηR
  have hw : LinkageWithin ((3 + 2 * m.managed.length) * (η * R)) o.linkage m euclidHierEnv vs env' vs := by
    have weak : ∀ {ε : ℝ}, ε ≤ (3 + 2 * m.managed.length) * (η * R) → LinkageWithin ε o.linkage m euclidHierEnv vs env' vs →
        LinkageWithin ((3 + 2 * m.managed.length) * (η * R)) o.linkage m euclidHierEnv vs env' vs :=
      fun hle h xs ys h1 h2 h3 h4 d d' h5 h6 => (h xs ys h1 h2 h3 h4 d d' h5 h6).trans hle
    cases hl : o.linkage with
    | average => exact hl ▸ weak (by nlinarith) (hl ▸ C123_average_within hf hη hv (by omega))
    | ward => exact hl ▸ weak (by nlinarith) (hl ▸ C123_ward_within hf hη hv hn)
    | single => exact hl ▸ weak (ε := 2 * η * R) (by nlinarith) (C111_linkage (.inl hl) hv0 hv0 (C122_distances hη hv hf.metric))
    | complete => exact hl ▸ weak (ε := 2 * η * R) (by nlinarith) (C111_linkage (.inr hl) hv0 hv0 (C122_distances hη hv hf.metric))
  have := C111_near_best hm hr hw hi hc hca hea hce hop hd hd'
  have e : (6 + 4 * (m.managed.length : ℝ)) * η * R = (3 + 2 * m.managed.length) * (η * R) + (3 + 2 * m.managed.length) * (η * R) := by ring
  rw [e]
  exact this

end

/-! ### The version of Python matters -/

/-- Without a margin the version of Python can change the clusters: the vectors 0.1, 0.2, 0.5 and 0.9 with the linkage "ward". In exact
arithmetic the second merge is a tie, which the code decides by the sizes, as Python 3.12 does here. -/
theorem C123_versions : ∃ (m : Manager Nat) (vs : Dict Nat ℚ) (r r' : Dict Nat Int), Reachable m ∧ (∀ x v, dget? vs x = some v → IsFloat v) ∧
    ((⟨.ward, [], none, []⟩ : HObject Nat ℚ).cluster flHierEnv m (some vs) (some 2)).2 = .ok r ∧
    ((⟨.ward, [], none, []⟩ : HObject Nat ℚ).cluster neuHierEnv m (some vs) (some 2)).2 = .ok r' ∧ dget? r 1 = dget? r 3 ∧
    dget? r' 1 ≠ dget? r' 3 := by
  refine ⟨Manager.init [1, 2, 3, 4], [(1, fl (1 / 10)), (2, fl (2 / 10)), (3, fl (5 / 10)), (4, fl (9 / 10))], [(1, 0), (2, 0), (3, 0), (4, 1)], [(1, 0), (2, 0), (3, 1), (4, 1)],
    ⟨_, [], rfl⟩, ?_, by decide +kernel, by decide +kernel, by decide +kernel, by decide +kernel⟩
  intro x v hv
  have := mem_of_dget? hv
  simp only [List.mem_cons, Prod.mk.injEq, List.not_mem_nil, or_false] at this
  rcases this with ⟨-, rfl⟩ | ⟨-, rfl⟩ | ⟨-, rfl⟩ | ⟨-, rfl⟩ <;> exact fl_isFloat _

/-! ### Examples -/

/-- The two sums of 0.1, 0.2 and 0.3. -/
example : PySum [fl (1 / 10), fl (2 / 10), fl (3 / 10)] (fl (6 / 10)) ∧ flSum [fl (1 / 10), fl (2 / 10), fl (3 / 10)] ≠ fl (6 / 10) :=
  ⟨.inr (by decide +kernel), by decide +kernel⟩

/-- One of the possible environments. -/
noncomputable def seqHierEnv : HierEnv (Fin D → ℚ) ℝ where
  metric x y := (distSeq x y : ℚ)
  mean := flMeanVec
  ward l i j :=
    open Classical in
    if h : ∃ q : List ℚ, l = q.map (fun s : ℚ => (s : ℝ)) then (fl (flSum h.choose / (i * j : Nat)) : ℚ) else 0

theorem seqHier : FlHier (seqHierEnv (D := D)) := by
  refine ⟨fun x y => ⟨_, distSeq_spec x y, rfl⟩, rfl, fun l i j => ⟨flSum l, .inl rfl, ?_⟩⟩
  have h : ∃ q : List ℚ, (l.map fun s : ℚ => (s : ℝ)) = q.map (fun s : ℚ => (s : ℝ)) := ⟨l, rfl⟩
  have e0 : (seqHierEnv (D := D)).ward (l.map fun s : ℚ => (s : ℝ)) i j = (fl (flSum h.choose / (i * j : Nat)) : ℚ) := dif_pos h
  rw [e0]
  have := h.choose_spec
  have e : h.choose = l := (List.map_injective_iff.2 Rat.cast_injective this).symm
  rw [e]

/-- Two trees of the same shape have the same pairs of clusters. -/
theorem shape_margin {V V' : Type} {st : Dict Nat (HCluster Nat V)} {st' : Dict Nat (HCluster Nat V')}
    (h : (st'.map fun q => (q.1, q.2.iteration, q.2.children, q.2.depth, q.2.members)) =
      st.map fun q => (q.1, q.2.iteration, q.2.children, q.2.depth, q.2.members)) (i : Nat) :
    (dget? st' i).map (·.children) = (dget? st i).map (·.children) ∧ membersOf st' i = membersOf st i := by
  have e : ∀ {W : Type} (s : Dict Nat (HCluster Nat W)), dget? (s.map fun q => (q.1, q.2.iteration, q.2.children, q.2.depth, q.2.members)) i =
      (dget? s i).map fun n => (n.iteration, n.children, n.depth, n.members) := fun s =>
    dget?_dmap (f := id) Function.injective_id (fun n : HCluster Nat _ => (n.iteration, n.children, n.depth, n.members)) s i
  have h1 : (dget? st' i).map (fun n => (n.iteration, n.children, n.depth, n.members)) =
      (dget? st i).map fun n => (n.iteration, n.children, n.depth, n.members) := by rw [← e, ← e, h]
  unfold membersOf
  cases e1 : dget? st' i with
  | none =>
    cases e2 : dget? st i with
    | none => exact ⟨rfl, rfl⟩
    | some n => rw [e1, e2] at h1; cases h1
  | some n' =>
    cases e2 : dget? st i with
    | none => rw [e1, e2] at h1; cases h1
    | some n =>
      rw [e1, e2] at h1
      simp only [Option.map_some, Option.some.injEq, Prod.mk.injEq] at h1
      exact ⟨by simp [h1.2.1], h1.2.2.2⟩

theorem alive_shape {V V' : Type} {st : Dict Nat (HCluster Nat V)} {st' : Dict Nat (HCluster Nat V')}
    (h : ∀ i, (dget? st' i).map (·.children) = (dget? st i).map (·.children)) {i j : Nat} (ha : Alive st' i j) :
    j < i ∧ ∀ k ∈ List.range i, j ∉ ((dget? st k).map (·.children)).getD [] := by
  refine ⟨ha.1, fun k hk hj => ha.2 k (List.mem_range.1 hk) ?_⟩
  rw [← h] at hj
  cases e : dget? st' k with
  | none => rw [e] at hj; simp at hj
  | some n => rw [e] at hj; exact ⟨n, e, hj⟩

def slopeAverage (xs ys : List Nat) : ℚ :=
  lineEnv.metric (lineEnv.mean (xs.map fun x => (dget? slopeLine x).getD 0)) (lineEnv.mean (ys.map fun x => (dget? slopeLine x).getD 0))

def slopeWard (xs ys : List Nat) : ℚ :=
  lineEnv.ward ((laterPairs (xs ++ ys)).map fun p => lineEnv.metric ((dget? slopeLine p.1).getD 0) ((dget? slopeLine p.2).getD 0)) xs.length ys.length

theorem slope_list {xs : List Nat} {w : List (Fin 2 → ℚ)} (h : List.Forall₂ (fun x v => dget? slopeVectors x = some v) xs w) :
    w = (xs.map fun x => (dget? slopeLine x).getD 0).map slopeVec := by
  induction h with
  | nil => rfl
  | cons a _ ih =>
    obtain ⟨t, ht, rfl⟩ := slope_get a
    rw [ih, List.map_cons, List.map_cons, ht]
    rfl

theorem slope_average {xs ys : List Nat} (hx : xs ≠ []) (hy : ys ≠ []) {d : ℝ} (h : LinkageIs euclidHierEnv .average slopeVectors xs ys d) :
    d = 5 * (slopeAverage xs ys : ℚ) := by
  obtain ⟨v, w, h1, h2, rfl⟩ := h
  rw [slope_list h1, slope_list h2]
  show euclid (exactMean _) (exactMean _) = _
  have e1 := slopeMoved.mean (xs.map fun x => (dget? slopeLine x).getD 0) (by simpa using hx)
  have e2 := slopeMoved.mean (ys.map fun x => (dget? slopeLine x).getD 0) (by simpa using hy)
  rw [show exactMean _ = _ from e1, show exactMean _ = _ from e2, euclid_slope]
  rfl

theorem slope_ward {xs ys : List Nat} {d : ℝ} (h : LinkageIs euclidHierEnv .ward slopeVectors xs ys d) : d = 5 * (slopeWard xs ys : ℚ) := by
  obtain ⟨ds, h1, rfl⟩ := h
  show ds.sum / _ = 5 * ((_ / _ : ℚ) : ℝ)
  have e : ds.sum = 5 * ((((laterPairs (xs ++ ys)).map fun p =>
      lineEnv.metric ((dget? slopeLine p.1).getD 0) ((dget? slopeLine p.2).getD 0)).sum : ℚ) : ℝ) := by
    generalize laterPairs (xs ++ ys) = L at h1
    induction h1 with
    | nil => simp
    | cons a _ ih =>
      obtain ⟨v, w, e1, e2, rfl⟩ := a
      obtain ⟨s, hs, rfl⟩ := slope_get e1
      obtain ⟨t, ht, rfl⟩ := slope_get e2
      rw [List.sum_cons, ih, List.map_cons, List.sum_cons, hs, ht]
      show euclid (slopeVec s) (slopeVec t) + _ = _
      rw [euclid_slope, Rat.cast_add, mul_add]
      rfl
  rw [e, Rat.cast_div, mul_div_assoc]
  push_cast
  rfl

/-- The tree of the run on the line. -/
def slopeTree (link : Linkage) : Dict Nat (HCluster Nat ℚ) :=
  ((⟨link, [], none, []⟩ : HObject Nat ℚ).cluster lineEnv (Manager.init [1, 2, 3, 4]) (some slopeLine) (some 2)).1.storage

def slopeCheck (link : Linkage) (val : List Nat → List Nat → ℚ) : Prop :=
  ∀ i ∈ List.range 7, ∀ c ∈ List.range i, ∀ e ∈ List.range i, (∀ k ∈ List.range i, c ∉ ((dget? (slopeTree link) k).map (·.children)).getD []) →
    (∀ k ∈ List.range i, e ∉ ((dget? (slopeTree link) k).map (·.children)).getD []) → c < e →
    ∀ a ∈ List.range 7, ∀ b ∈ List.range 7, (dget? (slopeTree link) i).map (·.children) = some [a, b] → (c, e) ≠ (a, b) →
      val (membersOf (slopeTree link) a) (membersOf (slopeTree link) b) + 1 / 2 ≤ val (membersOf (slopeTree link) c) (membersOf (slopeTree link) e)

instance (link val) : Decidable (slopeCheck link val) := by unfold slopeCheck; infer_instance

theorem slopeHier : MovedHier slopeVec slopeMono lineEnv (euclidHierEnv (D := 2)) where
  mono := slopeMono_strict
  metric v w := euclid_slope v w
  mean l hl := slopeMoved.mean l hl
  ward l i j := by
    show (l.map slopeMono).sum / ((i : ℝ) * j) = 5 * ((l.sum / ((i * j : Nat) : ℚ) : ℚ) : ℝ)
    have : (l.map slopeMono).sum = 5 * ((l.sum : ℚ) : ℝ) := by
      induction l with
      | nil => simp
      | cons a l ih =>
        rw [List.map_cons, List.sum_cons, ih, List.sum_cons, Rat.cast_add, mul_add]
        rfl
    rw [this, Rat.cast_div, mul_div_assoc]
    push_cast
    rfl

/-- The margins of a run on vectors that the line is moved to, with distances multiplied by `k`. -/
theorem moved_tree_margin {V : Type} {φ : ℚ → V} {ψ : ℚ → ℝ} {env : HierEnv V ℝ} (hmv : MovedHier φ ψ lineEnv env) {k : ℝ} (hk0 : 0 < k)
    {link : Linkage} {val : List Nat → List Nat → ℚ} {μ : ℝ} (hμ : μ < k / 2) (hc : slopeCheck link val)
    (hkeys : ∀ q ∈ slopeTree link, q.1 ∈ List.range 7 ∧ (∀ c ∈ q.2.children, c ∈ List.range 7) ∧ q.2.members ≠ [])
    (hval : ∀ xs ys d, xs ≠ [] → ys ≠ [] → LinkageIs env link (dmap id φ slopeLine) xs ys d → d = k * (val xs ys : ℚ))
    (hex : ∀ a b : Nat, ∀ i n, dget? (slopeTree link) i = some n → n.children = [a, b] → membersOf (slopeTree link) a ≠ [] ∧ membersOf (slopeTree link) b ≠ [])
    (hal : ∀ i n c, dget? (slopeTree link) i = some n → c < i → membersOf (slopeTree link) c ≠ []) :
    MergeMargin μ env link (Manager.init [1, 2, 3, 4]) (dmap id φ slopeLine)
      ((⟨link, [], none, []⟩ : HObject Nat V).cluster env (Manager.init [1, 2, 3, 4]) (some (dmap id φ slopeLine)) (some 2)).1.storage := by
  have hs := (C90_hierarchical_moved (m := Manager.init [1, 2, 3, 4]) ⟨_, [], rfl⟩ hmv (o := ⟨link, [], none, []⟩)
    (o' := ⟨link, [], none, []⟩) ⟨rfl, rfl, rfl, rfl⟩ (vs := slopeLine) (vs' := dmap id φ slopeLine)
    (fun x _ => dget?_dmap (f := id) Function.injective_id φ slopeLine x) (some 2)).2
  have hsh := fun i => shape_margin hs.storage i
  intro i n a b hn hch c e hca hea hce hne hop d d' hd hd'
  obtain ⟨h1, h2⟩ := alive_shape (fun i => (hsh i).1) hca
  obtain ⟨h3, h4⟩ := alive_shape (fun i => (hsh i).1) hea
  have h5 : (dget? (slopeTree link) i).map (·.children) = some [a, b] := by
    have := (hsh i).1
    rw [hn] at this
    exact this.symm.trans (congrArg some hch)
  cases e5 : dget? (slopeTree link) i with
  | none => rw [e5] at h5; cases h5
  | some n0 =>
    have hc0 : n0.children = [a, b] := by rw [e5] at h5; simpa using h5
    have hi := hkeys _ (mem_of_dget? e5)
    rw [show membersOf _ a = _ from (hsh a).2, show membersOf _ b = _ from (hsh b).2] at hd
    rw [show membersOf _ c = _ from (hsh c).2, show membersOf _ e = _ from (hsh e).2] at hd'
    have ha : a ∈ List.range 7 := hi.2.1 a (by rw [hc0]; simp)
    have hb : b ∈ List.range 7 := hi.2.1 b (by rw [hc0]; simp)
    have h6 := hc i hi.1 c (List.mem_range.2 h1) e (List.mem_range.2 h3) h2 h4 hce a ha b hb h5 hne
    rw [hval _ _ d (hex a b i n0 e5 hc0).1 (hex a b i n0 e5 hc0).2 hd, hval _ _ d' (hal i n0 c e5 h1) (hal i n0 e e5 h3) hd']
    have h7 : (((val (membersOf (slopeTree link) a) (membersOf (slopeTree link) b) + 1 / 2 : ℚ)) : ℝ) ≤
        (val (membersOf (slopeTree link) c) (membersOf (slopeTree link) e) : ℚ) := Rat.cast_le.2 h6
    push_cast at h7
    nlinarith

theorem slope_tree_margin {link : Linkage} {val : List Nat → List Nat → ℚ} {μ : ℝ} (hμ : μ < 5 / 2) (hc : slopeCheck link val)
    (hkeys : ∀ q ∈ slopeTree link, q.1 ∈ List.range 7 ∧ (∀ c ∈ q.2.children, c ∈ List.range 7) ∧ q.2.members ≠ [])
    (hval : ∀ xs ys d, xs ≠ [] → ys ≠ [] → LinkageIs euclidHierEnv link slopeVectors xs ys d → d = 5 * (val xs ys : ℚ))
    (hex : ∀ a b : Nat, ∀ i n, dget? (slopeTree link) i = some n → n.children = [a, b] → membersOf (slopeTree link) a ≠ [] ∧ membersOf (slopeTree link) b ≠ [])
    (hal : ∀ i n c, dget? (slopeTree link) i = some n → c < i → membersOf (slopeTree link) c ≠ []) :
    MergeMargin μ euclidHierEnv link (Manager.init [1, 2, 3, 4]) slopeVectors
      ((⟨link, [], none, []⟩ : HObject Nat (Fin 2 → ℚ)).cluster euclidHierEnv (Manager.init [1, 2, 3, 4]) (some slopeVectors) (some 2)).1.storage :=
  moved_tree_margin slopeHier (by norm_num) hμ hc hkeys hval hex hal

theorem slope_members (link : Linkage) (h : ∀ i ∈ List.range 7, membersOf (slopeTree link) i ≠ [])
    (hk : ∀ q ∈ slopeTree link, q.1 ∈ List.range 7 ∧ (∀ c ∈ q.2.children, c ∈ List.range 7) ∧ q.2.members ≠ []) :
    (∀ a b : Nat, ∀ i n, dget? (slopeTree link) i = some n → n.children = [a, b] → membersOf (slopeTree link) a ≠ [] ∧ membersOf (slopeTree link) b ≠ []) ∧
    ∀ i n c, dget? (slopeTree link) i = some n → c < i → membersOf (slopeTree link) c ≠ [] := by
  refine ⟨fun a b i n hi hc => ?_, fun i n c hi hc => h c ?_⟩
  · have := (hk _ (mem_of_dget? hi)).2.1
    exact ⟨h a (this a (by rw [hc]; simp)), h b (this b (by rw [hc]; simp))⟩
  · have := (hk _ (mem_of_dget? hi)).1
    rw [List.mem_range] at this ⊢
    exact lt_trans hc this

/-- The hypotheses of `C123_average`, and what is returned in binary64. -/
example : ((⟨.average, [], none, []⟩ : HObject Nat (Fin 2 → ℚ)).cluster seqHierEnv (Manager.init [1, 2, 3, 4]) (some slopeVectors) (some 2)).2 =
    .ok [(1, 0), (2, 0), (3, 0), (4, 1)] := by
  have hk : ∀ q ∈ slopeTree .average, q.1 ∈ List.range 7 ∧ (∀ c ∈ q.2.children, c ∈ List.range 7) ∧ q.2.members ≠ [] := by decide +kernel
  obtain ⟨h1, h2⟩ := slope_members .average (by decide +kernel) hk
  have hmar := slope_tree_margin (link := .average) (val := slopeAverage) (μ := 6 * (1 / 2 ^ 24) * ((108 : ℚ) : ℝ)) (by push_cast; norm_num)
    (by decide +kernel) hk (fun _ _ _ hx hy h => slope_average hx hy h) h1 h2
  have hx : ((⟨.average, [], none, []⟩ : HObject Nat ℚ).cluster lineEnv (Manager.init [1, 2, 3, 4]) (some slopeLine) (some 2)).2 = .ok [(1, 0), (2, 0), (3, 0), (4, 1)] := by
    decide +kernel
  have h := (C90_hierarchical_moved (m := Manager.init [1, 2, 3, 4]) ⟨_, [], rfl⟩ slopeHier (o := ⟨.average, [], none, []⟩)
    (o' := ⟨.average, [], none, []⟩) ⟨rfl, rfl, rfl, rfl⟩ (vs := slopeLine) (vs' := slopeVectors)
    (fun x _ => dget?_dmap (f := id) Function.injective_id slopeVec slopeLine x) (some 2)).1
  rw [hx] at h
  exact (C123_average (m := Manager.init [1, 2, 3, 4]) (o' := ⟨.average, [], none, []⟩) ⟨_, [], rfl⟩ seqHier slopeError slope_upTo
    (by decide +kernel) rfl ⟨rfl, rfl, rfl, rfl⟩ (Prod.ext_iff.2 ⟨rfl, h⟩) hmar).1

/-- The hypotheses of `C123_ward`, and what is returned in binary64. -/
example : ((⟨.ward, [], none, []⟩ : HObject Nat (Fin 2 → ℚ)).cluster seqHierEnv (Manager.init [1, 2, 3, 4]) (some slopeVectors) (some 2)).2 =
    .ok [(1, 0), (2, 0), (3, 1), (4, 1)] := by
  have hk : ∀ q ∈ slopeTree .ward, q.1 ∈ List.range 7 ∧ (∀ c ∈ q.2.children, c ∈ List.range 7) ∧ q.2.members ≠ [] := by decide +kernel
  obtain ⟨h1, h2⟩ := slope_members .ward (by decide +kernel) hk
  have hlen : (Manager.init [1, 2, 3, 4]).managed.length = 4 := by decide +kernel
  have hmar := slope_tree_margin (link := .ward) (val := slopeWard)
    (μ := 4 * ((Manager.init [1, 2, 3, 4]).managed.length : ℝ) * (1 / 2 ^ 24) * ((108 : ℚ) : ℝ)) (by rw [hlen]; push_cast; norm_num)
    (by decide +kernel) hk (fun _ _ _ _ _ h => slope_ward h) h1 h2
  have hx : ((⟨.ward, [], none, []⟩ : HObject Nat ℚ).cluster lineEnv (Manager.init [1, 2, 3, 4]) (some slopeLine) (some 2)).2 = .ok [(1, 0), (2, 0), (3, 1), (4, 1)] := by
    decide +kernel
  have h := (C90_hierarchical_moved (m := Manager.init [1, 2, 3, 4]) ⟨_, [], rfl⟩ slopeHier (o := ⟨.ward, [], none, []⟩)
    (o' := ⟨.ward, [], none, []⟩) ⟨rfl, rfl, rfl, rfl⟩ (vs := slopeLine) (vs' := slopeVectors)
    (fun x _ => dget?_dmap (f := id) Function.injective_id slopeVec slopeLine x) (some 2)).1
  rw [hx] at h
  exact (C123_ward (m := Manager.init [1, 2, 3, 4]) (o' := ⟨.ward, [], none, []⟩) ⟨_, [], rfl⟩ seqHier slopeError slope_upTo
    (by rw [hlen]; norm_num) rfl ⟨rfl, rfl, rfl, rfl⟩ (Prod.ext_iff.2 ⟨rfl, h⟩) hmar).1

end Verif
