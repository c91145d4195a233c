import Verif.Proofs.FloatDot
import Verif.Props.KmMargin
import Verif.Props.Margin
import Verif.Props.Geometry

/-
C122: distances in binary64 for vectors with any number of entries, added up in any order.

C99, C111 and C121 have the errors for vectors with one entry. With more entries the result depends on the order of the additions; the
bounds here hold for all of them.
-/

set_option linter.unusedSectionVars false

namespace Verif

variable {D : Nat}

/-- The error of a sum of `n` products in any order: at most `(1 + 2^(-53))^n - 1` times the sum of the absolute values. -/
theorem C122_dot {l : List (ℚ × ℚ)} {s : ℚ} (h : FlDot l s) :
    |s - (l.map fun p => p.1 * p.2).sum| ≤ ((1 + 1 / 2 ^ 53) ^ l.length - 1) * (l.map fun p => |p.1 * p.2|).sum :=
  (flDot_err h).2.2

/-- Leaving out a product that is 0 is one of the possible orders. -/
theorem C122_sparse {l : List (ℚ × ℚ)} {s x y : ℚ} (h : FlDot l s) (h0 : x * y = 0) : FlDot ((x, y) :: l) s := by
  have h1 := FlDot.fma (x := x) (y := y) h (List.Perm.refl _)
  rwa [h0, add_zero, (flDot_err h).1.fl_eq] at h1

/-- The error of a computed distance, in any order of the additions, relative to the size of the vectors. -/
theorem C122_error {η : ℝ} (hη : DistanceError D η) {x y : Fin D → ℚ} {s : ℚ} (h : FlEuclid x y s) :
    |(s : ℝ) - euclid x y| ≤ η * bothLength x y := by
  obtain ⟨h0, h1, h2⟩ := hη
  have hL : 0 ≤ bothLength x y := Real.sqrt_nonneg _
  rcases h with ⟨rfl, rfl⟩ | ⟨p, a, b, hp, ha, hb, rfl⟩
  · have : euclid x x = 0 := by simp [euclid]
    rw [this]
    simpa using mul_nonneg h0 hL
  have hq := flSquare_err hp ha hb
  generalize hq' : max 0 (fl (fl (-2 * p + a) + b)) = q at *
  have hq0 : 0 ≤ q := by rw [← hq']; exact le_max_left _ _
  have hQ0 : (0 : ℝ) ≤ q := by exact_mod_cast hq0
  have hr := (C99_sqrt hq0).2.2
  have hE : euclid x y ^ 2 = ∑ i, ((x i : ℝ) - y i) ^ 2 := Real.sq_sqrt (Finset.sum_nonneg fun i _ => sq_nonneg _)
  have hN : bothLength x y ^ 2 = ∑ i, (|(x i : ℝ)| + |(y i : ℝ)|) ^ 2 := Real.sq_sqrt (Finset.sum_nonneg fun i _ => sq_nonneg _)
  have hEL := euclid_le_both x y
  have hE0 : 0 ≤ euclid x y := Real.sqrt_nonneg _
  have hq2 : |(q : ℝ) - euclid x y ^ 2| ≤ ((1 + 1 / 2 ^ 53) ^ (D + 2) - 1) * bothLength x y ^ 2 := by
    have := (Rat.cast_le (K := ℝ)).2 hq
    push_cast at this
    rw [hE, hN]
    exact this
  generalize euclid x y = E at *
  generalize bothLength x y = L at *
  have hc : (1 + 1 / 2 ^ 53 : ℝ) ^ (D + 2) - 1 ≤ (η / 2) ^ 2 := by
    have hu : (0 : ℝ) ≤ 1 / 2 ^ 53 := by positivity
    have hη1 : η ^ 2 ≤ 1 := pow_le_one₀ h0 h1
    have e1 : 2 * (((D + 2 : ℕ) : ℝ) * (1 / 2 ^ 53)) = ((D : ℝ) + 2) / 2 ^ 50 / 4 := by
      push_cast
      ring
    have := pow_le_linear hu (D + 2) (by rw [e1]; linarith)
    rw [e1] at this
    have e2 : (η / 2) ^ 2 = η ^ 2 / 4 := by ring
    rw [e2]
    linarith
  have hq3 := abs_le.1 (hq2.trans (mul_le_mul_of_nonneg_right hc (sq_nonneg L)))
  have hw : 0 ≤ η / 2 * L := by positivity
  have hroot : |√(q : ℝ) - E| ≤ η / 2 * L := by
    have hr0 := Real.sqrt_nonneg (q : ℝ)
    have hr1 := Real.sq_sqrt hQ0
    rw [abs_le]
    constructor
    · by_contra hlt
      have hlt := not_le.1 hlt
      nlinarith
    · by_contra hlt
      have hlt := not_le.1 hlt
      nlinarith
  have hbig : √(q : ℝ) ≤ 2 * L := by
    have := (abs_le.1 hroot).2
    have : η / 2 * L ≤ 1 * L := mul_le_mul_of_nonneg_right (by linarith) hL
    linarith
  have hsmall : (2 : ℝ) / 2 ^ 53 ≤ η / 2 := by
    have h3 : ((2 : ℝ) / 2 ^ 52) ^ 2 ≤ η ^ 2 := by
      refine le_trans ?_ h2
      have : (0 : ℝ) ≤ D := by positivity
      have e : (2 : ℝ) / 2 ^ 50 ≤ ((D : ℝ) + 2) / 2 ^ 50 := div_le_div_of_nonneg_right (by linarith) (by positivity)
      refine le_trans ?_ e
      norm_num
    have := (pow_le_pow_iff_left₀ (by positivity) h0 (by norm_num)).1 h3
    have e : (2 : ℝ) / 2 ^ 53 = 2 / 2 ^ 52 / 2 := by norm_num
    rw [e]
    linarith
  calc |(flSqrt q : ℝ) - E| ≤ |(flSqrt q : ℝ) - √(q : ℝ)| + |√(q : ℝ) - E| := abs_sub_le _ _ _
    _ ≤ 2 * L / 2 ^ 53 + η / 2 * L := add_le_add (hr.trans (by gcongr)) hroot
    _ = (2 / 2 ^ 53) * L + η / 2 * L := by ring
    _ ≤ η / 2 * L + η / 2 * L := by gcongr
    _ = η * L := by ring

/-! ### Distances between vectors -/

section
variable {α : Type} [LinearOrder α] {m : Manager α} {vs : Dict α (Fin D → ℚ)} {B R : ℚ} {η : ℝ}

theorem bothLength_le {x y : Fin D → ℚ} {b r : ℝ} (hr : 0 ≤ r) (h : ∀ i, |(x i : ℝ)| + |(y i : ℝ)| ≤ b) (hbr : D * b ^ 2 ≤ r ^ 2) : bothLength x y ≤ r :=
  sqrt_sum_le (f := fun i => |(x i : ℝ)| + |(y i : ℝ)|) hr (fun i => by
    show |(|(x i : ℝ)| + |(y i : ℝ)|)| ≤ b
    rw [abs_of_nonneg (by positivity)]
    exact h i) hbr

/-- The computed distances between vectors whose length is at most `R` are off by at most `2 * η * R`. -/
theorem C122_distances (hη : DistanceError D η) (hv : VectorsUpTo m vs B R) {d : (Fin D → ℚ) → (Fin D → ℚ) → ℝ} (hd : ComputedDistance d) :
    DistancesWithin (2 * η * R) m euclid vs d vs := by
  obtain ⟨hB, hB0, hR0, hBR⟩ := hv
  intro x hx y hy e e' h h'
  unfold distanceOf at h h'
  cases e1 : dget? vs x with
  | none => rw [e1] at h; simp at h
  | some v =>
    cases e2 : dget? vs y with
    | none => rw [e1, e2] at h; simp at h
    | some w =>
      rw [e1, e2] at h h'
      simp only [Option.some.injEq] at h h'
      subst h; subst h'
      obtain ⟨s, hs, es⟩ := hd v w
      rw [es]
      refine (C122_error hη hs).trans ?_
      have hR0' : (0 : ℝ) ≤ R := by exact_mod_cast hR0
      have hl : bothLength v w ≤ 2 * R := by
        refine bothLength_le (b := 2 * B) (by positivity) (fun i => ?_) ?_
        · have a1 : |(v i : ℝ)| ≤ B := by exact_mod_cast hB x hx v e1 i
          have a2 : |(w i : ℝ)| ≤ B := by exact_mod_cast hB y hy w e2 i
          linarith
        · have : (D : ℝ) * (B : ℝ) ^ 2 ≤ (R : ℝ) ^ 2 := by exact_mod_cast hBR
          nlinarith
      calc η * bothLength v w ≤ η * (2 * R) := mul_le_mul_of_nonneg_left hl hη.1
        _ = 2 * η * R := by ring

/-- Hierarchical clustering ("single" or "complete") returns with computed distances what it returns with exact ones, when the distances
of different pairs differ by more than `4 * η * R`. -/
theorem C122_hierarchical (hm : Reachable m) {env env' : HierEnv (Fin D → ℚ) ℝ} (he : env.metric = euclid)
    (he' : ComputedDistance env'.metric) (hη : DistanceError D η) (hv : VectorsUpTo m vs B R) {o o₁ o' : HObject α (Fin D → ℚ)}
    (hl : o.linkage = .single ∨ o.linkage = .complete) (ho : SameTree o o') {nb : Option Int} {r : Dict α Int}
    (hr : o.cluster env m (some vs) nb = (o₁, .ok r)) (hgap : GapDistances (4 * η * R) euclid vs m.managed) :
    (o'.cluster env' m (some vs) nb).2 = .ok r ∧ SameTree o₁ (o'.cluster env' m (some vs) nb).1 := by
  obtain ⟨vs0, n0, h0, -, -, hv0, -⟩ := hier_args hr
  cases h0
  refine C111_hierarchical hm ho hr hv0 (ε := 2 * η * R) (C111_linkage hl hv0 hv0 (he ▸ C122_distances hη hv he')) ?_
  rw [show 2 * η * R + 2 * η * R = 4 * η * R by ring]
  exact C111_gap hl hm hr (he ▸ hgap)

/-- C-DBScan returns with computed distances what it returns with exact ones, when no distance is within `2 * η * R` of the radius. -/
theorem C122_dbscan {env env' : DbEnv α (Fin D → ℚ) ℝ} (he : env.metric = euclid) (he' : ComputedDistance env'.metric)
    (hη : DistanceError D η) (hv : VectorsUpTo m vs B R) {p : DbParams ℝ} (hmargin : RadiusMargin (2 * η * R) m euclid vs p.eps)
    (henum : env'.enum = env.enum) (hnone : env'.none = env.none) (nb : Option Int) :
    dbCluster env' p m (some vs) nb = dbCluster env p m (some vs) nb :=
  C111_dbscan (fun _ _ => rfl) (he ▸ C122_distances hη hv he') (he ▸ hmargin) rfl henum hnone rfl rfl nb

/-- Sampling returns with computed distances what it returns with exact ones, when the distances of the eligible pairs differ by more
than `4 * η * R`. -/
theorem C122_sampling (hm : Reachable m) {cfg : Sampler} {d : (Fin D → ℚ) → (Fin D → ℚ) → ℝ} (hd : ComputedDistance d)
    (hη : DistanceError D η) (hv : VectorsUpTo m vs B R) {clustering : Option (Dict α Int)}
    (hgap : ∀ p q, Eligible cfg m clustering p → Eligible cfg m clustering q → p ≠ q → ∀ e f, distanceOf euclid vs p.1 p.2 = some e →
      distanceOf euclid vs q.1 q.2 = some f → 4 * η * R < |f - e|) (nb : Option Int) (pick : List (α × α) → Nat → List (α × α)) :
    cfg.sample m nb clustering (some vs) d pick = cfg.sample m nb clustering (some vs) euclid pick :=
  C111_sampling hm (fun _ _ => rfl) (C122_distances hη hv hd) (fun p q hp hq hpq e f h1 h2 => by
    rw [show 2 * η * R + 2 * η * R = 4 * η * R by ring]
    exact hgap p q hp hq hpq e f h1 h2) nb pick

/-! ### COP-KMeans -/

variable {tol : ℚ} {enum : List Int → List Int} {shuffle : List α → List α} {env' : KMeansEnv α (Fin D → ℚ) ℝ}

/-- The computed centroids are close to the exact ones, entry by entry. -/
theorem source_near (hf : FlKmeans tol env') (hv : VectorsUpTo m vs B R) (hn : m.managed.length ≤ 2 ^ 20) {c c' : Fin D → ℚ}
    (h : SameSource (euclidKmEnv (tol : ℝ) enum shuffle) env' m vs vs c c') (i : Fin D) : |c i| ≤ B ∧ |c' i - c i| ≤ B / 2 ^ 31 := by
  obtain ⟨hB, hB0, -, -⟩ := hv
  cases h with
  | vector hx h1 h2 =>
    rw [h1] at h2
    cases h2
    refine ⟨hB _ hx _ h1 i, ?_⟩
    rw [sub_self, abs_zero]
    positivity
  | @mean S w w' hne hsub h1 h2 =>
    have hw : w' = w := by
      clear hne hsub
      induction h1 generalizing w' with
      | nil => cases h2; rfl
      | cons a _ ih =>
        cases h2 with
        | cons b t =>
          rw [a] at b
          cases b
          rw [ih t]
    subst hw
    have hb : ∀ v ∈ w'.map fun v => v i, |v| ≤ B := fun t ht => by
      obtain ⟨v, hv, rfl⟩ := List.mem_map.1 ht
      obtain ⟨x, hx, hxv⟩ := forall₂_mem_right h1 hv
      exact hB x (hsub.subset hx) v hxv i
    have hne' : w' ≠ [] := by
      rintro rfl
      cases h1
      exact hne rfl
    have hlen : (w'.map fun v => v i).length ≤ 2 ^ 20 := by
      rw [List.length_map, ← h1.length_eq]
      exact hsub.length_le.trans hn
    have hm := C121_float_mean (l := w'.map fun v => v i) (by simpa using hne') hb hlen
    rw [List.length_map] at hm
    rw [hf.mean]
    refine ⟨?_, hm⟩
    have hpos : (0 : ℚ) < w'.length := by exact_mod_cast List.length_pos_iff.2 hne'
    show |(w'.map fun v => v i).sum / w'.length| ≤ B
    have := abs_sum_le hb
    rw [List.length_map] at this
    rw [abs_div, abs_of_pos hpos, div_le_iff₀ hpos, mul_comm]
    exact this

/-- Computed distances between computed vectors. -/
theorem flEuclid_near (hη : DistanceError D η) (hB0 : 0 ≤ B) (hR0 : 0 ≤ R) (hBR : D * B ^ 2 ≤ R ^ 2) {x y x' y' : Fin D → ℚ}
    (hx : ∀ i, |x i| ≤ B) (hy : ∀ i, |y i| ≤ B) (hx' : ∀ i, |x' i - x i| ≤ B / 2 ^ 31) (hy' : ∀ i, |y' i - y i| ≤ B / 2 ^ 31) {s : ℚ}
    (h : FlEuclid x' y' s) : |(s : ℝ) - euclid x y| ≤ 3 * η * R := by
  have hR0' : (0 : ℝ) ≤ R := by exact_mod_cast hR0
  have hBR' : (D : ℝ) * (B : ℝ) ^ 2 ≤ (R : ℝ) ^ 2 := by exact_mod_cast hBR
  have h1 := C122_error hη h
  have hsmall : ∀ {z z' : Fin D → ℚ}, (∀ i, |z' i - z i| ≤ B / 2 ^ 31) → euclid z' z ≤ R / 2 ^ 31 := fun {z z'} hz => by
    refine sqrt_sum_le (b := (B : ℝ) / 2 ^ 31) (by positivity) (fun i => ?_) ?_
    · exact_mod_cast hz i
    · rw [div_pow, div_pow, ← mul_div_assoc]
      exact div_le_div_of_nonneg_right hBR' (by positivity)
  have hl : bothLength x' y' ≤ (2 + 1 / 2 ^ 30) * R := by
    refine bothLength_le (b := (2 + 1 / 2 ^ 30) * B) (by positivity) (fun i => ?_) ?_
    · have a1 : |x' i| ≤ B + B / 2 ^ 31 := by
        have := abs_sub_abs_le_abs_sub (x' i) (x i)
        linarith [hx i, hx' i]
      have a2 : |y' i| ≤ B + B / 2 ^ 31 := by
        have := abs_sub_abs_le_abs_sub (y' i) (y i)
        linarith [hy i, hy' i]
      have a3 : |x' i| + |y' i| ≤ (2 + 1 / 2 ^ 30) * B := by
        have e : (2 + 1 / 2 ^ 30) * B = (B + B / 2 ^ 31) + (B + B / 2 ^ 31) := by ring
        linarith
      have := (Rat.cast_le (K := ℝ)).2 a3
      push_cast at this
      exact this
    · have e : (D : ℝ) * ((2 + 1 / 2 ^ 30) * (B : ℝ)) ^ 2 = (2 + 1 / 2 ^ 30) ^ 2 * (D * (B : ℝ) ^ 2) := by ring
      rw [e, mul_pow]
      exact mul_le_mul_of_nonneg_left hBR' (by positivity)
  have t1 := euclid_triangle x' x y'
  have t2 := euclid_triangle x y y'
  have t3 := euclid_triangle x x' y
  have t4 := euclid_triangle x' y' y
  have n1 := hsmall hx'
  have n2 := hsmall hy'
  have c1 : euclid x x' = euclid x' x := euclid_comm _ _
  have c2 : euclid y y' = euclid y' y := euclid_comm _ _
  have hdiff : |euclid x' y' - euclid x y| ≤ 2 * (R / 2 ^ 31) := by
    rw [abs_le]
    constructor <;> linarith
  have hηlow : (1 : ℝ) / 2 ^ 25 ≤ η := by
    have h3 : ((1 : ℝ) / 2 ^ 25) ^ 2 ≤ η ^ 2 := by
      refine le_trans ?_ hη.2.2
      have : (0 : ℝ) ≤ D := by positivity
      have e : (2 : ℝ) / 2 ^ 50 ≤ ((D : ℝ) + 2) / 2 ^ 50 := div_le_div_of_nonneg_right (by linarith) (by positivity)
      refine le_trans ?_ e
      norm_num
    exact (pow_le_pow_iff_left₀ (by positivity) hη.1 (by norm_num)).1 h3
  have k1 : η * bothLength x' y' ≤ η * ((2 + 1 / 2 ^ 30) * R) := mul_le_mul_of_nonneg_left hl hη.1
  have k2 : 2 * ((R : ℝ) / 2 ^ 31) ≤ 1 / 2 ^ 5 * (η * R) := by
    have e : 2 * ((R : ℝ) / 2 ^ 31) = 1 / 2 ^ 5 * (1 / 2 ^ 25 * R) := by ring
    rw [e]
    exact mul_le_mul_of_nonneg_left (mul_le_mul_of_nonneg_right hηlow hR0') (by norm_num)
  have k3 : 0 ≤ η * R := mul_nonneg hη.1 hR0'
  have t := abs_sub_le (s : ℝ) (euclid x' y') (euclid x y)
  have k4 : η * ((2 + 1 / 2 ^ 30) * (R : ℝ)) = (2 + 1 / 2 ^ 30) * (η * R) := by ring
  have k5 : 3 * η * (R : ℝ) = 3 * (η * R) := by ring
  rw [k5]
  have k6 : (2 + 1 / 2 ^ 30) * (η * R) + 1 / 2 ^ 5 * (η * R) ≤ 3 * (η * (R : ℝ)) := by
    rw [← add_mul]
    exact mul_le_mul_of_nonneg_right (by norm_num) k3
  linarith

/-- The distances between IDs and centroids that COP-KMeans computes are off by at most `3 * η * R`. -/
theorem C122_centers (hf : FlKmeans tol env') (hη : DistanceError D η) (hv : VectorsUpTo m vs B R) (hn : m.managed.length ≤ 2 ^ 20) :
    CentersWithin (3 * η * R) (euclidKmEnv (tol : ℝ) enum shuffle) env' m vs vs := by
  intro x hx v v' hxv hxv' c c' hc
  rw [hxv] at hxv'
  cases hxv'
  have hs := source_near hf hv hn hc
  obtain ⟨hB, hB0, hR0, hBR⟩ := hv
  obtain ⟨s, h1, h2⟩ := hf.metric v c'
  rw [h2]
  exact flEuclid_near hη hB0 hR0 hBR (hB x hx v hxv) (fun i => (hs i).1) (fun i => by rw [sub_self, abs_zero]; positivity)
    (fun i => (hs i).2) h1

/-- The comparisons with the tolerance are those of exact arithmetic, when no sum of moves of `k` centroids is within `k * 4 * η * R` of
the tolerance. -/
theorem C122_stops (he : (euclidKmEnv (D := D) (tol : ℝ) enum shuffle).Ok) (hm : Reachable m) (hvs : HasVectors m vs)
    (hf : FlKmeans tol env') (hη : DistanceError D η) (hv : VectorsUpTo m vs B R) (hn : m.managed.length ≤ 2 ^ 20) {nb : Nat} (hnb : 0 < nb)
    (hnb' : nb ≤ m.managed.length) (hs : MoveMargin (4 * η * R) tol (euclidKmEnv (tol : ℝ) enum shuffle) m vs nb) :
    SameStops (euclidKmEnv (tol : ℝ) enum shuffle) env' m vs vs nb := by
  intro C new C₁ hC hp l hl hl2
  have hk : l.length ≤ 2 ^ 20 := by
    rw [← hl2.length_eq]
    exact (centroids_count he hm.inv hvs hnb hnb' hC).trans hn
  have hmar := hs C new C₁ hC hp (l.map fun p => (p.1.1, p.2.1)) (by
    rw [List.forall₂_map_right_iff]
    exact hl2)
  rw [List.length_map, List.map_map] at hmar
  obtain ⟨ds, hds, hsmall⟩ := hf.small (l.map fun p => (p.1.2, p.2.2))
  rw [List.forall₂_map_left_iff] at hds
  have hsrc : ∀ p ∈ l, (∀ i, |p.1.1 i| ≤ B ∧ |p.1.2 i - p.1.1 i| ≤ B / 2 ^ 31) ∧ ∀ i, |p.2.1 i| ≤ B ∧ |p.2.2 i - p.2.1 i| ≤ B / 2 ^ 31 :=
    fun p hp => ⟨source_near hf hv hn (hl p hp).1, source_near hf hv hn (hl p hp).2⟩
  obtain ⟨hB, hB0, hR0, hBR⟩ := hv
  have hR0' : (0 : ℝ) ≤ R := by exact_mod_cast hR0
  have hBR' : (D : ℝ) * (B : ℝ) ^ 2 ≤ (R : ℝ) ^ 2 := by exact_mod_cast hBR
  have hηR : 0 ≤ η * R := mul_nonneg hη.1 hR0'
  have hnear : ∀ p s, p ∈ l → FlEuclid p.1.2 p.2.2 s → |(s : ℝ) - euclid p.1.1 p.2.1| ≤ 3 * η * R := fun p s hp h =>
    flEuclid_near hη hB0 hR0 hBR (fun i => ((hsrc p hp).1 i).1) (fun i => ((hsrc p hp).2 i).1) (fun i => ((hsrc p hp).1 i).2)
      (fun i => ((hsrc p hp).2 i).2) h
  have hlen := hds.length_eq
  have hbig : ∀ s ∈ ds, |s| ≤ 5 * R := by
    intro s hs
    obtain ⟨p, hp, hps⟩ := forall₂_mem_right hds hs
    have h1 := abs_le.1 (hnear p s hp hps)
    have h2 : euclid p.1.1 p.2.1 ≤ 2 * R := by
      refine (euclid_le_both _ _).trans (bothLength_le (b := 2 * B) (by positivity) (fun i => ?_) ?_)
      · have a1 : |(p.1.1 i : ℝ)| ≤ B := by exact_mod_cast ((hsrc p hp).1 i).1
        have a2 : |(p.2.1 i : ℝ)| ≤ B := by exact_mod_cast ((hsrc p hp).2 i).1
        linarith
      · nlinarith
    have h3 : 0 ≤ euclid p.1.1 p.2.1 := Real.sqrt_nonneg _
    have h4 : 3 * η * (R : ℝ) ≤ 3 * R := by
      have := mul_le_mul_of_nonneg_right hη.2.1 hR0'
      linarith
    have : |(s : ℝ)| ≤ 5 * R := by
      rw [abs_le]
      constructor <;> linarith
    exact_mod_cast this
  have hsum := flSum_err hbig (by omega)
  have hsum' : |(flSum ds : ℝ) - (ds.map fun s : ℚ => (s : ℝ)).sum| ≤ (ds.length : ℝ) ^ 2 * (5 * R) / 2 ^ 53 := by
    have := (Rat.cast_le (K := ℝ)).2 hsum
    push_cast at this
    exact this
  have h2 : |(ds.map fun s : ℚ => (s : ℝ)).sum - (l.map fun p => euclid p.1.1 p.2.1).sum| ≤ l.length * (3 * η * R) := by
    clear hl hl2 hk hmar hsmall hsum hsum' hbig hlen hsrc
    induction hds with
    | nil => simp
    | @cons p s l ds h _ ih =>
      simp only [List.map_cons, List.sum_cons, List.length_cons]
      have a1 := abs_le.1 (hnear p s (by simp) h)
      have a2 := abs_le.1 (ih fun q t hq => hnear q t (by simp [hq]))
      push_cast
      rw [abs_le]
      constructor <;> linarith
  have hηlow : (1 : ℝ) / 2 ^ 25 ≤ η := by
    have h3 : ((1 : ℝ) / 2 ^ 25) ^ 2 ≤ η ^ 2 := by
      refine le_trans ?_ hη.2.2
      have : (0 : ℝ) ≤ D := by positivity
      have e : (2 : ℝ) / 2 ^ 50 ≤ ((D : ℝ) + 2) / 2 ^ 50 := div_le_div_of_nonneg_right (by linarith) (by positivity)
      refine le_trans ?_ e
      norm_num
    exact (pow_le_pow_iff_left₀ (by positivity) hη.1 (by norm_num)).1 h3
  have h3 : (ds.length : ℝ) ^ 2 * (5 * R) / 2 ^ 53 ≤ l.length * (η * R) := by
    rw [← hlen]
    have hk' : (l.length : ℝ) ≤ 2 ^ 20 := by exact_mod_cast hk
    have e1 : (l.length : ℝ) ^ 2 * (5 * R) / 2 ^ 53 = l.length * (l.length * (5 * R / 2 ^ 53)) := by ring
    rw [e1]
    apply mul_le_mul_of_nonneg_left _ (by positivity)
    have e2 : (l.length : ℝ) * (5 * R / 2 ^ 53) ≤ 2 ^ 20 * (5 * R / 2 ^ 53) := mul_le_mul_of_nonneg_right hk' (by positivity)
    have e3 : 2 ^ 20 * (5 * (R : ℝ) / 2 ^ 53) = 5 / 2 ^ 8 * (1 / 2 ^ 25 * R) := by ring
    have e4 : 5 / 2 ^ 8 * (1 / 2 ^ 25 * (R : ℝ)) ≤ 1 * (1 / 2 ^ 25 * R) := mul_le_mul_of_nonneg_right (by norm_num) (by positivity)
    have e5 : 1 / 2 ^ 25 * (R : ℝ) ≤ η * R := mul_le_mul_of_nonneg_right hηlow hR0'
    linarith
  have h4 : |(flSum ds : ℝ) - (l.map fun p => euclid p.1.1 p.2.1).sum| ≤ l.length * (4 * η * R) := by
    have t := abs_sub_le (flSum ds : ℝ) (ds.map fun s : ℚ => (s : ℝ)).sum (l.map fun p => euclid p.1.1 p.2.1).sum
    have e5 : (l.length : ℝ) * (4 * η * R) = l.length * (η * R) + l.length * (3 * η * R) := by ring
    linarith
  have h5 := abs_le.1 h4
  have h0 : 0 ≤ (l.length : ℝ) * (4 * η * R) := by
    have : 0 ≤ 4 * η * (R : ℝ) := by linarith
    positivity
  have hmar' : (l.length : ℝ) * (4 * η * R) < |(l.map fun p => euclid p.1.1 p.2.1).sum - tol| := hmar
  have key : (flSum ds < tol) ↔ (l.map fun p => euclid p.1.1 p.2.1).sum < (tol : ℝ) := by
    rw [← Rat.cast_lt (K := ℝ)]
    rcases lt_abs.1 hmar' with h6 | h6
    · constructor <;> intro h7 <;> linarith
    · constructor <;> intro h7 <;> linarith
  rw [Bool.eq_iff_iff, hsmall, key]
  show _ ↔ decide ((((l.map fun p => (p.1.1, p.2.1)).map fun p : (Fin D → ℚ) × (Fin D → ℚ) => euclid p.1 p.2)).sum < (tol : ℝ)) = true
  rw [List.map_map, decide_eq_true_iff]
  exact Iff.rfl

/-- COP-KMeans of at most `2^20` vectors returns in binary64, whatever the order of the additions, the clusters that it returns in exact
arithmetic, when each decision of the exact run wins by more than `6 * η * R` and no sum of moves of `k` centroids is within
`k * 4 * η * R` of the tolerance. -/
theorem C122_kmeans (he : (euclidKmEnv (D := D) (tol : ℝ) enum shuffle).Ok) (hm : Reachable m) (hvs : HasVectors m vs)
    (hf : FlKmeans tol env') (hen : env'.enum = enum) (hsh : env'.shuffle = shuffle) (hη : DistanceError D η) (hv : VectorsUpTo m vs B R)
    (hn : m.managed.length ≤ 2 ^ 20) {model : String} {i : Int} {neg : Bool} {it : Nat} (hi : kmInit model i neg = .ok it) {nb : Int}
    (hmar : CenterMargin (6 * η * R) (euclidKmEnv (tol : ℝ) enum shuffle) m vs (min nb.toNat m.managed.length))
    (hs : MoveMargin (4 * η * R) tol (euclidKmEnv (tol : ℝ) enum shuffle) m vs (min nb.toNat m.managed.length)) {r : Dict α Int}
    {cs : Dict Int (Fin D → ℚ)} (hr : kmCluster (euclidKmEnv (tol : ℝ) enum shuffle) it m (some vs) (some nb) = .ok (r, cs)) :
    ∃ cs', kmCluster env' it m (some vs) (some nb) = .ok (r, cs') ∧ dkeys cs' = dkeys cs ∧
      ∀ k c c', dget? cs k = some c → dget? cs' k = some c' → ∀ j, |c' j - c j| ≤ B / 2 ^ 31 := by
  obtain ⟨n, e, hn2, hne⟩ := kmCluster_ok_args hr (kmInit_pos hi)
  cases e
  have hpos : 0 < min nb.toNat m.managed.length := by
    have := List.length_pos_iff.2 hne
    omega
  obtain ⟨cs', h1, h2, h3⟩ := C121_margin (env' := env') he hm hvs rfl hen hsh hi (C122_centers hf hη hv hn)
    (by rw [show 3 * η * R + 3 * η * R = 6 * η * R by ring]; exact hmar)
    (C122_stops he hm hvs hf hη hv hn hpos (Nat.min_le_right _ _) hs) hr
  exact ⟨cs', h1, h2, fun k c c' hc hc' j => (source_near hf hv hn (h3 k c c' hc hc') j).2⟩

end

/-! ### One of the possible results -/

theorem dotSeq_spec (l : List (ℚ × ℚ)) : FlDot l (dotSeq l) := by
  induction l with
  | nil => exact .nil
  | cons p l ih => exact .add ih (.prod p.1 p.2) (List.perm_append_singleton p l).symm

theorem distSeq_spec (x y : Fin D → ℚ) : FlEuclid x y (distSeq x y) :=
  .inr ⟨_, _, _, dotSeq_spec _, dotSeq_spec _, dotSeq_spec _, rfl⟩

/-- Adding up one after the other is one of the computations that the theorems are about. -/
theorem C122_one {α : Type} (tol : ℚ) (enum : List Int → List Int) (shuffle : List α → List α) :
    FlKmeans (D := D) tol (seqKmEnv tol enum shuffle) := by
  refine ⟨fun x y => ⟨distSeq x y, distSeq_spec x y, rfl⟩, rfl, fun l => ⟨l.map fun p => distSeq p.1 p.2, ?_, ?_⟩⟩
  · rw [List.forall₂_map_right_iff]
    exact List.forall₂_same.2 fun p _ => distSeq_spec _ _
  · show decide _ = true ↔ _
    rw [decide_eq_true_iff]

/-- The order matters: `1 + 2^(-53) + 2^(-53)` in two orders. -/
theorem C122_order : ∃ (l : List (ℚ × ℚ)) (a b : ℚ), FlDot l a ∧ FlDot l b ∧ a ≠ b ∧ ∀ p ∈ l, IsFloat p.1 ∧ IsFloat p.2 := by
  refine ⟨[(1, 1), (1 / 2 ^ 53, 1), (1 / 2 ^ 53, 1)], dotSeq [(1, 1), (1 / 2 ^ 53, 1), (1 / 2 ^ 53, 1)],
    fl (fl (fl (1 * 1) + 1 / 2 ^ 53 * 1) + 1 / 2 ^ 53 * 1), dotSeq_spec _,
    FlDot.fma (l := [(1 / 2 ^ 53, 1), (1, 1)]) (FlDot.fma (l := [(1, 1)]) (FlDot.prod 1 1) (List.Perm.refl _)) ?_, ?_, ?_⟩
  · exact (List.Perm.swap _ _ _).trans (List.Perm.cons _ (List.Perm.swap _ _ _))
  · decide +kernel
  · have h : ∀ q : ℚ, fl q = q → IsFloat q := fun q hq => by rw [← hq]; exact fl_isFloat q
    intro p hp
    simp only [List.mem_cons, List.not_mem_nil, or_false] at hp
    rcases hp with rfl | rfl | rfl <;> exact ⟨h _ (by decide +kernel), h _ (by decide +kernel)⟩

/-! ### Examples -/

/-- 300 entries: a relative error of one millionth. -/
example : DistanceError 300 (1 / 2 ^ 20) := by
  unfold DistanceError
  norm_num

theorem slopeError : DistanceError 2 (1 / 2 ^ 24) := by
  unfold DistanceError
  norm_num

/-- Points on a line of the slope. -/
def slopeVec (t : ℚ) : Fin 2 → ℚ := ![3 * t, 4 * t]

def slopeLine : Dict Nat ℚ := [(1, 0), (2, 3), (3, 10), (4, 19)]

/-- The vectors `(0, 0)`, `(9, 12)`, `(30, 40)`, `(57, 76)`. -/
def slopeVectors : Dict Nat (Fin 2 → ℚ) := dmap id slopeVec slopeLine

theorem euclid_slope (s t : ℚ) : euclid (slopeVec s) (slopeVec t) = 5 * ((lineKmEnv (α := Nat) 0 id id).metric s t : ℚ) := by
  rw [lineKm_metric]
  unfold euclid
  rw [Fin.sum_univ_two]
  simp only [slopeVec, Matrix.cons_val_zero, Matrix.cons_val_one, Matrix.cons_val_fin_one]
  push_cast
  rw [show (3 * (s : ℝ) - 3 * t) ^ 2 + (4 * s - 4 * t) ^ 2 = (5 * (s - t)) ^ 2 by ring, Real.sqrt_sq_eq_abs, abs_mul]
  norm_num

def slopeMono : ℚ → ℝ := fun d => 5 * (d : ℝ)

theorem slopeMono_strict : StrictMono slopeMono := fun a b h => by
  have : (a : ℝ) < b := by exact_mod_cast h
  show 5 * (a : ℝ) < 5 * b
  linarith

theorem slopeMoved : MovedKMeans slopeVec slopeMono (Manager.init [1, 2, 3, 4]) (lineKmEnv (1 / 50000) List.dedup id)
    (euclidKmEnv ((1 / 10000 : ℚ) : ℝ) List.dedup id) where
  mono := slopeMono_strict
  metric v w := euclid_slope v w
  mean l _ := by
    funext i
    have h : ∀ c : ℚ, (l.map fun t => c * t).sum = c * l.sum := fun c => by simpa using List.sum_map_mul_left l id c
    show ((l.map slopeVec).map fun v => v i).sum / ((l.map slopeVec).length : ℚ) = slopeVec (l.sum / l.length) i
    rw [List.map_map, List.length_map]
    fin_cases i
    · show (l.map fun t => 3 * t).sum / (l.length : ℚ) = 3 * (l.sum / l.length)
      rw [h, mul_div_assoc]
    · show (l.map fun t => 4 * t).sum / (l.length : ℚ) = 4 * (l.sum / l.length)
      rw [h, mul_div_assoc]
  small l := by
    show decide _ = decide _
    rw [Bool.eq_iff_iff, decide_eq_true_iff, decide_eq_true_iff, List.map_map]
    have h : (l.map ((fun p : (Fin 2 → ℚ) × (Fin 2 → ℚ) => euclid p.1 p.2) ∘ fun q : ℚ × ℚ => (slopeVec q.1, slopeVec q.2))).sum =
        5 * (((l.map fun p => (lineKmEnv (α := Nat) 0 id id).metric p.1 p.2).sum : ℚ) : ℝ) := by
      induction l with
      | nil => simp
      | cons p l ih =>
        rw [List.map_cons, List.sum_cons, ih, List.map_cons, List.sum_cons]
        show euclid (slopeVec p.1) (slopeVec p.2) + _ = _
        rw [euclid_slope]
        push_cast
        ring
    have h2 : (l.map fun p => (lineKmEnv (α := Nat) 0 id id).metric p.1 p.2).sum < 1 / 50000 ↔
        (((l.map fun p => (lineKmEnv (α := Nat) 0 id id).metric p.1 p.2).sum : ℚ) : ℝ) < ((1 / 50000 : ℚ) : ℝ) := Rat.cast_lt.symm
    rw [h]
    refine Iff.trans ?_ h2.symm
    generalize (l.map fun p => (lineKmEnv (α := Nat) 0 id id).metric p.1 p.2).sum = z
    push_cast
    constructor <;> intro h <;> linarith
  enum := rfl
  shuffle := rfl

theorem slope_run {C : Dict Int (Fin 2 → ℚ)}
    (h : RunCentroids (euclidKmEnv ((1 / 10000 : ℚ) : ℝ) List.dedup id) (Manager.init [1, 2, 3, 4]) slopeVectors 2 C) :
    ∃ C₀, C = dmap id slopeVec C₀ ∧
      RunCentroids (lineKmEnv (1 / 50000) List.dedup id) (Manager.init [1, 2, 3, 4]) slopeLine 2 C₀ := by
  induction h with
  | init e =>
    rw [slopeVectors, kmInitialize_geo slopeMoved] at e
    cases e1 : kmInitialize (lineKmEnv (1 / 50000) List.dedup id) (Manager.init [1, 2, 3, 4]).managed slopeLine 2 with
    | error _ => rw [e1] at e; cases e
    | ok C₀ =>
      rw [e1] at e
      cases e
      exact ⟨C₀, rfl, .init e1⟩
  | @pass C new C' _ e ih =>
    obtain ⟨C₀, rfl, h0⟩ := ih
    rw [slopeVectors, kmPass_geo slopeMoved] at e
    cases e1 : kmPass (lineKmEnv (1 / 50000) List.dedup id) (Manager.init [1, 2, 3, 4]) slopeLine 2 C₀ with
    | error _ => rw [e1] at e; cases e
    | ok r =>
      rw [e1] at e
      cases e
      exact ⟨r.2, rfl, .pass h0 e1⟩

/-- The centroids that the run on the line goes through. -/
def slopeCentroids : List (Dict Int ℚ) := [[(0, 0), (1, 3)], [(0, 0), (1, 32 / 3)], [(0, 3 / 2), (1, 29 / 2)]]

theorem slope_centroids {C : Dict Int ℚ} (h : RunCentroids (lineKmEnv (1 / 50000) List.dedup id) (Manager.init [1, 2, 3, 4]) slopeLine 2 C) :
    C ∈ slopeCentroids := by
  induction h with
  | init e =>
    have h1 : ∃ c ∈ slopeCentroids, kmInitialize (lineKmEnv (1 / 50000) List.dedup id) (Manager.init [1, 2, 3, 4]).managed slopeLine 2 = .ok c := by
      decide +kernel
    obtain ⟨c, hc, e1⟩ := h1
    rw [e] at e1
    cases e1
    exact hc
  | @pass C new C' _ e ih =>
    have h1 : ∀ c ∈ slopeCentroids, ∃ c' ∈ slopeCentroids,
        (kmPass (lineKmEnv (1 / 50000) List.dedup id) (Manager.init [1, 2, 3, 4]) slopeLine 2 c).map Prod.snd = .ok c' := by decide +kernel
    obtain ⟨c', hc', e1⟩ := h1 C ih
    rw [e] at e1
    cases e1
    exact hc'

theorem slope_get {κ : Type} [DecidableEq κ] {d : Dict κ ℚ} {x : κ} {v : Fin 2 → ℚ} (h : dget? (dmap id slopeVec d) x = some v) :
    ∃ t, dget? d x = some t ∧ v = slopeVec t := by
  have := dget?_dmap (f := id) Function.injective_id slopeVec d x
  rw [id, h] at this
  cases e : dget? d x with
  | none => rw [e] at this; cases this
  | some t => rw [e] at this; exact ⟨t, rfl, by simpa using this⟩

theorem slope_has : HasVectors (Manager.init [1, 2, 3, 4]) slopeVectors := by
  unfold HasVectors
  simp only [exists_dget?_iff]
  decide +kernel

theorem slope_upTo : VectorsUpTo (Manager.init [1, 2, 3, 4]) slopeVectors 76 108 := by
  refine ⟨?_, by norm_num, by norm_num, by norm_num⟩
  intro x hx v hv i
  obtain ⟨t, ht, rfl⟩ := slope_get hv
  have h : ∀ x ∈ (Manager.init [1, 2, 3, 4]).managed, 0 ≤ (dget? slopeLine x).getD 0 ∧ (dget? slopeLine x).getD 0 ≤ 19 := by decide +kernel
  have h1 := h x hx
  rw [ht] at h1
  simp only [Option.getD_some] at h1
  fin_cases i
  · show |3 * t| ≤ 76
    rw [abs_le]
    constructor <;> linarith
  · show |4 * t| ≤ 76
    rw [abs_le]
    constructor <;> linarith

theorem slope_env_ok : (euclidKmEnv (α := Nat) (D := 2) ((1 / 10000 : ℚ) : ℝ) List.dedup id).Ok :=
  ⟨fun l => ⟨List.nodup_dedup l, fun _ => List.mem_dedup⟩, fun l => .refl l⟩

theorem slope_margin : CenterMargin (6 * (1 / 2 ^ 24) * ((108 : ℚ) : ℝ)) (euclidKmEnv ((1 / 10000 : ℚ) : ℝ) List.dedup id)
    (Manager.init [1, 2, 3, 4]) slopeVectors 2 := by
  refine C121_gap slope_env_ok ⟨_, [], rfl⟩ slope_has (by decide) (by decide +kernel) fun C hC x hx v hv a b p q ha hb hab => ?_
  obtain ⟨C₀, rfl, h0⟩ := slope_run hC
  obtain ⟨t, ht, rfl⟩ := slope_get hv
  obtain ⟨p, hp, rfl⟩ := slope_get ha
  obtain ⟨q, hq, rfl⟩ := slope_get hb
  have h : ∀ C ∈ slopeCentroids, ∀ x ∈ (Manager.init [1, 2, 3, 4]).managed, ∀ a ∈ dkeys C, ∀ b ∈ dkeys C, a ≠ b →
      1 ≤ (lineKmEnv (α := Nat) 0 id id).metric ((dget? slopeLine x).getD 0) ((dget? C b).getD 0) -
        (lineKmEnv (α := Nat) 0 id id).metric ((dget? slopeLine x).getD 0) ((dget? C a).getD 0) ∨
      1 ≤ -((lineKmEnv (α := Nat) 0 id id).metric ((dget? slopeLine x).getD 0) ((dget? C b).getD 0) -
        (lineKmEnv (α := Nat) 0 id id).metric ((dget? slopeLine x).getD 0) ((dget? C a).getD 0)) := by decide +kernel
  have h1 := h C₀ (slope_centroids h0) x hx a (mem_dkeys_of_dget? hp) b (mem_dkeys_of_dget? hq) hab
  rw [ht, hp, hq] at h1
  simp only [Option.getD_some] at h1
  show _ < |euclid (slopeVec t) (slopeVec q) - euclid (slopeVec t) (slopeVec p)|
  rw [euclid_slope, euclid_slope]
  rw [lt_abs]
  rcases h1 with h1 | h1
  · have h2 : (1 : ℝ) ≤ ((lineKmEnv (α := Nat) 0 id id).metric t q : ℚ) - ((lineKmEnv (α := Nat) 0 id id).metric t p : ℚ) := by exact_mod_cast h1
    left
    push_cast
    norm_num
    linarith
  · have h2 : (1 : ℝ) ≤ -(((lineKmEnv (α := Nat) 0 id id).metric t q : ℚ) - ((lineKmEnv (α := Nat) 0 id id).metric t p : ℚ)) := by exact_mod_cast h1
    right
    push_cast
    norm_num
    linarith

theorem slope_moves : MoveMargin (4 * (1 / 2 ^ 24) * ((108 : ℚ) : ℝ)) ((1 / 10000 : ℚ) : ℝ) (euclidKmEnv ((1 / 10000 : ℚ) : ℝ) List.dedup id)
    (Manager.init [1, 2, 3, 4]) slopeVectors 2 := by
  intro C new C₁ hC hp l hl
  obtain ⟨C₀, rfl, h0⟩ := slope_run hC
  rw [slopeVectors, kmPass_geo slopeMoved] at hp
  cases e1 : kmPass (lineKmEnv (1 / 50000) List.dedup id) (Manager.init [1, 2, 3, 4]) slopeLine 2 C₀ with
  | error _ => rw [e1] at hp; cases hp
  | ok r =>
    rw [e1] at hp
    cases hp
    have h : ∀ C ∈ slopeCentroids, ∀ C₁ ∈ slopeCentroids,
        (kmPass (lineKmEnv (1 / 50000) List.dedup id) (Manager.init [1, 2, 3, 4]) slopeLine 2 C).map Prod.snd = .ok C₁ →
        (dkeys C).length = 2 ∧
        (1 / 2 ≤ ((dkeys C).map fun k => (lineKmEnv (α := Nat) 0 id id).metric ((dget? C k).getD 0) ((dget? C₁ k).getD 0)).sum ∨
        ((dkeys C).map fun k => (lineKmEnv (α := Nat) 0 id id).metric ((dget? C k).getD 0) ((dget? C₁ k).getD 0)).sum = 0) := by
      decide +kernel
    obtain ⟨h2, h1⟩ := h C₀ (slope_centroids h0) r.2 (slope_centroids (.pass h0 e1)) (by rw [e1]; rfl)
    rw [dkeys_dmap, List.map_id] at hl
    have e : (l.map fun p => euclid p.1 p.2).sum =
        5 * ((((dkeys C₀).map fun k => (lineKmEnv (α := Nat) 0 id id).metric ((dget? C₀ k).getD 0) ((dget? r.2 k).getD 0)).sum : ℚ) : ℝ) := by
      clear h1 h2
      generalize dkeys C₀ = ks at hl
      induction hl with
      | nil => simp
      | @cons k p ks l a _ ih =>
        obtain ⟨s, hs, e1⟩ := slope_get a.1
        obtain ⟨t, ht, e2⟩ := slope_get a.2
        rw [List.map_cons, List.map_cons, List.sum_cons, List.sum_cons, ih, e1, e2, hs, ht, euclid_slope]
        push_cast
        simp only [Option.getD_some]
        ring
    rw [e, ← hl.length_eq, h2, lt_abs]
    generalize ((dkeys C₀).map fun k => (lineKmEnv (α := Nat) 0 id id).metric ((dget? C₀ k).getD 0) ((dget? r.2 k).getD 0)).sum = z at h1
    rcases h1 with h1 | rfl
    · have : ((1 / 2 : ℚ) : ℝ) ≤ z := by exact_mod_cast h1
      push_cast at this
      left
      push_cast
      norm_num
      linarith
    · right
      push_cast
      norm_num

/-- The hypotheses of `C122_kmeans`, and what COP-KMeans returns in binary64. -/
example : ∃ cs', kmCluster (seqKmEnv (1 / 10000) List.dedup id) 150 (Manager.init [1, 2, 3, 4]) (some slopeVectors) (some 2) =
    .ok ([(1, 0), (2, 0), (3, 1), (4, 1)], cs') := by
  have hx : kmCluster (lineKmEnv (1 / 50000) List.dedup id) 150 (Manager.init [1, 2, 3, 4]) (some slopeLine) (some 2) =
      .ok ([(1, 0), (2, 0), (3, 1), (4, 1)], [(0, 3 / 2), (1, 29 / 2)]) := by decide +kernel
  have h := C90_kmeans slopeMoved slope_env_ok 150 (vs := slopeLine) (vs' := slopeVectors)
    (fun x _ => dget?_dmap (f := id) Function.injective_id slopeVec slopeLine x) (some 2)
  rw [hx] at h
  obtain ⟨cs', h1, -⟩ := C122_kmeans (m := Manager.init [1, 2, 3, 4]) slope_env_ok ⟨_, [], rfl⟩ slope_has (C122_one _ _ _) rfl rfl slopeError
    slope_upTo (by decide +kernel) (model := "COP") (i := 150) (neg := false) rfl (nb := 2) slope_margin slope_moves h
  exact ⟨cs', h1⟩

theorem slope_gap : GapDistances (4 * (1 / 2 ^ 24) * ((108 : ℚ) : ℝ)) euclid slopeVectors (Manager.init [1, 2, 3, 4]).managed := by
  have h : GapDistances (1 / 2) lineEnv.metric slopeLine (Manager.init [1, 2, 3, 4]).managed := gap_of_rat (by decide +kernel)
  have key : ∀ x y d, distanceOf euclid slopeVectors x y = some d → ∃ e, distanceOf lineEnv.metric slopeLine x y = some e ∧ d = 5 * (e : ℝ) := by
    intro x y d hd
    unfold distanceOf at hd ⊢
    cases e1 : dget? slopeVectors x with
    | none => rw [e1] at hd; simp at hd
    | some v =>
      cases e2 : dget? slopeVectors y with
      | none => rw [e1, e2] at hd; simp at hd
      | some w =>
        obtain ⟨s, hs, rfl⟩ := slope_get e1
        obtain ⟨t, ht, rfl⟩ := slope_get e2
        rw [e1, e2] at hd
        rw [hs, ht]
        simp only [Option.some.injEq] at hd
        exact ⟨_, rfl, by rw [← hd, euclid_slope]; rfl⟩
  intro x hx y hy x' hx' y' hy' h1 h2 h3 d d' hd hd'
  obtain ⟨e, he, rfl⟩ := key _ _ _ hd
  obtain ⟨e', he', rfl⟩ := key _ _ _ hd'
  have h4 := h x hx y hy x' hx' y' hy' h1 h2 h3 e e' he he'
  have h5 : ((1 / 2 : ℚ) : ℝ) < |(e' : ℝ) - e| := by exact_mod_cast h4
  push_cast at h5
  rw [← mul_sub, abs_mul]
  push_cast
  norm_num
  linarith

noncomputable def slopeExact : HierEnv (Fin 2 → ℚ) ℝ := ⟨euclid, exactMean, fun l a b => l.sum / (a * b : Nat)⟩

noncomputable def slopeFloat : HierEnv (Fin 2 → ℚ) ℝ := ⟨fun x y => (distSeq x y : ℚ), flMeanVec, fun l a b => l.sum / (a * b : Nat)⟩

/-- The hypotheses of `C122_hierarchical`, and what hierarchical clustering returns in binary64. -/
example : ((⟨.complete, [], none, []⟩ : HObject Nat (Fin 2 → ℚ)).cluster slopeFloat (Manager.init [1, 2, 3, 4]) (some slopeVectors) (some 2)).2 =
    .ok [(1, 0), (2, 0), (3, 1), (4, 1)] := by
  have hx : ((⟨.complete, [], none, []⟩ : HObject Nat ℚ).cluster lineEnv (Manager.init [1, 2, 3, 4]) (some slopeLine) (some 2)).2 =
      .ok [(1, 0), (2, 0), (3, 1), (4, 1)] := by decide +kernel
  have h := (C90_hierarchical_distances (m := Manager.init [1, 2, 3, 4]) (env := lineEnv) (env' := slopeExact) (o := ⟨.complete, [], none, []⟩)
    (o' := ⟨.complete, [], none, []⟩) ⟨_, [], rfl⟩ ⟨rfl, rfl, rfl, rfl⟩ (by decide) slopeMono_strict (fun h => by cases h)
    (vs := slopeLine) (vs' := slopeVectors) (fun x _ => by
      rw [show dget? slopeVectors x = _ from dget?_dmap (f := id) Function.injective_id slopeVec slopeLine x, Option.isSome_map])
    (fun x _ y _ => by
      have h1 : dget? slopeVectors x = _ := dget?_dmap (f := id) Function.injective_id slopeVec slopeLine x
      have h2 : dget? slopeVectors y = _ := dget?_dmap (f := id) Function.injective_id slopeVec slopeLine y
      unfold distanceOf
      rw [h1, h2]
      cases dget? slopeLine x with
      | none => rfl
      | some s =>
        cases dget? slopeLine y with
        | none => rfl
        | some t =>
          show some (euclid (slopeVec s) (slopeVec t)) = _
          rw [euclid_slope]
          rfl) (some 2)).1
  rw [hx] at h
  exact (C122_hierarchical (m := Manager.init [1, 2, 3, 4]) (o' := ⟨.complete, [], none, []⟩) ⟨_, [], rfl⟩ (env := slopeExact) rfl
    (fun x y => ⟨_, distSeq_spec x y, rfl⟩) slopeError slope_upTo (.inr rfl) ⟨rfl, rfl, rfl, rfl⟩ (Prod.ext_iff.2 ⟨rfl, h⟩) slope_gap).1

/-- The hypotheses of `C122_dbscan`: the radius 60 is between the distances 50 and 80. -/
example : RadiusMargin (2 * (1 / 2 ^ 24) * ((108 : ℚ) : ℝ)) (Manager.init [1, 2, 3, 4]) euclid slopeVectors 60 := by
  have h : ∀ x ∈ (Manager.init [1, 2, 3, 4]).managed, ∀ y ∈ (Manager.init [1, 2, 3, 4]).managed,
      lineEnv.metric ((dget? slopeLine x).getD 0) ((dget? slopeLine y).getD 0) ≤ 10 ∨
      16 ≤ lineEnv.metric ((dget? slopeLine x).getD 0) ((dget? slopeLine y).getD 0) := by decide +kernel
  intro x hx y hy d hd
  unfold distanceOf at hd
  cases e1 : dget? slopeVectors x with
  | none => rw [e1] at hd; simp at hd
  | some v =>
    cases e2 : dget? slopeVectors y with
    | none => rw [e1, e2] at hd; simp at hd
    | some w =>
      obtain ⟨s, hs, rfl⟩ := slope_get e1
      obtain ⟨t, ht, rfl⟩ := slope_get e2
      rw [e1, e2] at hd
      simp only [Option.some.injEq] at hd
      have h1 := h x hx y hy
      rw [hs, ht] at h1
      simp only [Option.getD_some] at h1
      rw [euclid_slope] at hd
      have h2 : ((lineKmEnv (α := Nat) 0 id id).metric s t : ℚ) = lineEnv.metric s t := rfl
      rw [h2] at hd
      rw [← hd]
      rcases h1 with h1 | h1
      · left
        have : ((lineEnv.metric s t : ℚ) : ℝ) ≤ 10 := by exact_mod_cast h1
        push_cast
        norm_num
        linarith
      · right
        have : (16 : ℝ) ≤ ((lineEnv.metric s t : ℚ) : ℝ) := by exact_mod_cast h1
        push_cast
        norm_num
        linarith

/-- The hypotheses of `C122_sampling`. -/
example : ∀ p q, Eligible (⟨none, some .closestNeighbors, true, true⟩ : Sampler) (Manager.init [1, 2, 3, 4]) none p →
    Eligible (⟨none, some .closestNeighbors, true, true⟩ : Sampler) (Manager.init [1, 2, 3, 4]) none q → p ≠ q → ∀ e f,
    distanceOf euclid slopeVectors p.1 p.2 = some e → distanceOf euclid slopeVectors q.1 q.2 = some f →
    4 * (1 / 2 ^ 24) * ((108 : ℚ) : ℝ) < |f - e| := fun p q hp hq hpq d e hd he =>
  slope_gap p.1 hp.left p.2 hp.right q.1 hq.left q.2 hq.right (ne_of_lt hp.ordered) (ne_of_lt hq.ordered) (by
    rintro (⟨h1, h2⟩ | ⟨h1, h2⟩)
    · exact hpq (Prod.ext h1 h2)
    · have := hp.ordered; have := hq.ordered; omega) d e hd he

/-- A computed distance in the slope that is not exact: the distance of `(0, 0)` and `(0.3, 0.4)`. -/
example : distSeq (D := 2) ![0, 0] ![fl (1 / 10), fl (1 / 5)] ^ 2 ≠ fl (1 / 10) ^ 2 + fl (1 / 5) ^ 2 := by decide +kernel

end Verif
