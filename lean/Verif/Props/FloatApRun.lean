import Verif.Props.FloatAp
import Verif.Props.FloatDot

/-
C130: affinity propagation in binary64, from the distances on.
-/

namespace Verif

section
variable {α V V' κ θ : Type} [LinearOrder α] [Field κ] [LinearOrder κ] [IsStrictOrderedRing κ]

omit [IsStrictOrderedRing κ] in
theorem mapIdx_near {σ τ : κ} {l l' : List κ} (h : List.Forall₂ (fun a b => |b - a| ≤ σ) l l') {f f' : Nat → κ → κ}
    (hf : ∀ j, ∀ a ∈ l, ∀ b, |b - a| ≤ σ → |f' j b - f j a| ≤ τ) : List.Forall₂ (fun a b => |b - a| ≤ τ) (l.mapIdx f) (l'.mapIdx f') := by
  have hlen := h.length_eq
  refine List.forall₂_iff_get.2 ⟨by simp [hlen], fun i a1 a2 => ?_⟩
  simp only [List.get_eq_getElem, List.getElem_mapIdx]
  rw [List.length_mapIdx] at a1 a2
  exact hf i _ (List.getElem_mem a1) _ ((List.forall₂_iff_get.1 h).2 i a1 a2)

/-- The noise of line 316, computed with rounding from similarities up to `D` that are off by `δ`. -/
theorem C130_noise {rnd : κ → κ} {ε : κ} (hr : ∀ a, |rnd a - a| ≤ ε * |a|) (hε : 0 ≤ ε) (h1 : ε ≤ 1) {eps tiny : κ} (he : 0 ≤ eps) (ht : 0 ≤ tiny)
    {z : Nat → Nat → κ} {Z : κ} (hZ : ∀ i j, |z i j| ≤ Z) {δ D : κ} {S S' : Mat κ} (hS : MatNear δ S S') (hD : MatWithin D S) :
    MatNear (δ * (1 + eps * Z) + ε * ((D + δ) + 15 * ((eps * (D + δ) + 100 * tiny) * Z))) (apNoise eps tiny z S) (apNoiseRnd rnd eps tiny z S') := by
  unfold apNoise apNoiseRnd
  have hlen := hS.length
  refine List.forall₂_iff_get.2 ⟨by simp [hlen], fun i a1 a2 => ?_⟩
  simp only [List.get_eq_getElem, List.getElem_mapIdx]
  rw [List.length_mapIdx] at a1 a2
  refine mapIdx_near ((List.forall₂_iff_get.1 hS).2 i a1 a2) fun j s hs s' hss => ?_
  have hsD : |s| ≤ D := hD _ (List.getElem_mem a1) _ hs
  have as := abs_le.1 hsD
  have ass := abs_le.1 hss
  have hδ : 0 ≤ δ := (abs_nonneg _).trans hss
  have hZ0 : 0 ≤ Z := (abs_nonneg _).trans (hZ i j)
  generalize hE : D + δ = E
  have hs'E : |s'| ≤ E := by rw [← hE, abs_le]; constructor <;> linarith
  have hE0 : 0 ≤ E := (abs_nonneg _).trans hs'E
  generalize hK : eps * E + 100 * tiny = K
  have heE : 0 ≤ eps * E := mul_nonneg he hE0
  have hK0 : 0 ≤ K := by linarith
  -- `eps * S`
  have b1 : |eps * s'| ≤ eps * E := by rw [abs_mul, abs_of_nonneg he]; exact mul_le_mul_of_nonneg_left hs'E he
  have s1 := abs_le.1 (rnd_step hr hε (x := eps * s) (e := eps * δ) (by
    rw [← mul_sub, abs_mul, abs_of_nonneg he]; exact mul_le_mul_of_nonneg_left hss he) b1)
  have s1' := abs_le.1 (abs_rnd hr hε h1 b1)
  -- `tiny * 100`
  have b2 : |tiny * 100| ≤ 100 * tiny := by rw [abs_of_nonneg (by linarith)]; linarith
  have s2 := abs_le.1 (rnd_step hr hε (x := tiny * 100) (e := 0) (by simp) b2)
  have s2' := abs_le.1 (abs_rnd hr hε h1 b2)
  have eεK : ε * K = ε * (eps * E) + ε * (100 * tiny) := by rw [← hK]; ring
  -- their sum
  have b3 : |rnd (eps * s') + rnd (tiny * 100)| ≤ 2 * K := by rw [abs_le]; constructor <;> linarith
  have s3 := rnd_step hr hε (x := eps * s + tiny * 100) (e := eps * δ + ε * K) (by rw [abs_le]; constructor <;> linarith) b3
  have s3' := abs_rnd hr hε h1 b3
  -- times the random number
  have b4 : |rnd (rnd (eps * s') + rnd (tiny * 100)) * z i j| ≤ 4 * (K * Z) := by
    rw [abs_mul]
    refine (mul_le_mul s3' (hZ i j) (abs_nonneg _) (by linarith)).trans (le_of_eq (by ring))
  have s4 := abs_le.1 (rnd_step hr hε (x := (eps * s + tiny * 100) * z i j) (e := (eps * δ + ε * K + ε * (2 * K)) * Z) (by
    rw [← sub_mul, abs_mul]
    exact mul_le_mul s3 (hZ i j) (abs_nonneg _) ((abs_nonneg _).trans s3)) b4)
  have s4' := abs_le.1 (abs_rnd hr hε h1 b4)
  -- added
  have as' := abs_le.1 hs'E
  have b5 : |s' + rnd (rnd (rnd (eps * s') + rnd (tiny * 100)) * z i j)| ≤ E + 8 * (K * Z) := by rw [abs_le]; constructor <;> linarith
  have s5 := rnd_step hr hε (x := s + (eps * s + tiny * 100) * z i j) (e := δ + ((eps * δ + ε * K + ε * (2 * K)) * Z + ε * (4 * (K * Z))))
    (by rw [abs_le]; constructor <;> linarith) b5
  refine s5.trans (le_of_eq ?_)
  ring

/-- Two similarities of different points that differ by more than twice the error: the early return of line 304 is not taken. -/
theorem C130_skips {δ : κ} {n : Nat} {S S' : Mat κ} (hS : Square n S) (hδ : MatNear δ S S') (hδ0 : 0 ≤ δ) {i j k l : Nat} (hi : i < n) (hj : j < n)
    (hk : k < n) (hl : l < n) (hij : i ≠ j) (hkl : k ≠ l) (h : entry S i j + 2 * δ < entry S k l) : apSkips S = .ok false ∧ apSkips S' = .ok false := by
  have key : ∀ T : Mat κ, Square n T → entry T i j < entry T k l → apSkips T = .ok false := by
    intro T hT hlt
    unfold apSkips
    rw [hT.1, if_neg (by omega)]
    obtain ⟨b, e, hb⟩ := apEqual_ok hT (by omega)
    rw [e]
    cases b with
    | false => rfl
    | true =>
      obtain ⟨s, hs⟩ := hb.1 rfl
      obtain ⟨v, hv⟩ := hT.get hi hj
      obtain ⟨w, hw⟩ := hT.get hk hl
      have e1 := hs i j v hij hv
      have e2 := hs k l w hkl hw
      unfold Verif.entry at hlt
      rw [hv, hw] at hlt
      simp only [Option.getD_some] at hlt
      rw [e1, e2] at hlt
      exact absurd hlt (lt_irrefl s)
  refine ⟨key S hS (by linarith), key S' (hδ.square hS) ?_⟩
  have a := abs_le.1 (hδ.entry hS hi hj)
  have b := abs_le.1 (hδ.entry hS hk hl)
  linarith

omit [LinearOrder α] [IsStrictOrderedRing κ] in
theorem similarities_square {μ : Type} (env : ApEnv V κ μ θ) (rows : List V) : Square rows.length (similarities env rows) := square_of_rows rows _

/-- From distances with errors up to `δ` on, everything is computed with rounding: the same clusters as in exact arithmetic, if the exact run
takes no close decision. -/
theorem C130_same {rnd : κ → κ} {ε ρ : κ} (hr : ∀ a, |rnd a - a| ≤ ε * |a|) (hε : 0 ≤ ε) (h1 : ε < 1) {sum : List κ → κ} {m : Manager α}
    (hsum : ∀ l, l.length ≤ m.components.length → |sum l - l.sum| ≤ ρ * (l.map fun a => |a|).sum) (hρ : 0 ≤ ρ) (hρ1 : ρ ≤ 1)
    (h2 : 2 ≤ m.components.length) {dist : V → V → κ} {dist' : V' → V' → κ} {eps tiny : κ} (he : 0 ≤ eps) (ht : 0 ≤ tiny) {z : Nat → Nat → κ} {Z : κ}
    (hZ : ∀ i j, |z i j| ≤ Z) {p : ApParams} (hp : p.absolute = true)
    {vectors : Dict α V} {vectors' : Dict α V'} {rows : List V} {rows' : List V'} (hrow : stackRows m vectors = .ok rows)
    (hrow' : stackRows m vectors' = .ok rows') {δ D B σ τ γ : κ} (hB : 0 ≤ B)
    (hδ : MatNear δ (similarities (apExact dist eps tiny z) rows) (similarities (apFloat rnd sum dist' (apNoiseRnd rnd eps tiny z)) rows'))
    (hD : MatWithin D (similarities (apExact dist eps tiny z) rows))
    (hskip : ∃ i < rows.length, ∃ j < rows.length, ∃ k < rows.length, ∃ l < rows.length, i ≠ j ∧ k ≠ l ∧
      entry (similarities (apExact dist eps tiny z) rows) i j + 2 * δ < entry (similarities (apExact dist eps tiny z) rows) k l)
    (hσ : σ = δ * (1 + eps * Z) + ε * ((D + δ) + 15 * ((eps * (D + δ) + 100 * tiny) * Z)))
    (hτ : τ = σ + 3 * (ε * (B + σ))) (hγ : γ = m.components.length * τ + ρ * (m.components.length * (B + τ)))
    (hm : ∀ mls cls, (m.components.mapM fun c => c.mapM fun x => dget (dofList m.managed.zipIdx) x) = .ok mls → apCannotLinks m = .ok cls →
      ApMargin τ (250 * (m.components.length * B * (ε + ρ))) γ B (apExact dist eps tiny z) p
        (apNoise eps tiny z (similarities (apExact dist eps tiny z) rows)) mls cls)
    {result : Dict α Int} (h : apCluster (apExact dist eps tiny z) p m (some vectors) none = .ok result) :
    apCluster (apFloat rnd sum dist' (apNoiseRnd rnd eps tiny z)) p m (some vectors') none = .ok result := by
  have hsq := similarities_square (apExact dist eps tiny z) rows
  obtain ⟨i, hi, j, hj, k, hk, l, hl, hij, hkl, hlt⟩ := hskip
  have hδ0 : 0 ≤ δ := (abs_nonneg _).trans (hδ.entry hsq hi hj)
  obtain ⟨k1, k2⟩ := C130_skips hsq hδ hδ0 hi hj hk hl hij hkl hlt
  have hD0 : 0 ≤ D := (abs_nonneg _).trans (entry_within hsq hD hi hj)
  have hZ0 : 0 ≤ Z := (abs_nonneg _).trans (hZ 0 0)
  have hσ0 : 0 ≤ σ := by rw [hσ]; positivity
  subst hγ
  refine C128_same (C129_near hr hε h1 hsum hρ hρ1 h2 hB hσ0 hτ dist' (apNoiseRnd rnd eps tiny z)) h2 hp hrow hrow' k1 k2 ?_ hm h
  rw [hσ]
  exact C130_noise hr hε h1.le he ht hZ hδ hD

end

/-! ### The reals and binary64 -/

theorem flReal_rat (q : ℚ) : flReal q = (fl q : ℝ) := by
  have h : ∃ p : ℚ, (p : ℝ) = (q : ℝ) := ⟨q, rfl⟩
  unfold flReal
  rw [dif_pos h]
  have := h.choose_spec
  rw [Rat.cast_inj.1 this]

/-- Rounding on the reals is that of binary64, with relative error `2^(-53)`. -/
theorem C130_rounding (x : ℝ) : (∀ q : ℚ, x = q → flReal x = (fl q : ℝ)) ∧ |flReal x - x| ≤ 1 / 2 ^ 53 * |x| := by
  refine ⟨fun q e => by rw [e]; exact flReal_rat q, ?_⟩
  by_cases h : ∃ q : ℚ, (q : ℝ) = x
  · obtain ⟨q, rfl⟩ := h
    rw [flReal_rat]
    have := fl_err q
    have h' : ((|fl q - q| : ℚ) : ℝ) ≤ ((|q| / 2 ^ 53 : ℚ) : ℝ) := Rat.cast_le.2 this
    push_cast at h'
    linarith
  · unfold flReal
    rw [dif_neg h, sub_self, abs_zero]
    positivity

section
variable {κ : Type} [Field κ] [LinearOrder κ] [IsStrictOrderedRing κ]

theorem foldRnd_err {rnd : κ → κ} {ε : κ} (hr : ∀ a, |rnd a - a| ≤ ε * |a|) (hε : 0 ≤ ε) (l : List κ) (s : κ) :
    |l.foldl (fun s x => rnd (s + x)) s - (s + l.sum)| ≤ ((1 + ε) ^ l.length - 1) * (|s| + (l.map fun a => |a|).sum) := by
  induction l generalizing s with
  | nil => simp
  | cons x l ih =>
    simp only [List.foldl_cons, List.sum_cons, List.map_cons, List.length_cons]
    have h1 := abs_le.1 (ih (rnd (s + x)))
    have h3 : |s + x| ≤ |s| + |x| := abs_add_le s x
    have h7 := abs_le.1 ((hr (s + x)).trans (mul_le_mul_of_nonneg_left h3 hε))
    have h4 : |rnd (s + x)| ≤ (1 + ε) * (|s| + |x|) := by
      have b := abs_le.1 h3
      rw [abs_le]
      constructor <;> linarith
    have hp : (1 : κ) ≤ (1 + ε) ^ l.length := one_le_pow₀ (by linarith)
    have hsum0 : 0 ≤ (l.map fun a => |a|).sum := List.sum_nonneg (by simp)
    rw [pow_succ]
    generalize (1 + ε) ^ l.length = P at h1 hp ⊢
    generalize (l.map fun a => |a|).sum = T at h1 hsum0 ⊢
    have h5 : (P - 1) * (|rnd (s + x)| + T) ≤ (P - 1) * ((1 + ε) * (|s| + |x|) + T) := mul_le_mul_of_nonneg_left (by linarith) (by linarith)
    have hPT : 0 ≤ P * T * ε := mul_nonneg (mul_nonneg (by linarith) hsum0) hε
    have e1 : (P * (1 + ε) - 1) * (|s| + (|x| + T)) = (P - 1) * ((1 + ε) * (|s| + |x|) + T) + ε * (|s| + |x|) + P * T * ε := by ring
    rw [e1, abs_le]
    constructor <;> linarith

/-- The sums of line 406 and 439, when the numbers are added one after the other. -/
theorem C130_sum {rnd : κ → κ} {ε : κ} (hr : ∀ a, |rnd a - a| ≤ ε * |a|) (hε : 0 ≤ ε) {n : Nat} (hn : 2 * n * ε ≤ 1) (l : List κ) (hl : l.length ≤ n) :
    |sumRnd rnd l - l.sum| ≤ 2 * n * ε * (l.map fun a => |a|).sum := by
  have h := foldRnd_err hr hε l 0
  simp only [zero_add, abs_zero] at h
  refine h.trans (mul_le_mul_of_nonneg_right ?_ (List.sum_nonneg (by simp)))
  have hpow : ∀ k, k ≤ n → (1 + ε) ^ k - 1 ≤ 2 * k * ε := by
    intro k
    induction k with
    | zero => intro _; simp
    | succ k ih =>
      intro hk
      have h := ih (by omega)
      have hk' : (2 * k * ε) * ε ≤ 1 * ε := by
        refine mul_le_mul_of_nonneg_right (le_trans ?_ hn) hε
        have : (k : κ) ≤ n := by exact_mod_cast (by omega : k ≤ n)
        have := mul_le_mul_of_nonneg_right this hε
        linarith
      have h' := mul_le_mul_of_nonneg_right h hε
      rw [pow_succ]
      push_cast
      linarith
  refine (hpow l.length hl).trans ?_
  have : (l.length : κ) ≤ n := by exact_mod_cast hl
  have := mul_le_mul_of_nonneg_right this hε
  linarith

end

section
variable {α : Type} [LinearOrder α] {D : Nat} {m : Manager α} {vs : Dict α (Fin D → ℚ)} {η : ℝ} {B R : ℚ}

/-- Computed euclidean distances (in any order of the additions) give similarities within `2 η R`. -/
theorem C130_distances (hη : DistanceError D η) (hv : VectorsUpTo m vs B R) {d : (Fin D → ℚ) → (Fin D → ℚ) → ℝ} (hd : ComputedDistance d)
    {rows : List (Fin D → ℚ)} (hr : stackRows m vs = .ok rows) {θ θ' : Type} {env : ApEnv (Fin D → ℚ) ℝ (ApMessages ℝ) θ}
    {env' : ApEnv (Fin D → ℚ) ℝ (ApMessages ℝ) θ'} (he : env.dist = euclid) (he' : env'.dist = d) (hn : env.neg = fun a => -a)
    (hn' : env'.neg = fun a => -a) : MatNear (2 * η * R) (similarities env rows) (similarities env' rows) := by
  have hmem : ∀ v ∈ rows, ∃ x ∈ m.managed, dget? vs x = some v := by
    unfold stackRows at hr
    cases hq : m.managed.mapM fun x => dget vs x with
    | error e => rw [hq] at hr; cases hr
    | ok r =>
      rw [hq] at hr
      simp only [bind, Except.bind] at hr
      split at hr
      · cases hr
      · cases hr
        intro v hv
        obtain ⟨x, hx, e⟩ := (mapM_len hq).2 v hv
        exact ⟨x, hx, dget_eq_ok.1 e⟩
  unfold similarities MatNear
  rw [List.forall₂_map_left_iff, List.forall₂_map_right_iff, List.forall₂_same]
  intro v hvr
  rw [List.forall₂_map_left_iff, List.forall₂_map_right_iff, List.forall₂_same]
  intro w hwr
  obtain ⟨x, hx, ex⟩ := hmem v hvr
  obtain ⟨y, hy, ey⟩ := hmem w hwr
  have := C122_distances hη hv hd x hx y hy (euclid v w) (d v w) (by simp [distanceOf, ex, ey]) (by simp [distanceOf, ex, ey])
  rw [he, he', hn, hn', ← abs_neg]
  have e : -(-d v w - -euclid v w) = d v w - euclid v w := by ring
  rw [e]
  exact this

end

/-! ### Examples -/

/-- Five points: distances, noise, messages, sums are computed in binary64. -/
example : apCluster (apFloat fl flSum (fun v w => fl (lineDist v w)) (apNoiseRnd fl (1 / 2 ^ 10) 0 someNoise)) ⟨30, 5, true⟩ apFive (some apFiveVectors) none =
    .ok [(1, 0), (2, 0), (3, 0), (4, 1), (5, 1)] := by
  refine C130_same (dist := lineDist) (rnd := fl) (ε := 1 / 2 ^ 53) (ρ := (4 : Nat) / 2 ^ 52) (sum := flSum) (Z := 10) (δ := 0) (D := 23) (B := 100)
    (m := apFive) (p := ⟨30, 5, true⟩) (vectors := apFiveVectors) (vectors' := apFiveVectors) (eps := 1 / 2 ^ 10) (tiny := 0) (z := someNoise)
    (dist' := fun v w => fl (lineDist v w)) (rows := [0, 1, 5 / 2, 20, 23]) (rows' := [0, 1, 5 / 2, 20, 23])
    (fun a => by rw [mul_comm, ← div_eq_mul_one_div]; exact fl_err a) (by norm_num) (by norm_num) (fun l hl => flSum_rel (n := 4) (by norm_num) l (hl.trans (by decide +kernel)))
    (by norm_num) (by norm_num)
    (by decide +kernel) (by norm_num) (by norm_num) (fun i j => ?_) rfl rfl rfl (by norm_num) (by decide +kernel)
    (by decide +kernel) ⟨0, by decide, 3, by decide, 0, by decide, 1, by decide, by decide, by decide, by decide +kernel⟩ rfl rfl rfl ?_ (by decide +kernel)
  · unfold someNoise
    have h : (((7 * i + 3 * j * j) % 11 : Nat) : ℚ) ≤ 10 := by exact_mod_cast (by omega : (7 * i + 3 * j * j) % 11 ≤ 10)
    rw [abs_of_nonneg (Nat.cast_nonneg _)]
    exact h
  intro mls cls e1 e2
  rw [apFive_mls] at e1
  rw [apFive_cls] at e2
  cases e1
  cases e2
  exact apMargin_of_test (by decide +kernel)

/-- The hypotheses of `C130_sum`, for a thousand numbers on the reals. -/
example : (2 * (1000 : Nat) * (1 / 2 ^ 53) : ℝ) ≤ 1 ∧ ∀ x, |flReal x - x| ≤ 1 / 2 ^ 53 * |x| := ⟨by norm_num, fun x => (C130_rounding x).2⟩

/-- The hypotheses of `C130_noise` and `C130_skips`. -/
example : MatNear (1 / 100) [[0, -1], [-3, (0 : ℚ)]] [[0, -1], [-301 / 100, (0 : ℚ)]] ∧ MatWithin 3 [[0, -1], [-3, (0 : ℚ)]] ∧
    Square 2 [[0, -1], [-3, (0 : ℚ)]] ∧ entry [[0, -1], [-3, (0 : ℚ)]] 1 0 + 2 * (1 / 100) < entry [[0, -1], [-3, (0 : ℚ)]] 0 1 :=
  ⟨by decide +kernel, by decide +kernel, ⟨rfl, by decide⟩, by decide +kernel⟩

/-- The hypotheses of `C130_distances`. -/
example : DistanceError 2 (1 / 2 ^ 24) ∧ VectorsUpTo (Manager.init [1, 2, 3, 4]) slopeVectors 76 108 ∧
    ComputedDistance (D := 2) (fun x y => (distSeq x y : ℚ)) ∧ ∃ rows, stackRows (Manager.init [1, 2, 3, 4]) slopeVectors = .ok rows :=
  ⟨slopeError, slope_upTo, fun x y => ⟨_, distSeq_spec x y, rfl⟩, _, rfl⟩

end Verif
