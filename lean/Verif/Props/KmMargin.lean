import Verif.Proofs.KmMargin
import Verif.Model.FloatKm
import Verif.Props.KMeans
import Verif.Proofs.KMeansCount
import Verif.Props.FloatDist
import Mathlib.Tactic.Linarith

/-
C121: COP-KMeans with rounding errors.

The centroids of a pass are computed from the clusters of that pass, so the errors of one pass do not add up with those of the next. When
every decision of the exact run wins by more than twice the error, and the tolerance is not met or missed by less than the error, the run
with errors goes through the same clusters and returns the same clusters.
-/

set_option linter.unusedSectionVars false

namespace Verif

variable {α V V' δ δ' : Type} [LinearOrder α] [LinearOrder δ] [LinearOrder δ'] {m : Manager α}

/-- Two dictionaries with the same keys are the halves of a dictionary of pairs. -/
theorem dict_pairs {κ ν ν' : Type} (d : Dict κ ν) (d' : Dict κ ν') (h : dkeys d' = dkeys d) :
    ∃ p : Dict κ (ν × ν'), dmap id Prod.fst p = d ∧ dmap id Prod.snd p = d' := by
  induction d generalizing d' with
  | nil =>
    cases d' with
    | nil => exact ⟨[], rfl, rfl⟩
    | cons a l => simp [dkeys] at h
  | cons a l ih =>
    cases d' with
    | nil => simp [dkeys] at h
    | cons b l' =>
      simp only [dkeys, List.map_cons, List.cons.injEq] at h
      obtain ⟨p, h1, h2⟩ := ih l' h.2
      refine ⟨(a.1, (a.2, b.2)) :: p, ?_, ?_⟩
      · show (a.1, a.2) :: dmap id Prod.fst p = _
        rw [h1]
      · show (a.1, b.2) :: dmap id Prod.snd p = _
        rw [h2, ← h.1]

/-- A run with other distances, other means and other vectors returns the same clusters, if at each decision of the first run the nearest
centroid is also strictly nearest for the second, and both agree on the tolerance. The centroids are made from the same IDs. -/
theorem C121_decisions {env : KMeansEnv α V δ} {env' : KMeansEnv α V' δ'} (he : env.Ok) (hm : Reachable m) {vs : Dict α V}
    {vs' : Dict α V'} (hv : HasVectors m vs) (hk : dkeys vs' = dkeys vs) (hen : env'.enum = env.enum) (hsh : env'.shuffle = env.shuffle)
    {model : String} {i : Int} {tol : Bool} {it : Nat} (hi : kmInit model i tol = .ok it) {nb : Int}
    (hnear : EachDecision env m vs (min nb.toNat m.managed.length) fun x _ p q => ∀ v' p' q', dget? vs' x = some v' →
      SameSource env env' m vs vs' p p' → SameSource env env' m vs vs' q q' → env'.metric v' p' < env'.metric v' q')
    (hstop : SameStops env env' m vs vs' (min nb.toNat m.managed.length)) {r : Dict α Int} {cs : Dict Int V}
    (hr : kmCluster env it m (some vs) (some nb) = .ok (r, cs)) :
    ∃ cs', kmCluster env' it m (some vs') (some nb) = .ok (r, cs') ∧ dkeys cs' = dkeys cs ∧
      ∀ k c c', dget? cs k = some c → dget? cs' k = some c' → SameSource env env' m vs vs' c c' := by
  obtain ⟨n, hn, hn2, hne⟩ := kmCluster_ok_args hr (kmInit_pos hi)
  cases hn
  obtain ⟨ps, rfl, rfl⟩ := dict_pairs vs vs' hk
  have hpos : 0 < min nb.toNat m.managed.length := by
    have := List.length_pos_iff.2 hne
    omega
  have hle : min nb.toNat m.managed.length ≤ m.managed.length := Nat.min_le_right _ _
  have hv' : HasVectors m ps := by
    intro x hx
    obtain ⟨v, e⟩ := hv x hx
    rw [dget?_dmap_id] at e
    cases e1 : dget? ps x with
    | none => rw [e1] at e; cases e
    | some p => exact ⟨p, rfl⟩
  have he' : (pairEnv env env').Ok := ⟨he.enum, he.shuffle⟩
  have htw : Twins (pairEnv env env') (pairEnv' env env') m ps (min nb.toNat m.managed.length) := by
    refine ⟨rfl, rfl, rfl, ?_, ?_⟩
    · intro C hC dist hd s hs x hx v hxv a p ha hp hmin b q hb hq hab
      refine hnear (dmap id Prod.fst C) hC.fst dist (kmDistances_fst hd) s hs.fst x hx v.1 (by rw [dget?_dmap_id, hxv]; rfl) a p.1
        (admissible_fst.2 ha) (by rw [dget?_dmap_id, hp]; rfl) (fun c r hc hr => ?_) b q.1 (admissible_fst.2 hb)
        (by rw [dget?_dmap_id, hq]; rfl) hab v.2 p.2 q.2 (by rw [dget?_dmap_id, hxv]; rfl) (hC.source he hp) (hC.source he hq)
      rw [dget?_dmap_id] at hr
      cases e1 : dget? C c with
      | none => rw [e1] at hr; cases hr
      | some r' =>
        rw [e1] at hr
        cases hr
        exact hmin c r' (admissible_fst.1 hc) e1
    · intro C new C₁ hC hp l hl
      refine hstop (dmap id Prod.fst C) new (dmap id Prod.fst C₁) hC.fst (by rw [kmPass_geo (pairEnv_fst env env'), hp]; rfl) l ?_ ?_
      · intro q hq
        obtain ⟨k, -, h1, h2⟩ := forall₂_mem_right hl hq
        exact ⟨hC.source he h1, (RunCentroids.pass hC hp).source he h2⟩
      · rw [dkeys_dmap, List.map_id]
        refine hl.imp fun k q hkq => ?_
        rw [dget?_dmap_id, dget?_dmap_id, hkq.1, hkq.2]
        exact ⟨rfl, rfl⟩
  have h2 : ¬ nb < 2 := by omega
  unfold kmCluster at hr ⊢
  simp only [if_neg h2] at hr ⊢
  rw [kmCOP_geo (pairEnv_fst env env')] at hr
  rw [kmCOP_geo (pairEnv_snd (m := m) hen hsh), kmCOP_twins he' hm.inv hv' hpos hle htw]
  cases e : kmCOP (pairEnv env env') m ps (min nb.toNat m.managed.length) it with
  | error _ => rw [e] at hr; cases hr
  | ok w =>
    obtain ⟨r', C⟩ := w
    rw [e] at hr
    cases hr
    refine ⟨_, rfl, ?_, ?_⟩
    · show dkeys (dmap id Prod.snd C) = dkeys (dmap id Prod.fst C)
      rw [dkeys_dmap, dkeys_dmap]
    · intro k c c' hc hc'
      have hc : dget? (dmap id Prod.fst C) k = some c := hc
      have hc' : dget? (dmap id Prod.snd C) k = some c' := hc'
      rw [dget?_dmap_id] at hc hc'
      cases e1 : dget? C k with
      | none => rw [e1] at hc; cases hc
      | some p =>
        rw [e1] at hc hc'
        cases hc
        cases hc'
        unfold kmCOP at e
        simp only [bind, Except.bind] at e
        split at e
        · cases e
        split at e
        · cases e
        split at e
        · cases e
        split at e
        · cases e
        rename_i cs hcs
        cases e
        exact kmCentroids_source rfl hcs e1

section Group
variable [AddCommGroup δ] [IsOrderedAddMonoid δ]

/-- The run with errors of the distances up to `ε` returns the same clusters, if each decision of the exact run wins by more than
`ε + ε` and both agree on the tolerance. -/
theorem C121_margin {env : KMeansEnv α V δ} {env' : KMeansEnv α V' δ} (he : env.Ok) (hm : Reachable m) {vs : Dict α V}
    {vs' : Dict α V'} (hv : HasVectors m vs) (hk : dkeys vs' = dkeys vs) (hen : env'.enum = env.enum) (hsh : env'.shuffle = env.shuffle)
    {model : String} {i : Int} {tol : Bool} {it : Nat} (hi : kmInit model i tol = .ok it) {nb : Int} {ε : δ}
    (herr : CentersWithin ε env env' m vs vs') (hmar : CenterMargin (ε + ε) env m vs (min nb.toNat m.managed.length))
    (hstop : SameStops env env' m vs vs' (min nb.toNat m.managed.length)) {r : Dict α Int} {cs : Dict Int V}
    (hr : kmCluster env it m (some vs) (some nb) = .ok (r, cs)) :
    ∃ cs', kmCluster env' it m (some vs') (some nb) = .ok (r, cs') ∧ dkeys cs' = dkeys cs ∧
      ∀ k c c', dget? cs k = some c → dget? cs' k = some c' → SameSource env env' m vs vs' c c' := by
  obtain ⟨n, hn, hn2, hne⟩ := kmCluster_ok_args hr (kmInit_pos hi)
  cases hn
  have hpos : 0 < min nb.toNat m.managed.length := by
    have := List.length_pos_iff.2 hne
    omega
  refine C121_decisions he hm hv hk hen hsh hi ?_ hstop hr
  intro C hC dist hd s hs x hx v hxv a p ha hp hmin b q hb hq hab v' p' q' hxv' hp' hq'
  have h0 := hmar C hC dist hd s hs x hx v hxv a p ha hp hmin b q hb hq hab
  have hci := hC.inv he hm.inv hv hpos (Nat.min_le_right _ _)
  obtain ⟨D, E1, ht⟩ := kmDistances_ok (env := env) hm.inv hv hne hci
  rw [hd] at E1; cases E1
  have hxm := (hs.inv hm.inv hv hci ht).sub x (List.mem_of_getLast? hx)
  have h1 := abs_le.1 (herr x hxm v v' hxv hxv' p p' hp')
  have h2 := abs_le.1 (herr x hxm v v' hxv hxv' q q' hq')
  calc env'.metric v' p' ≤ env.metric v p + ε := sub_le_iff_le_add'.1 h1.2
    _ < env.metric v q - ε := lt_sub_iff_add_lt.2 (by rw [add_assoc]; exact h0)
    _ ≤ env'.metric v' q' := by
      have := h2.1
      rw [neg_le_sub_iff_le_add] at this
      exact sub_le_iff_le_add.2 this

end Group

/-! ### Binary64 and vectors of one coordinate -/

theorem abs_sum_le {l : List ℚ} {B : ℚ} (hB : ∀ x ∈ l, |x| ≤ B) : |l.sum| ≤ l.length * B := by
  induction l with
  | nil => simp
  | cons y l ih =>
    rw [List.sum_cons]
    refine (abs_add_le _ _).trans ?_
    have h1 := hB y (by simp)
    have h2 := ih fun z hz => hB z (by simp [hz])
    push_cast [List.length_cons]
    linarith

/-- The error of python's sum. -/
theorem flSum_err {l : List ℚ} {B : ℚ} (hB : ∀ x ∈ l, |x| ≤ B) (hl : l.length ≤ 2 ^ 20) :
    |flSum l - l.sum| ≤ (l.length : ℚ) ^ 2 * B / 2 ^ 53 := by
  induction l using List.reverseRecOn with
  | nil => simp [flSum]
  | append_singleton l x ih =>
    have hl' : l.length ≤ 2 ^ 20 := by rw [List.length_append] at hl; omega
    have hl2 : l.length + 1 ≤ 2 ^ 20 := by simpa using hl
    have h1 := ih (fun y hy => hB y (by simp [hy])) hl'
    have hx := hB x (by simp)
    have h0 : 0 ≤ B := (abs_nonneg x).trans hx
    have hs : |l.sum| ≤ l.length * B := abs_sum_le fun y hy => hB y (by simp [hy])
    have hf : flSum (l ++ [x]) = fl (flSum l + x) := by simp [flSum]
    have h2 := fl_err (flSum l + x)
    rw [hf, List.sum_append, List.sum_singleton, List.length_append]
    push_cast [List.length_singleton]
    set k : ℚ := (l.length : ℚ) with hk
    have hk0 : 0 ≤ k := by positivity
    have hk1 : k ≤ 2 ^ 20 := by rw [hk]; exact_mod_cast hl'
    set S := flSum l
    have h3 : |S + x| ≤ (k + 1) * B + k ^ 2 * B / 2 ^ 53 := by
      have e1 : S + x = (S - l.sum) + (l.sum + x) := by ring
      rw [e1]
      refine (abs_add_le _ _).trans ?_
      have := abs_add_le l.sum x
      linarith
    have h4 : |fl (S + x) - (l.sum + x)| ≤ |fl (S + x) - (S + x)| + |S - l.sum| := by
      have e1 : fl (S + x) - (l.sum + x) = (fl (S + x) - (S + x)) + (S - l.sum) := by ring
      rw [e1]
      exact abs_add_le _ _
    have h5 : k ^ 2 * B / 2 ^ 53 ≤ k * B := by
      rw [div_le_iff₀ (by positivity)]
      have : k * (k * B) ≤ 2 ^ 53 * (k * B) := by
        apply mul_le_mul_of_nonneg_right _ (by positivity)
        linarith [show (2 : ℚ) ^ 20 ≤ 2 ^ 53 by norm_num]
      nlinarith
    have h6 : |S + x| / 2 ^ 53 ≤ ((k + 1) * B + k * B) / 2 ^ 53 := by
      apply div_le_div_of_nonneg_right _ (by positivity)
      linarith
    calc |fl (S + x) - (l.sum + x)| ≤ |S + x| / 2 ^ 53 + k ^ 2 * B / 2 ^ 53 := h4.trans (by linarith)
      _ ≤ ((k + 1) * B + k * B) / 2 ^ 53 + k ^ 2 * B / 2 ^ 53 := by linarith
      _ = (k + 1) ^ 2 * B / 2 ^ 53 := by ring

/-- The mean of the package is off by at most `B / 2^31`, for at most `2^20` vectors of one coordinate up to `B`. -/
theorem C121_float_mean {l : List ℚ} {B : ℚ} (hne : l ≠ []) (hB : ∀ x ∈ l, |x| ≤ B) (hl : l.length ≤ 2 ^ 20) :
    |flMean l - l.sum / l.length| ≤ B / 2 ^ 31 := by
  have h1 := flSum_err hB hl
  have h2 := abs_sum_le hB
  have h0 : 0 ≤ B := by
    obtain ⟨x, hx⟩ := List.exists_mem_of_ne_nil _ hne
    exact (abs_nonneg x).trans (hB x hx)
  have hn : (1 : ℚ) ≤ l.length := by exact_mod_cast List.length_pos_iff.2 hne
  have hn' : (l.length : ℚ) ≤ 2 ^ 20 := by exact_mod_cast hl
  show |fl (flSum l * fl (1 / l.length)) - l.sum / l.length| ≤ _
  generalize flSum l = S at *
  generalize l.sum = T at *
  generalize (l.length : ℚ) = n at *
  have hn0 : 0 < n := by linarith
  have h3 := fl_err (1 / n)
  rw [abs_of_pos (show 0 < 1 / n by positivity)] at h3
  generalize fl (1 / n) = q at *
  have h4 := fl_err (S * q)
  -- the product before it is rounded
  have h5 : |S * q - T / n| ≤ 2 * n * B / 2 ^ 53 + B / 2 ^ 53 := by
    have e1 : S * q - T / n = (S - T) * q + T * (q - 1 / n) := by field_simp; ring
    have hq : |q| ≤ 2 / n := by
      have e2 : q = (q - 1 / n) + 1 / n := by ring
      rw [e2]
      refine (abs_add_le _ _).trans ?_
      rw [abs_of_pos (show 0 < 1 / n by positivity)]
      have : 1 / n / 2 ^ 53 ≤ 1 / n := div_le_self (by positivity) (by norm_num)
      have e3 : 2 / n = 1 / n + 1 / n := by ring
      linarith
    rw [e1]
    refine (abs_add_le _ _).trans ?_
    rw [abs_mul, abs_mul]
    have a1 : |S - T| * |q| ≤ n ^ 2 * B / 2 ^ 53 * (2 / n) := mul_le_mul h1 hq (abs_nonneg _) (by positivity)
    have a2 : |T| * |q - 1 / n| ≤ n * B * (1 / n / 2 ^ 53) := mul_le_mul h2 h3 (abs_nonneg _) (by positivity)
    have a3 : n ^ 2 * B / 2 ^ 53 * (2 / n) = 2 * n * B / 2 ^ 53 := by field_simp
    have a4 : n * B * (1 / n / 2 ^ 53) = B / 2 ^ 53 := by field_simp
    linarith
  have h6 : |T / n| ≤ B := by
    rw [abs_div, abs_of_pos hn0, div_le_iff₀ hn0]
    linarith
  have h7 : 2 * n * B / 2 ^ 53 ≤ B / 2 ^ 32 := by
    have : 2 * n * B ≤ 2 * 2 ^ 20 * B := by
      have := mul_le_mul_of_nonneg_right hn' h0
      linarith
    have e : 2 * n * B / 2 ^ 53 ≤ 2 * 2 ^ 20 * B / 2 ^ 53 := div_le_div_of_nonneg_right this (by positivity)
    have e2 : 2 * 2 ^ 20 * B / 2 ^ 53 = B / 2 ^ 32 := by ring
    linarith
  have h8 : |S * q| ≤ 2 * B := by
    have e1 : S * q = (S * q - T / n) + T / n := by ring
    rw [e1]
    refine (abs_add_le _ _).trans ?_
    linarith
  have e1 : fl (S * q) - T / n = (fl (S * q) - S * q) + (S * q - T / n) := by ring
  rw [e1]
  refine (abs_add_le _ _).trans ?_
  have h9 : |S * q| / 2 ^ 53 ≤ 2 * B / 2 ^ 53 := div_le_div_of_nonneg_right h8 (by positivity)
  linarith

theorem lineKm_metric {tol : ℚ} {enum : List Int → List Int} {shuffle : List α → List α} (x y : ℚ) :
    (lineKmEnv tol enum shuffle).metric x y = |x - y| := by
  show (if x ≤ y then y - x else x - y) = _
  split
  · rw [abs_sub_comm, abs_of_nonneg (by linarith)]
  · rw [abs_of_pos (by linarith)]

section Float
variable {tol B : ℚ} {enum : List Int → List Int} {shuffle : List α → List α} {vs : Dict α ℚ}

theorem source_err (hB : ∀ x ∈ m.managed, ∀ v, dget? vs x = some v → |v| ≤ B) (hn : m.managed.length ≤ 2 ^ 20) {c c' : ℚ}
    (h : SameSource (lineKmEnv tol enum shuffle) (flKmEnv tol enum shuffle) m vs vs c c') :
    0 ≤ B ∧ |c| ≤ B ∧ |c' - c| ≤ B / 2 ^ 31 := by
  cases h with
  | vector hx h1 h2 =>
    rw [h1] at h2
    cases h2
    have := hB _ hx _ h1
    have h0 := (abs_nonneg _).trans this
    refine ⟨h0, this, ?_⟩
    rw [sub_self, abs_zero]
    positivity
  | @mean S w w' hne hsub h1 h2 =>
    have hw : w' = w := by
      clear hne hsub
      induction h1 generalizing w' with
      | nil => cases h2; rfl
      | cons a _ ih =>
        cases h2 with
        | cons b t =>
          rw [a] at b
          cases b
          rw [ih t]
    subst hw
    have hb : ∀ v ∈ w', |v| ≤ B := fun v hv => by
      obtain ⟨x, hx, hxv⟩ := forall₂_mem_right h1 hv
      exact hB x (hsub.subset hx) v hxv
    have hne' : w' ≠ [] := by
      rintro rfl
      cases h1
      exact hne rfl
    have hlen : w'.length ≤ 2 ^ 20 := by
      rw [← h1.length_eq]
      exact hsub.length_le.trans hn
    obtain ⟨v, hv⟩ := List.exists_mem_of_ne_nil _ hne'
    refine ⟨(abs_nonneg v).trans (hb v hv), ?_, C121_float_mean hne' hb hlen⟩
    have hpos : (0 : ℚ) < w'.length := by exact_mod_cast List.length_pos_iff.2 hne'
    show |w'.sum / w'.length| ≤ B
    rw [abs_div, abs_of_pos hpos, div_le_iff₀ hpos, mul_comm]
    exact abs_sum_le hb

/-- Distances between computed numbers that are close to exact ones. -/
theorem flDist_near {x y x' y' : ℚ} (hB : 0 ≤ B) (hx : |x| ≤ B) (hy : |y| ≤ B) (hx' : |x' - x| ≤ B / 2 ^ 31) (hy' : |y' - y| ≤ B / 2 ^ 31) :
    |flDist x' y' - (|x - y|)| ≤ B / 2 ^ 23 := by
  have h1 : |flDist x' y' - (|x' - y'|)| ≤ (|x'| + |y'|) / 2 ^ 25 := by exact_mod_cast C99_error x' y'
  have a1 : |x'| ≤ B + B / 2 ^ 31 := by
    have := abs_sub_abs_le_abs_sub x' x
    linarith
  have a2 : |y'| ≤ B + B / 2 ^ 31 := by
    have := abs_sub_abs_le_abs_sub y' y
    linarith
  have h2 : |(|x' - y'|) - (|x - y|)| ≤ B / 2 ^ 31 + B / 2 ^ 31 := by
    refine (abs_abs_sub_abs_le _ _).trans ?_
    have e : x' - y' - (x - y) = (x' - x) - (y' - y) := by ring
    rw [e]
    exact (abs_sub _ _).trans (by linarith)
  have e : flDist x' y' - (|x - y|) = (flDist x' y' - (|x' - y'|)) + ((|x' - y'|) - (|x - y|)) := by ring
  rw [e]
  refine (abs_add_le _ _).trans ?_
  have h3 : (|x'| + |y'|) / 2 ^ 25 ≤ (B + B / 2 ^ 31 + (B + B / 2 ^ 31)) / 2 ^ 25 := div_le_div_of_nonneg_right (by linarith) (by positivity)
  have h4 : (B + B / 2 ^ 31 + (B + B / 2 ^ 31)) / 2 ^ 25 + (B / 2 ^ 31 + B / 2 ^ 31) ≤ B / 2 ^ 23 := by
    have : B / 2 ^ 23 - ((B + B / 2 ^ 31 + (B + B / 2 ^ 31)) / 2 ^ 25 + (B / 2 ^ 31 + B / 2 ^ 31)) =
        B * (1 / 2 ^ 23 - ((1 + 1 / 2 ^ 31 + (1 + 1 / 2 ^ 31)) / 2 ^ 25 + (1 / 2 ^ 31 + 1 / 2 ^ 31))) := by ring
    have h5 : 0 ≤ B * ((1 : ℚ) / 2 ^ 23 - ((1 + 1 / 2 ^ 31 + (1 + 1 / 2 ^ 31)) / 2 ^ 25 + (1 / 2 ^ 31 + 1 / 2 ^ 31))) :=
      mul_nonneg hB (by norm_num)
    linarith
  linarith

/-- The distances between IDs and centroids that the package computes are off by at most `B / 2^23`. -/
theorem C121_float_centers (hB : ∀ x ∈ m.managed, ∀ v, dget? vs x = some v → |v| ≤ B) (hn : m.managed.length ≤ 2 ^ 20) :
    CentersWithin (B / 2 ^ 23) (lineKmEnv tol enum shuffle) (flKmEnv tol enum shuffle) m vs vs := by
  intro x hx v v' hv hv' c c' hc
  rw [hv] at hv'
  cases hv'
  obtain ⟨h0, h1, h2⟩ := source_err hB hn hc
  rw [lineKm_metric]
  exact flDist_near h0 (hB x hx v hv) h1 (by rw [sub_self, abs_zero]; positivity) h2

theorem centroids_count {env : KMeansEnv α V δ} (he : env.Ok) (h : Inv m) {vectors : Dict α V} (hv : HasVectors m vectors) {nb : Nat}
    (hnb : 0 < nb) (hnb' : nb ≤ m.managed.length) {C : Dict Int V} (hC : RunCentroids env m vectors nb C) :
    (dkeys C).length ≤ m.managed.length := by
  have hci := hC.inv he h hv hnb hnb'
  cases hC with
  | init e =>
    rw [(kmInitialize_keys e).1, List.length_map, List.length_range]
    exact hnb'
  | @pass C0 new _ hC0 e =>
    have hne : m.managed ≠ [] := List.length_pos_iff.1 (by omega)
    obtain ⟨new', cs, e1, hd⟩ := kmPass_ok he h hv hne nb (hC0.inv he h hv hnb hnb')
    rw [e] at e1; cases e1
    have hsub : (dkeys C).Subperm (dvals new) := hci.nodup.subperm fun k hk => (hd.keys k).1 hk
    have hk : dkeys new = m.managed := hd.pass.keys
    have := hsub.length_le
    rw [← hk]
    simpa [dkeys, dvals] using this

/-- The comparisons with the tolerance are those of exact arithmetic, when no sum of moves of `k` centroids is within `k * B / 2^22` of
the tolerance. -/
theorem C121_float_stops (he : (lineKmEnv tol enum shuffle).Ok) (hm : Reachable m) (hv : HasVectors m vs)
    (hB : ∀ x ∈ m.managed, ∀ v, dget? vs x = some v → |v| ≤ B) (hn : m.managed.length ≤ 2 ^ 20) {nb : Nat} (hnb : 0 < nb)
    (hnb' : nb ≤ m.managed.length) (hs : StopMargin (B / 2 ^ 22) tol (lineKmEnv tol enum shuffle) m vs nb) :
    SameStops (lineKmEnv tol enum shuffle) (flKmEnv tol enum shuffle) m vs vs nb := by
  intro C new C₁ hC hp l hl hl2
  have hk : l.length ≤ 2 ^ 20 := by
    rw [← hl2.length_eq]
    exact (centroids_count he hm.inv hv hnb hnb' hC).trans hn
  have hmar := hs C new C₁ hC hp (l.map fun p => (p.1.1, p.2.1)) (by
    rw [List.forall₂_map_right_iff]
    exact hl2)
  rw [List.length_map, List.map_map] at hmar
  have hne : ∃ p, p ∈ l := by
    have hci := hC.inv he hm.inv hv hnb hnb'
    have : l ≠ [] := by
      rintro rfl
      cases hC' : C with
      | nil => exact hci.ne hC'
      | cons a b => rw [hC'] at hl2; cases hl2
    exact List.exists_mem_of_ne_nil _ this
  obtain ⟨p0, hp0⟩ := hne
  have h0 : 0 ≤ B := (source_err hB hn (hl p0 hp0).1).1
  have hd : ∀ p ∈ l, |flDist p.1.2 p.2.2 - (|p.1.1 - p.2.1|)| ≤ B / 2 ^ 23 := fun p hp => by
    obtain ⟨-, a1, a2⟩ := source_err hB hn (hl p hp).1
    obtain ⟨-, b1, b2⟩ := source_err hB hn (hl p hp).2
    exact flDist_near h0 a1 b1 a2 b2
  have hbig : ∀ t ∈ l.map fun p => flDist p.1.2 p.2.2, |t| ≤ 3 * B := by
    intro t ht
    obtain ⟨p, hp, rfl⟩ := List.mem_map.1 ht
    obtain ⟨-, a1, a2⟩ := source_err hB hn (hl p hp).1
    obtain ⟨-, b1, b2⟩ := source_err hB hn (hl p hp).2
    have c1 := hd p hp
    have c2 := abs_sub_abs_le_abs_sub (flDist p.1.2 p.2.2) (|p.1.1 - p.2.1|)
    rw [abs_abs] at c2
    have c3 := abs_sub p.1.1 p.2.1
    have c4 : B / 2 ^ 23 ≤ B := div_le_self h0 (by norm_num)
    linarith
  have h1 := flSum_err hbig (by rwa [List.length_map])
  rw [List.length_map] at h1
  have h2 : |(l.map fun p => flDist p.1.2 p.2.2).sum - (l.map fun p => |p.1.1 - p.2.1|).sum| ≤ l.length * (B / 2 ^ 23) := by
    clear hl hl2 hk hmar hp0 hbig h1
    induction l with
    | nil => simp
    | cons p l ih =>
      simp only [List.map_cons, List.sum_cons, List.length_cons]
      have e : flDist p.1.2 p.2.2 + (l.map fun p => flDist p.1.2 p.2.2).sum - ((|p.1.1 - p.2.1|) + (l.map fun p => |p.1.1 - p.2.1|).sum) =
          (flDist p.1.2 p.2.2 - (|p.1.1 - p.2.1|)) + ((l.map fun p => flDist p.1.2 p.2.2).sum - (l.map fun p => |p.1.1 - p.2.1|).sum) := by ring
      rw [e]
      refine (abs_add_le _ _).trans ?_
      have a1 := hd p (by simp)
      have a2 := ih fun q hq => hd q (by simp [hq])
      push_cast
      linarith
  have h3 : (l.length : ℚ) ^ 2 * (3 * B) / 2 ^ 53 ≤ l.length * (B / 2 ^ 23) := by
    have : (l.length : ℚ) ≤ 2 ^ 20 := by exact_mod_cast hk
    have e1 : (l.length : ℚ) ^ 2 * (3 * B) / 2 ^ 53 = l.length * (l.length * (3 * B / 2 ^ 53)) := by ring
    rw [e1]
    apply mul_le_mul_of_nonneg_left _ (by positivity)
    have e2 : (l.length : ℚ) * (3 * B / 2 ^ 53) ≤ 2 ^ 20 * (3 * B / 2 ^ 53) := mul_le_mul_of_nonneg_right this (by positivity)
    have e3 : 2 ^ 20 * (3 * B / 2 ^ 53) = 3 / 2 ^ 10 * (B / 2 ^ 23) := by ring
    have e4 : 3 / 2 ^ 10 * (B / 2 ^ 23) ≤ 1 * (B / 2 ^ 23) := mul_le_mul_of_nonneg_right (by norm_num) (by positivity)
    linarith
  have h4 : |flSum (l.map fun p => flDist p.1.2 p.2.2) - (l.map fun p => |p.1.1 - p.2.1|).sum| ≤ l.length * (B / 2 ^ 22) := by
    have e : ∀ a b c : ℚ, a - c = (a - b) + (b - c) := fun a b c => by ring
    rw [e _ (l.map fun p => flDist p.1.2 p.2.2).sum]
    refine (abs_add_le _ _).trans ?_
    have e5 : (l.length : ℚ) * (B / 2 ^ 22) = l.length * (B / 2 ^ 23) + l.length * (B / 2 ^ 23) := by ring
    linarith
  have hex : ((l.map fun p : (ℚ × ℚ) × ℚ × ℚ => (p.1.1, p.2.1)).map fun p : ℚ × ℚ => if p.1 ≤ p.2 then p.2 - p.1 else p.1 - p.2) =
      l.map fun p => |p.1.1 - p.2.1| := by
    rw [List.map_map]
    refine List.map_congr_left fun p _ => ?_
    exact lineKm_metric (α := α) (tol := tol) (enum := enum) (shuffle := shuffle) p.1.1 p.2.1
  show decide (flSum ((l.map fun p : (ℚ × ℚ) × ℚ × ℚ => (p.1.2, p.2.2)).map fun p : ℚ × ℚ => flDist p.1 p.2) < tol) =
    decide ((((l.map fun p : (ℚ × ℚ) × ℚ × ℚ => (p.1.1, p.2.1)).map fun p : ℚ × ℚ => if p.1 ≤ p.2 then p.2 - p.1 else p.1 - p.2)).sum < tol)
  rw [hex, List.map_map, decide_eq_decide]
  have hmar' : (l.length : ℚ) * (B / 2 ^ 22) < |(l.map fun p => |p.1.1 - p.2.1|).sum - tol| := hmar
  have h4' : |flSum (l.map ((fun p : ℚ × ℚ => flDist p.1 p.2) ∘ fun p : (ℚ × ℚ) × ℚ × ℚ => (p.1.2, p.2.2))) -
      (l.map fun p => |p.1.1 - p.2.1|).sum| ≤ l.length * (B / 2 ^ 22) := h4
  have h5 := abs_le.1 h4'
  rcases lt_abs.1 hmar' with h6 | h6
  · constructor
    · intro h7; linarith
    · intro h7
      have : (0 : ℚ) ≤ l.length * (B / 2 ^ 22) := by positivity
      linarith
  · have : (0 : ℚ) ≤ l.length * (B / 2 ^ 22) := by positivity
    constructor
    · intro h7; linarith
    · intro h7; linarith

/-- COP-KMeans of at most `2^20` vectors of one coordinate up to `B` returns in binary64 the clusters that it returns in exact arithmetic,
when each decision of the exact run wins by more than `B / 2^22` and no sum of moves of `k` centroids is within `k * B / 2^22` of the
tolerance. The computed centroids are within `B / 2^31` of the exact ones. -/
theorem C121_float (he : (lineKmEnv tol enum shuffle).Ok) (hm : Reachable m) (hv : HasVectors m vs)
    (hB : ∀ x ∈ m.managed, ∀ v, dget? vs x = some v → |v| ≤ B) (hn : m.managed.length ≤ 2 ^ 20) {model : String} {i : Int} {neg : Bool}
    {it : Nat} (hi : kmInit model i neg = .ok it) {nb : Int}
    (hmar : CenterMargin (B / 2 ^ 22) (lineKmEnv tol enum shuffle) m vs (min nb.toNat m.managed.length))
    (hs : StopMargin (B / 2 ^ 22) tol (lineKmEnv tol enum shuffle) m vs (min nb.toNat m.managed.length)) {r : Dict α Int}
    {cs : Dict Int ℚ} (hr : kmCluster (lineKmEnv tol enum shuffle) it m (some vs) (some nb) = .ok (r, cs)) :
    ∃ cs', kmCluster (flKmEnv tol enum shuffle) it m (some vs) (some nb) = .ok (r, cs') ∧ dkeys cs' = dkeys cs ∧
      ∀ k c c', dget? cs k = some c → dget? cs' k = some c' → |c' - c| ≤ B / 2 ^ 31 := by
  obtain ⟨n, e, hn2, hne⟩ := kmCluster_ok_args hr (kmInit_pos hi)
  cases e
  have hpos : 0 < min nb.toNat m.managed.length := by
    have := List.length_pos_iff.2 hne
    omega
  obtain ⟨cs', h1, h2, h3⟩ := C121_margin (env' := flKmEnv tol enum shuffle) he hm hv rfl rfl rfl hi (C121_float_centers hB hn)
    (by rw [show B / 2 ^ 23 + B / 2 ^ 23 = B / 2 ^ 22 by ring]; exact hmar)
    (C121_float_stops he hm hv hB hn hpos (Nat.min_le_right _ _) hs) hr
  exact ⟨cs', h1, h2, fun k c c' hc hc' => (source_err hB hn (h3 k c c' hc hc')).2.2⟩

end Float

/-! ### Each theorem applied to a concrete case -/

/-! ### Sufficient conditions -/

section Gap
variable [AddCommGroup δ] [IsOrderedAddMonoid δ]

/-- Each decision wins by more than `μ` when in every pass the distances of an ID to different centroids differ by more than `μ`. -/
theorem C121_gap {env : KMeansEnv α V δ} (he : env.Ok) (hm : Reachable m) {vs : Dict α V} (hv : HasVectors m vs) {nb : Nat} (hnb : 0 < nb)
    (hnb' : nb ≤ m.managed.length) {μ : δ}
    (hgap : ∀ C, RunCentroids env m vs nb C → ∀ x ∈ m.managed, ∀ v, dget? vs x = some v → ∀ a b p q, dget? C a = some p →
      dget? C b = some q → a ≠ b → μ < |env.metric v q - env.metric v p|) : CenterMargin μ env m vs nb := by
  intro C hC dist hd s hs x hx v hxv a p ha hp hmin b q hb hq hab
  have hne : m.managed ≠ [] := List.length_pos_iff.1 (by omega)
  have hci := hC.inv he hm.inv hv hnb hnb'
  obtain ⟨D, E1, ht⟩ := kmDistances_ok (env := env) hm.inv hv hne hci
  rw [hd] at E1; cases E1
  have hxm := (hs.inv hm.inv hv hci ht).sub x (List.mem_of_getLast? hx)
  have h1 := hgap C hC x hxm v hxv a b p q hp hq hab
  rw [abs_of_nonneg (sub_nonneg.2 (hmin b q hb hq))] at h1
  exact lt_sub_iff_add_lt'.1 h1

/-- Every centroid of a run comes from the vector of an ID or from the mean of some IDs. -/
theorem source_exists {env : KMeansEnv α V δ} {env' : KMeansEnv α V' δ'} (he : env'.Ok) {vs : Dict α V} {vs' : Dict α V'}
    (hv : HasVectors m vs) {nb : Nat} {C : Dict Int V'} (hC : RunCentroids env' m vs' nb C) {k : Int} {p' : V'}
    (hk : dget? C k = some p') : ∃ p, SameSource env env' m vs vs' p p' := by
  cases hC with
  | init e =>
    unfold kmInitialize at e
    simp only [bind, Except.bind] at e
    split at e
    · cases e
    rename_i items hi
    cases e
    obtain ⟨c, -, hc⟩ := forall₂_mem_right (mapM_ok_iff.1 hi) (mem_of_dget?_dofList hk)
    unfold kmInitEntry at hc
    split at hc
    · rename_i x hx
      unfold dget at hc
      cases e1 : dget? vs' x with
      | none => rw [e1] at hc; cases hc
      | some w =>
        rw [e1] at hc
        cases hc
        have hxm : x ∈ m.managed := by
          have h2 : x ∈ env'.shuffle m.managed := List.mem_of_mem_take (List.mem_of_getElem? hx)
          exact (he.shuffle m.managed).mem_iff.1 h2
        obtain ⟨v, hxv⟩ := hv x hxm
        exact ⟨v, .vector hxm hxv e1⟩
    · cases hc
  | @pass C0 new _ _ e =>
    unfold kmPass at e
    simp only [bind, Except.bind] at e
    split at e
    · cases e
    split at e
    · cases e
    split at e
    · cases e
    rename_i cs hcs
    cases e
    unfold kmCentroids at hcs
    simp only [bind, Except.bind] at hcs
    split at hcs
    · cases hcs
    rename_i items hi
    cases hcs
    obtain ⟨c, -, hc⟩ := forall₂_mem_right (mapM_ok_iff.1 hi) (mem_of_dget?_dofList hk)
    split at hc
    · cases hc
    rename_i ys hys
    split at hc
    · cases hc
    rename_i ms hms
    split at hc
    · cases hc
    rename_i hne
    cases hc
    have hF' : List.Forall₂ (fun x v => dget? vs' x = some v) ys ms := (mapM_ok_iff.1 hms).imp fun x v h => by
      unfold dget at h
      cases e : dget? vs' x with
      | none => rw [e] at h; cases h
      | some w => rw [e] at h; cases h; rfl
    have hsub : ys.Sublist m.managed := by
      rw [(filterM_ok hys).2]
      exact List.filter_sublist
    have hw : ∃ w, List.Forall₂ (fun x v => dget? vs x = some v) ys w := by
      have hex : ∀ y ∈ ys, ∃ v, dget? vs y = some v := fun y hy => hv y (hsub.subset hy)
      clear hF' hms hsub hi hk hne hys
      induction ys with
      | nil => exact ⟨[], .nil⟩
      | cons y ys ih =>
        obtain ⟨v, h1⟩ := hex y (by simp)
        obtain ⟨w, h2⟩ := ih fun z hz => hex z (by simp [hz])
        exact ⟨v :: w, .cons h1 h2⟩
    obtain ⟨w, hw⟩ := hw
    refine ⟨env.mean w, .mean ?_ hsub hw hF'⟩
    rintro rfl
    cases hF'
    exact hne rfl

/-- Without any margin: the cluster that the run with errors gives to an ID has a centroid that, computed exactly, is at most `ε + ε`
farther than any other centroid that the ID may take. -/
theorem C121_near_best {env : KMeansEnv α V δ} {env' : KMeansEnv α V' δ} (he : env'.Ok) (hm : Reachable m) {vs : Dict α V}
    {vs' : Dict α V'} (hv : HasVectors m vs) (hv' : HasVectors m vs') {nb : Nat} (hnb : 0 < nb) (hnb' : nb ≤ m.managed.length) {ε : δ}
    (herr : CentersWithin ε env env' m vs vs') {C : Dict Int V'} (hC : RunCentroids env' m vs' nb C) {dist : Dict α (Dict Int δ)}
    (hd : kmDistances env' m vs' C = .ok dist) {s : List α × Dict α Int} (hs : InPass m nb C dist s) {x : α} (hx : s.1.getLast? = some x)
    {v : V} (hxv : dget? vs x = some v) {s' : List α × Dict α Int}
    (hs' : kmAssign m m.managed nb C dist x (s.1.dropLast, s.2) = .ok s') {a b : Int} (ha : dget? s'.2 x = some a)
    (hb : Admissible m C s.2 x b) : ∃ p q p' q', dget? C a = some p' ∧ dget? C b = some q' ∧ SameSource env env' m vs vs' p p' ∧
      SameSource env env' m vs vs' q q' ∧ env.metric v p ≤ env.metric v q + (ε + ε) := by
  obtain ⟨t, label, e1, -, e2, e3, -⟩ := kmAssign_nearest he hm.inv hv' hnb hnb' hC hd hs hx
  rw [hs'] at e1
  cases e1
  rw [ha] at e2
  cases e2
  obtain ⟨h1, h2⟩ := e3 ⟨b, hb⟩
  obtain ⟨p', hp'⟩ := dget?_isSome_of_mem h1.1
  obtain ⟨q', hq'⟩ := dget?_isSome_of_mem hb.1
  have hne : m.managed ≠ [] := List.length_pos_iff.1 (by omega)
  have hci := hC.inv he hm.inv hv' hnb hnb'
  obtain ⟨D, E1, ht⟩ := kmDistances_ok (env := env') hm.inv hv' hne hci
  rw [hd] at E1; cases E1
  have hxm := (hs.inv hm.inv hv' hci ht).sub x (List.mem_of_getLast? hx)
  obtain ⟨v', hxv'⟩ := hv' x hxm
  have h3 := h2 b hb v' p' q' hxv' hp' hq'
  obtain ⟨p, hp⟩ := source_exists (env := env) he hv hC hp'
  obtain ⟨q, hq⟩ := source_exists (env := env) he hv hC hq'
  refine ⟨p, q, p', q', hp', hq', hp, hq, ?_⟩
  have a1 := (abs_le.1 (herr x hxm v v' hxv hxv' p p' hp)).1
  have a2 := (abs_le.1 (herr x hxm v v' hxv hxv' q q' hq)).2
  rw [neg_le_sub_iff_le_add] at a1
  rw [sub_le_iff_le_add'] at a2
  calc env.metric v p ≤ env'.metric v' p' + ε := a1
    _ ≤ env'.metric v' q' + ε := by gcongr
    _ ≤ env.metric v q + ε + ε := by gcongr
    _ = env.metric v q + (ε + ε) := add_assoc _ _ _

end Gap

/-! ### The margin is needed -/

/-- `2^29`, `2^29 + 1` and `2^29 + 5` are numbers of binary64, and COP-KMeans asked for two clusters finds in exact arithmetic the
clusters `2^29, 2^29 + 1` and `2^29 + 5`. With the distances of the package all three are in one cluster: the distances are computed from
squares of size `2^58`, so that all of them are 0, and the last cluster takes all IDs. -/
theorem C121_needed : ∃ vs : Dict Nat ℚ, (∀ x v, dget? vs x = some v → IsFloat v) ∧ HasVectors (Manager.init [1, 2, 3]) vs ∧
    (lineKmEnv (α := Nat) (1 / 10000) List.dedup id).Ok ∧
    (kmCluster (lineKmEnv (1 / 10000) List.dedup id) 150 (Manager.init [1, 2, 3]) (some vs) (some 2)).map Prod.fst =
      .ok [(1, 0), (2, 1), (3, 0)] ∧
    (kmCluster (flKmEnv (1 / 10000) List.dedup id) 150 (Manager.init [1, 2, 3]) (some vs) (some 2)).map Prod.fst =
      .ok [(1, 0), (2, 0), (3, 0)] := by
  refine ⟨[(1, 2 ^ 29), (2, 2 ^ 29 + 5), (3, 2 ^ 29 + 1)], ?_, ?_, ⟨fun l => ⟨List.nodup_dedup l, fun _ => List.mem_dedup⟩, fun l => .refl l⟩,
    by decide +kernel, by decide +kernel⟩
  · intro x v hv
    have := mem_of_dget? hv
    simp only [List.mem_cons, Prod.mk.injEq, List.not_mem_nil, or_false] at this
    have h : ∀ q : ℚ, fl q = q → IsFloat q := fun q hq => by rw [← hq]; exact fl_isFloat q
    rcases this with ⟨-, rfl⟩ | ⟨-, rfl⟩ | ⟨-, rfl⟩ <;> exact h _ (by decide +kernel)
  · unfold HasVectors
    simp only [exists_dget?_iff]
    decide +kernel

/-! ### Examples -/

/-- The vectors 0, 0.3, 1 and 1.9, of which two are rounded to floats. -/
def kmFloatVectors : Dict Nat ℚ := [(1, 0), (2, fl (3 / 10)), (3, 1), (4, fl (19 / 10))]

def kmFloatEnv : KMeansEnv Nat ℚ ℚ := lineKmEnv (1 / 10000) List.dedup id

theorem kmFloatEnv_ok : kmFloatEnv.Ok := ⟨fun l => ⟨List.nodup_dedup l, fun _ => List.mem_dedup⟩, fun l => .refl l⟩

/-- The centroids that the exact run goes through. -/
def kmFloatCentroids : List (Dict Int ℚ) :=
  [[(0, 0), (1, 5404319552844595 / 18014398509481984)], [(0, 0), (1, 57646075230342347 / 54043195528445952)],
    [(0, 5404319552844595 / 36028797018963968), (1, 6530219459687219 / 4503599627370496)]]

theorem kmFloat_run {C : Dict Int ℚ} (h : RunCentroids kmFloatEnv (Manager.init [1, 2, 3, 4]) kmFloatVectors 2 C) : C ∈ kmFloatCentroids := by
  induction h with
  | init e =>
    have h1 : ∃ c ∈ kmFloatCentroids, kmInitialize kmFloatEnv (Manager.init [1, 2, 3, 4]).managed kmFloatVectors 2 = .ok c := by
      decide +kernel
    obtain ⟨c, hc, e1⟩ := h1
    rw [e] at e1
    cases e1
    exact hc
  | @pass C new C' _ e ih =>
    have h1 : ∀ c ∈ kmFloatCentroids, ∃ c' ∈ kmFloatCentroids,
        (kmPass kmFloatEnv (Manager.init [1, 2, 3, 4]) kmFloatVectors 2 c).map Prod.snd = .ok c' := by decide +kernel
    obtain ⟨c', hc', e1⟩ := h1 C ih
    rw [e] at e1
    cases e1
    exact hc'

theorem kmFloat_has : HasVectors (Manager.init [1, 2, 3, 4]) kmFloatVectors := by
  unfold HasVectors
  simp only [exists_dget?_iff]
  decide +kernel

theorem kmFloat_bound : ∀ x ∈ (Manager.init [1, 2, 3, 4]).managed, ∀ v, dget? kmFloatVectors x = some v → |v| ≤ 2 := by
  have h : ∀ x ∈ (Manager.init [1, 2, 3, 4]).managed, -2 ≤ (dget? kmFloatVectors x).getD 0 ∧ (dget? kmFloatVectors x).getD 0 ≤ 2 := by
    decide +kernel
  intro x hx v hv
  have := h x hx
  rw [hv] at this
  exact abs_le.2 this

theorem kmFloat_margin : CenterMargin (2 / 2 ^ 22) kmFloatEnv (Manager.init [1, 2, 3, 4]) kmFloatVectors 2 := by
  refine C121_gap kmFloatEnv_ok ⟨_, [], rfl⟩ kmFloat_has (by decide) (by decide +kernel) fun C hC x hx v hv a b p q ha hb hab => ?_
  have h : ∀ C ∈ kmFloatCentroids, ∀ x ∈ (Manager.init [1, 2, 3, 4]).managed, ∀ a ∈ dkeys C, ∀ b ∈ dkeys C, a ≠ b →
      2 / 2 ^ 22 < kmFloatEnv.metric ((dget? kmFloatVectors x).getD 0) ((dget? C b).getD 0) -
        kmFloatEnv.metric ((dget? kmFloatVectors x).getD 0) ((dget? C a).getD 0) ∨
      2 / 2 ^ 22 < -(kmFloatEnv.metric ((dget? kmFloatVectors x).getD 0) ((dget? C b).getD 0) -
        kmFloatEnv.metric ((dget? kmFloatVectors x).getD 0) ((dget? C a).getD 0)) := by decide +kernel
  have h1 := h C (kmFloat_run hC) x hx a (mem_dkeys_of_dget? ha) b (mem_dkeys_of_dget? hb) hab
  rw [hv, ha, hb] at h1
  exact lt_abs.2 h1

theorem kmFloat_stop : StopMargin (2 / 2 ^ 22) (1 / 10000) kmFloatEnv (Manager.init [1, 2, 3, 4]) kmFloatVectors 2 := by
  intro C new C₁ hC hp l hl
  have h : ∀ C ∈ kmFloatCentroids, ∀ C₁ ∈ kmFloatCentroids,
      (kmPass kmFloatEnv (Manager.init [1, 2, 3, 4]) kmFloatVectors 2 C).map Prod.snd = .ok C₁ →
      ((dkeys C).length : ℚ) * (2 / 2 ^ 22) < ((dkeys C).map fun k => kmFloatEnv.metric ((dget? C k).getD 0) ((dget? C₁ k).getD 0)).sum - 1 / 10000 ∨
      ((dkeys C).length : ℚ) * (2 / 2 ^ 22) < -(((dkeys C).map fun k => kmFloatEnv.metric ((dget? C k).getD 0) ((dget? C₁ k).getD 0)).sum - 1 / 10000) := by
    decide +kernel
  have h1 := h C (kmFloat_run hC) C₁ (kmFloat_run (.pass hC hp)) (by rw [hp]; rfl)
  have e : (l.map fun p : ℚ × ℚ => |p.1 - p.2|) = (dkeys C).map fun k => kmFloatEnv.metric ((dget? C k).getD 0) ((dget? C₁ k).getD 0) := by
    clear h1
    generalize dkeys C = ks at hl
    induction hl with
    | nil => rfl
    | cons a _ ih =>
      rw [List.map_cons, List.map_cons, ih, a.1, a.2]
      exact congrArg (· :: _) (lineKm_metric _ _).symm
  rw [e, ← hl.length_eq]
  exact lt_abs.2 h1

/-- The hypotheses of `C121_float`, and what both runs return. -/
example : ∃ cs', kmCluster (flKmEnv (1 / 10000) List.dedup id) 150 (Manager.init [1, 2, 3, 4]) (some kmFloatVectors) (some 2) =
    .ok ([(1, 0), (2, 0), (3, 1), (4, 1)], cs') := by
  obtain ⟨cs', h, -⟩ := C121_float (m := Manager.init [1, 2, 3, 4]) kmFloatEnv_ok ⟨_, [], rfl⟩ kmFloat_has kmFloat_bound (by decide +kernel)
    (model := "COP") (i := 150) (neg := false) rfl (nb := 2) kmFloat_margin kmFloat_stop
    (r := [(1, 0), (2, 0), (3, 1), (4, 1)])
    (cs := [(0, 5404319552844595 / 36028797018963968), (1, 6530219459687219 / 4503599627370496)]) (by decide +kernel)
  exact ⟨cs', h⟩

/-- The computed distances to a centroid are not the exact ones. -/
example : flDist 1 (flMean [0, fl (3 / 10)]) ≠ kmFloatEnv.metric 1 (kmFloatEnv.mean [0, fl (3 / 10)]) := by decide +kernel

/-- The hypotheses of `C121_float_mean`, with a mean that is not exact. -/
example : flMean [fl (1 / 10), fl (2 / 10), fl (3 / 10)] ≠ [fl (1 / 10), fl (2 / 10), fl (3 / 10)].sum / 3 ∧
    [fl (1 / 10), fl (2 / 10), fl (3 / 10)].all (fun x => decide (-1 ≤ x ∧ x ≤ 1)) = true := by decide +kernel

/-- The hypotheses of `C121_near_best` in the first pass of the run of binary64: the ID 4 takes the cluster 1. -/
example : ∃ dist s', kmDistances (flKmEnv (1 / 10000) List.dedup id) (Manager.init [1, 2, 3, 4]) kmFloatVectors
      [(0, 0), (1, fl (3 / 10))] = .ok dist ∧
    kmInitialize (flKmEnv (1 / 10000) List.dedup id) (Manager.init [1, 2, 3, 4]).managed kmFloatVectors 2 = .ok [(0, 0), (1, fl (3 / 10))] ∧
    kmAssign (Manager.init [1, 2, 3, 4]) (Manager.init [1, 2, 3, 4]).managed 2 [(0, (0 : ℚ)), (1, fl (3 / 10))] dist 4
      ([1, 2, 3], [(1, -1), (2, -1), (3, -1), (4, -1)]) = .ok s' ∧ dget? s'.2 4 = some 1 ∧
    (Manager.init [1, 2, 3, 4]).managed.getLast? = some 4 := by
  refine ⟨[(1, [(0, 0), (1, flDist 0 (fl (3 / 10)))]), (2, [(0, flDist (fl (3 / 10)) 0), (1, 0)]),
    (3, [(0, 1), (1, flDist 1 (fl (3 / 10)))]), (4, [(0, flDist (fl (19 / 10)) 0), (1, flDist (fl (19 / 10)) (fl (3 / 10)))])],
    ([1, 2, 3], [(1, -1), (2, -1), (3, -1), (4, 1)]), ?_⟩
  decide +kernel

end Verif
