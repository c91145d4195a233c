import Mathlib.Algebra.Order.BigOperators.Group.Finset
import Mathlib.Analysis.SpecialFunctions.Log.Basic
import Verif.Proofs.MpcExact

/-
MPC-KMeans in exact arithmetic: the objective without constraints.
-/

namespace Verif

section
variable {κ : Type} [Field κ] [LinearOrder κ] [IsStrictOrderedRing κ] {D : Nat}

/-- The cost for centres given by a function. -/
def costOf (X : List (Fin D → κ)) (labels : List Int) (c : Nat → Fin D → κ) (A : Fin D → κ) : κ :=
  ∑ i ∈ Finset.range X.length, ∑ d, A d * (coord X i d - c (labelAt labels i).toNat d) ^ 2

omit [LinearOrder κ] [IsStrictOrderedRing κ] in
theorem mpcCost_eq (X : List (Fin D → κ)) (labels : List Int) (centers : List (Fin D → κ)) (A : Fin D → κ) :
    mpcCost X labels centers A = costOf X labels (coord centers) A := rfl

omit [LinearOrder κ] [IsStrictOrderedRing κ] in
theorem coord_get {X : List (Fin D → κ)} {i : Nat} {x : Fin D → κ} (h : X[i]? = some x) : coord X i = x := by
  funext d
  unfold coord
  rw [h]
  rfl

theorem labelAt_get {labels : List Int} {i : Nat} {l : Int} (h : labels[i]? = some l) : labelAt labels i = l := by
  unfold labelAt
  rw [h]
  rfl

/-! ### Assignment -/

theorem cost_nearest {X : List (Fin D → κ)} {centers : List (Fin D → κ)} {A : Fin D → κ} {t labels : List Int}
    (hnear : ∀ (i : Nat) (x : Fin D → κ), X[i]? = some x → ∃ c : Nat, t[i]? = some (c : Int) ∧ FirstNearest A centers x c)
    (hl : labels.length = X.length) (hb : LabelsBelow centers.length labels) :
    mpcCost X t centers A ≤ mpcCost X labels centers A := by
  refine Finset.sum_le_sum fun i hi => ?_
  have hi : i < X.length := Finset.mem_range.1 hi
  have hx := List.getElem?_eq_getElem hi
  obtain ⟨c, hc, y, hy, hbest⟩ := hnear i _ hx
  have hli := List.getElem?_eq_getElem (show i < labels.length by omega)
  obtain ⟨h0, hlt⟩ := hb _ (List.getElem_mem (show i < labels.length by omega))
  have hz := List.getElem?_eq_getElem (show (labels[i]).toNat < centers.length by omega)
  have := (hbest _ _ hz).1
  rw [labelAt_get hc, labelAt_get hli, coord_get hx, Int.toNat_natCast, coord_get hy, coord_get hz]
  exact this

/-! ### Repair -/

/-- Moving a point into an empty cluster and its centre to this point costs nothing. -/
theorem cost_move {X : List (Fin D → κ)} {A : Fin D → κ} (hA : ∀ d, 0 < A d) {labels : List Int} (hl : labels.length = X.length)
    (h0 : ∀ l ∈ labels, 0 ≤ l) {e : Nat} (he : (e : Int) ∉ labels) (p : Nat) (c : Nat → Fin D → κ) :
    costOf X (labels.set p (e : Int)) (fun k => if k = e then coord X p else c k) A ≤ costOf X labels c A := by
  refine Finset.sum_le_sum fun i hi => ?_
  have hi : i < labels.length := by rw [hl]; exact Finset.mem_range.1 hi
  have hli := List.getElem?_eq_getElem hi
  by_cases hip : p = i
  · subst hip
    have : (labels.set p (e : Int))[p]? = some (e : Int) := List.getElem?_set_self hi
    rw [labelAt_get this, Int.toNat_natCast]
    simp only [if_pos]
    refine le_trans (le_of_eq (Finset.sum_eq_zero fun d _ => by ring)) (Finset.sum_nonneg fun d _ => mul_nonneg (hA d).le (sq_nonneg _))
  · have : (labels.set p (e : Int))[i]? = some labels[i] := by rw [List.getElem?_set_ne hip]; exact hli
    rw [labelAt_get this, labelAt_get hli]
    simp only
    rw [if_neg]
    intro h
    apply he
    rw [← h, Int.toNat_of_nonneg (h0 _ (List.getElem_mem hi))]
    exact List.getElem_mem hi

theorem mpcFillStep_set {δ : Type} [LinearOrder δ] {dist : Nat → Nat → Except PyErr δ} {s s' : List Int × List Nat} {e : Nat}
    (h : mpcFillStep dist s e = .ok s') : ∃ p, s'.1 = s.1.set p (e : Int) := by
  unfold mpcFillStep at h
  simp only [bind, Except.bind] at h
  cases h1 : mpcDonors dist s.1 s.2 with
  | error x => rw [h1] at h; cases h
  | ok donors =>
    simp only [h1] at h
    cases h2 : pyMaxBy Prod.snd donors with
    | none => rw [h2] at h; cases h
    | some d =>
      simp only [h2] at h
      cases h3 : lset s.1 d.1 (e : Int) with
      | error x => rw [h3] at h; cases h
      | ok l =>
        simp only [h3] at h
        cases h4 : bincount l 10 with
        | error x => rw [h4] at h; cases h
        | ok c =>
          rw [h4] at h
          cases h
          refine ⟨d.1, ?_⟩
          unfold lset at h3
          split at h3
          · cases h3; rfl
          · cases h3

theorem cost_fill {δ : Type} [LinearOrder δ] {dist : Nat → Nat → Except PyErr δ} {X : List (Fin D → κ)} {A : Fin D → κ}
    (hA : ∀ d, 0 < A d) {E : List Nat} (hE : E.Nodup) {s s' : List Int × List Nat} (hl : s.1.length = X.length)
    (h0 : ∀ l ∈ s.1, 0 ≤ l) (he : ∀ e ∈ E, (e : Int) ∉ s.1) (c : Nat → Fin D → κ)
    (h : E.foldlM (mpcFillStep dist) s = .ok s') : ∃ c', costOf X s'.1 c' A ≤ costOf X s.1 c A := by
  induction E generalizing s c with
  | nil => cases h; exact ⟨c, le_rfl⟩
  | cons e E ih =>
    rw [List.foldlM_cons] at h
    cases h1 : mpcFillStep dist s e with
    | error x => rw [h1] at h; cases h
    | ok s1 =>
      rw [h1] at h
      obtain ⟨p, hp⟩ := mpcFillStep_set h1
      obtain ⟨hn1, hn2⟩ := List.nodup_cons.1 hE
      have hmem : ∀ l ∈ s1.1, l ∈ s.1 ∨ l = e := by
        intro l hl
        rw [hp] at hl
        exact List.mem_or_eq_of_mem_set hl
      obtain ⟨c', hc'⟩ := ih hn2 (s := s1) (by rw [hp, List.length_set]; exact hl)
        (fun l hl => (hmem l hl).elim (h0 l) (fun h => by omega))
        (fun a ha hm => (hmem _ hm).elim (he a (by simp [ha])) (fun h => hn1 (by rw [← Int.natCast_inj.1 h]; exact ha)))
        (fun k => if k = e then coord X p else c k) h
      refine ⟨c', hc'.trans ?_⟩
      rw [hp]
      exact cost_move hA hl h0 (he e (by simp)) p c

theorem cost_repair {δ : Type} [LinearOrder δ] {dist : Nat → Nat → Except PyErr δ} {X : List (Fin D → κ)} {A : Fin D → κ}
    (hA : ∀ d, 0 < A d) {nb : Nat} {t r : List Int} (hl : t.length = X.length) (h0 : ∀ l ∈ t, 0 ≤ l) (c : Nat → Fin D → κ)
    (h : mpcRepair dist nb t = .ok r) : ∃ c', costOf X r c' A ≤ costOf X t c A := by
  obtain ⟨counts, ec, hc, -, -⟩ := bincount_ok h0 nb
  unfold mpcRepair at h
  simp only [bind, Except.bind, ec] at h
  cases h1 : (emptyClusters counts).foldlM (mpcFillStep dist) (t, counts) with
  | error x => rw [h1] at h; cases h
  | ok s =>
    simp only [h1] at h
    split at h
    · cases h
    · cases h
      exact cost_fill hA (List.nodup_range.filter _) (s := (t, counts)) hl h0 (fun e he => ((mem_emptyClusters hc).1 he).2) c h1

/-! ### Means -/

omit [LinearOrder κ] [IsStrictOrderedRing κ] in
theorem members_sum (X : List (Fin D → κ)) (labels : List Int) (hl : labels.length = X.length) (k : Int) (d : Fin D) :
    (((X.zip labels).filterMap fun q => if q.2 = k then some q.1 else none).map fun x => x d).sum =
      ∑ i ∈ Finset.range X.length, if labelAt labels i = k then coord X i d else 0 := by
  induction X generalizing labels with
  | nil => simp
  | cons x X ih =>
    match labels, hl with
    | l :: labels, hl =>
      rw [List.length_cons, Finset.sum_range_succ', List.zip_cons_cons, List.filterMap_cons]
      have e0 : coord (x :: X) 0 d = x d := rfl
      have e1 : ∀ i, coord (x :: X) (i + 1) d = coord X i d := fun i => rfl
      have e2 : labelAt (l :: labels) 0 = l := rfl
      have e3 : ∀ i, labelAt (l :: labels) (i + 1) = labelAt labels i := fun i => rfl
      simp only [e0, e1, e2, e3]
      rw [← ih labels (by simpa using hl)]
      by_cases hk : l = k
      · simp [hk, add_comm]
      · simp [hk]

omit [LinearOrder κ] [IsStrictOrderedRing κ] in
theorem members_length (X : List (Fin D → κ)) (labels : List Int) (hl : labels.length = X.length) (k : Int) :
    ((((X.zip labels).filterMap fun q => if q.2 = k then some q.1 else none).length : Nat) : κ) =
      ∑ i ∈ Finset.range X.length, if labelAt labels i = k then (1 : κ) else 0 := by
  induction X generalizing labels with
  | nil => simp
  | cons x X ih =>
    match labels, hl with
    | l :: labels, hl =>
      rw [List.length_cons, Finset.sum_range_succ', List.zip_cons_cons, List.filterMap_cons]
      have e2 : labelAt (l :: labels) 0 = l := rfl
      have e3 : ∀ i, labelAt (l :: labels) (i + 1) = labelAt labels i := fun i => rfl
      simp only [e2, e3]
      rw [← ih labels (by simpa using hl)]
      by_cases hk : l = k
      · simp [hk]
      · simp [hk]

/-- The sum of squares around any number, compared with the sum around the mean. -/
theorem sq_around {s : Finset Nat} {P : Nat → Prop} [DecidablePred P] (x : Nat → κ) (a m : κ)
    (hm : m * (∑ i ∈ s, if P i then (1 : κ) else 0) = ∑ i ∈ s, if P i then x i else 0) :
    (∑ i ∈ s, if P i then (x i - a) ^ 2 else 0) =
      (∑ i ∈ s, if P i then (x i - m) ^ 2 else 0) + (∑ i ∈ s, if P i then (1 : κ) else 0) * (m - a) ^ 2 := by
  have e : ∀ i, (if P i then (x i - a) ^ 2 else 0) = (if P i then (x i - m) ^ 2 else 0) +
      (2 * (m - a) * (if P i then x i else 0) - 2 * (m - a) * m * (if P i then (1 : κ) else 0) + (m - a) ^ 2 * (if P i then (1 : κ) else 0)) := by
    intro i
    split <;> ring
  rw [Finset.sum_congr rfl fun i _ => e i, Finset.sum_add_distrib, Finset.sum_add_distrib, Finset.sum_sub_distrib,
    ← Finset.mul_sum, ← Finset.mul_sum, ← Finset.mul_sum, ← hm]
  ring

theorem mpcCenters_mean {ch : MpcChoices κ D} {w : κ} {X : List (Fin D → κ)} {labels : List Int} (hl : labels.length = X.length)
    {nb k : Nat} (hk : k < nb) (hu : (k : Int) ∈ labels) (d : Fin D) :
    0 < (∑ i ∈ Finset.range X.length, if labelAt labels i = (k : Int) then (1 : κ) else 0) ∧
    coord (mpcCenters (mpcExact ch w) X labels nb) k d * (∑ i ∈ Finset.range X.length, if labelAt labels i = (k : Int) then (1 : κ) else 0) =
      ∑ i ∈ Finset.range X.length, if labelAt labels i = (k : Int) then coord X i d else 0 := by
  have hget : (mpcCenters (mpcExact ch w) X labels nb)[k]? = some (mpcMean ((X.zip labels).filterMap fun q =>
      if q.2 = (k : Int) then some q.1 else none)) := by
    unfold mpcCenters
    rw [List.getElem?_map, List.getElem?_range hk]
    rfl
  have hpos : 0 < (∑ i ∈ Finset.range X.length, if labelAt labels i = (k : Int) then (1 : κ) else 0) := by
    obtain ⟨i, hi⟩ := List.mem_iff_getElem?.1 hu
    have hi' := (List.getElem?_eq_some_iff.1 hi).1
    refine lt_of_lt_of_le one_pos (le_trans (le_of_eq ?_) (Finset.single_le_sum (f := fun i => if labelAt labels i = (k : Int) then (1 : κ) else 0)
      (fun i _ => by split <;> simp) (Finset.mem_range.2 (show i < X.length by omega))))
    rw [if_pos (labelAt_get hi)]
  refine ⟨hpos, ?_⟩
  rw [coord_get hget]
  unfold mpcMean
  rw [members_sum X labels hl, members_length X labels hl, div_mul_cancel₀ _ hpos.ne']

omit [LinearOrder κ] [IsStrictOrderedRing κ] in
theorem costOf_clusters {X : List (Fin D → κ)} {labels : List Int} (hl : labels.length = X.length) {nb : Nat}
    (hb : LabelsBelow nb labels) (c : Nat → Fin D → κ) (A : Fin D → κ) :
    costOf X labels c A = ∑ d, ∑ k ∈ Finset.range nb, A d *
      ∑ i ∈ Finset.range X.length, if labelAt labels i = (k : Int) then (coord X i d - c k d) ^ 2 else 0 := by
  unfold costOf
  rw [Finset.sum_comm]
  refine Finset.sum_congr rfl fun d _ => ?_
  rw [← Finset.mul_sum, ← Finset.mul_sum, Finset.sum_comm]
  congr 1
  refine Finset.sum_congr rfl fun i hi => ?_
  have hi : i < labels.length := by rw [hl]; exact Finset.mem_range.1 hi
  obtain ⟨h0, hlt⟩ := hb _ (List.getElem_mem hi)
  have hlab := labelAt_get (List.getElem?_eq_getElem hi)
  rw [Finset.sum_eq_single (labelAt labels i).toNat]
  · rw [if_pos]
    rw [hlab, Int.toNat_of_nonneg h0]
  · intro k _ hk
    rw [if_neg]
    intro h
    apply hk
    rw [h, Int.toNat_natCast]
  · intro h
    exfalso
    apply h
    rw [hlab, Finset.mem_range]
    omega

/-- The means are the best centres, and the only ones. -/
theorem cost_means {ch : MpcChoices κ D} {w : κ} {X : List (Fin D → κ)} {A : Fin D → κ} (hA : ∀ d, 0 < A d) {labels : List Int}
    (hl : labels.length = X.length) {nb : Nat} (hb : LabelsBelow nb labels) (hu : AllUsed nb labels) (c : Nat → Fin D → κ) :
    mpcCost X labels (mpcCenters (mpcExact ch w) X labels nb) A ≤ costOf X labels c A ∧
    (mpcCost X labels (mpcCenters (mpcExact ch w) X labels nb) A = costOf X labels c A →
      ∀ k < nb, c k = coord (mpcCenters (mpcExact ch w) X labels nb) k) := by
  have key : costOf X labels c A = mpcCost X labels (mpcCenters (mpcExact ch w) X labels nb) A +
      ∑ d, ∑ k ∈ Finset.range nb, A d * ((∑ i ∈ Finset.range X.length, if labelAt labels i = (k : Int) then (1 : κ) else 0) *
        (coord (mpcCenters (mpcExact ch w) X labels nb) k d - c k d) ^ 2) := by
    rw [mpcCost_eq, costOf_clusters hl hb, costOf_clusters hl hb, ← Finset.sum_add_distrib]
    refine Finset.sum_congr rfl fun d _ => ?_
    rw [← Finset.sum_add_distrib]
    refine Finset.sum_congr rfl fun k hk => ?_
    have hk := Finset.mem_range.1 hk
    rw [sq_around (fun i => coord X i d) (c k d) _ (mpcCenters_mean (ch := ch) (w := w) hl hk (hu k hk) d).2]
    ring
  have hterm : ∀ d, ∀ k ∈ Finset.range nb, 0 ≤ A d * ((∑ i ∈ Finset.range X.length, if labelAt labels i = (k : Int) then (1 : κ) else 0) *
        (coord (mpcCenters (mpcExact ch w) X labels nb) k d - c k d) ^ 2) := fun d k hk =>
    mul_nonneg (hA d).le (mul_nonneg (mpcCenters_mean (ch := ch) (w := w) hl (Finset.mem_range.1 hk) (hu k (Finset.mem_range.1 hk)) d).1.le (sq_nonneg _))
  have hnn : ∀ d ∈ Finset.univ, 0 ≤ ∑ k ∈ Finset.range nb, A d * ((∑ i ∈ Finset.range X.length, if labelAt labels i = (k : Int) then (1 : κ) else 0) *
        (coord (mpcCenters (mpcExact ch w) X labels nb) k d - c k d) ^ 2) := fun d _ => Finset.sum_nonneg (hterm d)
  refine ⟨by rw [key]; exact le_add_of_nonneg_right (Finset.sum_nonneg hnn), fun h k hk => ?_⟩
  rw [key] at h
  have hz := (Finset.sum_eq_zero_iff_of_nonneg hnn).1 (by linarith)
  funext d
  have := (Finset.sum_eq_zero_iff_of_nonneg (hterm d)).1 (hz d (Finset.mem_univ d)) k (Finset.mem_range.2 hk)
  have h1 := (mpcCenters_mean (ch := ch) (w := w) hl hk (hu k hk) d).1
  rcases mul_eq_zero.1 this with h2 | h2
  · exact absurd h2 (hA d).ne'
  · rcases mul_eq_zero.1 h2 with h3 | h3
    · exact absurd h3 h1.ne'
    · have := pow_eq_zero_iff (two_ne_zero) |>.1 h3
      linarith

end

/-! ### Metric -/

theorem metric_best {N t a : ℝ} (hN : 0 < N) (ht : 0 ≤ t) (ha : 0 < a) (hle : a ≤ N * 10 ^ 9) :
    N / max t (1 / 10 ^ 9) * t - N * Real.log (N / max t (1 / 10 ^ 9)) ≤ a * t - N * Real.log a := by
  have hm : 0 < max t (1 / 10 ^ 9) := lt_max_of_lt_right (by positivity)
  set b := N / max t (1 / 10 ^ 9) with hb
  have hb0 : 0 < b := by positivity
  have hNb : N = b * max t (1 / 10 ^ 9) := by rw [hb, div_mul_cancel₀ _ hm.ne']
  have hlog : Real.log a - Real.log b ≤ a / b - 1 := by
    rw [← Real.log_div ha.ne' hb0.ne']
    exact Real.log_le_sub_one_of_pos (by positivity)
  have h1 : N * (Real.log a - Real.log b) ≤ N * (a / b - 1) := mul_le_mul_of_nonneg_left hlog hN.le
  have h2 : N * (a / b - 1) = (a - b) * max t (1 / 10 ^ 9) := by
    rw [hNb]
    field_simp
  rcases le_total (1 / 10 ^ 9 : ℝ) t with h | h
  · rw [max_eq_left h] at h2
    linarith
  · rw [max_eq_right h] at h2 hNb
    have hab : a ≤ b := by
      have : b = N * 10 ^ 9 := by rw [hNb, mul_assoc, one_div_mul_cancel (by positivity), mul_one]
      rw [this]; exact hle
    have : (a - b) * (1 / 10 ^ 9) ≤ (a - b) * t := mul_le_mul_of_nonpos_left h (by linarith)
    linarith

end Verif
