import Verif.Spec.SpectralExact
import Mathlib.LinearAlgebra.Matrix.NonsingularInverse
import Mathlib.Analysis.Normed.Group.Constructions
import Mathlib.Analysis.Normed.Group.Real
import Mathlib.Topology.Order.Compact
import Mathlib.Topology.MetricSpace.ProperSpace
import Mathlib.Topology.MetricSpace.ProperSpace.Real
import Mathlib.Topology.Algebra.Ring.Real

/-
Proofs about the ideal solver of spectral clustering (C87).
-/

namespace Verif

open Finset

variable {n k : Nat} {W : Fin n → Fin n → ℝ}

theorem specDegree_pos (h0 : ∀ i j, 0 ≤ W i j) (i : Fin n) : 0 < specDegree W i := by
  unfold specDegree
  have : 0 ≤ ∑ j, if j = i then 0 else W i j := sum_nonneg fun j _ => by split <;> simp [h0]
  split
  · exact one_pos
  · rename_i hne; exact lt_of_le_of_ne this (Ne.symm hne)

theorem specEnergy_nonneg (h0 : ∀ i j, 0 ≤ W i j) (u : Fin n → ℝ) : 0 ≤ specEnergy W u :=
  sum_nonneg fun i _ => sum_nonneg fun j _ => mul_nonneg (h0 i j) (sq_nonneg _)

theorem specEnergy_zero (h0 : ∀ i j, 0 ≤ W i j) {u : Fin n → ℝ} (h : specEnergy W u = 0) {i j : Fin n} (hij : W i j ≠ 0) : u i = u j := by
  unfold specEnergy at h
  rw [sum_eq_zero_iff_of_nonneg fun i _ => sum_nonneg fun j _ => mul_nonneg (h0 i j) (sq_nonneg _)] at h
  have := h i (mem_univ i)
  rw [sum_eq_zero_iff_of_nonneg fun j _ => mul_nonneg (h0 i j) (sq_nonneg _)] at this
  rcases mul_eq_zero.1 (this j (mem_univ j)) with e | e
  · exact absurd e hij
  · exact sub_eq_zero.1 (pow_eq_zero_iff (two_ne_zero) |>.1 e)

/-- The sum of the degrees of a class. -/
noncomputable def specVolume (W : Fin n → Fin n → ℝ) (cls : Fin n → Fin k) (a : Fin k) : ℝ := ∑ i, if cls i = a then specDegree W i else 0

theorem specVolume_pos (h0 : ∀ i j, 0 ≤ W i j) {cls : Fin n → Fin k} (hs : Function.Surjective cls) (a : Fin k) : 0 < specVolume W cls a := by
  obtain ⟨i, rfl⟩ := hs a
  unfold specVolume
  refine lt_of_lt_of_le (specDegree_pos h0 i) ?_
  have := single_le_sum (f := fun j => if cls j = cls i then specDegree W j else 0)
    (fun j _ => by split; exact (specDegree_pos h0 j).le; exact le_rfl) (mem_univ i)
  simpa using this

/-- The frame of the indicators of the classes. -/
theorem specFrame_classes (h0 : ∀ i j, 0 ≤ W i j) {cls : Fin n → Fin k} (hs : Function.Surjective cls) :
    SpecFrame W fun i a => if cls i = a then 1 / √(specVolume W cls a) else 0 := by
  intro c d
  by_cases hcd : c = d
  · subst hcd
    rw [if_pos rfl]
    have : ∀ i, specDegree W i * ((if cls i = c then 1 / √(specVolume W cls c) else 0) * (if cls i = c then 1 / √(specVolume W cls c) else 0)) =
        (if cls i = c then specDegree W i else 0) * (1 / specVolume W cls c) := by
      intro i
      split
      · rw [← mul_div_mul_comm, Real.mul_self_sqrt (specVolume_pos h0 hs c).le, one_mul]
      · simp
    rw [sum_congr rfl fun i _ => this i, ← sum_mul]
    exact mul_one_div_cancel (specVolume_pos h0 hs c).ne'
  · rw [if_neg hcd]
    refine sum_eq_zero fun i _ => ?_
    beta_reduce
    by_cases h1 : cls i = c
    · rw [if_neg (fun h2 => hcd (h1.symm.trans h2))]; simp
    · rw [if_neg h1]; simp

theorem specCut_classes {cls : Fin n → Fin k} (hc : ∀ i j, W i j ≠ 0 → cls i = cls j) (g : Fin k → ℝ) :
    specCut W (fun i a => if cls i = a then g a else 0) = 0 := by
  refine sum_eq_zero fun a _ => sum_eq_zero fun i _ => sum_eq_zero fun j _ => ?_
  by_cases h : W i j = 0
  · rw [h, zero_mul]
  · simp only [hc i j h, sub_self]; simp

/-- With as many columns as components, the rows of a spectral embedding are equal exactly inside the components. -/
theorem specEmbedding_rows (h0 : ∀ i j, 0 ≤ W i j) {cls : Fin n → Fin k} (hs : Function.Surjective cls)
    (hc : ∀ i j, cls i = cls j ↔ Relation.ReflTransGen (fun i j => W i j ≠ 0) i j) {U : Fin n → Fin k → ℝ} (hU : SpecEmbedding W U) (i j : Fin n) :
    U i = U j ↔ cls i = cls j := by
  have hz : specCut W U = 0 := by
    refine le_antisymm ?_ (sum_nonneg fun c _ => specEnergy_nonneg h0 _)
    rw [← specCut_classes (fun i j h => (hc i j).2 (.single h)) fun a => 1 / √(specVolume W cls a)]
    exact hU.least _ (specFrame_classes h0 hs)
  have hE : ∀ c, specEnergy W (fun i => U i c) = 0 := fun c =>
    (sum_eq_zero_iff_of_nonneg fun c _ => specEnergy_nonneg h0 _).1 hz c (mem_univ c)
  have hconst : ∀ i j, cls i = cls j → U i = U j := by
    intro i j hij
    have := (hc i j).1 hij
    induction this with
    | refl => rfl
    | tail hab hbc ih =>
      rename_i b c
      rw [ih ((hc i b).2 hab)]
      funext d
      exact specEnergy_zero h0 (hE d) hbc
  refine ⟨fun he => ?_, hconst i j⟩
  by_contra hne
  -- the rows as a matrix over the classes
  let rep : Fin k → Fin n := fun a => (hs a).choose
  have hrep : ∀ a, cls (rep a) = a := fun a => (hs a).choose_spec
  have hUrep : ∀ i, U i = U (rep (cls i)) := fun i => hconst _ _ (hrep _).symm
  let B : Matrix (Fin k) (Fin k) ℝ := fun a c => √(specVolume W cls a) * U (rep a) c
  have hB : B.transpose * B = 1 := by
    ext c d
    rw [Matrix.mul_apply, Matrix.one_apply, ← hU.frame c d]
    have h1 : ∀ i, specDegree W i * (U i c * U i d) = ∑ a, (if cls i = a then specDegree W i else 0) * (U (rep a) c * U (rep a) d) := by
      intro i
      rw [sum_eq_single (cls i)]
      · rw [if_pos rfl, ← hUrep i]
      · intro b _ hb; rw [if_neg (Ne.symm hb), zero_mul]
      · intro h; exact absurd (mem_univ _) h
    rw [sum_congr rfl fun i _ => h1 i, sum_comm]
    refine sum_congr rfl fun a _ => ?_
    rw [← sum_mul]
    show √(specVolume W cls a) * U (rep a) c * (√(specVolume W cls a) * U (rep a) d) = _
    rw [mul_mul_mul_comm, Real.mul_self_sqrt (specVolume_pos h0 hs a).le]
    rfl
  have hB' : B * B.transpose = 1 := mul_eq_one_comm.1 hB
  have e1 := congrFun (congrFun hB' (cls i)) (cls j)
  have e2 := congrFun (congrFun hB' (cls i)) (cls i)
  rw [Matrix.one_apply_ne hne, Matrix.mul_apply] at e1
  rw [Matrix.one_apply_eq, Matrix.mul_apply] at e2
  have hp := fun a => Real.sqrt_pos.2 (specVolume_pos h0 hs a)
  have e3 : ∑ c, U i c * U i c = 0 := by
    have : ∀ c, B (cls i) c * B.transpose c (cls j) = (√(specVolume W cls (cls i)) * √(specVolume W cls (cls j))) * (U i c * U i c) := by
      intro c
      show √(specVolume W cls (cls i)) * U (rep (cls i)) c * (√(specVolume W cls (cls j)) * U (rep (cls j)) c) = _
      rw [← hUrep i, ← hUrep j, ← he]; ring
    rw [sum_congr rfl fun c _ => this c, ← mul_sum] at e1
    exact (mul_eq_zero.1 e1).resolve_left (mul_pos (hp _) (hp _)).ne'
  have : ∀ c, B (cls i) c * B.transpose c (cls i) = (√(specVolume W cls (cls i)) * √(specVolume W cls (cls i))) * (U i c * U i c) := by
    intro c
    show √(specVolume W cls (cls i)) * U (rep (cls i)) c * (√(specVolume W cls (cls i)) * U (rep (cls i)) c) = _
    rw [← hUrep i]; ring
  rw [sum_congr rfl fun c _ => this c, ← mul_sum, e3, mul_zero] at e2
  exact zero_ne_one e2

theorem specSpread_nonneg (U : Fin n → Fin k → ℝ) (l : Fin n → Int) : 0 ≤ specSpread U l :=
  sum_nonneg fun _ _ => sum_nonneg fun _ _ => sq_nonneg _

theorem specSpread_zero {U : Fin n → Fin k → ℝ} {l : Fin n → Int} (h : specSpread U l = 0) {i j : Fin n} (hl : l i = l j) : U i = U j := by
  unfold specSpread at h
  rw [sum_eq_zero_iff_of_nonneg fun _ _ => sum_nonneg fun _ _ => sq_nonneg _] at h
  have key : ∀ i c, U i c = (∑ j with l j = l i, U j c) / ((univ.filter fun j => l j = l i).card : ℝ) := by
    intro i c
    have := h i (mem_univ i)
    rw [sum_eq_zero_iff_of_nonneg fun _ _ => sq_nonneg _] at this
    exact sub_eq_zero.1 (pow_eq_zero_iff two_ne_zero |>.1 (this c (mem_univ c)))
  funext c
  rw [key i c, key j c, hl]

theorem specSpread_of_eq {U : Fin n → Fin k → ℝ} {l : Fin n → Int} (h : ∀ i j, l i = l j → U i = U j) : specSpread U l = 0 := by
  refine sum_eq_zero fun i _ => sum_eq_zero fun c _ => ?_
  have : ∑ j with l j = l i, U j c = ((univ.filter fun j => l j = l i).card : ℝ) * U i c := by
    rw [sum_congr rfl fun j hj => congrFun (h j i (mem_filter.1 hj).2) c, sum_const, nsmul_eq_mul]
  rw [this, mul_div_cancel_left₀ _ (by
    have : 0 < (univ.filter fun j => l j = l i).card := card_pos.2 ⟨i, mem_filter.2 ⟨mem_univ i, rfl⟩⟩
    exact_mod_cast this.ne'), sub_self]
  simp

/-- If the rows form exactly `k` classes, optimal labels are equal exactly inside the classes. -/
theorem specLabels_classes {U : Fin n → Fin k → ℝ} {cls : Fin n → Fin k} (hs : Function.Surjective cls) (hU : ∀ i j, U i = U j ↔ cls i = cls j)
    {l : Fin n → Int} (hl : SpecLabels U l) (i j : Fin n) : l i = l j ↔ cls i = cls j := by
  have hz : specSpread U l = 0 := by
    refine le_antisymm ?_ (specSpread_nonneg U l)
    rw [← specSpread_of_eq (U := U) (l := fun i => ((cls i).val : Int)) fun i j h => (hU i j).2 (Fin.ext (by exact_mod_cast h))]
    refine hl.least _ ?_
    calc (univ.image fun i => ((cls i).val : Int)).card ≤ ((univ : Finset (Fin k)).image fun a => (a.val : Int)).card := by
          refine card_le_card fun z hz => ?_
          obtain ⟨i, -, rfl⟩ := mem_image.1 hz
          exact mem_image.2 ⟨cls i, mem_univ _, rfl⟩
      _ ≤ (univ : Finset (Fin k)).card := card_image_le
      _ = k := by simp
  have hto : ∀ i j, l i = l j → cls i = cls j := fun i j h => (hU i j).1 (specSpread_zero hz h)
  refine ⟨hto i j, fun hij => ?_⟩
  -- from labels to classes: onto a set of the same size
  classical
  let F : Int → Fin k := fun z => if h : ∃ i, l i = z then cls h.choose else cls i
  have hF : ∀ i, F (l i) = cls i := by
    intro i
    have h : ∃ i', l i' = l i := ⟨i, rfl⟩
    simp only [F, dif_pos h]
    exact hto _ _ h.choose_spec
  have himg : (univ.image l).image F = univ := by
    ext a
    simp only [mem_univ, iff_true]
    obtain ⟨i, rfl⟩ := hs a
    exact mem_image.2 ⟨l i, mem_image.2 ⟨i, mem_univ i, rfl⟩, hF i⟩
  have hinj : Set.InjOn F (univ.image l : Finset Int) := by
    refine injOn_of_card_image_eq (le_antisymm card_image_le ?_)
    rw [himg]
    simpa using hl.count
  exact hinj (by simp) (by simp) ((hF i).trans (hij.trans (hF j).symm))

/-! ### There is an ideal solver -/

theorem exists_frame (h0 : ∀ i j, 0 ≤ W i j) (hk : k ≤ n) : ∃ U : Fin n → Fin k → ℝ, SpecFrame W U := by
  refine ⟨fun i c => if i = Fin.castLE hk c then 1 / √(specDegree W i) else 0, fun c d => ?_⟩
  rw [sum_eq_single (Fin.castLE hk c)]
  · beta_reduce
    rw [if_pos rfl]
    by_cases h : c = d
    · subst h
      rw [if_pos rfl, if_pos rfl, ← mul_div_mul_comm, Real.mul_self_sqrt (specDegree_pos h0 _).le, one_mul]
      exact mul_one_div_cancel (specDegree_pos h0 _).ne'
    · rw [if_neg h, if_neg (fun e => h (Fin.castLE_injective hk e))]; simp
  · intro i _ hi; beta_reduce; rw [if_neg hi]; simp
  · intro h; exact absurd (mem_univ _) h

theorem exists_embedding (h0 : ∀ i j, 0 ≤ W i j) (hk : k ≤ n) : ∃ U : Fin n → Fin k → ℝ, SpecEmbedding W U := by
  have hcl : IsClosed {U : Fin n → Fin k → ℝ | SpecFrame W U} := by
    unfold SpecFrame
    simp only [Set.setOf_forall]
    refine isClosed_iInter fun c => isClosed_iInter fun d => isClosed_eq ?_ continuous_const
    fun_prop
  have hb : Bornology.IsBounded {U : Fin n → Fin k → ℝ | SpecFrame W U} := by
    refine (Metric.isBounded_iff_subset_closedBall 0).2 ⟨∑ i, 1 / √(specDegree W i), fun U hU => ?_⟩
    have hS : 0 ≤ ∑ i, 1 / √(specDegree W i) := sum_nonneg fun i _ => by positivity
    rw [Metric.mem_closedBall, dist_zero_right, pi_norm_le_iff_of_nonneg hS]
    intro i
    rw [pi_norm_le_iff_of_nonneg hS]
    intro c
    have h1 := hU c c
    rw [if_pos rfl] at h1
    have h2 : specDegree W i * (U i c * U i c) ≤ 1 := by
      rw [← h1]
      exact single_le_sum (f := fun i => specDegree W i * (U i c * U i c))
        (fun j _ => mul_nonneg (specDegree_pos h0 j).le (mul_self_nonneg _)) (mem_univ i)
    have hd := specDegree_pos h0 i
    have h3 : |U i c| ≤ 1 / √(specDegree W i) := by
      rw [le_div_iff₀ (Real.sqrt_pos.2 hd)]
      refine abs_le_of_sq_le_sq' (a := |U i c| * √(specDegree W i)) ?_ zero_le_one |>.2
      rw [mul_pow, sq_abs, Real.sq_sqrt hd.le]
      nlinarith
    exact (Real.norm_eq_abs _).le.trans (h3.trans (single_le_sum (f := fun i => 1 / √(specDegree W i)) (fun j _ => by positivity) (mem_univ i)))
  have hc : IsCompact {U : Fin n → Fin k → ℝ | SpecFrame W U} := Metric.isCompact_of_isClosed_isBounded hcl hb
  obtain ⟨U0, h0'⟩ := exists_frame (k := k) h0 hk
  obtain ⟨U, hU, hmin⟩ := hc.exists_isMinOn (f := specCut W) ⟨U0, h0'⟩ (by
    unfold specCut specEnergy
    refine Continuous.continuousOn ?_
    fun_prop)
  exact ⟨U, hU, fun U' hU' => hmin hU'⟩

/-- Every label can be replaced by a number below `n`, so there are optimal labels. -/
theorem exists_labels (U : Fin n → Fin k → ℝ) (hk : 0 < k) : ∃ l : Fin n → Int, SpecLabels U l := by
  classical
  have hsame : ∀ l l' : Fin n → Int, (∀ i j, l i = l j ↔ l' i = l' j) → specSpread U l = specSpread U l' := by
    intro l l' h
    refine sum_congr rfl fun i _ => sum_congr rfl fun c _ => ?_
    rw [show (univ.filter fun j => l j = l i) = univ.filter fun j => l' j = l' i from filter_congr fun j _ => h j i]
  let ok : Finset (Fin n → Fin (n + 1)) := univ.filter fun g => (univ.image fun i => ((g i).val : Int)).card ≤ k
  have hne : ok.Nonempty := ⟨fun _ => 0, mem_filter.2 ⟨mem_univ _, by
    calc _ ≤ ({(0 : Int)} : Finset Int).card := card_le_card fun z hz => by
          obtain ⟨i, -, rfl⟩ := mem_image.1 hz; simp
      _ ≤ k := by rw [card_singleton]; exact hk⟩⟩
  obtain ⟨g, hg, hmin⟩ := ok.exists_min_image (fun g => specSpread U fun i => ((g i).val : Int)) hne
  refine ⟨fun i => ((g i).val : Int), (mem_filter.1 hg).2, fun l' hl' => ?_⟩
  -- number the labels of `l'`
  have hcard : (univ.image l').card ≤ n := card_image_le.trans (by simp)
  let e := (univ.image l').equivFin
  have hmem : ∀ i, l' i ∈ univ.image l' := fun i => mem_image.2 ⟨i, mem_univ i, rfl⟩
  let g' : Fin n → Fin (n + 1) := fun i => ⟨(e ⟨l' i, hmem i⟩).val, by have := (e ⟨l' i, hmem i⟩).isLt; omega⟩
  have hg' : ∀ i j, ((g' i).val : Int) = ((g' j).val : Int) ↔ l' i = l' j := by
    intro i j
    simp only [g', Int.natCast_inj]
    rw [← Fin.ext_iff, e.injective.eq_iff, Subtype.mk.injEq]
  rw [← hsame _ _ hg']
  refine hmin g' (mem_filter.2 ⟨mem_univ _, ?_⟩)
  refine le_trans ?_ hl'
  calc (univ.image fun i => ((g' i).val : Int)).card
      ≤ (((univ.image l').attach).image fun z => ((e z).val : Int)).card := by
        refine card_le_card fun z hz => ?_
        obtain ⟨i, -, rfl⟩ := mem_image.1 hz
        exact mem_image.2 ⟨⟨l' i, hmem i⟩, mem_attach _ _, rfl⟩
    _ ≤ (univ.image l').attach.card := card_image_le
    _ = (univ.image l').card := card_attach

theorem exists_ideal : ∃ solve, IdealSpectral solve := by
  classical
  have h : ∀ (k : Nat) (S : Mat ℝ), ∃ labels : List Int, ∀ n, 0 < k → k ≤ n →
      (∀ i j, (∃ v, mget? S i j = some v) ↔ i < n ∧ j < n) → (∀ i j, entryR S i j = entryR S j i) → (∀ i j, 0 ≤ entryR S i j) →
      ∃ U : Fin n → Fin k → ℝ, labels.length = n ∧ SpecEmbedding (fun i j => entryR S i j) U ∧ SpecLabels U fun i => labels.getD i 0 := by
    intro k S
    by_cases hn : ∃ n, 0 < k ∧ k ≤ n ∧ (∀ i j, (∃ v, mget? S i j = some v) ↔ i < n ∧ j < n) ∧ ∀ i j, 0 ≤ entryR S i j
    · obtain ⟨n, hk, hkn, hS, h0⟩ := hn
      obtain ⟨U, hU⟩ := exists_embedding (W := fun i j : Fin n => entryR S i j) (k := k) (fun i j => h0 i j) hkn
      obtain ⟨l, hl⟩ := exists_labels U hk
      refine ⟨List.ofFn l, fun n' _ hkn' hS' _ _ => ?_⟩
      have hnn : n' = n := by
        by_contra hne
        rcases Nat.lt_or_gt_of_ne hne with h | h
        · have := (hS' n' n').1 ((hS n' n').2 ⟨h, h⟩); omega
        · have := (hS n n).1 ((hS' n n).2 ⟨h, h⟩); omega
      subst hnn
      refine ⟨U, by simp, hU, ?_⟩
      have : (fun i : Fin n' => (List.ofFn l).getD i 0) = l := by funext i; simp
      rw [this]; exact hl
    · exact ⟨[], fun n h1 h2 h3 _ h5 => absurd ⟨n, h1, h2, h3, h5⟩ hn⟩
  choose f hf using h
  exact ⟨fun k S => .ok (f k S), fun k n S h1 h2 h3 h4 h5 => by
    obtain ⟨U, hl, hU⟩ := hf k S n h1 h2 h3 h4 h5
    exact ⟨U, f k S, rfl, hl, hU⟩⟩

end Verif
