import Verif.Proofs.SpectralExact
import Mathlib.Tactic.LinearCombination

/-
Spectral embeddings of two blocks (C87): every point of a block has the same degree, and the similarities inside a block are
spread so evenly that no other vector has less energy.
-/

namespace Verif

open Finset

variable {n : Nat} {W : Fin n → Fin n → ℝ} {b : Fin n → Fin 2}

/-- The energy from the degrees and the similarities. -/
theorem specEnergy_eq (hs : ∀ i j, W i j = W j i) (hne : ∀ i, (∑ j, if j = i then 0 else W i j) ≠ 0) (u : Fin n → ℝ) :
    specEnergy W u = 2 * (∑ i, specDegree W i * u i ^ 2) - 2 * ∑ i, ∑ j, (if j = i then 0 else W i j) * (u i * u j) := by
  have h1 : ∀ i, specDegree W i = ∑ j, if j = i then 0 else W i j := fun i => by unfold specDegree; rw [if_neg (hne i)]
  have h2 : ∀ i j, W i j * (u i - u j) ^ 2 =
      (if j = i then 0 else W i j) * u i ^ 2 + (if j = i then 0 else W i j) * u j ^ 2 - 2 * ((if j = i then 0 else W i j) * (u i * u j)) := by
    intro i j
    by_cases h : j = i
    · subst h; simp
    · simp only [if_neg h]; ring
  have h3 : ∑ i, ∑ j, (if j = i then 0 else W i j) * u j ^ 2 = ∑ i, specDegree W i * u i ^ 2 := by
    rw [sum_comm]
    refine sum_congr rfl fun j _ => ?_
    rw [h1, ← sum_mul]
    congr 1
    refine sum_congr rfl fun i _ => ?_
    by_cases h : j = i
    · rw [if_pos h, if_pos h.symm]
    · rw [if_neg h, if_neg (Ne.symm h), hs]
  have h4 : ∑ i, ∑ j, (if j = i then 0 else W i j) * u i ^ 2 = ∑ i, specDegree W i * u i ^ 2 :=
    sum_congr rfl fun i _ => by rw [h1, sum_mul]
  unfold specEnergy
  simp only [h2, sum_sub_distrib, sum_add_distrib, ← mul_sum]
  rw [h3, h4]; ring

/-- The sum of the values in a block. -/
def blockSum (b : Fin n → Fin 2) (a : Fin 2) (u : Fin n → ℝ) : ℝ := ∑ i, if b i = a then u i else 0

/-- What is assumed about the two blocks. -/
structure TwoBlocks (W : Fin n → Fin n → ℝ) (b : Fin n → Fin 2) (p q e : ℝ) : Prop where
  symm : ∀ i j, W i j = W j i
  nonneg : ∀ i j, 0 ≤ W i j
  degree : ∀ i, (∑ j, if j = i then 0 else W i j) ≠ 0
  onto : Function.Surjective b
  same : ∀ i j, b i = b j → specDegree W i = specDegree W j
  bound : ∀ u : Fin n → ℝ, ∑ i, ∑ j, (if j = i then 0 else W i j) * (u i * u j) ≤
    p * blockSum b 0 u ^ 2 + q * blockSum b 1 u ^ 2 + 2 * e * (blockSum b 0 u * blockSum b 1 u)
  exact_ : ∀ u : Fin n → ℝ, (∀ i j, b i = b j → u i = u j) → ∑ i, ∑ j, (if j = i then 0 else W i j) * (u i * u j) =
    p * blockSum b 0 u ^ 2 + q * blockSum b 1 u ^ 2 + 2 * e * (blockSum b 0 u * blockSum b 1 u)
  p_pos : 0 < p
  q_pos : 0 < q
  e_lt : e ^ 2 < p * q

/-- The columns and the indicators of the blocks, over the degrees. -/
theorem block_residual {U : Fin n → Fin 2 → ℝ} (hU : SpecFrame W U) (h0 : ∀ i j, 0 ≤ W i j) (a a' : Fin 2) :
    ∑ i, specDegree W i * ((if b i = a then 1 / specDegree W i else 0) - ∑ c, blockSum b a (fun i => U i c) * U i c) *
        ((if b i = a' then 1 / specDegree W i else 0) - ∑ c, blockSum b a' (fun i => U i c) * U i c) =
      (if a = a' then ∑ i, (if b i = a then 1 / specDegree W i else 0) else 0) -
        ∑ c, blockSum b a (fun i => U i c) * blockSum b a' (fun i => U i c) := by
  have hd := fun i => (specDegree_pos h0 i).ne'
  have f00 := hU 0 0
  have f01 := hU 0 1
  have f11 := hU 1 1
  simp only [Fin.sum_univ_two]
  rw [if_pos rfl] at f00 f11
  rw [if_neg (by decide)] at f01
  have e1 : ∀ (a : Fin 2) (c : Fin 2), ∑ i, specDegree W i * ((if b i = a then 1 / specDegree W i else 0) * U i c) = blockSum b a fun i => U i c := by
    intro a c
    refine sum_congr rfl fun i _ => ?_
    split
    · rw [one_div, ← mul_assoc, mul_inv_cancel₀ (hd i), one_mul]
    · simp
  have e2 : ∑ i, specDegree W i * ((if b i = a then 1 / specDegree W i else 0) * (if b i = a' then 1 / specDegree W i else 0)) =
      if a = a' then ∑ i, (if b i = a then 1 / specDegree W i else 0) else 0 := by
    by_cases h : a = a'
    · subst h
      rw [if_pos rfl]
      refine sum_congr rfl fun i _ => ?_
      split
      · rw [one_div, ← mul_assoc, mul_inv_cancel₀ (hd i), one_mul]
      · simp
    · rw [if_neg h]
      refine sum_eq_zero fun i _ => ?_
      by_cases h1 : b i = a
      · rw [if_neg (fun h2 => h (h1.symm.trans h2))]; simp
      · rw [if_neg h1]; simp
  rw [← e2]
  generalize hs0 : blockSum b a (fun i => U i 0) = s0
  generalize hs1 : blockSum b a (fun i => U i 1) = s1
  generalize ht0 : blockSum b a' (fun i => U i 0) = t0
  generalize ht1 : blockSum b a' (fun i => U i 1) = t1
  have g1 := e1 a 0; have g2 := e1 a 1; have g3 := e1 a' 0; have g4 := e1 a' 1
  rw [hs0] at g1; rw [hs1] at g2; rw [ht0] at g3; rw [ht1] at g4
  have expand : ∀ i, specDegree W i * ((if b i = a then 1 / specDegree W i else 0) - (s0 * U i 0 + s1 * U i 1)) *
        ((if b i = a' then 1 / specDegree W i else 0) - (t0 * U i 0 + t1 * U i 1)) =
      specDegree W i * ((if b i = a then 1 / specDegree W i else 0) * (if b i = a' then 1 / specDegree W i else 0)) -
      t0 * (specDegree W i * ((if b i = a then 1 / specDegree W i else 0) * U i 0)) -
      t1 * (specDegree W i * ((if b i = a then 1 / specDegree W i else 0) * U i 1)) -
      s0 * (specDegree W i * ((if b i = a' then 1 / specDegree W i else 0) * U i 0)) -
      s1 * (specDegree W i * ((if b i = a' then 1 / specDegree W i else 0) * U i 1)) +
      s0 * t0 * (specDegree W i * (U i 0 * U i 0)) + (s0 * t1 + s1 * t0) * (specDegree W i * (U i 0 * U i 1)) +
      s1 * t1 * (specDegree W i * (U i 1 * U i 1)) := by intro i; ring
  simp only [expand, sum_sub_distrib, sum_add_distrib, ← mul_sum, g1, g2, g3, g4, f00, f01, f11]
  ring

theorem TwoBlocks.rows {p q e : ℝ} (hB : TwoBlocks W b p q e) {U : Fin n → Fin 2 → ℝ} (hU : SpecEmbedding W U) (i j : Fin n) :
    U i = U j ↔ b i = b j := by
  have h0 := hB.nonneg
  -- the energy of any frame
  have henergy : ∀ U' : Fin n → Fin 2 → ℝ, SpecFrame W U' → specCut W U' = 4 - 2 * (∑ c, ∑ i, ∑ j, (if j = i then 0 else W i j) * (U' i c * U' j c)) := by
    intro U' hU'
    have f00 := hU' 0 0
    have f11 := hU' 1 1
    rw [if_pos rfl] at f00 f11
    unfold specCut
    simp only [Fin.sum_univ_two, specEnergy_eq hB.symm hB.degree, pow_two, f00, f11]
    ring
  -- the frame of the blocks
  have hF := specFrame_classes h0 hB.onto
  have hle := hU.least _ hF
  rw [henergy _ hU.frame, henergy _ hF] at hle
  -- the residuals
  let R : (Fin n → Fin 2 → ℝ) → Fin 2 → Fin n → ℝ := fun U a i =>
    (if b i = a then 1 / specDegree W i else 0) - ∑ c, blockSum b a (fun i => U i c) * U i c
  have hres : ∀ (U' : Fin n → Fin 2 → ℝ), SpecFrame W U' → ∑ i, specDegree W i * (p * R U' 0 i ^ 2 + 2 * e * (R U' 0 i * R U' 1 i) + q * R U' 1 i ^ 2) =
      p * (∑ i, if b i = 0 then 1 / specDegree W i else 0) + q * (∑ i, if b i = 1 then 1 / specDegree W i else 0) -
      ∑ c, (p * blockSum b 0 (fun i => U' i c) ^ 2 + q * blockSum b 1 (fun i => U' i c) ^ 2 +
        2 * e * (blockSum b 0 (fun i => U' i c) * blockSum b 1 (fun i => U' i c))) := by
    intro U' hU'
    have r00 := block_residual (b := b) hU' h0 0 0
    have r01 := block_residual (b := b) hU' h0 0 1
    have r11 := block_residual (b := b) hU' h0 1 1
    rw [if_pos rfl] at r00 r11
    rw [if_neg (by decide)] at r01
    have : ∀ i, specDegree W i * (p * R U' 0 i ^ 2 + 2 * e * (R U' 0 i * R U' 1 i) + q * R U' 1 i ^ 2) =
        p * (specDegree W i * R U' 0 i * R U' 0 i) + 2 * e * (specDegree W i * R U' 0 i * R U' 1 i) + q * (specDegree W i * R U' 1 i * R U' 1 i) := by
      intro i; ring
    simp only [this, sum_add_distrib, ← mul_sum]
    simp only [R]
    rw [r00, r01, r11]
    simp only [Fin.sum_univ_two]
    ring
  have hFres : ∀ a i, R (fun i a => if b i = a then 1 / √(specVolume W b a) else 0) a i = 0 := by
    intro a i
    simp only [R]
    have hother : ∀ c, c ≠ a → blockSum b a (fun i => if b i = c then 1 / √(specVolume W b c) else 0) = 0 := by
      intro c hc
      refine sum_eq_zero fun i _ => ?_
      by_cases h1 : b i = a
      · rw [if_pos h1]; exact if_neg fun h2 => hc (h2.symm.trans h1)
      · rw [if_neg h1]
    rw [sum_eq_single a]
    · by_cases hi : b i = a
      · rw [if_pos hi, if_pos hi]
        have hb : blockSum b a (fun i => if b i = a then 1 / √(specVolume W b a) else 0) = (∑ i, if b i = a then (1 : ℝ) else 0) * (1 / √(specVolume W b a)) := by
          rw [sum_mul]
          refine sum_congr rfl fun i _ => ?_
          by_cases h1 : b i = a
          · simp only [if_pos h1, one_mul]
          · simp only [if_neg h1, zero_mul]
        have hv : specVolume W b a = (∑ i, if b i = a then (1 : ℝ) else 0) * specDegree W i := by
          rw [sum_mul]
          refine sum_congr rfl fun j _ => ?_
          split
          · rw [one_mul]; exact hB.same _ _ (by rw [hi]; assumption)
          · simp
        have hpos := specVolume_pos h0 hB.onto a
        have hd := specDegree_pos h0 i
        rw [hb, mul_assoc, ← mul_div_mul_comm, Real.mul_self_sqrt hpos.le, one_mul]
        have hN : (∑ i, if b i = a then (1 : ℝ) else 0) ≠ 0 := fun hN => by rw [hN, zero_mul] at hv; exact hpos.ne' hv
        rw [hv]
        field_simp
        simp
      · rw [if_neg hi, if_neg hi, mul_zero, sub_zero]
    · intro c _ hc; rw [hother c hc, zero_mul]
    · intro h; exact absurd (mem_univ _) h
  have hz := hres _ hF
  rw [sum_eq_zero fun i _ => by rw [hFres, hFres]; ring] at hz
  -- comparison
  have hUb : ∑ c, ∑ i, ∑ j, (if j = i then 0 else W i j) * (U i c * U j c) ≤
      ∑ c, (p * blockSum b 0 (fun i => U i c) ^ 2 + q * blockSum b 1 (fun i => U i c) ^ 2 +
        2 * e * (blockSum b 0 (fun i => U i c) * blockSum b 1 (fun i => U i c))) := sum_le_sum fun c _ => hB.bound fun i => U i c
  have hFe : ∑ c, ∑ i, ∑ j, (if j = i then 0 else W i j) *
      ((if b i = c then 1 / √(specVolume W b c) else 0) * (if b j = c then 1 / √(specVolume W b c) else 0)) =
      ∑ c, (p * blockSum b 0 (fun i => if b i = c then 1 / √(specVolume W b c) else 0) ^ 2 +
        q * blockSum b 1 (fun i => if b i = c then 1 / √(specVolume W b c) else 0) ^ 2 +
        2 * e * (blockSum b 0 (fun i => if b i = c then 1 / √(specVolume W b c) else 0) *
          blockSum b 1 (fun i => if b i = c then 1 / √(specVolume W b c) else 0))) :=
    sum_congr rfl fun c _ => hB.exact_ (fun i => if b i = c then 1 / √(specVolume W b c) else 0) fun i j h => by simp only [h]
  have hR := hres U hU.frame
  have hpos : ∀ x y : ℝ, 0 ≤ p * x ^ 2 + 2 * e * (x * y) + q * y ^ 2 := by
    intro x y
    have : 0 ≤ p * (p * x ^ 2 + 2 * e * (x * y) + q * y ^ 2) := by
      nlinarith [sq_nonneg (p * x + e * y), mul_nonneg (sub_nonneg.2 hB.e_lt.le) (sq_nonneg y)]
    exact nonneg_of_mul_nonneg_right this hB.p_pos
  have hterm : ∀ i, 0 ≤ specDegree W i * (p * R U 0 i ^ 2 + 2 * e * (R U 0 i * R U 1 i) + q * R U 1 i ^ 2) := fun i =>
    mul_nonneg (specDegree_pos h0 i).le (hpos _ _)
  have hsum : ∑ i, specDegree W i * (p * R U 0 i ^ 2 + 2 * e * (R U 0 i * R U 1 i) + q * R U 1 i ^ 2) = 0 := by
    refine le_antisymm ?_ (sum_nonneg fun i _ => hterm i)
    rw [hR]
    rw [hFe] at hle
    linarith
  have hR0 : ∀ i, R U 0 i = 0 ∧ R U 1 i = 0 := by
    intro i
    have h1 := (sum_eq_zero_iff_of_nonneg fun i _ => hterm i).1 hsum i (mem_univ i)
    have h2 := (mul_eq_zero.1 h1).resolve_left (specDegree_pos h0 i).ne'
    have hpq : 0 < p * q - e ^ 2 := by linarith [hB.e_lt]
    have h3 : (p * R U 0 i + e * R U 1 i) ^ 2 + (p * q - e ^ 2) * R U 1 i ^ 2 = 0 := by
      have : (p * R U 0 i + e * R U 1 i) ^ 2 + (p * q - e ^ 2) * R U 1 i ^ 2 = p * (p * R U 0 i ^ 2 + 2 * e * (R U 0 i * R U 1 i) + q * R U 1 i ^ 2) := by ring
      rw [this, h2, mul_zero]
    have h4 : R U 1 i ^ 2 = 0 := by
      have a1 := sq_nonneg (p * R U 0 i + e * R U 1 i)
      have a2 := mul_nonneg hpq.le (sq_nonneg (R U 1 i))
      have : (p * q - e ^ 2) * R U 1 i ^ 2 = 0 := by linarith
      exact (mul_eq_zero.1 this).resolve_left hpq.ne'
    have h5 : R U 1 i = 0 := pow_eq_zero_iff two_ne_zero |>.1 h4
    rw [h5] at h2
    refine ⟨?_, h5⟩
    have : p * R U 0 i ^ 2 = 0 := by linarith
    exact pow_eq_zero_iff two_ne_zero |>.1 ((mul_eq_zero.1 this).resolve_left hB.p_pos.ne')
  have hRa : ∀ a i, (if b i = a then 1 / specDegree W i else 0) = ∑ c, blockSum b a (fun i => U i c) * U i c := by
    intro a i
    have : R U a i = 0 := by
      fin_cases a
      · exact (hR0 i).1
      · exact (hR0 i).2
    exact sub_eq_zero.1 this
  constructor
  · intro he
    by_contra hne
    have h1 := hRa (b i) i
    have h2 := hRa (b i) j
    rw [if_pos rfl, he] at h1
    rw [if_neg (Ne.symm hne), ← h1] at h2
    have := one_div_pos.2 (specDegree_pos h0 i)
    linarith
  · intro hb
    obtain ⟨i0, hi0⟩ := hB.onto 0
    obtain ⟨i1, hi1⟩ := hB.onto 1
    -- the two functionals are independent
    have hdet : blockSum b 0 (fun i => U i 0) * blockSum b 1 (fun i => U i 1) - blockSum b 0 (fun i => U i 1) * blockSum b 1 (fun i => U i 0) ≠ 0 := by
      intro hdet
      have a1 := hRa 0 i0
      have a2 := hRa 1 i0
      have b1 := hRa 1 i1
      have b2 := hRa 0 i1
      have d0 := one_div_pos.2 (specDegree_pos h0 i0)
      have d1 := one_div_pos.2 (specDegree_pos h0 i1)
      rw [if_pos hi0, Fin.sum_univ_two] at a1
      rw [if_neg (by rw [hi0]; decide), Fin.sum_univ_two] at a2
      rw [if_pos hi1, Fin.sum_univ_two] at b1
      rw [if_neg (by rw [hi1]; decide), Fin.sum_univ_two] at b2
      have : (1 / specDegree W i0) * (1 / specDegree W i1) = 0 := by
        have : (1 / specDegree W i0) * (1 / specDegree W i1) - 0 * 0 =
            (blockSum b 0 (fun i => U i 0) * blockSum b 1 (fun i => U i 1) - blockSum b 0 (fun i => U i 1) * blockSum b 1 (fun i => U i 0)) *
              (U i0 0 * U i1 1 - U i0 1 * U i1 0) := by
          conv_lhs => rw [show (0 : ℝ) * 0 = (blockSum b 1 (fun i => U i 0) * U i0 0 + blockSum b 1 (fun i => U i 1) * U i0 1) *
            (blockSum b 0 (fun i => U i 0) * U i1 0 + blockSum b 0 (fun i => U i 1) * U i1 1) by rw [← a2, ← b2]]
          rw [a1, b1]; ring
        rw [hdet, zero_mul] at this
        linarith
      have := mul_pos d0 d1
      linarith
    have key : ∀ a, blockSum b a (fun i => U i 0) * (U i 0 - U j 0) + blockSum b a (fun i => U i 1) * (U i 1 - U j 1) = 0 := by
      intro a
      have h1 := hRa a i
      have h2 := hRa a j
      rw [hb, hB.same i j hb, h2, Fin.sum_univ_two, Fin.sum_univ_two] at h1
      linarith
    have k0 := key 0
    have k1 := key 1
    funext c
    rw [← sub_eq_zero]
    fin_cases c
    · refine (mul_eq_zero.1 ?_).resolve_left hdet
      show _ * (U i 0 - U j 0) = 0
      linear_combination blockSum b 1 (fun i => U i 1) * k0 - blockSum b 0 (fun i => U i 1) * k1
    · refine (mul_eq_zero.1 ?_).resolve_left hdet
      show _ * (U i 1 - U j 1) = 0
      linear_combination blockSum b 0 (fun i => U i 0) * k1 - blockSum b 1 (fun i => U i 0) * k0

end Verif
