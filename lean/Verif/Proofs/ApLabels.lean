import Verif.Spec.Affinity
import Verif.Proofs.Matrix

/-
Affinity propagation: from the exemplars to the labels.
-/

namespace Verif

section
variable {κ : Type} [LinearOrder κ]

theorem npArgmax_ok {l : List κ} (h : l ≠ []) :
    ∃ k, npArgmax l = .ok k ∧ ∃ a, l[k]? = some a ∧ ∀ b ∈ l, b ≤ a := by
  unfold npArgmax
  cases e : pyMaxBy Prod.fst l.zipIdx with
  | none =>
    cases l with
    | nil => exact absurd rfl h
    | cons a l => simp [List.zipIdx_cons, pyMaxBy] at e
  | some p =>
    obtain ⟨h1, h2⟩ := pyMaxBy_spec e
    refine ⟨p.2, rfl, p.1, ?_, fun b hb => ?_⟩
    · obtain ⟨a, i⟩ := p
      rw [List.mk_mem_zipIdx_iff_getElem?] at h1
      exact h1
    · obtain ⟨i, hi⟩ := List.mem_iff_getElem?.1 hb
      exact h2 (b, i) (List.mk_mem_zipIdx_iff_getElem?.2 hi)

theorem apNearest_ok {row : List κ} {I : List Nat} (hI : I ≠ []) (hlt : ∀ i ∈ I, i < row.length) :
    ∃ k l, apNearest row I = .ok k ∧ I[k]? = some l ∧
      ∀ e ∈ I, ∃ a b, row[e]? = some a ∧ row[l]? = some b ∧ a ≤ b := by
  obtain ⟨vals, hvals⟩ := mapM_total (f := fun i => lget row i) (l := I) fun i hi =>
    ⟨row[i]'(hlt i hi), lget_ok.2 (List.getElem?_eq_getElem (hlt i hi))⟩
  have hf := (mapM_ok_iff.1 hvals).imp fun a b hab => lget_ok.1 hab
  have hne : vals ≠ [] := by
    rintro rfl
    cases hf
    exact hI rfl
  obtain ⟨k, hk, a, ha, hmax⟩ := npArgmax_ok hne
  have hkv : k < vals.length := (List.getElem?_eq_some_iff.1 ha).1
  have hkI : k < I.length := by rw [hf.length_eq]; exact hkv
  refine ⟨k, I[k], by unfold apNearest; rw [hvals]; exact hk, List.getElem?_eq_getElem hkI, fun e he => ?_⟩
  obtain ⟨b, hb, hr⟩ := forall₂_mem_left hf he
  have hk' := (List.forall₂_iff_get.1 hf).2 k hkI hkv
  simp only [List.get_eq_getElem] at hk'
  rw [List.getElem?_eq_getElem hkv] at ha
  cases ha
  exact ⟨b, _, hr, hk', hmax b hb⟩

/-- `c[I] = arange(K)`. -/
theorem foldl_set_index {I : List Nat} (hn : I.Nodup) (c : List Nat) (k : Nat) :
    ((I.zipIdx k).foldl (fun c q => c.set q.1 q.2) c).length = c.length ∧
    (∀ i, i ∉ I → ((I.zipIdx k).foldl (fun c q => c.set q.1 q.2) c)[i]? = c[i]?) ∧
    (∀ j i, I[j]? = some i → i < c.length → ((I.zipIdx k).foldl (fun c q => c.set q.1 q.2) c)[i]? = some (k + j)) := by
  induction I generalizing c k with
  | nil => exact ⟨rfl, fun _ _ => rfl, fun j i h => by simp at h⟩
  | cons a I ih =>
    obtain ⟨ha, hn'⟩ := List.nodup_cons.1 hn
    rw [List.zipIdx_cons, List.foldl_cons]
    obtain ⟨h1, h2, h3⟩ := ih hn' (c.set a k) (k + 1)
    refine ⟨by rw [h1]; simp, fun i hi => ?_, fun j i hj hi => ?_⟩
    · rw [List.mem_cons, not_or] at hi
      rw [h2 i hi.2, List.getElem?_set]
      simp [Ne.symm hi.1]
    · cases j with
      | zero =>
        simp only [List.getElem?_cons_zero, Option.some.injEq] at hj
        subst hj
        rw [h2 a ha, List.getElem?_set]
        simp [hi]
      | succ j =>
        rw [List.getElem?_cons_succ] at hj
        rw [h3 j i hj (by simpa using hi)]
        congr 1; omega

/-- Lines 434-435: every point gets the position of an exemplar. -/
theorem apAssign_ok {n : Nat} {Sp : Mat κ} (hS : Square n Sp) {I : List Nat} (hI : I ≠ []) (hn : I.Nodup)
    (hlt : ∀ i ∈ I, i < n) :
    ∃ c, apAssign Sp I = .ok c ∧ c.length = n ∧ (∀ k i : Nat, I[k]? = some i → c[i]? = some k) ∧
      ∀ i k : Nat, c[i]? = some k → ∃ l, I[k]? = some l ∧
        (i ∉ I → ∀ e ∈ I, ∃ a b, mget? Sp i e = some a ∧ mget? Sp i l = some b ∧ a ≤ b) := by
  obtain ⟨c0, hc0⟩ := mapM_total (f := fun row => apNearest row I) (l := Sp) fun row hrow => by
    obtain ⟨k, l, h1, -⟩ := apNearest_ok hI (row := row) (fun i hi => by rw [hS.2 row hrow]; exact hlt i hi)
    exact ⟨k, h1⟩
  have hf := mapM_ok_iff.1 hc0
  have hlen : c0.length = n := by rw [← hf.length_eq, hS.1]
  obtain ⟨h1, h2, h3⟩ := foldl_set_index hn c0 0
  have hown : ∀ k i : Nat, I[k]? = some i → ((I.zipIdx 0).foldl (fun c q => c.set q.1 q.2) c0)[i]? = some k := by
    intro k i hk
    have := h3 k i hk (by rw [hlen]; exact hlt i (List.mem_of_getElem? hk))
    simpa using this
  refine ⟨(I.zipIdx 0).foldl (fun c q => c.set q.1 q.2) c0, by unfold apAssign; rw [hc0]; rfl, by rw [h1, hlen], hown, ?_⟩
  intro i k hik
  by_cases hi : i ∈ I
  · obtain ⟨j, hj⟩ := List.mem_iff_getElem?.1 hi
    rw [hown j i hj] at hik
    cases hik
    exact ⟨i, hj, fun c => absurd hi c⟩
  · rw [h2 i hi] at hik
    have hik' : i < c0.length := (List.getElem?_eq_some_iff.1 hik).1
    have hiS : i < Sp.length := by rw [hf.length_eq]; exact hik'
    have hrow := (List.forall₂_iff_get.1 hf).2 i hiS hik'
    simp only [List.get_eq_getElem] at hrow
    rw [List.getElem?_eq_getElem hik'] at hik
    cases hik
    obtain ⟨k', l, e1, e2, e3⟩ := apNearest_ok hI (row := Sp[i]) (fun j hj => by
      rw [hS.2 _ (List.getElem_mem hiS)]; exact hlt j hj)
    rw [hrow] at e1
    cases e1
    refine ⟨l, e2, fun _ e he => ?_⟩
    obtain ⟨a, b, ha, hb, hab⟩ := e3 e he
    refine ⟨a, b, ?_, ?_, hab⟩
    · unfold mget?; rw [List.getElem?_eq_getElem hiS]; exact ha
    · unfold mget?; rw [List.getElem?_eq_getElem hiS]; exact hb

end

section
variable {V κ μ θ : Type} [LinearOrder κ]

theorem apRefine_ok {env : ApEnv V κ μ θ} (ha : ApAssumptions env) (S : Mat κ) {c : List Nat} {k : Nat}
    (hk : ∃ i : Nat, c[i]? = some k) : ∃ i, apRefine env S c k = .ok i ∧ c[i]? = some k ∧
      ∃ (ii : List Nat) (j : Nat) (a : κ), ii.Pairwise (· < ·) ∧ (∀ i, i ∈ ii ↔ c[i]? = some k) ∧ ii[j]? = some i ∧ (env.colsum S ii)[j]? = some a ∧
        ∀ b ∈ env.colsum S ii, b ≤ a := by
  obtain ⟨i0, hi0⟩ := hk
  unfold apRefine
  have hne : (List.range c.length).filter (fun i => decide (c[i]? = some k)) ≠ [] := by
    intro e
    have : i0 ∈ (List.range c.length).filter (fun i => decide (c[i]? = some k)) := by
      rw [List.mem_filter, List.mem_range, decide_eq_true_eq]
      exact ⟨(List.getElem?_eq_some_iff.1 hi0).1, hi0⟩
    rw [e] at this
    cases this
  generalize hii : (List.range c.length).filter (fun i => decide (c[i]? = some k)) = ii at hne
  have hlen := ha.colsum S ii
  have hpw : ii.Pairwise (· < ·) := by rw [← hii]; exact List.pairwise_lt_range.filter _
  have hmi : ∀ i, i ∈ ii ↔ c[i]? = some k := by
    intro i
    rw [← hii, List.mem_filter, List.mem_range, decide_eq_true_eq, and_iff_right_iff_imp]
    exact fun h => (List.getElem?_eq_some_iff.1 h).1
  obtain ⟨j, hj, a, hja, hmax⟩ := npArgmax_ok (l := env.colsum S ii) (by
    intro e
    rw [e] at hlen
    exact hne (List.eq_nil_of_length_eq_zero hlen.symm))
  have hjl : j < ii.length := by rw [← hlen]; exact (List.getElem?_eq_some_iff.1 hja).1
  have hmem : ii[j] ∈ ii := List.getElem_mem hjl
  refine ⟨ii[j], ?_, (hmi _).1 hmem, ii, j, a, hpw, hmi, List.getElem?_eq_getElem hjl, hja, ?_⟩
  · simp only [hj, bind, Except.bind]
    exact lget_ok.2 (List.getElem?_eq_getElem hjl)
  · exact hmax

/-- Lines 434-444. -/
theorem apLabels_ok {env : ApEnv V κ μ θ} (ha : ApAssumptions env) (S : Mat κ) {n : Nat} {Sp : Mat κ} (hS : Square n Sp)
    {I : List Nat} (hI : I ≠ []) (hn : I.Nodup) (hlt : ∀ i ∈ I, i < n) :
    ∃ labels I', apLabels env S Sp I = .ok labels ∧ labels.length = n ∧ I'.length = I.length ∧
      (∀ i ∈ I', i < n) ∧ RefinedExemplars (env.colsum S) Sp I I' ∧ ExemplarLabels Sp I' labels := by
  obtain ⟨c, e1, hclen, hown, hfirst⟩ := apAssign_ok hS hI hn hlt
  obtain ⟨I', e2⟩ := mapM_total (f := apRefine env S c) (l := List.range I.length) fun k hk => by
    rw [List.mem_range] at hk
    obtain ⟨i, hi, -⟩ := apRefine_ok ha S (c := c) (k := k) ⟨I[k], hown k _ (List.getElem?_eq_getElem hk)⟩
    exact ⟨i, hi⟩
  have hf := mapM_ok_iff.1 e2
  have hI'len : I'.length = I.length := by rw [← hf.length_eq]; simp
  have hI'c : ∀ k i : Nat, I'[k]? = some i → c[i]? = some k ∧ ∃ (ii : List Nat) (j : Nat) (a : κ), ii.Pairwise (· < ·) ∧ (∀ i, i ∈ ii ↔ c[i]? = some k) ∧
      ii[j]? = some i ∧ (env.colsum S ii)[j]? = some a ∧ ∀ b ∈ env.colsum S ii, b ≤ a := by
    intro k i hk
    obtain ⟨hk', rfl⟩ := List.getElem?_eq_some_iff.1 hk
    have hkI : k < I.length := by omega
    have := (List.forall₂_iff_get.1 hf).2 k (by simpa using hkI) hk'
    simp only [List.get_eq_getElem, List.getElem_range] at this
    obtain ⟨i, hi, hc⟩ := apRefine_ok ha S (c := c) (k := k) ⟨I[k], hown k _ (List.getElem?_eq_getElem hkI)⟩
    rw [this] at hi
    cases hi
    exact hc
  have hI'nd : I'.Nodup := by
    rw [List.nodup_iff_injective_get]
    intro a b hab
    simp only [List.get_eq_getElem] at hab
    have h1 := (hI'c a _ (List.getElem?_eq_getElem a.2)).1
    have h2 := (hI'c b _ (List.getElem?_eq_getElem b.2)).1
    rw [hab, h2] at h1
    exact Fin.ext (Option.some.inj h1).symm
  have hI'lt : ∀ i ∈ I', i < n := by
    intro i hi
    obtain ⟨k, hk⟩ := List.mem_iff_getElem?.1 hi
    rw [← hclen]
    exact (List.getElem?_eq_some_iff.1 (hI'c k i hk).1).1
  have hI'ne : I' ≠ [] := by
    rintro rfl
    exact hI (List.eq_nil_of_length_eq_zero hI'len.symm)
  obtain ⟨c', e3, hc'len, hown', hnear⟩ := apAssign_ok hS hI'ne hI'nd hI'lt
  obtain ⟨labels, e4⟩ := mapM_total (f := lget I') (l := c') fun k hk => by
    obtain ⟨i, hi⟩ := List.mem_iff_getElem?.1 hk
    obtain ⟨l, hl, -⟩ := hnear i k hi
    exact ⟨l, lget_ok.2 hl⟩
  have hf4 := (mapM_ok_iff.1 e4).imp fun a b hab => lget_ok.1 hab
  have hlab : ∀ (i l : Nat), labels[i]? = some l → ∃ k, c'[i]? = some k ∧ I'[k]? = some l := by
    intro i l hl
    obtain ⟨hi, rfl⟩ := List.getElem?_eq_some_iff.1 hl
    have hi' : i < c'.length := by rw [hf4.length_eq]; exact hi
    exact ⟨c'[i], List.getElem?_eq_getElem hi', (List.forall₂_iff_get.1 hf4).2 i hi' hi⟩
  have href : RefinedExemplars (env.colsum S) Sp I I' := by
    refine ⟨?_, c, by rw [hclen, hS.1], hown, fun i k hik hi => ?_, fun k i hk => (hI'c k i hk).2⟩
    swap
    · obtain ⟨l, hl, hnr⟩ := hfirst _ _ hik
      exact ⟨l, hl, hnr hi⟩
    rw [List.forall₂_iff_get]
    refine ⟨hI'len.symm, fun k h1 h2 => ?_⟩
    simp only [List.get_eq_getElem]
    have hc := (hI'c k _ (List.getElem?_eq_getElem h2)).1
    obtain ⟨l, hl, hnr⟩ := hfirst _ _ hc
    rw [List.getElem?_eq_getElem h1] at hl
    cases hl
    by_cases hm : I'[k] ∈ I
    · obtain ⟨j, hj⟩ := List.mem_iff_getElem?.1 hm
      rw [hown j _ hj] at hc
      cases hc
      rw [List.getElem?_eq_getElem h1] at hj
      exact .inl (Option.some.inj hj).symm
    · exact .inr ⟨hm, hnr hm⟩
  refine ⟨labels, I', ?_, by rw [← hf4.length_eq, hc'len], hI'len, hI'lt, href, hI'nd, ?_, ?_, ?_⟩
  · unfold apLabels
    simp only [e1, e2, e3, bind, Except.bind]
    exact e4
  · intro l hl
    have hln : l < labels.length := by rw [← hf4.length_eq, hc'len]; exact hI'lt l hl
    obtain ⟨k, hk1, hk2⟩ := hlab l _ (List.getElem?_eq_getElem hln)
    obtain ⟨j, hj⟩ := List.mem_iff_getElem?.1 hl
    rw [hown' j l hj] at hk1
    cases hk1
    rw [hj] at hk2
    rw [List.getElem?_eq_getElem hln]
    exact hk2.symm
  · intro i l hl
    obtain ⟨k, -, hk2⟩ := hlab i l hl
    exact List.mem_of_getElem? hk2
  · intro i l hl hi
    obtain ⟨k, hk1, hk2⟩ := hlab i l hl
    obtain ⟨l', hl', h⟩ := hnear i k hk1
    rw [hk2] at hl'
    cases hl'
    exact h hi

end

/-! ### Spreading over the members and renumbering -/

theorem foldl_set_all (P : List Nat) (v : Int) (r : List Int) :
    (P.foldl (fun r i => r.set i v) r).length = r.length ∧
    ∀ i, (P.foldl (fun r i => r.set i v) r)[i]? = if i ∈ P ∧ i < r.length then some v else r[i]? := by
  induction P generalizing r with
  | nil => exact ⟨rfl, fun i => by simp⟩
  | cons a P ih =>
    obtain ⟨h1, h2⟩ := ih (r.set a v)
    rw [List.foldl_cons]
    refine ⟨by rw [h1]; simp, fun i => ?_⟩
    rw [h2 i, List.length_set, List.getElem?_set]
    by_cases hi : i ∈ P
    · by_cases hlt : i < r.length
      · simp [hi, hlt]
      · simp only [hi, hlt, and_false, if_false]
        by_cases hai : a = i
        · subst hai
          simp [hlt]
        · simp [hai]
    · by_cases hai : a = i
      · subst hai
        by_cases hlt : a < r.length
        · simp [hlt]
        · simp [hlt]
      · simp [hi, hai, Ne.symm hai]

/-- The label of a closure is given to its members. -/
theorem apSpread_ok {n : Nat} {labels : List Nat} {mls : List (List Nat)} (hd : mls.Pairwise List.Disjoint)
    (hlt : ∀ P ∈ mls, ∀ i ∈ P, i < n) :
    (apSpread n labels mls).length = n ∧
    ∀ (k i : Nat) (P : List Nat) (l : Nat), mls[k]? = some P → i ∈ P → labels[k]? = some l →
      (apSpread n labels mls)[i]? = some (l : Int) := by
  have key : ∀ (labels : List Nat) (mls : List (List Nat)) (r : List Int), mls.Pairwise List.Disjoint →
      (∀ P ∈ mls, ∀ i ∈ P, i < r.length) →
      ((labels.zip mls).foldl (fun r q => q.2.foldl (fun r i => r.set i (q.1 : Int)) r) r).length = r.length ∧
      (∀ i, (∀ P ∈ mls, i ∉ P) →
        ((labels.zip mls).foldl (fun r q => q.2.foldl (fun r i => r.set i (q.1 : Int)) r) r)[i]? = r[i]?) ∧
      ∀ (k i : Nat) (P : List Nat) (l : Nat), mls[k]? = some P → i ∈ P → labels[k]? = some l →
        ((labels.zip mls).foldl (fun r q => q.2.foldl (fun r i => r.set i (q.1 : Int)) r) r)[i]? = some (l : Int) := by
    intro labels
    induction labels with
    | nil => intro mls r _ _; exact ⟨rfl, fun _ _ => rfl, fun _ _ _ _ _ _ h => by simp at h⟩
    | cons l0 labels ih =>
      intro mls r hd hlt
      cases mls with
      | nil => exact ⟨rfl, fun _ _ => rfl, fun _ _ _ _ h => by simp at h⟩
      | cons P0 mls =>
        obtain ⟨hd1, hd2⟩ := List.pairwise_cons.1 hd
        rw [List.zip_cons_cons, List.foldl_cons]
        obtain ⟨s1, s2⟩ := foldl_set_all P0 (l0 : Int) r
        obtain ⟨h1, h2, h3⟩ := ih mls (P0.foldl (fun r i => r.set i (l0 : Int)) r) hd2
          (fun P hP i hi => by rw [s1]; exact hlt P (by simp [hP]) i hi)
        refine ⟨by rw [h1, s1], fun i hi => ?_, fun k i P l hk hi hl => ?_⟩
        · rw [h2 i (fun P hP => hi P (by simp [hP])), s2 i, if_neg]
          exact fun c => hi P0 (by simp) c.1
        · cases k with
          | zero =>
            simp only [List.getElem?_cons_zero, Option.some.injEq] at hk hl
            subst hk hl
            rw [h2 i (fun P hP hiP => hd1 P hP hi hiP), s2 i, if_pos ⟨hi, hlt P0 (by simp) i hi⟩]
          | succ k =>
            rw [List.getElem?_cons_succ] at hk hl
            exact h3 k i P l hk hi hl
  obtain ⟨h1, -, h3⟩ := key labels mls (List.replicate n (-1)) hd (by simpa using hlt)
  exact ⟨by simpa [apSpread] using h1, h3⟩

theorem apCompact_length (labels : List Int) : (apCompact labels).length = labels.length := by
  simp [apCompact]

/-- Renumbering keeps the groups. -/
theorem apCompact_iff {labels : List Int} {i j : Nat} (hi : i < labels.length) (hj : j < labels.length) :
    (apCompact labels)[i]? = (apCompact labels)[j]? ↔ labels[i]? = labels[j]? := by
  have mono : ∀ a ∈ labels, ∀ b, a < b →
      (labels.dedup.insertionSort (· ≤ ·)).countP (fun u => decide (u < a)) <
      (labels.dedup.insertionSort (· ≤ ·)).countP (fun u => decide (u < b)) := by
    intro a ha b hab
    have hmem : a ∈ labels.dedup.insertionSort (· ≤ ·) := by
      rw [List.mem_insertionSort, List.mem_dedup]; exact ha
    generalize labels.dedup.insertionSort (· ≤ ·) = u at hmem
    induction u with
    | nil => cases hmem
    | cons x u ih =>
      rw [List.countP_cons, List.countP_cons]
      have hle : u.countP (fun u => decide (u < a)) ≤ u.countP (fun u => decide (u < b)) := by
        apply List.countP_mono_left
        intro y _ hy
        simp only [decide_eq_true_eq] at hy ⊢
        omega
      rcases List.mem_cons.1 hmem with rfl | hmem
      · simp only [Int.lt_irrefl, decide_false, hab, decide_true]
        simp
        omega
      · have := ih hmem
        by_cases h1 : x < a
        · have h2 : x < b := by omega
          simp [h1, h2]; omega
        · simp only [h1, decide_false]
          by_cases h2 : x < b
          · simp [h2]; omega
          · simp [h2]; omega
  unfold apCompact
  simp only [List.getElem?_map, List.getElem?_eq_getElem hi, List.getElem?_eq_getElem hj, Option.map_some, Option.some.injEq]
  constructor
  · intro h
    rcases Int.lt_trichotomy labels[i] labels[j] with c | c | c
    · have := mono _ (List.getElem_mem hi) _ c; omega
    · exact c
    · have := mono _ (List.getElem_mem hj) _ c; omega
  · intro h; rw [h]

end Verif
