import Mathlib.Tactic.Ring
import Mathlib.Tactic.Linarith
import Mathlib.Algebra.BigOperators.Group.Finset.Piecewise
import Mathlib.Algebra.Order.BigOperators.Group.Finset
import Verif.Spec.Messages
import Verif.Model.Messages
import Verif.Proofs.Affinity

/-
The exact arithmetic of affinity propagation: the updates of the code are those of Frey & Dueck.
-/

namespace Verif

section
variable {κ : Type}

theorem mget?_tabulate (n : Nat) (f : Nat → Nat → κ) (i j : Nat) :
    mget? (tabulate n f) i j = if i < n ∧ j < n then some (f i j) else none := by
  unfold mget? tabulate
  rw [List.getElem?_map]
  by_cases hi : i < n
  · rw [List.getElem?_range hi]
    simp only [Option.map_some, Option.bind_some, List.getElem?_map]
    by_cases hj : j < n
    · rw [List.getElem?_range hj]; simp [hi, hj]
    · rw [List.getElem?_eq_none (by simpa using hj)]; simp [hj]
  · rw [List.getElem?_eq_none (by simpa using hi)]; simp [hi]

theorem entry_tabulate [Zero κ] {n : Nat} {f : Nat → Nat → κ} {i j : Nat} (hi : i < n) (hj : j < n) :
    entry (tabulate n f) i j = f i j := by
  unfold entry
  rw [mget?_tabulate, if_pos ⟨hi, hj⟩]
  rfl

theorem square_tabulate (n : Nat) (f : Nat → Nat → κ) : Square n (tabulate n f) := by
  unfold tabulate
  refine ⟨by simp, fun row hr => ?_⟩
  obtain ⟨i, -, rfl⟩ := List.mem_map.1 hr
  simp

theorem entry_eq [Zero κ] {M : Mat κ} {i j : Nat} {v : κ} (h : mget? M i j = some v) : entry M i j = v := by
  unfold entry
  rw [h]
  rfl

theorem Square.entry [LinearOrder κ] [Zero κ] {n : Nat} {M : Mat κ} (h : Square n M) {i j : Nat} (hi : i < n) (hj : j < n) :
    mget? M i j = some (entry M i j) := by
  obtain ⟨v, hv⟩ := h.get hi hj
  rw [hv, entry_eq hv]

theorem entry_map_rows [Zero κ] {n : Nat} {f : Nat → List κ} {i k : Nat} {v : κ} (hi : i < n) (h : (f i)[k]? = some v) :
    entry ((List.range n).map f) i k = v := by
  refine entry_eq ?_
  unfold mget?
  rw [List.getElem?_map, List.getElem?_range hi]
  exact h

variable [Field κ] [LinearOrder κ]

theorem getElem?_apSums {n : Nat} (Sp A : Mat κ) (i : Nat) {k : Nat} (hk : k < n) :
    (apSums n Sp A i)[k]? = some (entry A i k + entry Sp i k) := by
  unfold apSums
  rw [List.getElem?_map, List.getElem?_range hk]
  rfl

theorem apSums_length (n : Nat) (Sp A : Mat κ) (i : Nat) : (apSums n Sp A i).length = n := by simp [apSums]

theorem apTop_ok {t : List κ} (h : t ≠ []) : ∃ a, t[apTop t]? = some a ∧ ∀ b ∈ t, b ≤ a := by
  obtain ⟨k, e, a, ha, hb⟩ := npArgmax_ok h
  refine ⟨a, ?_, hb⟩
  unfold apTop
  rw [e]
  exact ha

theorem mem_eraseIdx_of_ne {t : List κ} {I k : Nat} {v : κ} (hk : t[k]? = some v) (hne : k ≠ I) : v ∈ t.eraseIdx I := by
  rw [List.mem_iff_getElem?]
  by_cases h : k < I
  · exact ⟨k, by rw [List.getElem?_eraseIdx_of_lt h]; exact hk⟩
  · obtain ⟨k', rfl⟩ : ∃ k', k = k' + 1 := ⟨k - 1, by omega⟩
    exact ⟨k', by rw [List.getElem?_eraseIdx_of_ge (by omega)]; exact hk⟩

theorem exists_of_mem_eraseIdx {t : List κ} {I : Nat} {v : κ} (h : v ∈ t.eraseIdx I) : ∃ k, k ≠ I ∧ t[k]? = some v := by
  obtain ⟨k, hk⟩ := List.mem_iff_getElem?.1 h
  by_cases hlt : k < I
  · exact ⟨k, by omega, by rw [List.getElem?_eraseIdx_of_lt hlt] at hk; exact hk⟩
  · exact ⟨k + 1, by omega, by rw [List.getElem?_eraseIdx_of_ge (by omega)] at hk; exact hk⟩

/-- Lines 386-394: the similarity minus the greatest of the other sums. -/
theorem apRespNew_ok {n : Nat} (hn : 2 ≤ n) (Sp A : Mat κ) (i : Nat) {k : Nat} (hk : k < n) :
    ∃ y, IsGreatest {v | ∃ k' < n, k' ≠ k ∧ v = entry A i k' + entry Sp i k'} y ∧
      (apRespNew n Sp A i)[k]? = some (entry Sp i k - y) := by
  have hlen := apSums_length n Sp A i
  have hne : apSums n Sp A i ≠ [] := by intro e; rw [e] at hlen; simp at hlen; omega
  obtain ⟨Y, hY, hmax⟩ := apTop_ok hne
  have hI : apTop (apSums n Sp A i) < n := by
    have := (List.getElem?_eq_some_iff.1 hY).1
    rwa [hlen] at this
  have hval : ∀ j v, (apSums n Sp A i)[j]? = some v → j < n ∧ v = entry A i j + entry Sp i j := by
    intro j v hj
    have hjn : j < n := by rw [← hlen]; exact (List.getElem?_eq_some_iff.1 hj).1
    rw [getElem?_apSums Sp A i hjn] at hj
    exact ⟨hjn, (Option.some.inj hj).symm⟩
  unfold apRespNew
  simp only [List.getElem?_map, List.getElem?_range hk, Option.map_some]
  by_cases hkI : k = apTop (apSums n Sp A i)
  · have hne2 : (apSums n Sp A i).eraseIdx (apTop (apSums n Sp A i)) ≠ [] := by
      intro e
      have := List.length_eraseIdx_of_lt (l := apSums n Sp A i) (i := apTop (apSums n Sp A i)) (by rw [hlen]; exact hI)
      rw [e, hlen] at this
      simp at this
      omega
    obtain ⟨Y2, e2⟩ : ∃ Y2, ((apSums n Sp A i).eraseIdx (apTop (apSums n Sp A i))).max? = some Y2 := by
      cases e : ((apSums n Sp A i).eraseIdx (apTop (apSums n Sp A i))).max? with
      | none => rw [List.max?_eq_none_iff] at e; exact absurd e hne2
      | some a => exact ⟨a, rfl⟩
    obtain ⟨h1, h2⟩ := max?_spec e2
    refine ⟨Y2, ⟨?_, ?_⟩, by rw [if_pos hkI, e2]; rfl⟩
    · obtain ⟨j, hj, hjv⟩ := exists_of_mem_eraseIdx h1
      obtain ⟨hjn, hv⟩ := hval j _ hjv
      exact ⟨j, hjn, by rw [hkI]; exact hj, hv⟩
    · rintro v ⟨j, hjn, hj, rfl⟩
      exact h2 _ (mem_eraseIdx_of_ne (getElem?_apSums Sp A i hjn) (by rw [← hkI]; exact hj))
  · refine ⟨Y, ⟨?_, ?_⟩, by rw [if_neg hkI, hY]; rfl⟩
    · exact ⟨apTop (apSums n Sp A i), hI, fun e => hkI e.symm, (hval _ _ hY).2⟩
    · rintro v ⟨j, hjn, hj, rfl⟩
      exact hmax _ (List.mem_of_getElem? (getElem?_apSums Sp A i hjn))

variable [IsStrictOrderedRing κ]

theorem half_add (x y : κ) : x * apDamping + y * (1 - apDamping) = (x + y) / 2 := by
  unfold apDamping
  ring

/-- The sum of a list over `range`, as a sum of a finite set. -/
theorem sum_range_map (n : Nat) (f : Nat → κ) : ((List.range n).map f).sum = ∑ i ∈ Finset.range n, f i := by
  rw [← List.sum_toFinset f List.nodup_range]
  congr 1
  ext i
  simp

theorem sum_apRp {n : Nat} (R : Mat κ) {k : Nat} (hk : k < n) :
    ∑ i ∈ Finset.range n, apRp R i k =
      entry R k k + ∑ j ∈ (Finset.range n).filter (fun j => j ≠ k), max 0 (entry R j k) := by
  rw [← Finset.add_sum_erase (Finset.range n) _ (Finset.mem_range.2 hk)]
  have e1 : apRp R k k = entry R k k := by simp [apRp]
  have e2 : (Finset.range n).erase k = (Finset.range n).filter (fun j => j ≠ k) := by
    ext j; simp [and_comm]
  rw [e1, e2]
  congr 1
  refine Finset.sum_congr rfl fun j hj => ?_
  rw [Finset.mem_filter] at hj
  unfold apRp
  rw [if_neg hj.2, max_comm]

theorem entry_apAvailNew {n : Nat} (R : Mat κ) {i k : Nat} (hi : i < n) (hk : k < n) :
    entry (apAvailNew n R) i k =
      if i = k then -∑ j ∈ (Finset.range n).filter (fun j => j ≠ k), max 0 (entry R j k)
      else -min 0 (entry R k k + ∑ j ∈ (Finset.range n).filter (fun j => j ≠ i ∧ j ≠ k), max 0 (entry R j k)) := by
  unfold apAvailNew
  rw [entry_tabulate hi hk]
  have hs : ((((List.range n).map fun k => ((List.range n).map fun i => apRp R i k).sum)[k]?).getD 0) =
      entry R k k + ∑ j ∈ (Finset.range n).filter (fun j => j ≠ k), max 0 (entry R j k) := by
    rw [List.getElem?_map, List.getElem?_range hk]
    simp only [Option.map_some, Option.getD_some]
    rw [sum_range_map, sum_apRp R hk]
  simp only [hs]
  by_cases hik : i = k
  · subst hik
    simp [apRp]
  · rw [if_neg hik, if_neg hik]
    have e : ∑ j ∈ (Finset.range n).filter (fun j => j ≠ k), max 0 (entry R j k) =
        max 0 (entry R i k) + ∑ j ∈ (Finset.range n).filter (fun j => j ≠ i ∧ j ≠ k), max 0 (entry R j k) := by
      have hmem : i ∈ (Finset.range n).filter (fun j => j ≠ k) := by simp [hi, hik]
      rw [← Finset.add_sum_erase _ _ hmem]
      congr 1
      refine Finset.sum_congr ?_ fun _ _ => rfl
      ext j
      simp only [Finset.mem_erase, Finset.mem_filter, Finset.mem_range]
      tauto
    unfold apRp
    rw [if_neg hik, e, max_comm (entry R i k) 0]
    generalize (∑ j ∈ (Finset.range n).filter (fun j => j ≠ i ∧ j ≠ k), max 0 (entry R j k)) = q
    generalize max 0 (entry R i k) = w
    generalize entry R k k = x
    rw [show w - (x + (w + q)) = -(x + q) by ring]
    rcases le_total 0 (x + q) with h | h
    · rw [max_eq_right (by linarith), min_eq_left h]; simp
    · rw [max_eq_left (by linarith), min_eq_right h]

/-- The updates of lines 386-414 are those of Frey & Dueck. -/
theorem apUpdate_ok {n : Nat} (hn : 2 ≤ n) {Sp : Mat κ} (hS : Square n Sp) (s : ApMessages κ) :
    Square n (apUpdate Sp s).1.avail ∧ Square n (apUpdate Sp s).1.resp ∧
      FreyDueck n (entry Sp) (entry s.avail) (entry s.resp) (entry (apUpdate Sp s).1.avail) (entry (apUpdate Sp s).1.resp) ∧
      ∀ k < n, (apUpdate Sp s).2[k]? =
        some (decide (0 < entry (apUpdate Sp s).1.avail k k + entry (apUpdate Sp s).1.resp k k)) := by
  have e : apUpdate Sp s = (⟨apAvail n s.avail (apResp n Sp s.avail s.resp), apResp n Sp s.avail s.resp⟩,
      (List.range n).map fun k => decide (0 < entry (apAvail n s.avail (apResp n Sp s.avail s.resp)) k k +
        entry (apResp n Sp s.avail s.resp) k k)) := by
    unfold apUpdate
    simp only [hS.1]
    rw [if_neg (by omega)]
  rw [e]
  refine ⟨square_tabulate _ _, square_tabulate _ _, ⟨?_, ?_, ?_⟩, ?_⟩
  · intro i hi k hk
    obtain ⟨y, hy, hv⟩ := apRespNew_ok hn Sp s.avail i hk
    refine ⟨y, hy, ?_⟩
    show entry (apResp n Sp s.avail s.resp) i k = _
    unfold apResp
    rw [entry_tabulate hi hk, entry_map_rows hi hv, half_add]
  · intro i hi k hk hik
    show entry (apAvail n s.avail (apResp n Sp s.avail s.resp)) i k = _
    generalize apResp n Sp s.avail s.resp = R
    unfold apAvail
    rw [entry_tabulate hi hk, entry_apAvailNew R hi hk, if_neg hik, neg_mul, sub_neg_eq_add, half_add]
  · intro k hk
    show entry (apAvail n s.avail (apResp n Sp s.avail s.resp)) k k = _
    generalize apResp n Sp s.avail s.resp = R
    unfold apAvail
    rw [entry_tabulate hk hk, entry_apAvailNew R hk hk, if_pos rfl, neg_mul, sub_neg_eq_add, half_add]
  · intro k hk
    rw [List.getElem?_map, List.getElem?_range hk]
    rfl

/-! ### The loop -/

theorem apStops_iff (conv N : Nat) (hist : List (List Bool)) (it : Nat) (E : List Bool) :
    apStops conv N hist it E = true ↔ conv ≤ it ∧
      (∀ i < N, hist.countP (fun col => decide (col[i]? = some true)) = conv ∨
        hist.countP (fun col => decide (col[i]? = some true)) = 0) ∧ 0 < E.countP fun b => b := by
  unfold apStops
  rw [Bool.and_eq_true, Bool.and_eq_true, decide_eq_true_iff, decide_eq_true_iff, decide_eq_true_iff, and_assoc]
  refine and_congr_right fun _ => and_congr_left fun _ => ?_
  constructor
  · intro h i hi
    have := List.filter_eq_self.1 (List.Sublist.eq_of_length List.filter_sublist (h.trans List.length_range.symm)) i
      (List.mem_range.2 hi)
    simpa using this
  · intro h
    rw [List.filter_eq_self.2, List.length_range]
    intro i hi
    rw [List.mem_range] at hi
    simpa using h i hi

end

section
variable {V κ μ θ : Type} [LinearOrder κ]

/-- When the exemplars are the same in every iteration, the loop stops after `convergence_iteration`
iterations. -/
theorem apLoop_steady {env : ApEnv V κ μ θ} {p : ApParams} (hp : p.absolute = true) {S : Mat κ} (n : Nat)
    (cls : List (Nat × Nat)) (J : μ → Prop) {E : List Bool} (hE : 0 < E.countP fun b => b)
    (hJ : ∀ s, J s → J (env.update S s).1 ∧ (env.update S s).2 = E) (left it : Nat) (s : ApState μ θ) (hs : J s.messages)
    (hlen : s.hist.length = p.convergenceIteration) (hit : it ≤ p.convergenceIteration)
    (hleft : p.convergenceIteration < it + left) (hconv : 0 < p.convergenceIteration)
    (hhist : ∀ j < it, s.hist[j]? = some E) : apLoop env p S n cls left it s = some (E, S) := by
  induction left generalizing it s with
  | zero => omega
  | succ left ih =>
    obtain ⟨h1, h2⟩ := hJ _ hs
    unfold apLoop
    have er : apIter env p S n cls it s =
        (⟨(env.update S s.messages).1, s.q, s.hist.set (it % p.convergenceIteration) E⟩, S, E) := by
      unfold apIter
      simp only [hp, if_true, h2]
    simp only [er]
    by_cases hc : it = p.convergenceIteration
    · rw [if_pos]
      rw [apStops_iff]
      have hall : ∀ col ∈ s.hist.set (it % p.convergenceIteration) E, col = E := by
        intro col hcol
        rcases List.mem_or_eq_of_mem_set hcol with hm | hm
        · obtain ⟨j, hj⟩ := List.mem_iff_getElem?.1 hm
          have hjlt := (List.getElem?_eq_some_iff.1 hj).1
          rw [hhist j (by omega)] at hj
          exact (Option.some.inj hj).symm
        · exact hm
      refine ⟨by omega, fun i _ => ?_, hE⟩
      by_cases hEi : E[i]? = some true
      · refine .inl ?_
        rw [List.countP_eq_length.2, List.length_set, hlen]
        intro col hcol
        rw [hall col hcol]
        exact decide_eq_true hEi
      · refine .inr ?_
        rw [List.countP_eq_zero]
        intro col hcol
        rw [hall col hcol]
        simpa using hEi
    · rw [if_neg]
      · refine ih (it + 1) _ h1 (by rw [List.length_set]; exact hlen) (by omega) (by omega) ?_
        intro j hj
        have hm : it % p.convergenceIteration = it := Nat.mod_eq_of_lt (by omega)
        show (s.hist.set (it % p.convergenceIteration) E)[j]? = some E
        rw [hm, List.getElem?_set]
        by_cases hij : it = j
        · rw [if_pos hij, if_pos (by rw [hlen]; omega)]
        · rw [if_neg hij]
          exact hhist j (by omega)
      · rw [apStops_iff]
        rintro ⟨h, -⟩
        omega

/-- What holds for the exemplars of every iteration holds for the result. -/
theorem apLoop_result {env : ApEnv V κ μ θ} {p : ApParams} (hp : p.absolute = true) {S : Mat κ} {n : Nat}
    {cls : List (Nat × Nat)} (J : μ → Prop) (T : List Bool → Prop)
    (hJ : ∀ s, J s → J (env.update S s).1 ∧ T (env.update S s).2) {left it : Nat} {s : ApState μ θ} (hs : J s.messages)
    {E : List Bool} {Sp : Mat κ} (h : apLoop env p S n cls left it s = some (E, Sp)) : T E := by
  induction left generalizing it s with
  | zero => cases h
  | succ left ih =>
    obtain ⟨h1, h2⟩ := hJ _ hs
    unfold apLoop at h
    have er : apIter env p S n cls it s =
        (⟨(env.update S s.messages).1, s.q, s.hist.set (it % p.convergenceIteration) (env.update S s.messages).2⟩, S,
          (env.update S s.messages).2) := by
      unfold apIter
      simp only [hp, if_true]
    simp only [er] at h
    split at h
    · cases h; exact h2
    · exact ih h1 h

end

end Verif
