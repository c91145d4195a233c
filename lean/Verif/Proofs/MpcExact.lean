import Mathlib.Algebra.Order.BigOperators.Group.Finset
import Mathlib.Algebra.Order.BigOperators.Ring.Finset
import Mathlib.Tactic.Ring
import Mathlib.Tactic.Linarith
import Mathlib.Tactic.Positivity
import Mathlib.Tactic.FieldSimp
import Verif.Proofs.MpcCluster
import Verif.Spec.MPCExact

/-
MPC-KMeans in exact arithmetic: metric, penalties, the arg-min loop.
-/

namespace Verif

section
variable {κ : Type} [Field κ] [LinearOrder κ] [IsStrictOrderedRing κ] {D : Nat}

/-! ### Metric -/

theorem mpcUpdate_pos {X : List (Fin D → κ)} (hX : X ≠ []) (w : κ) (labels : List Int) (centers : List (Fin D → κ))
    (far : Nat × Nat × κ) (ml cl : Graph) (d : Fin D) :
    0 < mpcUpdate w X labels centers far ml cl d ∧ mpcUpdate w X labels centers far ml cl d ≤ X.length * 10 ^ 9 := by
  have hN : (0 : κ) < X.length := by exact_mod_cast List.length_pos_iff.2 hX
  have heps : (0 : κ) < 1 / 10 ^ 9 := by positivity
  unfold mpcUpdate
  generalize mpcTermX X labels centers d + mpcSumM w X labels ml d + mpcSumC w X labels far cl d = t
  have hm : (0 : κ) < max t (1 / 10 ^ 9) := lt_max_of_lt_right heps
  refine ⟨by positivity, ?_⟩
  rw [div_le_iff₀ hm]
  have : (1 : κ) / 10 ^ 9 ≤ max t (1 / 10 ^ 9) := le_max_right _ _
  calc (X.length : κ) = X.length * 10 ^ 9 * (1 / 10 ^ 9) := by
        rw [mul_assoc, mul_one_div_cancel (by positivity), mul_one]
    _ ≤ X.length * 10 ^ 9 * max t (1 / 10 ^ 9) := mul_le_mul_of_nonneg_left this (by positivity)

theorem reached_metric {ch : MpcChoices κ D} {w : κ} {X : List (Fin D → κ)} {ml cl : Graph} {nb it : Nat}
    {start centers : List (Fin D → κ)} {A : Fin D → κ} {labels : List Int} (hX : X ≠ [])
    (h : MpcReached (mpcExact ch w) X ml cl nb start it centers A labels) : ∀ d, 0 < A d ∧ A d ≤ X.length * 10 ^ 9 := by
  cases h with
  | start =>
    intro d
    have hN : (1 : κ) ≤ X.length := by exact_mod_cast List.length_pos_iff.2 hX
    have h9 : (1 : κ) ≤ 10 ^ 9 := one_le_pow₀ (by norm_num)
    refine ⟨one_pos, ?_⟩
    show (1 : κ) ≤ _
    exact one_le_mul_of_one_le_of_one_le hN h9
  | pass => exact mpcUpdate_pos hX _ _ _ _ _ _

/-! ### Penalties -/

theorem mpcDist_nonneg {A : Fin D → κ} (hA : ∀ d, 0 < A d) (x y : Fin D → κ) : 0 ≤ mpcDist A x y :=
  Finset.sum_nonneg fun d _ => mul_nonneg (hA d).le (sq_nonneg _)

omit [LinearOrder κ] [IsStrictOrderedRing κ] in
theorem mpcDist_comm (A x y : Fin D → κ) : mpcDist A x y = mpcDist A y x :=
  Finset.sum_congr rfl fun d _ => by ring

omit [LinearOrder κ] [IsStrictOrderedRing κ] in
theorem mpcDist_self (A x : Fin D → κ) : mpcDist A x x = 0 :=
  Finset.sum_eq_zero fun d _ => by ring

omit [IsStrictOrderedRing κ] in
/-- The farthest pair, if there is one. -/
theorem mpcFarPair_max {ch : MpcChoices κ D} {w : κ} {A : Fin D → κ} {X : List (Fin D → κ)} {far : Nat × Nat × κ}
    (h : mpcFarPair (mpcExact ch w) A X = .ok far) :
    (∃ x y, X[far.1]? = some x ∧ X[far.2.1]? = some y ∧ far.2.2 = mpcDist A x y) ∧ 0 < far.2.2 ∧
      ∀ x ∈ X, ∀ y ∈ X, mpcDist A x y ≤ far.2.2 := by
  by_cases hfa : FarApart (mpcExact ch w) A X
  · obtain ⟨i, j, d, e, hji, hd, hmax⟩ := (mpcFarPair_ok (mpcExact ch w) A X).1 hfa
    rw [h] at e
    cases e
    obtain ⟨i0, j0, x0, y0, hij0, hx0, hy0, hpos⟩ := hfa
    have hd0 : 0 < d := lt_of_lt_of_le hpos (hmax i0 j0 x0 y0 hij0 hx0 hy0)
    refine ⟨hd, hd0, fun x hx y hy => ?_⟩
    obtain ⟨a, ha⟩ := List.mem_iff_getElem?.1 hx
    obtain ⟨b, hb⟩ := List.mem_iff_getElem?.1 hy
    rcases Nat.lt_trichotomy a b with hab | rfl | hab
    · rw [mpcDist_comm]
      exact hmax b a y x hab hb ha
    · rw [ha] at hb
      cases hb
      rw [mpcDist_self]
      exact hd0.le
    · exact hmax a b x y hab ha hb
  · rw [(mpcFarPair_ok (mpcExact ch w) A X).2 hfa] at h
    cases h

/-! ### The arg-min loop -/

omit [IsStrictOrderedRing κ] in
theorem foldl_term_zero {l : List Nat} {P : Nat → Prop} [DecidablePred P] {f : Nat → κ} (h : ∀ j ∈ l, P j → f j = 0) (t : κ) :
    l.foldl (fun t j => if P j then t + f j else t) t = t := by
  induction l generalizing t with
  | nil => rfl
  | cons a l ih =>
    rw [List.foldl_cons]
    split
    · rename_i hp
      rw [h a (by simp) hp, add_zero]
      exact ih (fun j hj => h j (by simp [hj])) t
    · exact ih (fun j hj => h j (by simp [hj])) t

theorem foldl_term_nonneg {l : List Nat} {P : Nat → Prop} [DecidablePred P] {f : Nat → κ} (h : ∀ j ∈ l, P j → 0 ≤ f j) {t : κ}
    (ht : 0 ≤ t) : 0 ≤ l.foldl (fun t j => if P j then t + f j else t) t := by
  induction l generalizing t with
  | nil => exact ht
  | cons a l ih =>
    rw [List.foldl_cons]
    split
    · rename_i hp
      exact ih (fun j hj => h j (by simp [hj])) (add_nonneg ht (h a (by simp) hp))
    · exact ih (fun j hj => h j (by simp [hj])) ht

/-- If the nearest centres violate no constraint at a cost, every point gets its first nearest centre,
whatever the weight. -/
theorem assign_nearest {ch : MpcChoices κ D} {w : κ} (hw : 0 ≤ w) (henum : SetOrder ch.enum) {n : Nat} {X : List (Fin D → κ)}
    {ml cl : Graph} {R S : Nat → Nat → Prop} (hr : MpcReady n X ml cl R S) {A : Fin D → κ} (hA : ∀ d, 0 < A d) {far : κ}
    (hfar : ∀ x ∈ X, ∀ y ∈ X, mpcDist A x y ≤ far) {centers : List (Fin D → κ)} (hne : centers ≠ []) {o : List Nat}
    (ho : o.Perm (List.range n)) {t : List Int} (ht : t.length = n)
    (hnear : ∀ (i : Nat) (x : Fin D → κ), X[i]? = some x → ∃ c : Nat, t[i]? = some (c : Int) ∧ FirstNearest A centers x c)
    (hM : ∀ (i j : Nat) (x y : Fin D → κ), R i j → X[i]? = some x → X[j]? = some y → t[i]? ≠ t[j]? → w * mpcDist A x y = 0)
    (hC : ∀ (i j : Nat) (x y : Fin D → κ), S i j → i ≠ j → X[i]? = some x → X[j]? = some y → t[i]? = t[j]? → w * (far - mpcDist A x y) = 0) :
    o.foldlM (mpcAssignStep (mpcExact ch w) A far X centers ml cl) (List.replicate n (-1)) = .ok t := by
  obtain ⟨t', e, hl, hout, hsplit⟩ := mpcAssignLoop_ok (env := mpcExact ch w) henum hr A far hne (o := o)
    (ho.nodup_iff.2 List.nodup_range) (fun i hi => List.mem_range.1 (ho.mem_iff.1 hi)) (s := List.replicate n (-1)) (by simp)
  rw [e]
  congr 1
  have key : ∀ p q, o = p ++ q → ∀ j ∈ p, t'[j]? = t[j]? := by
    intro p
    induction p using List.reverseRecOn with
    | nil => intro q _ j hj; cases hj
    | append_singleton p i ih =>
      intro q hpq j hj
      have hpq' : o = p ++ i :: q := by rw [hpq]; simp
      have ihp := ih (i :: q) hpq'
      rw [List.mem_append, List.mem_singleton] at hj
      rcases hj with hj | rfl
      · exact ihp j hj
      · obtain ⟨L, hL, hLj, c, htc, hc, a, hca, hmin⟩ := hsplit p j q hpq'
        have hjn : j < n := List.mem_range.1 (ho.mem_iff.1 (by rw [hpq']; simp))
        have hjp : j ∉ p := by
          have := ho.nodup_iff.2 List.nodup_range
          rw [hpq'] at this
          exact fun h => (List.nodup_append.1 this).2.2 j h j (by simp) rfl
        obtain ⟨x, hXj⟩ : ∃ x, X[j]? = some x := ⟨_, List.getElem?_eq_getElem (by rw [hr.len]; exact hjn)⟩
        obtain ⟨c0, htc0, y0, hy0, hbest⟩ := hnear j _ hXj
        have hc0 : c0 < centers.length := (List.getElem?_eq_some_iff.1 hy0).1
        -- the value of the objective for a cluster
        have hLv : ∀ k, (L[k]?).getD (-1) = if k ∈ p then (t[k]?).getD (-1) else -1 := by
          intro k
          rw [hLj k]
          by_cases hk : k ∈ p
          · simp only [hk, if_true]; rw [ihp k hk]
          · simp only [hk, if_false, List.getElem?_replicate]
            split <;> rfl
        have htk : ∀ k, k ∈ p → ∃ v, t[k]? = some v := fun k hk =>
          ⟨_, List.getElem?_eq_getElem (by rw [ht]; exact List.mem_range.1 (ho.mem_iff.1 (by rw [hpq']; simp [hk])))⟩
        have hxm : x ∈ X := List.mem_of_getElem? hXj
        have hval : ∀ (d : Nat) (z : Fin D → κ), centers[d]? = some z →
            ∃ b, mpcObjective (mpcExact ch w) A far X centers ml cl L j d = .ok b ∧
            mpcDist A x z - ch.logDet A ≤ b ∧ (d = c0 → b = mpcDist A x z - ch.logDet A) := by
          intro d z hz
          obtain ⟨x', z', M, C, hx', hz', -, -, hMR, hCS, hv⟩ := mpcObjective_ok (env := mpcExact ch w) henum hr A far
            (centers := centers) hL hjn (List.getElem?_eq_some_iff.1 hz).1
          rw [hXj] at hx'
          cases hx'
          rw [hz] at hz'
          cases hz'
          have hXk : ∀ k, k < n → ∃ y ∈ X, X[k]? = some y ∧ (X[k]?).getD x = y := by
            intro k hk
            have := List.getElem?_eq_getElem (l := X) (i := k) (by rw [hr.len]; exact hk)
            exact ⟨_, List.getElem_mem _, this, by rw [this]; rfl⟩
          refine ⟨_, hv x, ?_, ?_⟩
          · have m0 : 0 ≤ M.foldl (fun t k => if 0 ≤ (L[k]?).getD (-1) ∧ (L[k]?).getD (-1) ≠ (d : Int) then
                t + 2 * w * mpcDist A x ((X[k]?).getD x) else t) 0 :=
              foldl_term_nonneg (fun k _ _ => mul_nonneg (mul_nonneg (by norm_num) hw) (mpcDist_nonneg hA _ _)) le_rfl
            have c0 : 0 ≤ C.foldl (fun t k => if (L[k]?).getD (-1) = (d : Int) then
                t + 2 * w * (far - mpcDist A x ((X[k]?).getD x)) else t) 0 :=
              foldl_term_nonneg (fun k hk _ => by
                obtain ⟨y, hy, -, e⟩ := hXk k (hr.ltS j k ((hCS k).1 hk))
                rw [e]
                exact mul_nonneg (mul_nonneg (by norm_num) hw) (sub_nonneg.2 (hfar x hxm y hy))) le_rfl
            exact le_trans (le_add_of_nonneg_right m0) (le_add_of_nonneg_right c0)
          · rintro rfl
            have m0 : M.foldl (fun t k => if 0 ≤ (L[k]?).getD (-1) ∧ (L[k]?).getD (-1) ≠ (d : Int) then
                t + 2 * w * mpcDist A x ((X[k]?).getD x) else t) 0 = 0 := by
              refine foldl_term_zero (fun k hk hp => ?_) 0
              obtain ⟨y, hy, hky, e⟩ := hXk k (hr.ltR j k ((hMR k).1 hk))
              rw [hLv k] at hp
              by_cases hkp : k ∈ p
              · obtain ⟨v, hv'⟩ := htk k hkp
                rw [if_pos hkp, hv'] at hp
                have := hM j k x y ((hMR k).1 hk) hXj hky (by rw [htc0, hv']; exact fun h => hp.2 (Option.some.inj h).symm)
                rw [e, mul_assoc, this, mul_zero]
              · rw [if_neg hkp] at hp
                exact absurd hp.1 (by decide)
            have c0 : C.foldl (fun t k => if (L[k]?).getD (-1) = (d : Int) then
                t + 2 * w * (far - mpcDist A x ((X[k]?).getD x)) else t) 0 = 0 := by
              refine foldl_term_zero (fun k hk hp => ?_) 0
              obtain ⟨y, hy, hky, e⟩ := hXk k (hr.ltS j k ((hCS k).1 hk))
              rw [hLv k] at hp
              by_cases hkp : k ∈ p
              · obtain ⟨v, hv'⟩ := htk k hkp
                rw [if_pos hkp, hv'] at hp
                have := hC j k x y ((hCS k).1 hk) (fun h => hjp (h ▸ hkp)) hXj hky (by rw [htc0, hv']; exact congrArg some hp.symm)
                rw [e, mul_assoc, this, mul_zero]
              · rw [if_neg hkp] at hp
                omega
            show (mpcDist A x z - ch.logDet A + M.foldl (fun t k => if 0 ≤ (L[k]?).getD (-1) ∧ (L[k]?).getD (-1) ≠ (d : Int) then
                t + 2 * w * mpcDist A x ((X[k]?).getD x) else t) 0) + C.foldl (fun t k => if (L[k]?).getD (-1) = (d : Int) then
                t + 2 * w * (far - mpcDist A x ((X[k]?).getD x)) else t) 0 = _
            rw [m0, c0, add_zero, add_zero]
        obtain ⟨b0, hb0, -, hb0'⟩ := hval c0 y0 hy0
        have hb0' := hb0' rfl
        obtain ⟨z, hz⟩ : ∃ z, centers[c]? = some z := ⟨_, List.getElem?_eq_getElem hc⟩
        obtain ⟨b1, hb1, hb1', -⟩ := hval c z hz
        rw [hca] at hb1
        cases hb1
        obtain ⟨b2, hb2, hab, hlt⟩ := hmin c0 hc0
        rw [hb0] at hb2
        cases hb2
        obtain ⟨h1, h2⟩ := hbest c z hz
        rw [htc, htc0]
        congr 2
        rcases Nat.lt_trichotomy c c0 with h | h | h
        · have := h2 h
          linarith
        · exact h
        · have := hlt h
          linarith
  apply List.ext_getElem?
  intro j
  by_cases hj : j < n
  · exact key o [] (by simp) j (ho.mem_iff.2 (List.mem_range.2 hj))
  · rw [List.getElem?_eq_none (by omega), List.getElem?_eq_none (by omega)]

end

end Verif
