import Mathlib.Data.Rat.Cast.Order
import Verif.Spec.Inertia
import Verif.Proofs.MpcDescent
import Verif.Proofs.MpcHeavy
import Verif.Proofs.MpcLogDet
import Verif.Props.MPC
import Verif.Props.Manager

/-
Properties C79, C80 and C81: MPC-KMeans in exact arithmetic. Specification vocabulary: `Verif/Spec/MPC.lean`,
`Verif/Spec/MPCExact.lean`, `Unconstrained` of `Verif/Spec/Inertia.lean`.
-/

namespace Verif

/-! ### A concrete case -/

/-- The square root, rounded down. -/
def natRoot (n : Nat) : Nat := ((List.range (n + 1)).filter fun k => decide (k * k ≤ n)).length - 1

/-- The square root of a rational number that is a square. -/
def ratSqrt (q : ℚ) : ℚ := (natRoot q.num.toNat : ℚ) / natRoot q.den

/-- Four points in the plane. -/
def mpcKite : List (Fin 2 → ℚ) := [![-3, 0], ![3, 0], ![0, 0], ![0, -4]]

def mpcKiteVectors : Dict Nat (Fin 2 → ℚ) := [(1, ![-3, 0]), (2, ![3, 0]), (3, ![0, 0]), (4, ![0, -4])]

/-- Any shuffle, any value for the logarithm; the traversal starts with the third component. -/
def mpcKiteChoices (shuffle : Nat → Nat → List Nat) (logDet : (Fin 2 → ℚ) → ℚ) : MpcChoices ℚ 2 where
  enum := List.dedup
  depth := 1000
  shuffle := shuffle
  pick sizes := if 2 < sizes.length then 2 else 0
  choice _ k := List.range k
  sqrt := ratSqrt
  logDet := logDet

theorem mpcKite_ok {shuffle : Nat → Nat → List Nat} (hs : ∀ it n, (shuffle it n).Perm (List.range n)) (logDet : (Fin 2 → ℚ) → ℚ) (w : ℚ) :
    MpcAssumptions (mpcExact (mpcKiteChoices shuffle logDet) w) where
  enum l := ⟨List.nodup_dedup l, fun _ => List.mem_dedup⟩
  shuffle := hs
  pick sizes h := by
    show (if 2 < sizes.length then 2 else 0) < sizes.length
    have := List.length_pos_iff.2 h
    split <;> omega
  choice n k h := by
    show (List.range k).length = k ∧ ∀ i ∈ List.range k, i < n
    exact ⟨by simp, fun i hi => by have := List.mem_range.1 hi; omega⟩

/-- The first two points must not be linked. -/
def mpcKiteManager : Manager Nat := runOps (Manager.init [1, 2, 3, 4]) [.addConstraint 1 2 "CANNOT_LINK" 1]

def mpcKiteML : Graph := [(0, [0]), (1, [1]), (2, [2]), (3, [3])]
def mpcKiteCL : Graph := [(0, [1]), (1, [0]), (2, []), (3, [])]

section
variable {κ : Type} [Field κ] [LinearOrder κ] [IsStrictOrderedRing κ] {D : Nat}

/-! ### C79 -/

/-- Whatever the data, weights and constraints: every metric of the loop is positive and at most `N·10⁹`. -/
theorem C79_metric {ch : MpcChoices κ D} {w : κ} {X : List (Fin D → κ)} {ml cl : Graph} {nb it : Nat}
    {start centers : List (Fin D → κ)} {A : Fin D → κ} {labels : List Int} (hX : X ≠ [])
    (h : MpcReached (mpcExact ch w) X ml cl nb start it centers A labels) : ∀ d, 0 < A d ∧ A d ≤ X.length * 10 ^ 9 :=
  reached_metric hX h

/-- No penalty of the objective is negative (the assertion of line 534, which is commented out, holds). A must-link costs
nothing iff the vectors are equal, a cannot-link iff the vectors are as far apart as the farthest pair. -/
theorem C79_penalties {ch : MpcChoices κ D} {w : κ} (hw : 0 ≤ w) {X : List (Fin D → κ)} {ml cl : Graph} {nb it : Nat}
    {start centers : List (Fin D → κ)} {A : Fin D → κ} {labels : List Int}
    (h : MpcReached (mpcExact ch w) X ml cl nb start it centers A labels) {far : Nat × Nat × κ}
    (hf : mpcFarPair (mpcExact ch w) A X = .ok far) {x y : Fin D → κ} (hx : x ∈ X) (hy : y ∈ X) :
    0 ≤ (mpcExact ch w).termM A x y ∧ 0 ≤ (mpcExact ch w).termC A far.2.2 x y ∧
      ((mpcExact ch w).termM A x y = 0 ↔ w = 0 ∨ x = y) ∧
      ((mpcExact ch w).termC A far.2.2 x y = 0 ↔ w = 0 ∨ ∀ u ∈ X, ∀ v ∈ X, mpcDist A u v ≤ mpcDist A x y) := by
  have hA : ∀ d, 0 < A d := fun d => (reached_metric (List.ne_nil_of_mem hx) h d).1
  obtain ⟨⟨u, v, hu, hv, huv⟩, -, hmax⟩ := mpcFarPair_max hf
  have hu := List.mem_of_getElem? hu
  have hv := List.mem_of_getElem? hv
  have h2w : 0 ≤ 2 * w := by linarith
  have two : (2 : κ) * w = 0 ↔ w = 0 := by
    constructor
    · intro h; linarith
    · intro h; rw [h, mul_zero]
  refine ⟨mul_nonneg h2w (mpcDist_nonneg hA x y), mul_nonneg h2w (sub_nonneg.2 (hmax x hx y hy)), ?_, ?_⟩
  · show 2 * w * mpcDist A x y = 0 ↔ _
    rw [mul_eq_zero, two]
    refine or_congr_right ⟨fun h0 => ?_, fun h0 => by rw [h0, mpcDist_self]⟩
    unfold mpcDist at h0
    rw [Finset.sum_eq_zero_iff_of_nonneg fun d _ => mul_nonneg (hA d).le (sq_nonneg _)] at h0
    funext d
    rcases mul_eq_zero.1 (h0 d (Finset.mem_univ d)) with h1 | h1
    · exact absurd h1 (hA d).ne'
    · have := (pow_eq_zero_iff two_ne_zero).1 h1
      linarith
  · show 2 * w * (far.2.2 - mpcDist A x y) = 0 ↔ _
    rw [mul_eq_zero, two]
    refine or_congr_right ⟨fun h0 u' hu' v' hv' => ?_, fun h0 => ?_⟩
    · have := hmax u' hu' v' hv'
      linarith
    · have h1 := h0 u hu v hv
      have h2 := hmax x hx y hy
      rw [huv] at h2 ⊢
      linarith

/-- The logarithm of the determinant (lines 518-522) has no effect on the result, whatever the arguments are. -/
theorem C79_log_det {α : Type} [LinearOrder α] (ch : MpcChoices κ D) (w : κ) (f g : (Fin D → κ) → κ) (p : MpcParams) (m : Manager α)
    (vectors : Option (Dict α (Fin D → κ))) (nb : Option Int) :
    mpcCluster (mpcExact { ch with logDet := f } w) p m vectors nb = mpcCluster (mpcExact { ch with logDet := g } w) p m vectors nb := by
  have key : ∀ n nb ml cl X, mpcLabels (mpcExact { ch with logDet := f } w) p n nb ml cl X =
      mpcLabels (mpcExact { ch with logDet := g } w) p n nb ml cl X := by
    intro n nb ml cl X
    unfold mpcLabels
    simp only [mpcLoop_logDet ch w f g]
    rfl
  unfold mpcCluster
  simp only [key]

open Classical in
/-- The metric update, coordinate by coordinate: `N` over the squared distances to the centres, plus `w` times the squared
distance of every violated must-link, plus `2w` times what every violated cannot-link lacks to the farthest pair. -/
theorem C79_update {α : Type} [LinearOrder α] {m : Manager α} (h : Reachable m) (ch : MpcChoices κ D) (w : κ) {X : List (Fin D → κ)} {ml cl : Graph}
    (hX : X.length = m.managed.length) (hml : GraphOf m.managed.length ml (InferredAt m .mustLink))
    (hcl : GraphOf m.managed.length cl (InferredAt m .cannotLink)) (labels : List Int) (centers : List (Fin D → κ)) (far : Nat × Nat × κ) (d : Fin D) :
    (mpcExact ch w).metric X labels centers far ml cl d = X.length /
      max (∑ i ∈ Finset.range X.length, (coord X i d - coord centers (labelAt labels i).toNat d) ^ 2 +
        w * ∑ p ∈ (Finset.range X.length ×ˢ Finset.range X.length) with
            p.1 < p.2 ∧ InferredAt m .mustLink p.1 p.2 ∧ labelAt labels p.1 ≠ labelAt labels p.2, (coord X p.1 d - coord X p.2 d) ^ 2 +
        2 * w * ∑ p ∈ (Finset.range X.length ×ˢ Finset.range X.length) with
            p.1 < p.2 ∧ InferredAt m .cannotLink p.1 p.2 ∧ labelAt labels p.1 = labelAt labels p.2,
          max ((coord X far.1 d - coord X far.2.1 d) ^ 2 - (coord X p.1 d - coord X p.2 d) ^ 2) 0) (1 / 10 ^ 9) := by
  obtain ⟨-, -, -, hirr, -⟩ := C11_equivalence_and_congruence h
  have hM : mpcSumM w X labels ml d = w * ∑ p ∈ (Finset.range X.length ×ˢ Finset.range X.length) with
      p.1 < p.2 ∧ InferredAt m .mustLink p.1 p.2 ∧ labelAt labels p.1 ≠ labelAt labels p.2, (coord X p.1 d - coord X p.2 d) ^ 2 := by
    rw [← hX] at hml
    unfold mpcSumM
    rw [graph_sum_twice hml (fun i j hij => by rw [hX]; exact hij.lt.2) (fun i j hij => hij.symm h.inv)
      (f := fun i j => if labelAt labels i ≠ labelAt labels j then 1 / 2 * w * (coord X i d - coord X j d) ^ 2 else 0)
      (fun i j => by
        refine if_congr ne_comm ?_ rfl
        ring) (fun i _ => by simp), Finset.sum_filter, Finset.sum_filter, Finset.mul_sum, Finset.mul_sum]
    refine Finset.sum_congr rfl fun p _ => ?_
    by_cases h1 : p.1 < p.2 ∧ InferredAt m .mustLink p.1 p.2
    · rw [if_pos h1]
      by_cases h2 : labelAt labels p.1 ≠ labelAt labels p.2
      · rw [if_pos h2, if_pos ⟨h1.1, h1.2, h2⟩]
        ring
      · rw [if_neg h2, if_neg (fun hc => h2 hc.2.2), mul_zero, mul_zero]
    · rw [if_neg h1, if_neg (fun hc => h1 ⟨hc.1, hc.2.1⟩), mul_zero, mul_zero]
  have hC : mpcSumC w X labels far cl d = 2 * w * ∑ p ∈ (Finset.range X.length ×ˢ Finset.range X.length) with
      p.1 < p.2 ∧ InferredAt m .cannotLink p.1 p.2 ∧ labelAt labels p.1 = labelAt labels p.2,
        max ((coord X far.1 d - coord X far.2.1 d) ^ 2 - (coord X p.1 d - coord X p.2 d) ^ 2) 0 := by
    rw [← hX] at hcl
    unfold mpcSumC
    rw [graph_sum_twice hcl (fun i j hij => by rw [hX]; exact hij.lt.2) (fun i j hij => hij.symm h.inv)
      (f := fun k l => if labelAt labels k = labelAt labels l then
        w * max ((coord X far.1 d - coord X far.2.1 d) ^ 2 - (coord X k d - coord X l d) ^ 2) 0 else 0)
      (fun i j => by
        refine if_congr eq_comm ?_ rfl
        rw [show (coord X i d - coord X j d) ^ 2 = (coord X j d - coord X i d) ^ 2 by ring])
      (fun i ⟨x, y, hx, hy, he⟩ => by
        rw [hx] at hy
        cases hy
        exact absurd he (hirr x)), Finset.sum_filter, Finset.sum_filter, Finset.mul_sum, Finset.mul_sum]
    refine Finset.sum_congr rfl fun p _ => ?_
    by_cases h1 : p.1 < p.2 ∧ InferredAt m .cannotLink p.1 p.2
    · rw [if_pos h1]
      by_cases h2 : labelAt labels p.1 = labelAt labels p.2
      · rw [if_pos h2, if_pos ⟨h1.1, h1.2, h2⟩]
        ring
      · rw [if_neg h2, if_neg (fun hc => h2 hc.2.2), mul_zero, mul_zero]
    · rw [if_neg h1, if_neg (fun hc => h1 ⟨hc.1, hc.2.1⟩), mul_zero, mul_zero]
  show mpcUpdate w X labels centers far ml cl d = _
  unfold mpcUpdate
  rw [hM, hC]
  unfold mpcTermX
  rw [mpc_sum_range]

/-- With a cannot-link between the first and the third point, in one cluster: 4 / (9 + 9 + 2·(36 - 9)). -/
example : mpcUpdate 1 mpcKite [0, 0, 0, 1] [![0, 0], ![0, -4]] (1, 0, 36) mpcKiteML [(0, [2]), (1, []), (2, [0]), (3, [])] 0 = 4 / 72 := by
  decide +kernel

/-- The graphs of a manager without constraints. -/
theorem free_graphs {α : Type} [LinearOrder α] {m : Manager α} (h : Reachable m) (hu : Unconstrained m) {X : List (Fin D → κ)} {ml cl : Graph}
    (hX : X.length = m.managed.length) (hml : GraphOf m.managed.length ml (InferredAt m .mustLink))
    (hcl : GraphOf m.managed.length cl (InferredAt m .cannotLink)) :
    FreeGraphs m.managed.length X ml cl (InferredAt m .mustLink) (InferredAt m .cannotLink) := by
  have hno : ∀ t i j, InferredAt m t i j → i = j := by
    rintro t i j ⟨x, y, hx, hy, he⟩
    by_cases hxy : x = y
    · subst hxy
      have hi := (List.getElem?_eq_some_iff.1 hx)
      have hj := (List.getElem?_eq_some_iff.1 hy)
      exact (h.inv.d.nodup.getElem_inj_iff).1 (hi.2.trans hj.2.symm)
    · rw [hu x (List.mem_of_getElem? hx) y (List.mem_of_getElem? hy) hxy] at he
      cases he
  refine ⟨⟨hX, hml, hcl, fun i j hij => hij.lt.2, fun i j hij => hij.lt.2⟩, hno _, fun i j hij => ?_⟩
  have := hno _ i j hij
  subst this
  obtain ⟨x, y, hx, hy, he⟩ := hij
  rw [hx] at hy
  cases hy
  exact (C11_equivalence_and_congruence h).2.2.2.1 x he

/-- Without constraints the arg-min loop gives every point its first nearest centre: neither the weight nor the shuffle
matter. -/
theorem C79_nearest {α : Type} [LinearOrder α] {m : Manager α} (h : Reachable m) (hu : Unconstrained m) {ch : MpcChoices κ D} {w : κ} (hw : 0 ≤ w)
    (ha : MpcAssumptions (mpcExact ch w)) {X : List (Fin D → κ)} {ml cl : Graph}
    (hX : X.length = m.managed.length) (hml : GraphOf m.managed.length ml (InferredAt m .mustLink))
    (hcl : GraphOf m.managed.length cl (InferredAt m .cannotLink)) {nb it : Nat} {start centers : List (Fin D → κ)} {A : Fin D → κ} {labels : List Int}
    (hr : MpcReached (mpcExact ch w) X ml cl nb start it centers A labels) (hne : centers ≠ []) {far : Nat × Nat × κ}
    (hf : mpcFarPair (mpcExact ch w) A X = .ok far) :
    ∃ t : List Int, t.length = X.length ∧
      (ch.shuffle it X.length).foldlM (mpcAssignStep (mpcExact ch w) A far.2.2 X centers ml cl) (List.replicate X.length (-1)) = .ok t ∧
      ∀ (i : Nat) (x : Fin D → κ), X[i]? = some x → ∃ c : Nat, t[i]? = some (c : Int) ∧ FirstNearest A centers x c := by
  have hX0 : X ≠ [] := by
    obtain ⟨⟨x, y, hx, -⟩, -⟩ := mpcFarPair_max hf
    exact List.ne_nil_of_mem (List.mem_of_getElem? hx)
  obtain ⟨t, h1, h2, h3, -⟩ := (free_graphs h hu hX hml hcl).assign hw ha (fun d => (reached_metric hX0 hr d).1) hf hne nb it
  exact ⟨t, h1, h3, h2⟩

/-! ### C81 -/

/-- If the first nearest centres violate no must-link between different vectors, and violate cannot-links only between
vectors as far apart as the farthest pair, the arg-min loop returns them, for every weight and every shuffle. -/
theorem C81_satisfied {α : Type} [LinearOrder α] {m : Manager α} {ch : MpcChoices κ D} {w : κ} (hw : 0 ≤ w)
    (ha : MpcAssumptions (mpcExact ch w)) {X : List (Fin D → κ)} {ml cl : Graph}
    (hX : X.length = m.managed.length) (hml : GraphOf m.managed.length ml (InferredAt m .mustLink))
    (hcl : GraphOf m.managed.length cl (InferredAt m .cannotLink)) {nb it : Nat} {start centers : List (Fin D → κ)} {A : Fin D → κ} {labels : List Int}
    (hr : MpcReached (mpcExact ch w) X ml cl nb start it centers A labels) (hne : centers ≠ []) {far : Nat × Nat × κ}
    (hf : mpcFarPair (mpcExact ch w) A X = .ok far) {t : List Int} (ht : t.length = X.length)
    (hnear : ∀ (i : Nat) (x : Fin D → κ), X[i]? = some x → ∃ c : Nat, t[i]? = some (c : Int) ∧ FirstNearest A centers x c)
    (hM : ∀ i j, InferredAt m .mustLink i j → X[i]? ≠ X[j]? → t[i]? = t[j]?)
    (hC : ∀ (i j : Nat) (x y : Fin D → κ), InferredAt m .cannotLink i j → i ≠ j → X[i]? = some x → X[j]? = some y →
      (∃ u ∈ X, ∃ v ∈ X, mpcDist A x y < mpcDist A u v) → t[i]? ≠ t[j]?) :
    (ch.shuffle it X.length).foldlM (mpcAssignStep (mpcExact ch w) A far.2.2 X centers ml cl) (List.replicate X.length (-1)) = .ok t := by
  have hX0 : X ≠ [] := by
    obtain ⟨⟨x, y, hx, -⟩, -⟩ := mpcFarPair_max hf
    exact List.ne_nil_of_mem (List.mem_of_getElem? hx)
  obtain ⟨⟨u, v, hu, hv, huv⟩, -, hmax⟩ := mpcFarPair_max hf
  have hrd : MpcReady m.managed.length X ml cl (InferredAt m .mustLink) (InferredAt m .cannotLink) :=
    ⟨hX, hml, hcl, fun i j hij => hij.lt.2, fun i j hij => hij.lt.2⟩
  have e := assign_nearest (ch := ch) hw ha.enum hrd (fun d => (reached_metric hX0 hr d).1) hmax hne
    (o := ch.shuffle it X.length) (by rw [← hX]; exact ha.shuffle it X.length) (t := t) (by rw [ht, hX]) hnear
    (fun i j x y hij hx hy hne => by
      by_cases hxy : x = y
      · rw [hxy, mpcDist_self, mul_zero]
      · exact absurd (hM i j hij (by rw [hx, hy]; exact fun h => hxy (Option.some.inj h))) hne)
    (fun i j x y hij hne hx hy heq => by
      by_cases hlt : ∃ u ∈ X, ∃ v ∈ X, mpcDist A x y < mpcDist A u v
      · exact absurd heq (hC i j x y hij hne hx hy hlt)
      · have h1 : mpcDist A u v ≤ mpcDist A x y := by
          by_contra hcon
          exact hlt ⟨u, List.mem_of_getElem? hu, v, List.mem_of_getElem? hv, not_le.1 hcon⟩
        have h2 := hmax x (List.mem_of_getElem? hx) y (List.mem_of_getElem? hy)
        rw [le_antisymm (huv ▸ h1) h2, sub_self, mul_zero])
  rw [← hX] at e
  exact e

/-- Without cannot-links, when violating a must-link between different vectors costs more than the distance to any
centre, the arg-min loop satisfies every inferred must-link. -/
theorem C81_heavy {α : Type} [LinearOrder α] {m : Manager α} (h : Reachable m)
    (hno : ∀ x ∈ m.managed, ∀ y ∈ m.managed, m.getInferred x y ≠ .ok (some .cannotLink)) {ch : MpcChoices κ D} {w : κ} (hw : 0 ≤ w)
    (ha : MpcAssumptions (mpcExact ch w)) {X : List (Fin D → κ)} {ml cl : Graph} (hX0 : X ≠ [])
    (hX : X.length = m.managed.length) (hml : GraphOf m.managed.length ml (InferredAt m .mustLink))
    (hcl : GraphOf m.managed.length cl (InferredAt m .cannotLink)) {nb it : Nat} {start centers : List (Fin D → κ)} {A : Fin D → κ} {labels : List Int}
    (hr : MpcReached (mpcExact ch w) X ml cl nb start it centers A labels) (hne : centers ≠ []) (far : κ)
    (hheavy : ∀ (i j : Nat) (x y : Fin D → κ), InferredAt m .mustLink i j → X[i]? = some x → X[j]? = some y → x ≠ y → ∀ z ∈ centers,
      mpcDist A x z < 2 * w * mpcDist A x y) :
    ∃ t : List Int, t.length = X.length ∧
      (ch.shuffle it X.length).foldlM (mpcAssignStep (mpcExact ch w) A far X centers ml cl) (List.replicate X.length (-1)) = .ok t ∧
      ∀ i j, InferredAt m .mustLink i j → t[i]? = t[j]? := by
  have hrd : MpcReady m.managed.length X ml cl (InferredAt m .mustLink) (InferredAt m .cannotLink) :=
    ⟨hX, hml, hcl, fun i j hij => hij.lt.2, fun i j hij => hij.lt.2⟩
  obtain ⟨-, hsym, htr, -⟩ := C11_equivalence_and_congruence h
  obtain ⟨t, e, hl, hs⟩ := assign_heavy (ch := ch) hw ha.enum hrd
    (fun i j ⟨x, y, hx, hy, he⟩ => ⟨y, x, hy, hx, hsym x y he⟩)
    (fun i j k ⟨x, y, hx, hy, he⟩ ⟨y', z, hy', hz, he'⟩ => by
      rw [hy] at hy'
      cases hy'
      exact ⟨x, z, hx, hz, htr x y z he he'⟩)
    (fun i j ⟨x, y, hx, hy, he⟩ => hno x (List.mem_of_getElem? hx) y (List.mem_of_getElem? hy) he)
    (fun d => (reached_metric hX0 hr d).1) (far := far) hne
    (o := ch.shuffle it X.length) (by rw [← hX]; exact ha.shuffle it X.length) hheavy
  rw [← hX] at e hl
  exact ⟨t, hl, e, hs⟩

end

/-! ### C81, a violated cannot-link -/

/-- One of them. -/
def mpcKiteCh0 := mpcKiteChoices (fun _ n => List.range n) (fun _ => 0)

theorem mpcKite_graph : GraphOf 4 mpcKiteML (InferredAt mpcKiteManager .mustLink) ∧ GraphOf 4 mpcKiteCL (InferredAt mpcKiteManager .cannotLink) ∧
    mpcPairs mpcKiteManager .mustLink = .ok [(0, 0), (1, 1), (2, 2), (3, 3)] ∧
    mpcPairs mpcKiteManager .cannotLink = .ok [(0, 1), (1, 0)] ∧
    mpcPreprocess List.dedup 1000 4 [(0, 0), (1, 1), (2, 2), (3, 3)] [(0, 1), (1, 0)] = .ok (mpcKiteML, mpcKiteCL, [[0], [1], [2], [3]]) := by
  have h1 : mpcPairs mpcKiteManager .mustLink = .ok [(0, 0), (1, 1), (2, 2), (3, 3)] := by decide +kernel
  have h2 : mpcPairs mpcKiteManager .cannotLink = .ok [(0, 1), (1, 0)] := by decide +kernel
  have h3 : mpcPreprocess List.dedup 1000 4 [(0, 0), (1, 1), (2, 2), (3, 3)] [(0, 1), (1, 0)] = .ok (mpcKiteML, mpcKiteCL, [[0], [1], [2], [3]]) := by
    decide +kernel
  have hr : Reachable mpcKiteManager := ⟨_, _, rfl⟩
  obtain ⟨ml, cl, mlg, clg, nbhs, e1, e2, e3, g1, g2, -⟩ := C48_preprocess (enum := List.dedup) (m := mpcKiteManager)
    (fun l => ⟨List.nodup_dedup l, fun _ => List.mem_dedup⟩) hr (depth := 1000) (by decide +kernel)
  rw [h1] at e1; cases e1
  rw [h2] at e2; cases e2
  have hl : mpcKiteManager.managed.length = 4 := by decide +kernel
  rw [hl] at e3 g1 g2
  rw [h3] at e3
  cases e3
  exact ⟨g1, g2, h1, h2, h3⟩

theorem mpcKite_far (shuffle : Nat → Nat → List Nat) (logDet : (Fin 2 → ℚ) → ℚ) (w : ℚ) :
    mpcFarPair (mpcExact (mpcKiteChoices shuffle logDet) w) (fun _ => 1) mpcKite = .ok (1, 0, 36) := by
  show mpcFarPair (mpcExact mpcKiteCh0 0) (fun _ => 1) mpcKite = _
  decide +kernel

theorem mpcKite_init (shuffle : Nat → Nat → List Nat) (logDet : (Fin 2 → ℚ) → ℚ) (w : ℚ) :
    mpcInit (mpcExact (mpcKiteChoices shuffle logDet) w) mpcKite [[0], [1], [2], [3]] 2 = .ok [![0, 0], ![0, -4]] := by
  show mpcInit (mpcExact mpcKiteCh0 0) mpcKite [[0], [1], [2], [3]] 2 = _
  have e1 : (mpcMean [![0, 0]] : Fin 2 → ℚ) = ![0, 0] := by decide +kernel
  have e2 : (mpcMean [![0, -4]] : Fin 2 → ℚ) = ![0, -4] := by decide +kernel
  have e3 : mpcInit (mpcExact mpcKiteCh0 0) mpcKite [[0], [1], [2], [3]] 2 = .ok [mpcMean [![0, 0]], mpcMean [![0, -4]]] := by decide +kernel
  rw [e3, e1, e2]

theorem mpcKite_nearest : ∀ (i : Nat) (x : Fin 2 → ℚ), mpcKite[i]? = some x → ∃ c : Nat, ([0, 0, 0, 1] : List Int)[i]? = some (c : Int) ∧
    FirstNearest (fun _ => 1) [![0, 0], ![0, -4]] x c := by
  have hF : ∀ (x : Fin 2 → ℚ) (c : Nat), c < 2 → (∀ d < 2, ∀ y ∈ ([![0, 0], ![0, -4]] : List (Fin 2 → ℚ))[c]?, ∀ z ∈ ([![0, 0], ![0, -4]] : List (Fin 2 → ℚ))[d]?,
      mpcDist (fun _ => 1) x y ≤ mpcDist (fun _ => 1) x z ∧ (d < c → mpcDist (fun _ => 1) x y < mpcDist (fun _ => 1) x z)) →
      FirstNearest (fun _ => 1) [![0, 0], ![0, -4]] x c := by
    intro x c hc h
    have hy := List.getElem?_eq_getElem (l := ([![0, 0], ![0, -4]] : List (Fin 2 → ℚ))) (i := c) hc
    refine ⟨_, hy, fun d z hz => h d ?_ _ hy z hz⟩
    exact (List.getElem?_eq_some_iff.1 hz).1
  intro i x hx
  match i, hx with
  | 0, hx => cases hx; exact ⟨0, rfl, hF _ 0 (by decide) (by decide +kernel)⟩
  | 1, hx => cases hx; exact ⟨0, rfl, hF _ 0 (by decide) (by decide +kernel)⟩
  | 2, hx => cases hx; exact ⟨0, rfl, hF _ 0 (by decide) (by decide +kernel)⟩
  | 3, hx => cases hx; exact ⟨1, rfl, hF _ 1 (by decide) (by decide +kernel)⟩
  | i + 4, hx => cases hx

/-- Finding: a cannot-link between the farthest pair is never penalised. Whatever the weight, the shuffles and the
number of passes, the IDs 1 and 2 end in the same cluster although they have a CANNOT_LINK, and a cluster without
violation was possible. -/
theorem C81_violated {shuffle : Nat → Nat → List Nat} (hs : ∀ it n, (shuffle it n).Perm (List.range n)) (logDet : (Fin 2 → ℚ) → ℚ) {w : ℚ}
    (hw : 0 ≤ w) (it : Nat) (hit : 1 ≤ it) :
    mpcKiteManager.getInferred 1 2 = .ok (some .cannotLink) ∧
    mpcCluster (mpcExact (mpcKiteChoices shuffle logDet) w) ⟨it⟩ mpcKiteManager (some mpcKiteVectors) (some 2) =
      .ok [(1, 0), (2, 0), (3, 0), (4, 1)] := by
  refine ⟨by decide +kernel, ?_⟩
  obtain ⟨g1, g2, e1, e2, e3⟩ := mpcKite_graph
  obtain ⟨k, rfl⟩ : ∃ k, it = k + 1 := ⟨it - 1, by omega⟩
  have hl : mpcKiteManager.managed.length = 4 := by decide +kernel
  have hfold := C81_satisfied (m := mpcKiteManager) (ch := mpcKiteChoices shuffle logDet) hw (mpcKite_ok hs logDet w) (X := mpcKite)
    (by rw [hl]; rfl) (by rw [hl]; exact g1) (by rw [hl]; exact g2) (nb := 2) (start := [![0, 0], ![0, -4]])
    MpcReached.start (by simp) (mpcKite_far shuffle logDet w) (t := [0, 0, 0, 1]) rfl mpcKite_nearest
    (by
      rintro i j ⟨x, y, hx, hy, he⟩ hne
      exfalso
      have hdec : ∀ i < 4, ∀ j < 4, ∀ x ∈ mpcKiteManager.managed[i]?, ∀ y ∈ mpcKiteManager.managed[j]?,
          mpcKiteManager.getInferred x y = .ok (some .mustLink) → i = j := by
        decide +kernel
      have hi := (List.getElem?_eq_some_iff.1 hx).1
      have hj := (List.getElem?_eq_some_iff.1 hy).1
      rw [hl] at hi hj
      exact hne (by rw [hdec i hi j hj x hx y hy he]))
    (by
      rintro i j u v ⟨x, y, hx, hy, he⟩ - hu hv hlt
      exfalso
      have hdec : ∀ i < 4, ∀ j < 4, ∀ x ∈ mpcKiteManager.managed[i]?, ∀ y ∈ mpcKiteManager.managed[j]?,
          mpcKiteManager.getInferred x y = .ok (some .cannotLink) →
          ∀ u ∈ mpcKite[i]?, ∀ v ∈ mpcKite[j]?, mpcDist (fun _ => 1) u v = 36 := by
        decide +kernel
      have hi := (List.getElem?_eq_some_iff.1 hx).1
      have hj := (List.getElem?_eq_some_iff.1 hy).1
      rw [hl] at hi hj
      have h36 := hdec i hi j hj x hx y hy he u hu v hv
      obtain ⟨a, ha, b, hb, hab⟩ := hlt
      have := (mpcFarPair_max (mpcKite_far shuffle logDet w)).2.2 a ha b hb
      have h1 : mpcDist (mpcExact (mpcKiteChoices shuffle logDet) w).identity u v = 36 := h36
      have h2 : mpcDist (mpcExact (mpcKiteChoices shuffle logDet) w).identity a b ≤ 36 := this
      rw [h1] at hab
      exact absurd hab (not_lt.2 h2))
  have hrep : mpcRepair (fun p c => do return mpcDist (fun _ => 1) (← lget mpcKite p) (← lget [![0, 0], ![0, -4]] c) : Nat → Nat → Except PyErr ℚ) 2 [0, 0, 0, 1] =
      .ok [0, 0, 0, 1] := by decide +kernel
  have hassign : mpcAssign (mpcExact (mpcKiteChoices shuffle logDet) w) (fun _ => 1) 36 mpcKite [![0, 0], ![0, -4]] mpcKiteML mpcKiteCL 2 0 =
      .ok [0, 0, 0, 1] := by
    unfold mpcAssign
    show (shuffle 0 4).foldlM _ _ >>= _ = _
    refine Eq.trans (congrArg (· >>= _) hfold) ?_
    exact hrep
  have hclose : mpcClose ([![0, 0], ![0, -4]] : List (Fin 2 → ℚ)) (mpcCenters (mpcExact (mpcKiteChoices shuffle logDet) w) mpcKite [0, 0, 0, 1] 2) = true := by
    show mpcClose ([![0, 0], ![0, -4]] : List (Fin 2 → ℚ)) (mpcCenters (mpcExact mpcKiteCh0 0) mpcKite [0, 0, 0, 1] 2) = true
    decide +kernel
  have hlab : mpcLabels (mpcExact (mpcKiteChoices shuffle logDet) w) ⟨k + 1⟩ 4 2 [(0, 0), (1, 1), (2, 2), (3, 3)] [(0, 1), (1, 0)] mpcKite =
      .ok [0, 0, 0, 1] := by
    unfold mpcLabels
    rw [show (mpcExact (mpcKiteChoices shuffle logDet) w).enum = List.dedup from rfl, show (mpcExact (mpcKiteChoices shuffle logDet) w).depth = 1000 from rfl, e3]
    simp only [bind, Except.bind, mpcKite_init]
    unfold mpcLoop
    rw [show (mpcExact (mpcKiteChoices shuffle logDet) w).identity = (fun _ => 1) from rfl]
    simp only [bind, Except.bind, mpcKite_far, hassign]
    exact if_pos hclose
  unfold mpcCluster
  simp only [bind, Except.bind, e1, e2]
  rw [if_neg (by decide), hl]
  simp only [pure, Except.pure]
  have hv : dvals mpcKiteVectors = mpcKite := rfl
  rw [hv, show min (Int.toNat 2) 4 = 2 from rfl, hlab]
  simp only
  decide +kernel

/-- A state after one pass, with a constraint. -/
example : ∃ centers A labels far, MpcReached (mpcExact mpcKiteCh0 1) mpcKite mpcKiteML mpcKiteCL 2 [![0, 0], ![0, -4]] 1 centers A labels ∧
    mpcKite ≠ [] ∧ mpcFarPair (mpcExact mpcKiteCh0 1) A mpcKite = .ok far ∧ MpcAssumptions (mpcExact mpcKiteCh0 1) := by
  have hL : mpcAssign (mpcExact mpcKiteCh0 1) (mpcExact mpcKiteCh0 1).identity 36 mpcKite [![0, 0], ![0, -4]] mpcKiteML mpcKiteCL 2 0 =
    .ok [0, 0, 0, 1] := by decide +kernel
  have hr := MpcReached.pass (start := [![0, 0], ![0, -4]]) MpcReached.start (mpcKite_far (fun _ n => List.range n) (fun _ => 0) 1) hL
  refine ⟨_, _, _, (3, 0, 64000000002), hr, by decide, ?_, mpcKite_ok (fun _ _ => List.Perm.refl _) _ _⟩
  decide +kernel

/-- Without constraints. -/
example : Reachable (Manager.init [1, 2, 3, 4]) ∧ Unconstrained (Manager.init [1, 2, 3, 4]) ∧
    mpcKite.length = (Manager.init [1, 2, 3, 4]).managed.length ∧
    (∃ ml cl nbhs, mpcPreprocess List.dedup 1000 4 [(0, 0), (1, 1), (2, 2), (3, 3)] [] = .ok (ml, cl, nbhs) ∧
      mpcAssign (mpcExact mpcKiteCh0 1) (mpcExact mpcKiteCh0 1).identity 36 mpcKite [![0, 0], ![0, -4]] ml cl 2 0 = .ok [0, 0, 0, 1]) :=
  ⟨⟨_, [], rfl⟩, by unfold Unconstrained; decide +kernel, by decide +kernel,
    ⟨mpcKiteML, [(0, []), (1, []), (2, []), (3, [])], [[0], [1], [2], [3]], by decide +kernel, by decide +kernel⟩⟩

/-- Heavy must-links: with the weight 2 the points 1 and 3 stay together, whatever the centres. -/
example : let m := runOps (Manager.init [1, 2, 3, 4]) [.addConstraint 1 3 "MUST_LINK" 1]
    Reachable m ∧ (∀ x ∈ m.managed, ∀ y ∈ m.managed, m.getInferred x y ≠ .ok (some .cannotLink)) ∧
    (∀ x ∈ [![-3, 0], ![0, 0]], ∀ z ∈ ([![0, 0], ![0, -4]] : List (Fin 2 → ℚ)),
      mpcDist (fun _ => 1) x z < 2 * 2 * mpcDist (fun _ => 1) ![-3, 0] ![0, 0]) :=
  ⟨⟨_, _, rfl⟩, by decide +kernel, by decide +kernel⟩

/-! ### C80 -/

theorem reached_length {V κ θ : Type} [LinearOrder κ] {env : MpcEnv V κ θ} {X : List V} {ml cl : Graph} {nb it : Nat} {start centers : List V}
    {A : θ} {labels : List Int} (hs : start.length = nb) (h : MpcReached env X ml cl nb start it centers A labels) : centers.length = nb := by
  cases h with
  | start => exact hs
  | pass => exact mpcCenters_length _ _ _ _

/-- Every result of the loop belongs to a state that is reached from the initial centres. -/
theorem C80_reached {V κ θ : Type} [LinearOrder κ] {env : MpcEnv V κ θ} {p : MpcParams} (hp : 1 ≤ p.maxIteration) {n nb : Nat}
    {ml cl : List (Nat × Nat)} {X : List V} {r : List Int} (h : mpcLabels env p n nb ml cl X = .ok r) :
    ∃ g start it centers A, mpcPreprocess env.enum env.depth n ml cl = .ok g ∧ mpcInit env X g.2.2 nb = .ok start ∧
      1 ≤ it ∧ it ≤ p.maxIteration ∧ MpcReached env X g.1 g.2.1 nb start it centers A r := by
  have key : ∀ (mlg clg : Graph) (start : List V) (left it : Nat) (centers : List V) (A : θ) (labels : List Int),
      MpcReached env X mlg clg nb start it centers A labels → mpcLoop env X mlg clg nb left it centers A labels = .ok r → 1 ≤ it + left →
      ∃ it' c' A', 1 ≤ it' ∧ it' ≤ it + left ∧ MpcReached env X mlg clg nb start it' c' A' r := by
    intro mlg clg start left
    induction left with
    | zero =>
      intro it centers A labels hr hl h1
      unfold mpcLoop at hl
      cases hl
      exact ⟨it, centers, A, by omega, by omega, hr⟩
    | succ left ih =>
      intro it centers A labels hr hl h1
      unfold mpcLoop at hl
      simp only [bind, Except.bind] at hl
      cases hf : mpcFarPair env A X with
      | error e => rw [hf] at hl; cases hl
      | ok far =>
        simp only [hf] at hl
        cases hL : mpcAssign env A far.2.2 X centers mlg clg nb it with
        | error e => rw [hL] at hl; cases hl
        | ok L =>
          simp only [hL] at hl
          have hr' := MpcReached.pass hr hf hL
          split at hl
          · cases hl
            exact ⟨it + 1, _, _, by omega, by omega, hr'⟩
          · obtain ⟨it', c', A', h1, h2, h3⟩ := ih _ _ _ _ hr' hl (by omega)
            exact ⟨it', c', A', h1, by omega, h3⟩
  unfold mpcLabels at h
  simp only [bind, Except.bind] at h
  cases hg : mpcPreprocess env.enum env.depth n ml cl with
  | error e => rw [hg] at h; cases h
  | ok g =>
    simp only [hg] at h
    cases hi : mpcInit env X g.2.2 nb with
    | error e => rw [hi] at h; cases h
    | ok start =>
      simp only [hi] at h
      obtain ⟨it, c, A, h1, h2, h3⟩ := key _ _ _ _ _ _ _ _ MpcReached.start h (by omega)
      exact ⟨g, start, it, c, A, rfl, hi, h1, by omega, h3⟩

section
variable {α : Type} [LinearOrder α] {D : Nat}

/-- Without constraints every pass of the loop (assignment, repair of empty clusters, means, metric) is at least as good
as any labels with the centres and the metric before it; in particular it never increases the objective. It decreases the
objective unless the centres are unchanged or every point coincides with the centre of its cluster. -/
theorem C80_pass {m : Manager α} (h : Reachable m) (hu : Unconstrained m) {ch : MpcChoices ℝ D} {w : ℝ} (hw : 0 ≤ w)
    (ha : MpcAssumptions (mpcExact ch w)) {X : List (Fin D → ℝ)} {ml cl : Graph} (hX : X.length = m.managed.length)
    (hml : GraphOf m.managed.length ml (InferredAt m .mustLink)) (hcl : GraphOf m.managed.length cl (InferredAt m .cannotLink))
    {nb it : Nat} (hnb : 1 ≤ nb) {start centers centers' : List (Fin D → ℝ)} (hs : start.length = nb) {A A' : Fin D → ℝ} {old new : List Int}
    (hr : MpcReached (mpcExact ch w) X ml cl nb start it centers A old) {far : Nat × Nat × ℝ}
    (hf : mpcFarPair (mpcExact ch w) A X = .ok far) (hL : mpcAssign (mpcExact ch w) A far.2.2 X centers ml cl nb it = .ok new)
    (hc : centers' = mpcCenters (mpcExact ch w) X new nb) (hA : A' = (mpcExact ch w).metric X new centers' far ml cl)
    {labels : List Int} (hl : labels.length = X.length) (hb : LabelsBelow nb labels) :
    mpcScore X new centers' A' ≤ mpcScore X labels centers A ∧
      (mpcScore X new centers' A' = mpcScore X labels centers A → centers' = centers ∨
        ∀ (i : Nat) (x : Fin D → ℝ), X[i]? = some x → ∃ c : Nat, new[i]? = some (c : Int) ∧ centers'[c]? = some x) := by
  subst hc hA
  have hX0 : X ≠ [] := by
    obtain ⟨⟨x, y, hx, -⟩, -⟩ := mpcFarPair_max hf
    exact List.ne_nil_of_mem (List.mem_of_getElem? hx)
  obtain ⟨h1, h2⟩ := (free_graphs h hu hX hml hcl).pass_le hX0 hw ha (reached_metric hX0 hr) hf (reached_length hs hr) hnb hL hl hb
  refine ⟨h1, fun he => (h2 he.ge).imp_right ?_⟩
  rintro ⟨t, -, -, -, -, z2, -⟩ i x hx
  obtain ⟨g1, g2, -⟩ := assign_good ha (free_graphs h hu hX hml hcl).ready (reached_length hs hr) hnb hL
  have hi := (List.getElem?_eq_some_iff.1 hx).1
  have hin : i < new.length := by omega
  have hn := List.getElem?_eq_getElem hin
  obtain ⟨n1, n2⟩ := g2 _ (List.getElem_mem hin)
  have hc := List.getElem?_eq_getElem (l := mpcCenters (mpcExact ch w) X new nb) (i := (new[i]).toNat) (by rw [mpcCenters_length]; omega)
  refine ⟨(new[i]).toNat, by rw [Int.toNat_of_nonneg n1]; exact hn, ?_⟩
  have := z2 i hi
  rw [labelAt_get hn, coord_get hx, coord_get hc] at this
  rw [hc, this]

/-- Without constraints the loop stops by itself after at most `kⁿ + 2` passes: a larger `max_iteration` does not change the
result. -/
theorem C80_converges {m : Manager α} (h : Reachable m) (hu : Unconstrained m) {ch : MpcChoices ℝ D} {w : ℝ} (hw : 0 ≤ w)
    (ha : MpcAssumptions (mpcExact ch w)) {vectors : Dict α (Fin D → ℝ)} (hlen : vectors.length = m.managed.length) {nb : Int}
    {it : Nat} (hit : (min nb.toNat m.managed.length) ^ m.managed.length + 2 ≤ it) :
    mpcCluster (mpcExact ch w) ⟨it⟩ m (some vectors) (some nb) =
      mpcCluster (mpcExact ch w) ⟨(min nb.toNat m.managed.length) ^ m.managed.length + 2⟩ m (some vectors) (some nb) := by
  by_cases hnb : nb < 2
  · unfold mpcCluster; simp only; rw [if_pos hnb, if_pos hnb]; rfl
  have hX : (dvals vectors).length = m.managed.length := by rw [← hlen]; simp [dvals]
  obtain ⟨ml, cl, em, ec, h3, h4⟩ := mpcPreprocess_manager ha.enum h.inv (mpcExact ch w).depth
  suffices key : ∀ it, (min nb.toNat m.managed.length) ^ m.managed.length + 2 ≤ it →
      mpcLabels (mpcExact ch w) ⟨it⟩ m.managed.length (min nb.toNat m.managed.length) ml cl (dvals vectors) =
      mpcLabels (mpcExact ch w) ⟨it + 1⟩ m.managed.length (min nb.toNat m.managed.length) ml cl (dvals vectors) by
    induction it, hit using Nat.le_induction with
    | base => rfl
    | succ it hit ih =>
      rw [← ih]
      unfold mpcCluster
      simp only [bind, Except.bind, em, ec]
      rw [key it hit]
  intro it hit
  obtain ⟨k, rfl⟩ : ∃ k, it = k + 1 := ⟨it - 1, by omega⟩
  unfold mpcLabels
  simp only [bind, Except.bind]
  by_cases hd : ∀ c ∈ m.components, c.length ≤ (mpcExact ch w).depth
  · obtain ⟨mlg, clg, nbhs, h5, hmlg, hclg, hN⟩ := h3 hd
    simp only [h5]
    cases hi : mpcInit (mpcExact ch w) (dvals vectors) nbhs (min nb.toNat m.managed.length) with
    | error e => rfl
    | ok start =>
      simp only
      rw [mpcLoop.eq_def, mpcLoop.eq_def (mpcExact ch w) (dvals vectors) mlg clg (min nb.toNat m.managed.length) (k + 1 + 1)]
      simp only [bind, Except.bind]
      cases hf : mpcFarPair (mpcExact ch w) (mpcExact ch w).identity (dvals vectors) with
      | error e => rfl
      | ok far =>
        have hX0 : dvals vectors ≠ [] := by
          obtain ⟨⟨x, y, hx, -⟩, -⟩ := mpcFarPair_max hf
          exact List.ne_nil_of_mem (List.mem_of_getElem? hx)
        have hn : 1 ≤ m.managed.length := by rw [← hX]; exact List.length_pos_iff.2 hX0
        simp only
        cases hL : mpcAssign (mpcExact ch w) (mpcExact ch w).identity far.2.2 (dvals vectors) start mlg clg (min nb.toNat m.managed.length) 0 with
        | error e => rfl
        | ok L =>
          simp only
          have hfree := free_graphs h hu hX hmlg hclg
          have hsl : start.length = min nb.toNat m.managed.length := by
            obtain ⟨hin, -⟩ := mpcInit_ok ha (X := dvals vectors) (nbhs := nbhs) (fun P hP i hi => by rw [hX]; exact nbhs_lt hN hP hi)
              (nb := min nb.toNat m.managed.length) (by omega) (by omega)
            rcases hin with ⟨c', e', hl'⟩ | ⟨e', -⟩
            · rw [hi] at e'
              cases e'
              exact hl'
            · rw [hi] at e'
              cases e'
          have hg := assign_good ha hfree.ready hsl (by omega) hL
          split
          · rfl
          · refine hfree.loop_stable hw ha (by omega) hg far ?_
            have := mpcRank_le (ch := ch) (w := w) (ml := mlg) (cl := clg) (mem_mpcAllLabels (n := (dvals vectors).length) (by rw [hg.1, hX]) hg.2.1)
            rw [hX] at this
            omega
  · have hbig : ∃ c ∈ m.components, (mpcExact ch w).depth < c.length := by
      by_contra hno
      apply hd
      intro c hc
      by_contra hcon
      exact hno ⟨c, hc, by omega⟩
    rw [h4 hbig]

end

/-- The hypotheses hold, for instance, for two real numbers. -/
example : let m := Manager.init [1, 2]
    let ch : MpcChoices ℝ 1 := ⟨List.dedup, 1000, fun _ n => List.range n, fun _ => 0, fun _ k => List.range k, Real.sqrt, fun A => ∑ d, Real.log (A d)⟩
    let X : List (Fin 1 → ℝ) := [fun _ => 0, fun _ => 1]
    Reachable m ∧ Unconstrained m ∧ MpcAssumptions (mpcExact ch 1) ∧ X.length = m.managed.length ∧
    ∃ ml cl far new, GraphOf m.managed.length ml (InferredAt m .mustLink) ∧ GraphOf m.managed.length cl (InferredAt m .cannotLink) ∧
      mpcFarPair (mpcExact ch 1) (mpcExact ch 1).identity X = .ok far ∧
      mpcAssign (mpcExact ch 1) (mpcExact ch 1).identity far.2.2 X X ml cl 2 0 = .ok new := by
  intro m ch X
  have hr : Reachable m := ⟨_, [], rfl⟩
  have hu : Unconstrained m := by unfold Unconstrained; decide +kernel
  have ha : MpcAssumptions (mpcExact ch 1) := ⟨fun l => ⟨List.nodup_dedup l, fun _ => List.mem_dedup⟩, fun _ _ => List.Perm.refl _,
    fun sizes h => List.length_pos_iff.2 h, fun n k h => ⟨List.length_range, fun i hi => by have := List.mem_range.1 hi; omega⟩⟩
  have hX : X.length = m.managed.length := by decide +kernel
  obtain ⟨-, -, ml, cl, -, -, -, -, hml, hcl, -⟩ := C48_preprocess (enum := List.dedup) (m := m)
    (fun l => ⟨List.nodup_dedup l, fun _ => List.mem_dedup⟩) hr (depth := 1000) (by decide +kernel)
  have d01 : mpcDist (mpcExact ch 1).identity (fun _ => (0 : ℝ)) (fun _ => (1 : ℝ)) = 1 := by simp [mpcDist, mpcExact]
  have hfar : FarApart (mpcExact ch 1) (mpcExact ch 1).identity X :=
    ⟨1, 0, _, _, by decide, rfl, rfl, by
      show (0 : ℝ) < mpcDist (mpcExact ch 1).identity (fun _ => (1 : ℝ)) (fun _ => (0 : ℝ))
      rw [mpcDist_comm, d01]; exact one_pos⟩
  obtain ⟨i, j, d, hf, -⟩ := (mpcFarPair_ok (mpcExact ch 1) (mpcExact ch 1).identity X).1 hfar
  obtain ⟨t, t1, t2, t3⟩ := C79_nearest hr hu (ch := ch) (w := 1) (by norm_num) ha hX hml hcl (nb := 2) (start := X) MpcReached.start (by simp [X]) hf
  obtain ⟨t', e', -, -, hok, -⟩ := C49_empty_clusters ha hX hml hcl (mpcExact ch 1).identity d (centers := X) (by simp [X]) (nb := 2) rfl 0
  have : t = t' := Except.ok.inj (t2.symm.trans e')
  subst this
  refine ⟨hr, hu, ha, hX, ml, cl, (i, j, d), t, hml, hcl, hf, hok ?_⟩
  have h0 : (0 : Int) ∈ t := by
    obtain ⟨c, hc, y, hy, hbest⟩ := t3 0 _ rfl
    match c, hy with
    | 0, _ => exact List.mem_of_getElem? hc
    | 1, hy =>
      cases hy
      have := (hbest 0 _ rfl).1
      rw [d01, mpcDist_self] at this
      exact absurd this (by norm_num)
  have h1 : (1 : Int) ∈ t := by
    obtain ⟨c, hc, y, hy, hbest⟩ := t3 1 _ rfl
    match c, hy with
    | 1, _ => exact List.mem_of_getElem? hc
    | 0, hy =>
      cases hy
      have := (hbest 1 _ rfl).1
      rw [mpcDist_comm, d01, mpcDist_self] at this
      exact absurd this (by norm_num)
  intro c hc
  match c, hc with
  | 0, _ => exact h0
  | 1, _ => exact h1

end Verif
