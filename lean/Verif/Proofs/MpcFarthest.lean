import Verif.Proofs.MpcSeparated

/-
Helpers for C117: the weighted farthest-first traversal takes one neighbourhood of every class.
-/

namespace Verif

section
variable {V κ θ : Type} [LinearOrder κ]

theorem mpcSetDist_min (env : MpcEnv V κ θ) {points : List V} {i : Nat} {x : V} (hx : points[i]? = some x) {S : List Nat} (hS : S ≠ [])
    (hlt : ∀ j ∈ S, j < points.length) :
    ∃ d, mpcSetDist env points i S = .ok d ∧ (∃ j ∈ S, ∃ y, points[j]? = some y ∧ d = env.dist x y) ∧
      ∀ j ∈ S, ∀ y, points[j]? = some y → d ≤ env.dist x y := by
  obtain ⟨hi, -⟩ := List.getElem?_eq_some_iff.1 hx
  obtain ⟨x', ex, hx'⟩ := lget_lt hi
  rw [hx] at hx'; cases hx'
  obtain ⟨ds, eds, hds⟩ := mapM_forall₂ (l := S) (f := fun j => do return env.dist (← lget points i) (← lget points j))
    (P := fun j d => ∃ y, points[j]? = some y ∧ d = env.dist x y) (by
      intro j hj
      obtain ⟨y, ey, hy⟩ := lget_lt (hlt j hj)
      exact ⟨env.dist x y, by simp only [bind, Except.bind, ex, ey]; rfl, y, hy, rfl⟩)
  have hne : ds ≠ [] := by
    intro h
    rw [h] at hds
    cases hds
    exact hS rfl
  unfold mpcSetDist
  simp only [bind, Except.bind] at eds ⊢
  rw [eds]
  cases hmin : ds.min? with
  | none => exact absurd (List.min?_eq_none_iff.1 hmin) hne
  | some d =>
    obtain ⟨hd1, hd2⟩ := List.min?_eq_some_iff.1 hmin
    obtain ⟨j, hj, y, hy, hd⟩ := forall₂_mem_right hds hd1
    simp only [hmin]
    refine ⟨d, rfl, ⟨j, hj, y, hy, hd⟩, fun j hj y hy => ?_⟩
    obtain ⟨b, hb, y', hy', e⟩ := forall₂_mem_left hds hj
    rw [hy] at hy'; cases hy'
    rw [← e]
    exact hd2 b hb

/-- The groups `q` of the points are separated, according to the weighted distances. -/
structure WeightsSeparate (env : MpcEnv V κ θ) (points : List V) (sizes : List Nat) (q : Nat → Nat) : Prop where
  mono : ∀ s t a b, a ≤ b → env.weigh s t a ≤ env.weigh s t b
  pos : ∀ (r s z : Nat) (x y : V), points[r]? = some x → points[s]? = some y → sizes[r]? = some z → q r ≠ q s →
    env.zero < env.weigh z sizes.sum (env.dist x y)
  sep : ∀ (i j r s z z' : Nat) (x y x' y' : V), points[i]? = some x → points[j]? = some y → points[r]? = some x' →
    points[s]? = some y' → sizes[i]? = some z → sizes[r]? = some z' → i ≠ j → q i = q j → q r ≠ q s →
    env.weigh z sizes.sum (env.dist x y) < env.weigh z' sizes.sum (env.dist x' y')

theorem mpcFarthest_new {env : MpcEnv V κ θ} {points : List V} {sizes : List Nat} (hsz : sizes.length = points.length) {q : Nat → Nat}
    (hs : WeightsSeparate env points sizes q) {tr : List Nat} (htr : tr ≠ []) (hlt : ∀ j ∈ tr, j < points.length)
    (hnew : ∃ r < points.length, q r ∉ tr.map q) :
    ∃ j, j < points.length ∧ q j ∉ tr.map q ∧ mpcFarthest env points sizes tr = .ok (tr ++ [j]) := by
  have hd : ∀ j, ∃ d, j < points.length → mpcSetDist env points j tr = .ok d ∧
      (∃ i ∈ tr, ∃ x y, points[j]? = some x ∧ points[i]? = some y ∧ d = env.dist x y) ∧
      ∀ i ∈ tr, ∀ x y, points[j]? = some x → points[i]? = some y → d ≤ env.dist x y := by
    intro j
    by_cases hj : j < points.length
    · obtain ⟨d, h1, ⟨i, hi, y, hy, h2⟩, h3⟩ := mpcSetDist_min env (List.getElem?_eq_getElem hj) htr hlt
      refine ⟨d, fun _ => ⟨h1, ⟨i, hi, _, y, List.getElem?_eq_getElem hj, hy, h2⟩, fun i hi x y hx hy => ?_⟩⟩
      rw [List.getElem?_eq_getElem hj] at hx
      cases hx
      exact h3 i hi y hy
    · exact ⟨env.zero, fun h => absurd h hj⟩
  choose d hd using hd
  set W : Nat → κ := fun j => env.weigh ((sizes[j]?).getD 0) sizes.sum (d j) with hW
  obtain ⟨s, es, h1, h2, h3⟩ := foldlM_inv (f := mpcFarStep env points sizes tr) (L := List.range points.length) (s := (env.zero, none))
    (I := fun P s => (∀ j, s.2 = some j → j < points.length ∧ j ∉ tr ∧ s.1 = W j) ∧ (∀ j ∈ P, j ∉ tr → W j ≤ s.1) ∧
      (s.2 = none → s.1 = env.zero))
    (by
      rintro P j s ⟨Q, hL⟩ ⟨h1, h2, h3⟩
      have hj : j < points.length := List.mem_range.1 (by rw [hL]; simp)
      unfold mpcFarStep
      by_cases hjt : j ∈ tr
      · rw [if_pos hjt]
        refine ⟨s, rfl, h1, fun i hi hit => ?_, h3⟩
        rcases List.mem_append.1 hi with hi | hi
        · exact h2 i hi hit
        · rw [List.mem_singleton.1 hi] at hit; exact absurd hjt hit
      · rw [if_neg hjt]
        obtain ⟨z, ez, hz⟩ := lget_lt (l := sizes) (i := j) (by omega)
        have hWj : W j = env.weigh z sizes.sum (d j) := by rw [hW]; simp only [hz, Option.getD_some]
        simp only [bind, Except.bind, ez, (hd j hj).1]
        rw [← hWj]
        by_cases hlt' : s.1 < W j
        · rw [if_pos hlt']
          refine ⟨_, rfl, fun j' hj' => ?_, fun i hi hit => ?_, fun h => by cases h⟩
          · cases hj'
            exact ⟨hj, hjt, rfl⟩
          · rcases List.mem_append.1 hi with hi | hi
            · exact (h2 i hi hit).trans hlt'.le
            · rw [List.mem_singleton.1 hi]
        · rw [if_neg hlt']
          refine ⟨s, rfl, h1, fun i hi hit => ?_, h3⟩
          rcases List.mem_append.1 hi with hi | hi
          · exact h2 i hi hit
          · rw [List.mem_singleton.1 hi]; exact not_lt.1 hlt')
    ⟨(fun j hj => by cases hj), by simp, fun _ => rfl⟩
  obtain ⟨r, hr, hrq⟩ := hnew
  have hrt : r ∉ tr := fun hh => hrq (List.mem_map.2 ⟨r, hh, rfl⟩)
  obtain ⟨zr, hzr⟩ : ∃ z, sizes[r]? = some z := ⟨_, List.getElem?_eq_getElem (by omega)⟩
  obtain ⟨-, ⟨i0, hi0, x0, y0, hx0, hy0, hd0⟩, -⟩ := hd r hr
  have hqi0 : q r ≠ q i0 := fun hh => hrq (List.mem_map.2 ⟨i0, hi0, hh.symm⟩)
  have hWr : W r = env.weigh zr sizes.sum (env.dist x0 y0) := by rw [hW]; simp only [hzr, Option.getD_some, hd0]
  have hpos : env.zero < W r := by rw [hWr]; exact hs.pos r i0 zr x0 y0 hx0 hy0 hzr hqi0
  have hle := h2 r (List.mem_range.2 hr) hrt
  unfold mpcFarthest
  simp only [bind, Except.bind, es]
  cases hs2 : s.2 with
  | none => exact absurd (hpos.trans_le hle) (by rw [h3 hs2]; exact lt_irrefl _)
  | some j =>
    obtain ⟨a, b, c⟩ := h1 j hs2
    refine ⟨j, a, fun hin => ?_, rfl⟩
    obtain ⟨i, hi, hqi⟩ := List.mem_map.1 hin
    obtain ⟨zj, hzj⟩ : ∃ z, sizes[j]? = some z := ⟨_, List.getElem?_eq_getElem (by omega)⟩
    have hx : points[j]? = some points[j] := List.getElem?_eq_getElem a
    have hy : points[i]? = some (points[i]'(hlt i hi)) := List.getElem?_eq_getElem (hlt i hi)
    have hWj : W j ≤ env.weigh zj sizes.sum (env.dist points[j] (points[i]'(hlt i hi))) := by
      rw [hW]
      simp only [hzj, Option.getD_some]
      exact hs.mono _ _ _ _ ((hd j a).2.2 i hi _ _ hx hy)
    have := hs.sep j i r i0 zj zr _ _ _ _ hx hy hx0 hy0 hzj hzr (fun hh => b (hh ▸ hi)) hqi.symm hqi0
    rw [← hWr] at this
    exact absurd (hle.trans (c.le.trans hWj)) (not_le.2 this)

theorem mpcTraversal_classes {env : MpcEnv V κ θ} (ha : MpcAssumptions env) {points : List V} {sizes : List Nat} (hp : points ≠ [])
    (hsz : sizes.length = points.length) {q : Nat → Nat} (hs : WeightsSeparate env points sizes q) {k : Nat} (hk : 1 ≤ k)
    (hq : k ≤ ((Finset.range points.length).image q).card) :
    ∃ tr, mpcTraversal env points sizes k = .ok tr ∧ tr.length = k ∧ (tr.map q).Nodup ∧ ∀ j ∈ tr, j < points.length := by
  have hs0 : sizes ≠ [] := by
    intro h
    rw [h] at hsz
    exact hp (List.length_eq_zero_iff.1 hsz.symm)
  have key : ∀ (l : List Nat) (tr : List Nat), tr ≠ [] → (tr.map q).Nodup → (∀ j ∈ tr, j < points.length) → tr.length + l.length ≤ k →
      ∃ t, l.foldlM (fun traversed _ => mpcFarthest env points sizes traversed) tr = .ok t ∧ t.length = tr.length + l.length ∧
        (t.map q).Nodup ∧ ∀ j ∈ t, j < points.length := by
    intro l
    induction l with
    | nil => intro tr _ hn hlt _; exact ⟨tr, rfl, rfl, hn, hlt⟩
    | cons a l ih =>
      intro tr htr hn hlt hle
      have hnew : ∃ r < points.length, q r ∉ tr.map q := by
        by_contra hcon
        push Not at hcon
        have hsub : (Finset.range points.length).image q ⊆ (tr.map q).toFinset := by
          intro p hp
          obtain ⟨r, hr, rfl⟩ := Finset.mem_image.1 hp
          exact List.mem_toFinset.2 (hcon r (Finset.mem_range.1 hr))
        have h1 := Finset.card_le_card hsub
        have h2 := List.toFinset_card_le (tr.map q)
        simp only [List.length_map, List.length_cons] at h2 hle
        omega
      obtain ⟨j, hj, hjq, e⟩ := mpcFarthest_new hsz hs htr hlt hnew
      rw [List.foldlM_cons, e]
      obtain ⟨t, e', h1, h2, h3⟩ := ih (tr ++ [j]) (by simp) (by
        rw [List.map_append, List.nodup_append]
        exact ⟨hn, by simp, fun x hx y hy hxy => hjq (by simp at hy; subst hy; subst hxy; exact hx)⟩)
        (by
          intro i hi
          rcases List.mem_append.1 hi with hi | hi
          · exact hlt i hi
          · rw [List.mem_singleton.1 hi]; exact hj) (by simp at hle ⊢; omega)
      exact ⟨t, e', by rw [h1]; simp; omega, h2, h3⟩
  obtain ⟨t, e, h1, h2, h3⟩ := key (List.range (k - 1)) [env.pick sizes] (by simp) (by simp) (by
    intro j hj
    rw [List.mem_singleton.1 hj, ← hsz]
    exact ha.pick sizes hs0) (by simp; omega)
  exact ⟨t, e, by rw [h1]; simp; omega, h2, h3⟩

end

end Verif
