import Verif.Proofs.Bounds
import Verif.Proofs.Spectral
import Verif.Proofs.MpcRun

/-
MPC-KMeans: farthest pair, initial centres, the loop and the whole call.
-/

namespace Verif

section
variable {V κ θ : Type} [LinearOrder κ]

/-! ### The farthest pair -/

theorem mpcFarPair_ok (env : MpcEnv V κ θ) (A : θ) (X : List V) :
    (FarApart env A X → ∃ (i j : Nat) (d : κ), mpcFarPair env A X = .ok (i, j, d) ∧ j < i ∧
      (∃ x y, X[i]? = some x ∧ X[j]? = some y ∧ d = env.mdist A x y) ∧
      ∀ (i j : Nat) (x y : V), j < i → X[i]? = some x → X[j]? = some y → env.mdist A x y ≤ d) ∧
    (¬ FarApart env A X → mpcFarPair env A X = .error .assertionError) := by
  have hpairs : ∀ p : Nat × Nat, p ∈ ((List.range X.length).flatMap fun i => (List.range i).map fun j => (i, j)) ↔
      p.1 < X.length ∧ p.2 < p.1 := by
    rintro ⟨i, j⟩
    simp only [List.mem_flatMap, List.mem_map, List.mem_range, Prod.mk.injEq]
    constructor
    · rintro ⟨a, ha, b, hb, rfl, rfl⟩
      exact ⟨ha, hb⟩
    · rintro ⟨h1, h2⟩
      exact ⟨i, h1, j, h2, rfl, rfl⟩
  have hfold := foldlM_inv (f := mpcPairStep env A X)
    (L := (List.range X.length).flatMap fun i => (List.range i).map fun j => (i, j)) (s := (env.zero, none))
    (I := fun P s => (s.2 = none → s.1 = env.zero ∧ ∀ p ∈ P, ∀ x y, X[p.1]? = some x → X[p.2]? = some y → ¬ env.zero < env.mdist A x y) ∧
      ∀ f, s.2 = some f → s.1 = f.2.2 ∧ (f.1, f.2.1) ∈ P ∧ (∃ x y, X[f.1]? = some x ∧ X[f.2.1]? = some y ∧ f.2.2 = env.mdist A x y) ∧
        env.zero < f.2.2 ∧ ∀ p ∈ P, ∀ x y, X[p.1]? = some x → X[p.2]? = some y → env.mdist A x y ≤ f.2.2)
    (by
      rintro P p s ⟨Q, hL⟩ ⟨h1, h2⟩
      have hp := (hpairs p).1 (by rw [hL]; simp)
      obtain ⟨x, ex, hx⟩ := lget_lt (l := X) (i := p.1) hp.1
      obtain ⟨y, ey, hy⟩ := lget_lt (l := X) (i := p.2) (by omega)
      have hone : ∀ x' y', X[p.1]? = some x' → X[p.2]? = some y' → x' = x ∧ y' = y := by
        intro x' y' hx' hy'
        rw [hx] at hx'; rw [hy] at hy'
        exact ⟨(Option.some.inj hx').symm, (Option.some.inj hy').symm⟩
      unfold mpcPairStep
      simp only [bind, Except.bind, ex, ey]
      by_cases hlt : s.1 < env.mdist A x y
      · rw [if_pos hlt]
        refine ⟨_, rfl, (fun h => by cases h), ?_⟩
        rintro f hf
        cases hf
        refine ⟨rfl, by simp, ⟨x, y, hx, hy, rfl⟩, ?_, ?_⟩
        · cases hs : s.2 with
          | none => rw [(h1 hs).1] at hlt; exact hlt
          | some g =>
            obtain ⟨g1, -, -, g2, -⟩ := h2 g hs
            rw [g1] at hlt
            exact lt_trans g2 hlt
        · intro q hq x' y' hx' hy'
          rcases List.mem_append.1 hq with hq | hq
          · cases hs : s.2 with
            | none =>
              obtain ⟨z1, z2⟩ := h1 hs
              rw [z1] at hlt
              exact le_of_lt (lt_of_le_of_lt (le_of_not_gt (z2 q hq x' y' hx' hy')) hlt)
            | some g =>
              obtain ⟨g1, -, -, -, g2⟩ := h2 g hs
              rw [g1] at hlt
              exact le_of_lt (lt_of_le_of_lt (g2 q hq x' y' hx' hy') hlt)
          · rw [List.mem_singleton.1 hq] at hx' hy'
            obtain ⟨rfl, rfl⟩ := hone x' y' hx' hy'
            exact le_refl _
      · rw [if_neg hlt]
        refine ⟨s, rfl, fun hs => ?_, fun g hs => ?_⟩
        · obtain ⟨z1, z2⟩ := h1 hs
          refine ⟨z1, fun q hq x' y' hx' hy' => ?_⟩
          rcases List.mem_append.1 hq with hq | hq
          · exact z2 q hq x' y' hx' hy'
          · rw [List.mem_singleton.1 hq] at hx' hy'
            obtain ⟨rfl, rfl⟩ := hone x' y' hx' hy'
            rw [← z1]; exact hlt
        · obtain ⟨g1, g2, g3, g4, g5⟩ := h2 g hs
          refine ⟨g1, by simp [g2], g3, g4, fun q hq x' y' hx' hy' => ?_⟩
          rcases List.mem_append.1 hq with hq | hq
          · exact g5 q hq x' y' hx' hy'
          · rw [List.mem_singleton.1 hq] at hx' hy'
            obtain ⟨rfl, rfl⟩ := hone x' y' hx' hy'
            rw [← g1]; exact le_of_not_gt hlt)
    ⟨fun _ => ⟨rfl, by simp⟩, fun f hf => by cases hf⟩
  obtain ⟨s, es, h1, h2⟩ := hfold
  unfold mpcFarPair
  simp only [bind, Except.bind, es]
  refine ⟨fun hfar => ?_, fun hno => ?_⟩
  · cases hs : s.2 with
    | none =>
      obtain ⟨i, j, x, y, hij, hx, hy, hd⟩ := hfar
      exact absurd hd ((h1 hs).2 (i, j) ((hpairs (i, j)).2 ⟨(List.getElem?_eq_some_iff.1 hx).1, hij⟩) x y hx hy)
    | some f =>
      obtain ⟨-, g2, g3, -, g5⟩ := h2 f hs
      refine ⟨f.1, f.2.1, f.2.2, rfl, ((hpairs _).1 g2).2, g3, fun i j x y hij hx hy => ?_⟩
      exact g5 (i, j) ((hpairs (i, j)).2 ⟨(List.getElem?_eq_some_iff.1 hx).1, hij⟩) x y hx hy
  · cases hs : s.2 with
    | none => rfl
    | some f =>
      obtain ⟨-, g2, ⟨x, y, hx, hy, hd⟩, g4, -⟩ := h2 f hs
      exact absurd ⟨f.1, f.2.1, x, y, ((hpairs _).1 g2).2, hx, hy, by rw [← hd]; exact g4⟩ hno

/-! ### Initial centres -/

theorem mpcSetDist_ok (env : MpcEnv V κ θ) {points : List V} {i : Nat} (hi : i < points.length) {S : List Nat} (hS : S ≠ [])
    (hlt : ∀ j ∈ S, j < points.length) :
    ∃ d, mpcSetDist env points i S = .ok d ∧ ∃ j ∈ S, ∃ x y, points[i]? = some x ∧ points[j]? = some y ∧ d = env.dist x y := by
  obtain ⟨x, ex, hx⟩ := lget_lt hi
  obtain ⟨ds, eds, hds⟩ := mapM_forall₂ (l := S) (f := fun j => do return env.dist (← lget points i) (← lget points j))
    (P := fun j d => ∃ y, points[j]? = some y ∧ d = env.dist x y) (by
      intro j hj
      obtain ⟨y, ey, hy⟩ := lget_lt (hlt j hj)
      exact ⟨env.dist x y, by simp only [bind, Except.bind, ex, ey]; rfl, y, hy, rfl⟩)
  have hne : ds ≠ [] := by
    intro h
    rw [h] at hds
    cases hds
    exact hS rfl
  unfold mpcSetDist
  simp only [bind, Except.bind] at eds ⊢
  rw [eds]
  cases hmin : ds.min? with
  | none => exact absurd (List.min?_eq_none_iff.1 hmin) hne
  | some d =>
    obtain ⟨j, hj, y, hy, hd⟩ := forall₂_mem_right hds (List.min?_mem hmin)
    simp only [hmin]
    exact ⟨d, rfl, j, hj, x, y, hx, hy, hd⟩

theorem mpcFarthest_ok (env : MpcEnv V κ θ) {points : List V} {sizes : List Nat} (hsz : sizes.length = points.length)
    {tr : List Nat} (htr : tr ≠ []) (hlt : ∀ j ∈ tr, j < points.length) :
    ((∃ j, j < points.length ∧ j ∉ tr ∧ mpcFarthest env points sizes tr = .ok (tr ++ [j])) ∨
      mpcFarthest env points sizes tr = .error .indexError) ∧
    (FarPoints env points → (∀ s ∈ sizes, 1 ≤ s) → (∃ j, j < points.length ∧ j ∉ tr) →
      mpcFarthest env points sizes tr ≠ .error .indexError) := by
  obtain ⟨s, es, h1, h2⟩ := foldlM_inv (f := mpcFarStep env points sizes tr) (L := List.range points.length) (s := (env.zero, none))
    (I := fun P s => (∀ j, s.2 = some j → j < points.length ∧ j ∉ tr) ∧
      (FarPoints env points → (∀ s ∈ sizes, 1 ≤ s) → s.2 = none → s.1 = env.zero ∧ ∀ j ∈ P, j ∈ tr))
    (by
      rintro P j s ⟨Q, hL⟩ ⟨h1, h2⟩
      have hj : j < points.length := List.mem_range.1 (by rw [hL]; simp)
      unfold mpcFarStep
      by_cases hjt : j ∈ tr
      · rw [if_pos hjt]
        refine ⟨s, rfl, h1, fun hsep hs1 hs => ?_⟩
        obtain ⟨z1, z2⟩ := h2 hsep hs1 hs
        refine ⟨z1, fun q hq => ?_⟩
        rcases List.mem_append.1 hq with hq | hq
        · exact z2 q hq
        · rw [List.mem_singleton.1 hq]; exact hjt
      · rw [if_neg hjt]
        obtain ⟨z, ez, hz⟩ := lget_lt (l := sizes) (i := j) (by omega)
        obtain ⟨d, ed, k, hk, x, y, hx, hy, hd⟩ := mpcSetDist_ok env hj htr hlt
        simp only [bind, Except.bind, ez, ed]
        by_cases hlt' : s.1 < env.weigh z sizes.sum d
        · rw [if_pos hlt']
          refine ⟨_, rfl, fun j' hj' => ?_, fun _ _ h => by cases h⟩
          cases hj'
          exact ⟨hj, hjt⟩
        · rw [if_neg hlt']
          refine ⟨s, rfl, h1, fun hsep hs1 hs => ?_⟩
          obtain ⟨z1, -⟩ := h2 hsep hs1 hs
          exfalso
          apply hlt'
          rw [z1]
          apply hsep.2 _ _ _ (hs1 z (List.mem_of_getElem? hz))
          rw [hd]
          exact hsep.1 j k x y (fun h => hjt (h ▸ hk)) hx hy)
    ⟨(fun j hj => by cases hj), fun _ _ _ => ⟨rfl, by simp⟩⟩
  unfold mpcFarthest
  simp only [bind, Except.bind, es]
  cases hs : s.2 with
  | none =>
    refine ⟨.inr rfl, fun hsep hs1 hex _ => ?_⟩
    obtain ⟨j, hj, hjt⟩ := hex
    exact hjt ((h2 hsep hs1 hs).2 j (List.mem_range.2 hj))
  | some j =>
    obtain ⟨a, b⟩ := h1 j hs
    exact ⟨.inl ⟨j, a, b, rfl⟩, fun _ _ _ h => by cases h⟩

theorem mpcTraversal_ok {env : MpcEnv V κ θ} (ha : MpcAssumptions env) {points : List V} (hp : points ≠ []) {sizes : List Nat}
    (hsz : sizes.length = points.length) {k : Nat} (hk : 1 ≤ k) :
    ((∃ tr, mpcTraversal env points sizes k = .ok tr ∧ tr.length = k ∧ tr.Nodup ∧ ∀ j ∈ tr, j < points.length) ∨
      mpcTraversal env points sizes k = .error .indexError) ∧
    (FarPoints env points → (∀ s ∈ sizes, 1 ≤ s) → k ≤ points.length → mpcTraversal env points sizes k ≠ .error .indexError) := by
  have hs0 : sizes ≠ [] := by
    intro h
    rw [h] at hsz
    exact hp (List.eq_nil_of_length_eq_zero hsz.symm)
  have h0 : env.pick sizes < points.length := by rw [← hsz]; exact ha.pick sizes hs0
  unfold mpcTraversal
  have key : ∀ (l tr : List Nat), tr ≠ [] → tr.Nodup → (∀ j ∈ tr, j < points.length) →
      ((∃ t, l.foldlM (fun traversed _ => mpcFarthest env points sizes traversed) tr = .ok t ∧ t.length = tr.length + l.length ∧ t.Nodup ∧
        ∀ j ∈ t, j < points.length) ∨ l.foldlM (fun traversed _ => mpcFarthest env points sizes traversed) tr = .error .indexError) ∧
      (FarPoints env points → (∀ s ∈ sizes, 1 ≤ s) → tr.length + l.length ≤ points.length →
        l.foldlM (fun traversed _ => mpcFarthest env points sizes traversed) tr ≠ .error .indexError) := by
    intro l
    induction l with
    | nil => exact fun tr _ hn hlt => ⟨.inl ⟨tr, rfl, rfl, hn, hlt⟩, fun _ _ _ h => by cases h⟩
    | cons a l ih =>
      intro tr htr hn hlt
      obtain ⟨hc, hsep⟩ := mpcFarthest_ok env hsz htr hlt
      rw [List.foldlM_cons]
      rcases hc with ⟨j, hj, hjt, e⟩ | e
      · rw [e]
        obtain ⟨i1, i2⟩ := ih (tr ++ [j]) (by simp) (by
          rw [List.nodup_append]
          refine ⟨hn, by simp, ?_⟩
          intro a ha b hb hab
          rw [List.mem_singleton.1 hb] at hab
          exact hjt (hab ▸ ha)) (by
          intro i hi
          rcases List.mem_append.1 hi with hi | hi
          · exact hlt i hi
          · rw [List.mem_singleton.1 hi]; exact hj)
        refine ⟨?_, fun g1 g2 g3 => i2 g1 g2 (by simp at g3 ⊢; omega)⟩
        rcases i1 with ⟨t, t1, t2, t3, t4⟩ | i1
        · exact .inl ⟨t, t1, by rw [t2]; simp; omega, t3, t4⟩
        · exact .inr i1
      · rw [e]
        refine ⟨.inr rfl, fun g1 g2 g3 => absurd e (hsep g1 g2 ?_)⟩
        by_contra hno
        have hsub : List.range points.length ⊆ tr := by
          intro i hi
          by_contra hit
          exact hno ⟨i, List.mem_range.1 hi, hit⟩
        have := (List.subperm_of_subset List.nodup_range hsub).length_le
        simp at this g3
        omega
  obtain ⟨k1, k2⟩ := key (List.range (k - 1)) [env.pick sizes] (by simp) (by simp) (by simpa using h0)
  simp only [List.length_singleton, List.length_range] at k1 k2
  rw [Nat.add_sub_cancel' hk] at k1 k2
  exact ⟨k1, k2⟩

omit [LinearOrder κ] in
/-- The centres of the neighbourhoods. -/
theorem mpcMeans_ok (env : MpcEnv V κ θ) {X : List V} {nbhs : List (List Nat)} (hlt : ∀ P ∈ nbhs, ∀ i ∈ P, i < X.length) :
    ∃ centers, (nbhs.mapM fun P => do return env.mean (← P.mapM fun i => lget X i)) = .ok centers ∧
      List.Forall₂ (fun P c => ∃ ys, List.Forall₂ (fun i y => X[i]? = some y) P ys ∧ c = env.mean ys) nbhs centers := by
  apply mapM_forall₂
  intro P hP
  obtain ⟨ys, e, hys⟩ := mapM_forall₂ (l := P) (f := fun i => lget X i) (P := fun i y => X[i]? = some y) (by
    intro i hi
    obtain ⟨y, ey, hy⟩ := lget_lt (hlt P hP i hi)
    exact ⟨y, ey, hy⟩)
  exact ⟨env.mean ys, by simp only [bind, Except.bind, e]; rfl, ys, hys, rfl⟩

/-- `_initialize_cluster_centers` returns as many centres as clusters, unless the traversal fails. -/
theorem mpcInit_ok {env : MpcEnv V κ θ} (ha : MpcAssumptions env) {X : List V} {nbhs : List (List Nat)}
    (hlt : ∀ P ∈ nbhs, ∀ i ∈ P, i < X.length) {nb : Nat} (h1 : 1 ≤ nb) (hX : nb ≤ X.length) :
    ((∃ centers, mpcInit env X nbhs nb = .ok centers ∧ centers.length = nb) ∨
      (mpcInit env X nbhs nb = .error .indexError ∧ nb < nbhs.length)) ∧
    ((∀ P ∈ nbhs, P ≠ []) → (∀ centers, (nbhs.mapM fun P => do return env.mean (← P.mapM fun i => lget X i)) = .ok centers →
      FarPoints env centers) → mpcInit env X nbhs nb ≠ .error .indexError) := by
  obtain ⟨centers, e, hc⟩ := mpcMeans_ok env hlt
  have hlen : nbhs.length = centers.length := hc.length_eq
  unfold mpcInit
  rw [e]
  simp only [bind, Except.bind]
  by_cases hnb : nb < nbhs.length
  · rw [if_pos hnb]
    obtain ⟨t1, t2⟩ := mpcTraversal_ok ha (points := centers) (by
      intro h
      rw [h, List.length_nil] at hlen
      omega) (sizes := nbhs.map List.length) (by simp [hlen]) h1
    refine ⟨?_, fun hP hsep => ?_⟩
    · rcases t1 with ⟨tr, et, t3, -, t4⟩ | et
      · obtain ⟨cs, ec⟩ := mapM_total (f := fun i => lget centers i) (l := tr) (by
          intro i hi
          obtain ⟨y, ey, -⟩ := lget_lt (t4 i hi)
          exact ⟨y, ey⟩)
        rw [et]
        exact .inl ⟨cs, ec, by rw [← (mapM_ok_iff.1 ec).length_eq, t3]⟩
      · rw [et]
        exact .inr ⟨rfl, hnb⟩
    · rcases t1 with ⟨tr, et, t3, -, t4⟩ | et
      · obtain ⟨cs, ec⟩ := mapM_total (f := fun i => lget centers i) (l := tr) (by
          intro i hi
          obtain ⟨y, ey, -⟩ := lget_lt (t4 i hi)
          exact ⟨y, ey⟩)
        rw [et]
        simp only [ec]
        intro h
        cases h
      · refine absurd et (t2 (hsep centers rfl) ?_ (by omega))
        intro s hs
        obtain ⟨P, hPm, rfl⟩ := List.mem_map.1 hs
        exact List.length_pos_iff.2 (hP P hPm)
  · rw [if_neg hnb, if_neg (by
      rintro ⟨-, rfl⟩
      simp at hX
      omega)]
    by_cases hnb' : nbhs.length < nb
    · rw [if_pos hnb', if_neg (by omega)]
      obtain ⟨c1, c2⟩ := ha.choice X.length (nb - nbhs.length) (by omega)
      obtain ⟨cs, ec⟩ := mapM_total (f := fun i => lget X i) (l := env.choice X.length (nb - nbhs.length)) (by
        intro i hi
        obtain ⟨y, ey, -⟩ := lget_lt (c2 i hi)
        exact ⟨y, ey⟩)
      have hcl : cs.length = nb - nbhs.length := by rw [← (mapM_ok_iff.1 ec).length_eq, c1]
      simp only [ec, pure, Except.pure]
      refine ⟨.inl ⟨_, rfl, by rw [List.length_append, hcl]; omega⟩, fun _ _ h => by cases h⟩
    · rw [if_neg hnb']
      exact ⟨.inl ⟨centers, rfl, by omega⟩, fun _ _ h => by cases h⟩

/-! ### The loop -/

/-- The labels of `n` points: `0, …, nb - 1`, all used. -/
def GoodLabels (n nb : Nat) (labels : List Int) : Prop := labels.length = n ∧ LabelsBelow nb labels ∧ AllUsed nb labels

omit [LinearOrder κ] in
theorem mpcCenters_length (env : MpcEnv V κ θ) (X : List V) (labels : List Int) (nb : Nat) :
    (mpcCenters env X labels nb).length = nb := by simp [mpcCenters]

theorem mpcLoop_result {env : MpcEnv V κ θ} (ha : MpcAssumptions env) {n : Nat} {X : List V} {ml cl : Graph}
    {R S : Nat → Nat → Prop} (hr : MpcReady n X ml cl R S) {nb : Nat} (hnb : 1 ≤ nb) (left it : Nat) {centers : List V}
    (hc : centers.length = nb) (A : θ) {labels r : List Int} (hl : left = 0 → GoodLabels n nb labels)
    (h : mpcLoop env X ml cl nb left it centers A labels = .ok r) : GoodLabels n nb r := by
  induction left generalizing it centers A labels with
  | zero =>
    unfold mpcLoop at h
    cases h
    exact hl rfl
  | succ left ih =>
    unfold mpcLoop at h
    cases hf : mpcFarPair env A X with
    | error e => rw [hf] at h; cases h
    | ok far =>
      simp only [hf, bind, Except.bind] at h
      have hne : centers ≠ [] := by
        intro h0
        rw [h0] at hc
        simp at hc
        omega
      obtain ⟨t, -, t1, t2, c1, c2, c3⟩ := mpcAssign_cases ha hr A far.2.2 hne it
      rw [hc] at t2 c1 c2 c3
      have hgood : ∀ L, mpcAssign env A far.2.2 X centers ml cl nb it = .ok L → GoodLabels n nb L := by
        intro L hL
        by_cases hu : AllUsed nb t
        · rw [c1 hu] at hL
          cases hL
          exact ⟨t1, t2, hu⟩
        · by_cases h10 : nb < 10
          · obtain ⟨w, hw⟩ := c2 hu h10
            rw [hw] at hL
            cases hL
          · rcases c3 hu (by omega) with ⟨w, hw, -⟩ | ⟨r', hr', g1, g2, g3⟩
            · rw [hw] at hL
              cases hL
            · rw [hr'] at hL
              cases hL
              exact ⟨g1, g2, g3⟩
      cases hA : mpcAssign env A far.2.2 X centers ml cl nb it with
      | error e => rw [hA] at h; cases h
      | ok L =>
        simp only [hA] at h
        split at h
        · cases h
          exact hgood _ hA
        · exact ih (it + 1) (mpcCenters_length env X L nb) _ (fun _ => hgood L hA) h

theorem mpcLoop_total {env : MpcEnv V κ θ} (ha : MpcAssumptions env) {n : Nat} {X : List V} {ml cl : Graph}
    {R S : Nat → Nat → Prop} (hr : MpcReady n X ml cl R S) {nb : Nat} (hnb : 10 ≤ nb) (hn : nb ≤ n)
    (hfar : ∀ A, FarApart env A X) (left it : Nat) {centers : List V}
    (hc : centers.length = nb) (A : θ) (labels : List Int) :
    ∃ r, mpcLoop env X ml cl nb left it centers A labels = .ok r := by
  induction left generalizing it centers A labels with
  | zero => exact ⟨labels, rfl⟩
  | succ left ih =>
    unfold mpcLoop
    obtain ⟨i, j, d, hf, -⟩ := (mpcFarPair_ok env A X).1 (hfar A)
    simp only [hf, bind, Except.bind]
    have hne : centers ≠ [] := by
      intro h0
      rw [h0] at hc
      simp at hc
      omega
    obtain ⟨t, -, t1, t2, c1, c2, c3⟩ := mpcAssign_cases ha hr A d hne it
    rw [hc] at t2 c1 c2 c3
    have hex : ∃ L, mpcAssign env A d X centers ml cl nb it = .ok L := by
      by_cases hu : AllUsed nb t
      · exact ⟨t, c1 hu⟩
      · rcases c3 hu (by omega) with ⟨w, -, hw⟩ | ⟨r', hr', -⟩
        · omega
        · exact ⟨r', hr'⟩
    obtain ⟨L, hL⟩ := hex
    simp only [hL]
    split
    · exact ⟨L, rfl⟩
    · exact ih (it + 1) (mpcCenters_length env X L nb) _ L

/-! ### Vectors and managed IDs in different numbers -/

theorem foldlM_ok_step {ι σ : Type} {f : σ → ι → Except PyErr σ} {l : List ι} {s t : σ} (h : l.foldlM f s = .ok t) {a : ι}
    (ha : a ∈ l) : ∃ s1 s2, f s1 a = .ok s2 := by
  induction l generalizing s with
  | nil => cases ha
  | cons b l ih =>
    rw [List.foldlM_cons] at h
    cases hb : f s b with
    | error e => rw [hb] at h; cases h
    | ok s1 =>
      rw [hb] at h
      rcases List.mem_cons.1 ha with rfl | ha
      · exact ⟨s, s1, hb⟩
      · exact ih h ha

/-- More vectors than managed IDs. -/
theorem mpcLoop_more {env : MpcEnv V κ θ} (ha : MpcAssumptions env) {n : Nat} {X : List V} (hX : n < X.length) {ml cl : Graph}
    (hml : dkeys ml = List.range n) (nb left it : Nat) (hleft : 1 ≤ left) (centers : List V) (A : θ) (labels r : List Int) :
    mpcLoop env X ml cl nb left it centers A labels ≠ .ok r := by
  intro h
  obtain ⟨left, rfl⟩ : ∃ l, left = l + 1 := ⟨left - 1, by omega⟩
  unfold mpcLoop at h
  cases hf : mpcFarPair env A X with
  | error e => rw [hf] at h; cases h
  | ok far =>
    simp only [hf, bind, Except.bind] at h
    cases hA : mpcAssign env A far.2.2 X centers ml cl nb it with
    | error e => rw [hA] at h; cases h
    | ok L =>
      unfold mpcAssign at hA
      cases hl : (env.shuffle it X.length).foldlM (mpcAssignStep env A far.2.2 X centers ml cl) (List.replicate X.length (-1)) with
      | error e => rw [hl] at hA; cases hA
      | ok t =>
        obtain ⟨s1, s2, hs⟩ := foldlM_ok_step hl (a := n) ((ha.shuffle it X.length).mem_iff.2 (List.mem_range.2 hX))
        unfold mpcAssignStep at hs
        cases hv : (List.range centers.length).mapM (mpcObjective env A far.2.2 X centers ml cl s1 n) with
        | error e => rw [hv] at hs; cases hs
        | ok values =>
          have hf2 := mapM_ok_iff.1 hv
          rw [hv] at hs
          cases hc : centers with
          | nil =>
            rw [hc] at hf2
            cases hf2
            simp only [bind, Except.bind] at hs
            cases hs
          | cons c0 cs =>
            obtain ⟨b, -, hb⟩ := forall₂_mem_left hf2 (a := 0) (by rw [hc]; simp)
            unfold mpcObjective at hb
            cases hx : lget X n with
            | error e => rw [hx] at hb; cases hb
            | ok x =>
              cases hy : lget centers 0 with
              | error e => rw [hx, hy] at hb; cases hb
              | ok y =>
                have hk : dget ml n = .error .keyError := by
                  unfold dget
                  have : dget? ml n = none := dget?_eq_none_iff.2 (by rw [hml]; simp)
                  rw [this]
                rw [hx, hy, hk] at hb
                cases hb

/-- Fewer vectors than managed IDs. -/
theorem mpcInit_fewer (env : MpcEnv V κ θ) {X : List V} {nbhs : List (List Nat)} (h : ∃ P ∈ nbhs, ∃ i ∈ P, X.length ≤ i) (nb : Nat) :
    mpcInit env X nbhs nb = .error .indexError := by
  have key : ∀ {ι β : Type} (f : ι → Except PyErr β) (l : List ι), (∀ a ∈ l, (∃ b, f a = .ok b) ∨ f a = .error .indexError) →
      (∃ a ∈ l, f a = .error .indexError) → l.mapM f = .error .indexError := by
    intro ι β f l
    induction l with
    | nil => rintro - ⟨a, ha, -⟩; cases ha
    | cons b l ih =>
      rintro h1 ⟨a, ha, hfa⟩
      rw [List.mapM_cons]
      rcases h1 b (by simp) with ⟨c, hc⟩ | hc
      · rw [hc]
        have hal : a ∈ l := by
          rcases List.mem_cons.1 ha with rfl | ha
          · rw [hfa] at hc; cases hc
          · exact ha
        have := ih (fun x hx => h1 x (by simp [hx])) ⟨a, hal, hfa⟩
        simp only [bind, Except.bind, this]
      · rw [hc]; rfl
  have key' : ∀ {ι β : Type} (f : ι → Except PyErr β) (l : List ι), (∀ a ∈ l, (∃ b, f a = .ok b) ∨ f a = .error .indexError) →
      (∃ bs, l.mapM f = .ok bs) ∨ l.mapM f = .error .indexError := by
    intro ι β f l h1
    by_cases hex : ∃ a ∈ l, f a = .error .indexError
    · exact .inr (key f l h1 hex)
    · exact .inl (mapM_total fun a ha => (h1 a ha).resolve_right fun h => hex ⟨a, ha, h⟩)
  have hlg : ∀ i, (∃ x, lget X i = .ok x) ∨ lget X i = .error .indexError := by
    intro i
    unfold lget
    cases X[i]? with
    | none => exact .inr rfl
    | some x => exact .inl ⟨x, rfl⟩
  have h0 : (nbhs.mapM fun P => do return env.mean (← P.mapM fun i => lget X i)) = .error .indexError := by
    apply key
    · intro P hP
      rcases key' (fun i => lget X i) P (fun i _ => hlg i) with ⟨bs, hb⟩ | hb
      · left
        exact ⟨env.mean bs, by simp only [bind, Except.bind, hb]; rfl⟩
      · right
        simp only [bind, Except.bind, hb]
    · obtain ⟨P, hP, i, hi, hle⟩ := h
      refine ⟨P, hP, ?_⟩
      have hb := key (fun i => lget X i) P (fun i _ => hlg i) ⟨i, hi, by
        unfold lget
        rw [List.getElem?_eq_none hle]⟩
      simp only [bind, Except.bind, hb]
  unfold mpcInit
  simp only [bind, Except.bind] at h0 ⊢
  rw [h0]

end

end Verif
