import Verif.Spec.Inertia
import Verif.Proofs.KMeans
import Mathlib.Algebra.Order.BigOperators.Group.Finset
import Mathlib.Algebra.BigOperators.Group.Finset.Basic
import Mathlib.Algebra.BigOperators.Group.Finset.Sigma
import Mathlib.Data.Fintype.BigOperators
import Mathlib.Data.Prod.Lex

/-
KMeans without constraints decreases its objective and stops (C75).
-/

namespace Verif

variable {α V δ R : Type} [LinearOrder α] [LinearOrder δ]

theorem Unconstrained.cl {m : Manager α} (hu : Unconstrained m) (h : Inv m) (x y : α) : ¬ CannotLinked m x y := by
  intro hl
  obtain ⟨hx, hy⟩ := hl.mem h
  by_cases e : x = y
  · subst e; exact CannotLinked.irrefl h x hl
  · have := (inferred_cl_iff h hx hy).mpr hl
    rw [hu x hx y hy e] at this
    cases this

theorem Unconstrained.ml {m : Manager α} (hu : Unconstrained m) (h : Inv m) {x y : α} (hx : x ∈ m.managed)
    (hl : MustLinked m x y) : x = y := by
  by_contra e
  have hy := hl.mem h hx
  have := (inferred_ml_iff h hx hy).mpr hl
  rw [hu x hx y hy e] at this
  cases this

/-! ### One pass -/

/-- The label of `x` is that of a nearest centroid. -/
def Nearest (env : KMeansEnv α V δ) (vectors : Dict α V) (centroids : Dict Int V) (new : Dict α Int) (x : α) : Prop :=
  ∃ c w, dget? new x = some c ∧ dget? centroids c = some w ∧ ∀ v, dget? vectors x = some v →
    ∀ c' w', dget? centroids c' = some w' → env.metric v w ≤ env.metric v w'

theorem kmAssignAll_nearest {env : KMeansEnv α V δ} {m : Manager α} (h : Inv m) (hu : Unconstrained m) {vectors : Dict α V}
    {nb : Nat} {centroids : Dict Int V} {dist : Dict α (Dict Int δ)} (hv : HasVectors m vectors) (hc : CentroidsInv centroids)
    (ht : TableOk env m vectors centroids dist) {fuel : Nat} {s : List α × Dict α Int} (hp : PassInv m s)
    (hN : ∀ x ∈ m.managed, x ∉ s.1 → Nearest env vectors centroids s.2 x)
    {new : Dict α Int} (he : kmAssignAll m m.managed nb centroids dist fuel s = .ok new) :
    ∀ x ∈ m.managed, Nearest env vectors centroids new x := by
  induction fuel generalizing s with
  | zero =>
    unfold kmAssignAll at he
    split at he
    · rename_i h0
      cases he
      exact fun x hx => hN x hx (by rw [h0]; simp)
    · cases he
  | succ fuel ih =>
    obtain ⟨todo, lab⟩ := s
    rw [kmAssignAll.eq_def] at he
    simp only at he
    cases hl : todo.getLast? with
    | none =>
      rw [hl] at he
      cases he
      have h0 : todo = [] := List.getLast?_eq_none_iff.1 hl
      subst h0
      exact fun x hx => hN x hx (by simp)
    | some x =>
      rw [hl] at he
      simp only at he
      have hxt := List.mem_of_getLast? hl
      have hxm : x ∈ m.managed := hp.sub x hxt
      obtain ⟨v, hxv⟩ := hv x hxm
      obtain ⟨row, hr1, hr2, hr3⟩ := ht x hxm v hxv
      have hrow : ∀ c ∈ dkeys centroids, c ∈ dkeys row := fun c hc => by rw [hr2]; exact hc
      have hcen' : -1 ∉ dkeys centroids := fun hc' => by have := hc.nonneg _ hc'; omega
      obtain ⟨s', e1, e2, -⟩ := hp.step (nb := nb) h hl hc.nonneg hr1 hrow
      obtain ⟨c, s'', f1, f2, -, -, f3, f4, f5⟩ := kmAssign_ok (nb := nb) h (s := (todo.dropLast, lab)) hp.keys
        (hp.nodup.sublist (List.dropLast_sublist _)) hxm hc.nonneg hr1 hrow
      rw [e1] at f1
      cases f1
      rw [e1] at he
      obtain ⟨c', g1, g2, -⟩ := kmChoose_ok (nb := nb) h hp.keys hxm hcen' hr1 hrow
      have f2 : kmChoose m m.managed nb centroids dist lab x = .ok c := f2
      rw [f2] at g1
      cases g1
      have adm : ∀ k, k ∈ dkeys centroids → Admissible m centroids lab x k := fun k hk =>
        (admissible_iff h hxm).mpr ⟨hk, fun y _ _ => hu.cl h x y⟩
      obtain ⟨q, hq⟩ : ∃ q, q ∈ dkeys centroids := by
        have := hc.ne
        obtain ⟨q, hq⟩ := List.exists_mem_of_ne_nil _ this
        exact ⟨q.1, List.mem_map_of_mem hq⟩
      obtain ⟨a1, d, a2, a3⟩ := g2 ⟨q, adm q hq⟩
      refine ih e2 ?_ he
      intro y hy hys
      by_cases hyx : y = x
      · subst hyx
        obtain ⟨w, hw⟩ := dget?_isSome_of_mem a1.1
        refine ⟨c, w, f4 y hy (MustLinked.refl m y), hw, fun v' hv' k w' hk => ?_⟩
        rw [hxv] at hv'
        cases hv'
        have b1 := hr3 c w hw
        rw [a2] at b1
        cases b1
        exact a3 k (adm k (mem_dkeys_of_dget? hk)) _ (hr3 k w' hk)
      · have hnl : ¬ MustLinked m x y := fun hml => hyx (hu.ml h hxm hml).symm
        have hyt : y ∉ todo := by
          intro hyt
          refine hys ((f3 y).mpr ⟨?_, fun k => hnl k.2⟩)
          have hsplit := List.dropLast_append_getLast? x hl
          rw [← hsplit] at hyt
          rcases List.mem_append.mp hyt with k | k
          · exact k
          · simp at k; exact absurd k hyx
        obtain ⟨k, w, b1, b2⟩ := hN y hy hyt
        exact ⟨k, w, by rw [f5 y hnl]; exact b1, b2⟩

private theorem filterM_of_pure {ι : Type} {p : ι → Except PyErr Bool} {q : ι → Bool} {l : List ι} (h : ∀ x ∈ l, p x = .ok (q x)) :
    l.filterM p = .ok (l.filter q) := by
  obtain ⟨r, hr⟩ := filterM_total (f := p) (l := l) fun x hx => ⟨_, h x hx⟩
  rw [hr, (filterM_ok hr).2]
  congr 1
  refine List.filter_congr fun x hx => ?_
  rw [h x hx]

omit [LinearOrder δ] in
/-- The centroids of given labels. -/
theorem kmCentroids_eq {env : KMeansEnv α V δ} (he : env.Ok) {m : Manager α} {vectors : Dict α V} {clusters : Dict α Int}
    {vec : α → V} {lab : α → Int} (hn : (dkeys clusters).Nodup) (hk : dkeys clusters = m.managed)
    (hvec : ∀ x ∈ m.managed, dget? vectors x = some (vec x)) (hlab : ∀ x ∈ m.managed, dget? clusters x = some (lab x))
    {cs : Dict Int V} (h : kmCentroids env m vectors clusters = .ok cs) {c : Int} (hc : c ∈ dvals clusters) :
    dget? cs c = some (env.mean ((m.managed.filter fun x => decide (lab x = c)).map vec)) := by
  have e : (env.enum (dvals clusters)).mapM (fun c => (do
      let ys ← m.managed.filterM fun y => do return decide ((← dget clusters y) = c)
      let members ← ys.mapM fun y => dget vectors y
      if members.isEmpty then throw .zeroDivisionError
      return (c, env.mean members) : Except PyErr (Int × V))) =
      .ok ((env.enum (dvals clusters)).map fun c => (c, env.mean ((m.managed.filter fun x => decide (lab x = c)).map vec))) := by
    rw [mapM_ok_iff, List.forall₂_map_right_iff, List.forall₂_same]
    intro c hc
    rw [filterM_of_pure (q := fun x => decide (lab x = c)) (fun x hx => by rw [dget_of_dget? (hlab x hx)]; rfl)]
    simp only [bind, Except.bind]
    have e2 : (m.managed.filter fun x => decide (lab x = c)).mapM (fun y => dget vectors y) =
        .ok ((m.managed.filter fun x => decide (lab x = c)).map vec) := by
      rw [mapM_ok_iff, List.forall₂_map_right_iff, List.forall₂_same]
      exact fun x hx => dget_of_dget? (hvec x (List.mem_of_mem_filter hx))
    rw [e2]
    have hne : ((m.managed.filter fun x => decide (lab x = c)).map vec).isEmpty = false := by
      obtain ⟨y, hy⟩ := (mem_dvals hn).1 (((he.enum _).2 c).1 hc)
      have hym : y ∈ m.managed := by rw [← hk]; exact mem_dkeys_of_dget? hy
      have hyl := hlab y hym
      rw [hy] at hyl
      cases hyl
      rw [List.isEmpty_eq_false_iff]
      exact List.ne_nil_of_mem (List.mem_map_of_mem (List.mem_filter.mpr ⟨hym, by simp⟩))
    simp only [hne, pure, Except.pure]
    rfl
  unfold kmCentroids at h
  rw [e] at h
  cases h
  have hmap : ((env.enum (dvals clusters)).map fun c => (c, env.mean ((m.managed.filter fun x => decide (lab x = c)).map vec))).map
      Prod.fst = env.enum (dvals clusters) := by rw [List.map_map]; simp [Function.comp_def]
  have hnd := hmap ▸ (he.enum (dvals clusters)).1
  rw [dofList_of_nodup hnd]
  exact dget?_of_mem hnd (List.mem_map.mpr ⟨c, ((he.enum _).2 c).2 hc, rfl⟩)

/-! ### The objective -/

section sums
variable [AddCommGroup R] [LinearOrder R] [IsOrderedAddMonoid R]

/-- The mean of the cluster `c`. -/
def clusterMean (env : KMeansEnv α V δ) (m : Manager α) (vec : α → V) (lab : α → Int) (c : Int) : V :=
  env.mean ((m.managed.filter fun x => decide (lab x = c)).map vec)

/-- The sum of the costs with given centroids. -/
def costWith (cost : V → V → R) (m : Manager α) (vec : α → V) (lab : α → Int) (cen : Int → V) : R :=
  ∑ x ∈ m.managed.toFinset, cost (vec x) (cen (lab x))

theorem costWith_best {env : KMeansEnv α V δ} {cost : V → V → R} (hx : ExactKMeans env cost) {m : Manager α}
    (hn : m.managed.Nodup) (vec : α → V) (lab : α → Int) (cen : Int → V) :
    (∀ x ∈ m.managed, cen (lab x) = clusterMean env m vec lab (lab x)) ∨
      costWith cost m vec lab (clusterMean env m vec lab) < costWith cost m vec lab cen := by
  by_cases hall : ∀ x ∈ m.managed, cen (lab x) = clusterMean env m vec lab (lab x)
  · exact .inl hall
  right
  have hmaps : ∀ x ∈ m.managed.toFinset, lab x ∈ m.managed.toFinset.image lab := fun x hx => Finset.mem_image_of_mem _ hx
  have split : ∀ cen : Int → V, costWith cost m vec lab cen = ∑ c ∈ m.managed.toFinset.image lab,
      (((m.managed.filter fun x => decide (lab x = c)).map vec).map fun v => cost v (cen c)).sum := by
    intro cen
    unfold costWith
    rw [← Finset.sum_fiberwise_of_maps_to hmaps]
    refine Finset.sum_congr rfl fun c _ => ?_
    rw [List.map_map, ← List.sum_toFinset _ (hn.filter _)]
    refine Finset.sum_congr ?_ fun x hx => ?_
    · ext x; simp
    · simp at hx
      simp [hx.2]
  have step : ∀ c ∈ m.managed.toFinset.image lab, cen c = clusterMean env m vec lab c ∨
      (((m.managed.filter fun x => decide (lab x = c)).map vec).map fun v => cost v (clusterMean env m vec lab c)).sum <
      (((m.managed.filter fun x => decide (lab x = c)).map vec).map fun v => cost v (cen c)).sum := by
    intro c hc
    by_cases e : cen c = clusterMean env m vec lab c
    · exact .inl e
    · refine .inr (hx.mean_best _ _ ?_ e)
      obtain ⟨x, hx, rfl⟩ := Finset.mem_image.mp hc
      exact List.ne_nil_of_mem (List.mem_map_of_mem (List.mem_filter.mpr ⟨List.mem_toFinset.mp hx, by simp⟩))
  rw [split, split]
  refine Finset.sum_lt_sum (fun c hc => ?_) ?_
  · rcases step c hc with e | e
    · rw [e]
    · exact le_of_lt e
  · push Not at hall
    obtain ⟨x, hx, hne⟩ := hall
    refine ⟨lab x, Finset.mem_image_of_mem _ (List.mem_toFinset.mpr hx), ?_⟩
    exact (step _ (Finset.mem_image_of_mem _ (List.mem_toFinset.mpr hx))).resolve_left hne

theorem costWith_mean_le {env : KMeansEnv α V δ} {cost : V → V → R} (hx : ExactKMeans env cost) {m : Manager α}
    (hn : m.managed.Nodup) (vec : α → V) (lab : α → Int) (cen : Int → V) :
    costWith cost m vec lab (clusterMean env m vec lab) ≤ costWith cost m vec lab cen := by
  rcases costWith_best hx hn vec lab cen with e | e
  · refine le_of_eq (Finset.sum_congr rfl fun x hx => ?_)
    rw [e x (List.mem_toFinset.mp hx)]
  · exact le_of_lt e

/-- Number of clusters, then objective. -/
def kmScore (env : KMeansEnv α V δ) (cost : V → V → R) (m : Manager α) (vec : α → V) (lab : α → Int) : Nat ×ₗ R :=
  toLex ((m.managed.toFinset.image lab).card, costWith cost m vec lab (clusterMean env m vec lab))

theorem kmScore_pass {env : KMeansEnv α V δ} {cost : V → V → R} (hx : ExactKMeans env cost) {m : Manager α}
    (hn : m.managed.Nodup) {vec : α → V} {lab lab' : α → Int} {cen : Int → V}
    (hcen : ∀ x ∈ m.managed, cen (lab x) = clusterMean env m vec lab (lab x))
    (hin : ∀ x ∈ m.managed, ∃ y ∈ m.managed, lab y = lab' x)
    (hnear : ∀ x ∈ m.managed, cost (vec x) (cen (lab' x)) ≤ cost (vec x) (cen (lab x))) :
    costWith cost m vec lab' (clusterMean env m vec lab') ≤ costWith cost m vec lab (clusterMean env m vec lab) ∧
    (kmScore env cost m vec lab' < kmScore env cost m vec lab ∨
      (m.managed.toFinset.image lab' = m.managed.toFinset.image lab ∧
        ∀ x ∈ m.managed, cen (lab' x) = clusterMean env m vec lab' (lab' x))) := by
  have h1 : costWith cost m vec lab' cen ≤ costWith cost m vec lab cen :=
    Finset.sum_le_sum fun x hx => hnear x (List.mem_toFinset.mp hx)
  have h2 : costWith cost m vec lab cen = costWith cost m vec lab (clusterMean env m vec lab) :=
    Finset.sum_congr rfl fun x hx => by rw [hcen x (List.mem_toFinset.mp hx)]
  have hsub : m.managed.toFinset.image lab' ⊆ m.managed.toFinset.image lab := by
    intro c hc
    obtain ⟨x, hx, rfl⟩ := Finset.mem_image.mp hc
    obtain ⟨y, hy, e⟩ := hin x (List.mem_toFinset.mp hx)
    exact Finset.mem_image.mpr ⟨y, List.mem_toFinset.mpr hy, e⟩
  have hle := costWith_mean_le hx hn vec lab' cen
  refine ⟨le_trans hle (le_trans h1 (le_of_eq h2)), ?_⟩
  by_cases hcard : m.managed.toFinset.image lab' = m.managed.toFinset.image lab
  · rcases costWith_best hx hn vec lab' cen with e | e
    · exact .inr ⟨hcard, e⟩
    · left
      unfold kmScore
      rw [hcard, Prod.Lex.toLex_lt_toLex]
      exact .inr ⟨rfl, lt_of_lt_of_le e (le_trans h1 (le_of_eq h2))⟩
  · left
    unfold kmScore
    rw [Prod.Lex.toLex_lt_toLex]
    exact .inl (Finset.card_lt_card (Finset.ssubset_iff_subset_ne.mpr ⟨hsub, hcard⟩))

end sums

/-! ### The loop -/

/-- The label of an ID. -/
def labelFn (l : Dict α Int) (x : α) : Int := (dget? l x).getD 0

theorem labelFn_spec {l : Dict α Int} {x : α} (h : x ∈ dkeys l) : dget? l x = some (labelFn l x) := by
  obtain ⟨v, hv⟩ := dget?_isSome_of_mem h
  rw [labelFn, hv]; rfl

/-- Labels and centroids between two passes. -/
structure KmState (env : KMeansEnv α V δ) (m : Manager α) (vectors : Dict α V) (nb : Nat) (l : Dict α Int) (c : Dict Int V) : Prop where
  keys : dkeys l = m.managed
  inv : CentroidsInv c
  same : ∀ k, k ∈ dkeys c ↔ k ∈ dvals l
  cent : kmCentroids env m vectors l = .ok c
  low : ∀ k ∈ dkeys c, k < nb

theorem kmPass_nearest {env : KMeansEnv α V δ} {m : Manager α} (h : Inv m) (hu : Unconstrained m) {vectors : Dict α V}
    (hv : HasVectors m vectors) (hne : m.managed ≠ []) {nb : Nat} {c c' : Dict Int V} (hc : CentroidsInv c) {l' : Dict α Int}
    (e : kmPass env m vectors nb c = .ok (l', c')) :
    kmCentroids env m vectors l' = .ok c' ∧ ∀ x ∈ m.managed, Nearest env vectors c l' x := by
  obtain ⟨dist, e1, ht⟩ := kmDistances_ok (env := env) h hv hne hc
  obtain ⟨new, e2, hp⟩ := kmAssignAll_ok (nb := nb) h hv hc ht (passInv_start h) (fuel := m.managed.length) (le_refl _)
  unfold kmPass at e
  rw [e1] at e
  simp only [bind, Except.bind, pure, Except.pure] at e
  rw [e2] at e
  simp only at e
  cases e3 : kmCentroids env m vectors new with
  | error _ => rw [e3] at e; cases e
  | ok cs =>
    rw [e3] at e
    cases e
    exact ⟨e3, kmAssignAll_nearest h hu hv hc ht (passInv_start h) (fun x hx hnx => absurd hx hnx) e2⟩

/-- A pass from any centroids of a run. -/
theorem KmState.of_pass {env : KMeansEnv α V δ} (he : env.Ok) {m : Manager α} (h : Inv m) (hu : Unconstrained m)
    {vectors : Dict α V} (hv : HasVectors m vectors) (hne : m.managed ≠ []) {nb : Nat} {c c' : Dict Int V} (hc : CentroidsInv c)
    (hlow : ∀ k ∈ dkeys c, k < nb) {l' : Dict α Int} (e : kmPass env m vectors nb c = .ok (l', c')) :
    KmState env m vectors nb l' c' ∧ PassDone m l' c' := by
  obtain ⟨new, cs, e1, hd⟩ := kmPass_ok he h hv hne nb hc
  rw [e] at e1
  cases e1
  obtain ⟨e2, e3⟩ := kmPass_nearest h hu hv hne hc e
  have hk : dkeys l' = m.managed := hd.pass.keys
  refine ⟨⟨hk, hd.cent, hd.keys, e2, fun k hk' => ?_⟩, hd⟩
  obtain ⟨y, hy⟩ := (mem_dvals (by rw [hk]; exact h.d.nodup)).1 ((hd.keys k).1 hk')
  obtain ⟨k', w, b1, b2, -⟩ := e3 y (by rw [← hk]; exact mem_dkeys_of_dget? hy)
  rw [hy] at b1
  cases b1
  exact hlow k (mem_dkeys_of_dget? b2)

section
variable [AddCommGroup R] [LinearOrder R] [IsOrderedAddMonoid R]

/-- One pass between two states: the objective does not grow, and the score decreases or the run has converged. -/
theorem KmState.pass {env : KMeansEnv α V δ} (he : env.Ok) {cost : V → V → R} (hx : ExactKMeans env cost) {m : Manager α}
    (h : Inv m) (hu : Unconstrained m) {vectors : Dict α V} (hne : m.managed ≠ []) {nb : Nat}
    {vec : α → V} (hvec : ∀ x ∈ m.managed, dget? vectors x = some (vec x)) {l l' : Dict α Int} {c c' : Dict Int V}
    (hs : KmState env m vectors nb l c) (e : kmPass env m vectors nb c = .ok (l', c')) :
    (costWith cost m vec (labelFn l') (clusterMean env m vec (labelFn l')) ≤
      costWith cost m vec (labelFn l) (clusterMean env m vec (labelFn l))) ∧
    (kmScore env cost m vec (labelFn l') < kmScore env cost m vec (labelFn l) ∨ kmConverged env l l' c c' = .ok true) := by
  have hv : HasVectors m vectors := fun x hx => ⟨_, hvec x hx⟩
  obtain ⟨hs', hd⟩ := KmState.of_pass he h hu hv hne hs.inv hs.low e
  obtain ⟨-, hnear⟩ := kmPass_nearest h hu hv hne hs.inv e
  have hl : ∀ x ∈ m.managed, dget? l x = some (labelFn l x) := fun x hx => labelFn_spec (by rw [hs.keys]; exact hx)
  have hl' : ∀ x ∈ m.managed, dget? l' x = some (labelFn l' x) := fun x hx => labelFn_spec (by rw [hs'.keys]; exact hx)
  have hval : ∀ k, k ∈ dvals l ↔ ∃ x ∈ m.managed, labelFn l x = k := by
    intro k
    rw [mem_dvals (by rw [hs.keys]; exact h.d.nodup)]
    constructor
    · rintro ⟨y, hy⟩
      have hym : y ∈ m.managed := by rw [← hs.keys]; exact mem_dkeys_of_dget? hy
      have := hl y hym
      rw [hy] at this
      cases this
      exact ⟨y, hym, rfl⟩
    · rintro ⟨y, hy, rfl⟩; exact ⟨y, hl y hy⟩
  have hval' : ∀ k, k ∈ dvals l' ↔ ∃ x ∈ m.managed, labelFn l' x = k := by
    intro k
    rw [mem_dvals (by rw [hs'.keys]; exact h.d.nodup)]
    constructor
    · rintro ⟨y, hy⟩
      have hym : y ∈ m.managed := by rw [← hs'.keys]; exact mem_dkeys_of_dget? hy
      have := hl' y hym
      rw [hy] at this
      cases this
      exact ⟨y, hym, rfl⟩
    · rintro ⟨y, hy, rfl⟩; exact ⟨y, hl' y hy⟩
  have hcen : ∀ k ∈ dvals l, dget? c k = some (clusterMean env m vec (labelFn l) k) := fun k hk =>
    kmCentroids_eq he (by rw [hs.keys]; exact h.d.nodup) hs.keys hvec hl hs.cent hk
  have hcen' : ∀ k ∈ dvals l', dget? c' k = some (clusterMean env m vec (labelFn l') k) := fun k hk =>
    kmCentroids_eq he (by rw [hs'.keys]; exact h.d.nodup) hs'.keys hvec hl' hs'.cent hk
  have hin : ∀ x ∈ m.managed, ∃ y ∈ m.managed, labelFn l y = labelFn l' x := by
    intro x hx
    obtain ⟨k, w, b1, b2, -⟩ := hnear x hx
    rw [hl' x hx] at b1
    cases b1
    exact (hval _).1 ((hs.same _).1 (mem_dkeys_of_dget? b2))
  obtain ⟨g1, g2⟩ := kmScore_pass hx h.d.nodup (vec := vec) (lab := labelFn l) (lab' := labelFn l')
    (cen := clusterMean env m vec (labelFn l)) (fun _ _ => rfl) hin (by
      intro x hxm
      obtain ⟨k, w, b1, b2, b3⟩ := hnear x hxm
      rw [hl' x hxm] at b1
      cases b1
      have c1 := hcen _ ((hval _).2 (hin x hxm))
      rw [c1] at b2
      cases b2
      exact hx.metric _ _ _ (b3 _ (hvec x hxm) _ _ (hcen _ ((hval _).2 ⟨x, hxm, rfl⟩))))
  refine ⟨g1, g2.imp_right fun ⟨hcard, heq⟩ => ?_⟩
  have hset : ∀ k, k ∈ dvals l ↔ k ∈ dvals l' := by
    intro k
    rw [hval, hval']
    have := congrArg (fun s => k ∈ s) hcard
    simp only [Finset.mem_image, List.mem_toFinset, eq_iff_iff] at this
    exact this.symm
  unfold kmConverged
  rw [if_pos ⟨fun v hv => (hset v).1 hv, fun v hv => (hset v).2 hv⟩]
  have e2 : (dkeys c).mapM (fun k => (do return (← dget c k, ← dget c' k) : Except PyErr (V × V))) =
      .ok ((dkeys c).map fun k => (clusterMean env m vec (labelFn l) k, clusterMean env m vec (labelFn l') k)) := by
    rw [mapM_ok_iff, List.forall₂_map_right_iff, List.forall₂_same]
    intro k hk
    rw [dget_of_dget? (hcen k ((hs.same k).1 hk)), dget_of_dget? (hcen' k ((hset k).1 ((hs.same k).1 hk)))]
    rfl
  rw [e2]
  have hne2 : ((dkeys c).map fun k => (clusterMean env m vec (labelFn l) k, clusterMean env m vec (labelFn l') k)).isEmpty = false := by
    rw [List.isEmpty_eq_false_iff]
    intro h0
    exact hs.inv.ne (by simpa [dkeys] using h0)
  simp only [bind, Except.bind, hne2, pure, Except.pure, Bool.false_eq_true, if_false]
  congr 1
  refine hx.small _ fun p hp => ?_
  obtain ⟨k, hk, rfl⟩ := List.mem_map.mp hp
  obtain ⟨x, hx, rfl⟩ := (hval' k).1 ((hset k).1 ((hs.same k).1 hk))
  exact heq x hx

/-- All dictionaries of labels below `nb`. -/
def allLabels (ids : List α) (nb : Nat) : Finset (Dict α Int) :=
  (Finset.univ : Finset (Fin ids.length → Fin nb)).image fun g => ids.zip (List.ofFn fun i => ((g i : Nat) : Int))

omit [LinearOrder δ] in
theorem allLabels_card (ids : List α) (nb : Nat) : (allLabels ids nb).card ≤ nb ^ ids.length := by
  refine le_trans Finset.card_image_le ?_
  rw [Finset.card_univ, Fintype.card_fun, Fintype.card_fin, Fintype.card_fin]

theorem KmState.mem_all {env : KMeansEnv α V δ} {m : Manager α} {vectors : Dict α V} {nb : Nat} {l : Dict α Int} {c : Dict Int V}
    (hs : KmState env m vectors nb l c) : l ∈ allLabels m.managed nb := by
  have hlen : l.length = m.managed.length := by rw [← hs.keys]; simp [dkeys]
  have hb : ∀ p ∈ l, 0 ≤ p.2 ∧ p.2 < nb := by
    intro p hp
    have := (hs.same p.2).2 (List.mem_map_of_mem hp)
    exact ⟨hs.inv.nonneg _ this, hs.low _ this⟩
  refine Finset.mem_image.mpr ⟨fun i => ⟨(l[i.1]'(by omega)).2.toNat, ?_⟩, Finset.mem_univ _, ?_⟩
  · have := hb _ (List.getElem_mem (show i.1 < l.length by omega))
    omega
  · apply List.ext_getElem
    · simp [hlen]
    · intro i h1 h2
      have hk : m.managed[i]'(by omega) = (l[i]).1 := by
        have := hs.keys
        simp only [dkeys] at this
        rw [List.getElem_of_eq this.symm]
        simp
      rw [List.getElem_zip, List.getElem_ofFn]
      refine Prod.ext hk ?_
      simp only
      exact Int.toNat_of_nonneg (hb _ (List.getElem_mem h2)).1

open Classical in
/-- How many dictionaries of labels have a smaller score. -/
noncomputable def kmRank (env : KMeansEnv α V δ) (cost : V → V → R) (m : Manager α) (vec : α → V) (nb : Nat) (l : Dict α Int) : Nat :=
  ((allLabels m.managed nb).filter fun l' => kmScore env cost m vec (labelFn l') < kmScore env cost m vec (labelFn l)).card

theorem kmRank_lt {env : KMeansEnv α V δ} {cost : V → V → R} {m : Manager α} {vec : α → V} {nb : Nat} {l l' : Dict α Int}
    (hm : l' ∈ allLabels m.managed nb) (h : kmScore env cost m vec (labelFn l') < kmScore env cost m vec (labelFn l)) :
    kmRank env cost m vec nb l' < kmRank env cost m vec nb l := by
  classical
  unfold kmRank
  refine Finset.card_lt_card ((Finset.ssubset_iff_of_subset fun x hx => ?_).mpr ⟨l', ?_, ?_⟩)
  · simp only [Finset.mem_filter] at hx ⊢
    exact ⟨hx.1, lt_trans hx.2 h⟩
  · simp only [Finset.mem_filter]; exact ⟨hm, h⟩
  · simp

theorem kmRank_le {env : KMeansEnv α V δ} {cost : V → V → R} {m : Manager α} {vec : α → V} {nb : Nat} {l : Dict α Int}
    (hm : l ∈ allLabels m.managed nb) : kmRank env cost m vec nb l + 1 ≤ nb ^ m.managed.length := by
  classical
  refine le_trans ?_ (allLabels_card m.managed nb)
  unfold kmRank
  refine Nat.succ_le_of_lt (Finset.card_lt_card ((Finset.ssubset_iff_of_subset (Finset.filter_subset _ _)).mpr ⟨l, hm, ?_⟩))
  simp

theorem kmLoop_stable {env : KMeansEnv α V δ} (he : env.Ok) {cost : V → V → R} (hx : ExactKMeans env cost) {m : Manager α}
    (h : Inv m) (hu : Unconstrained m) {vectors : Dict α V} (hne : m.managed ≠ []) {nb : Nat}
    {vec : α → V} (hvec : ∀ x ∈ m.managed, dget? vectors x = some (vec x)) {left : Nat} {l : Dict α Int} {c : Dict Int V}
    (hs : KmState env m vectors nb l c) (hr : kmRank env cost m vec nb l + 1 ≤ left) :
    kmLoop env m vectors nb left l c = kmLoop env m vectors nb (left + 1) l c := by
  induction left generalizing l c with
  | zero => omega
  | succ left ih =>
    have hv : HasVectors m vectors := fun x hx => ⟨_, hvec x hx⟩
    obtain ⟨l', c', e, hd⟩ := kmPass_ok he h hv hne nb hs.inv
    obtain ⟨b, hb⟩ := kmConverged_ok (env := env) h hne hs.inv (.inr hs.same) hd
    rw [kmLoop.eq_def, kmLoop.eq_def env m vectors nb (left + 1 + 1)]
    simp only [bind, Except.bind, e, hb]
    cases b with
    | true => rfl
    | false =>
      simp only [Bool.false_eq_true, if_false]
      obtain ⟨hs', -⟩ := KmState.of_pass he h hu hv hne hs.inv hs.low e
      refine ih hs' ?_
      rcases (hs.pass he hx h hu hne hvec e).2 with k | k
      · have := kmRank_lt hs'.mem_all k
        omega
      · rw [hb] at k; cases k

end

theorem kmInitialize_low {env : KMeansEnv α V δ} {ids : List α} {vectors : Dict α V} {nb : Nat} {c : Dict Int V}
    (h : kmInitialize env ids vectors nb = .ok c) : ∀ k ∈ dkeys c, k < nb := by
  unfold kmInitialize at h
  simp only [bind, Except.bind] at h
  cases e : (List.range nb).mapM (kmInitEntry vectors ((env.shuffle ids).take nb)) with
  | error _ => rw [e] at h; cases h
  | ok items =>
    rw [e] at h
    cases h
    intro k hk
    obtain ⟨v, hv⟩ := dget?_isSome_of_mem hk
    obtain ⟨i, hi, hf⟩ := forall₂_mem_right (mapM_ok_iff.1 e) (mem_of_dget?_dofList hv)
    unfold kmInitEntry at hf
    split at hf
    · simp only [bind, Except.bind] at hf
      split at hf
      · cases hf
      · cases hf
        have := List.mem_range.mp hi
        omega
    · cases hf

end Verif
