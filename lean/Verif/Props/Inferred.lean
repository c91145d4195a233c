import Verif.Model.FloatVec
import Verif.Proofs.Inferred
import Verif.Proofs.NamesCluster
import Verif.Props.KMeans
import Verif.Props.Hierarchical
import Verif.Props.Serialize
import Verif.Props.Affinity
import Verif.Props.Vectors

/-
C89: the clusterings and the sampling depend on the managed list and the inferred constraints, not on the annotations they
were inferred from.
-/

namespace Verif

variable {α V δ κ μ θ : Type} [LinearOrder α] [LinearOrder δ] {m m' : Manager α}

omit [LinearOrder δ] in
/-- The manager itself: the same verdict on completeness and the same components up to the order inside each of them. -/
theorem C89_manager (hm : Reachable m) (hm' : Reachable m') (hs : SameInferred m m') :
    m'.complete = m.complete ∧ List.Forall₂ List.Perm m.components m'.components := by
  refine ⟨?_, (components_same hm.inv hm'.inv hs).imp fun _ _ h => h.1⟩
  rw [Bool.eq_iff_iff, C13_completude_exact hm', C13_completude_exact hm, hs.managed]
  simp only [hs.inferred]

omit [LinearOrder δ] in
/-- A manager that was saved and loaded is such a manager. -/
theorem C89_save_load (hm : Reachable m) : ∃ m', loadManager m.save = .ok m' ∧ Reachable m' ∧ SameInferred m m' := by
  obtain ⟨m', h1, h2, h3, -, -, h4, -⟩ := C18_save_load hm
  exact ⟨m', h1, h2, h3, h4⟩

/-- COP-KMeans: the same labels and centroids. -/
theorem C89_kmeans (hs : SameInferred m m') (env : KMeansEnv α V δ) (maxIteration : Nat) (vectors : Option (Dict α V)) (nb : Option Int) :
    kmCluster env maxIteration m' vectors nb = kmCluster env maxIteration m vectors nb := by
  unfold kmCluster kmCOP kmCentroids
  simp only [hs.managed, hs.kmLoop]

/-- C-DBScan: the same object. -/
theorem C89_dbscan (hs : SameInferred m m') (env : DbEnv α V δ) (p : DbParams δ) (vectors : Option (Dict α V)) (nb : Option Int) :
    dbCluster env p m' vectors nb = dbCluster env p m vectors nb := by
  unfold dbCluster
  simp only [hs.managed, hs.distanceTable, hs.dbLocals, hs.dbCores, hs.dbMergeAll]

omit [LinearOrder δ] in
/-- Spectral clustering: the same object. -/
theorem C89_spectral [LinearOrder κ] (hs : SameInferred m m') (env : SpecEnv V κ) (vectors : Option (Dict α V)) (nb : Option Int) :
    specCluster env m' vectors nb = specCluster env m vectors nb := by
  have h1 : ∀ p, specStep env m' p = specStep env m p := by
    intro p
    funext S q
    unfold specStep
    simp only [hs.inferred]
  have h2 : specImprint env m' = specImprint env m := by
    funext S
    unfold specImprint
    simp only [hs.managed, h1]
  unfold specCluster stackRows
  simp only [hs.managed, h2]

omit [LinearOrder δ] in
/-- MPC-KMeans: the same labels. -/
theorem C89_mpckmeans [LinearOrder κ] (hs : SameInferred m m') (env : MpcEnv V κ θ) (p : MpcParams) (vectors : Option (Dict α V))
    (nb : Option Int) : mpcCluster env p m' vectors nb = mpcCluster env p m vectors nb := by
  have h1 : mpcPairs m' = mpcPairs m := by
    funext t
    unfold mpcPairs
    simp only [hs.managed, hs.inferred]
  unfold mpcCluster
  simp only [hs.managed, h1]

omit [LinearOrder δ] in
/-- Affinity propagation: the same labels, although it reads added cannot-links and the lists of the components. -/
theorem C89_affinity [LinearOrder κ] {env : ApEnv V κ μ θ} (ha : ApAssumptions env) (p : ApParams) (hm : Reachable m) (hm' : Reachable m')
    (hs : SameInferred m m') (vectors : Option (Dict α V)) (nb : Option Int) :
    apCluster env p m' vectors nb = apCluster env p m vectors nb := by
  cases vectors with
  | none => rfl
  | some vs =>
    cases nb with
    | some n => rfl
    | none =>
      have hst : stackRows m' vs = stackRows m vs := by unfold stackRows; rw [hs.managed]
      unfold apCluster
      simp only
      rw [hst, hs.managed]
      refine SameOutcome.eq ?_
      cases e : stackRows m vs with
      | error er => exact rfl
      | ok rows =>
        obtain ⟨hf, hne⟩ := stackRows_ok e
        obtain ⟨cls, hcls, hclt⟩ := apCannotLinks_ok hm.inv
        obtain ⟨cls', hcls', hclt'⟩ := apCannotLinks_ok hm'.inv
        rw [hs.managed] at hclt'
        have hsq := square_of_rows rows fun v w => env.neg (env.dist v w)
        refine (apClosures_perm ((components_same hm.inv hm'.inv hs).imp fun _ _ h => h.1)).bind fun mls mls' hml => ?_
        rw [hcls, hcls']
        refine SameOutcome.of_eq ?_
        have hno := (ha.noise _ _ hsq).1
        rw [← hf.length_eq] at hno
        have hrun : apRun env p (rows.map fun v => rows.map fun w => env.neg (env.dist v w)) mls' cls' =
            apRun env p (rows.map fun v => rows.map fun w => env.neg (env.dist v w)) mls cls := by
          unfold apRun
          simp only
          rw [apFinish_congr ha p _ mls (cls := cls) (cls' := cls') (by rw [hno]; exact hclt) (by rw [hno]; exact hclt'),
            apFinish_perm env p _ _ hml]
        simp only [bind, Except.bind, hrun]

/-- Hierarchical clustering: the same labels, also for every later cut. Single and complete linkage need no assumption; average
and ward linkage need sums that do not depend on the order. -/
theorem C89_hierarchical (hm : Reachable m) (hm' : Reachable m') (hs : SameInferred m m') (env : HierEnv V δ) (o : HObject α V)
    (hfree : OrderFree env o.linkage) (vectors : Option (Dict α V)) (nb : Option Int) :
    (o.cluster env m' vectors nb).2 = (o.cluster env m vectors nb).2 ∧
      ∀ k by_, (o.cluster env m' vectors nb).1.cut k by_ = (o.cluster env m vectors nb).1.cut k by_ := by
  unfold HObject.cluster
  cases vectors with
  | none => exact ⟨rfl, fun _ _ => by rw [hs.managed]⟩
  | some vs =>
    cases nb with
    | none => exact ⟨rfl, fun _ _ => by rw [hs.managed]⟩
    | some n =>
      simp only
      by_cases hn : n < 2
      · rw [if_pos hn, if_pos hn, hs.managed]
        exact ⟨rfl, fun _ _ => rfl⟩
      · rw [if_neg hn, if_neg hn, hs.distanceTable, hs.managed]
        cases e : distanceTable m vs env.metric with
        | error er => exact ⟨rfl, fun _ _ => rfl⟩
        | ok table =>
          simp only
          have hT := pairTable_of_ok e
          have hb := hBuild_perm hm.inv hm'.inv hs hfree hT fun x hx => by
            obtain ⟨v, w, h1, -⟩ := hT (x, x) hx hx
            exact ⟨v, h1⟩
          cases e1 : hBuild env o.linkage m vs table with
          | error er =>
            rw [e1] at hb
            cases e2 : hBuild env o.linkage m' vs table with
            | error er' =>
              rw [e2] at hb
              cases (show er = er' from hb)
              exact ⟨rfl, fun _ _ => rfl⟩
            | ok r' => rw [e2] at hb; exact hb.elim
          | ok r =>
            rw [e1] at hb
            cases e2 : hBuild env o.linkage m' vs table with
            | error er' => rw [e2] at hb; exact hb.elim
            | ok r' =>
              rw [e2] at hb
              obtain ⟨h1, h2⟩ := (show r'.1 = r.1 ∧ SameStorage o.linkage m.managed r.2 r'.2 from hb)
              obtain ⟨root, st⟩ := r
              obtain ⟨root', st'⟩ := r'
              cases h1
              exact ⟨hCut_perm h2 _ _ _, fun k by_ => hCut_perm h2 _ _ _⟩

/-- Sampling, unless it is told to leave out added constraints but not inferred ones: the same pairs. -/
theorem C89_sampling (hm : Reachable m) (hm' : Reachable m') (hs : SameInferred m m') (cfg : Sampler)
    (hc : cfg.withoutAdded = true → cfg.withoutInferred = true) (nb : Option Int) (clustering : Option (Dict α Int))
    (vectors : Option (Dict α V)) (metric : V → V → δ) (pick : List (α × α) → Nat → List (α × α)) :
    cfg.sample m' nb clustering vectors metric pick = cfg.sample m nb clustering vectors metric pick := by
  have hskip : ∀ {m : Manager α}, Reachable m → ∀ x ∈ m.managed, ∀ y ∈ m.managed,
      cfg.knownSkip m x y = (m.getInferred x y).map fun r => cfg.withoutInferred && r.isSome := by
    intro m hm x hx y hy
    obtain ⟨r, hr, -⟩ := getInferred_spec hm.inv hx hy
    have hadd := getAdded_eq hm.inv.d hx hy
    unfold Sampler.knownSkip
    simp only [hadd, hr, bind, Except.bind, Except.map, pure, Except.pure]
    cases hk : known m.dict x y with
    | none =>
      cases r <;> cases cfg.withoutInferred <;> simp
    | some q =>
      obtain ⟨t, v⟩ := q
      have ha : AddedAs m t x y := ⟨v, by rw [hadd, hk]⟩
      have hr' : r ≠ none := by
        rintro rfl
        cases t with
        | mustLink =>
          have := (inferred_ml_iff hm.inv hx hy).2 (Relation.ReflTransGen.single ha)
          rw [hr] at this
          cases this
        | cannotLink =>
          have := (inferred_cl_iff hm.inv hx hy).2 ⟨x, y, Relation.ReflTransGen.refl, ha, Relation.ReflTransGen.refl⟩
          rw [hr] at this
          cases this
      obtain ⟨t', rfl⟩ := Option.ne_none_iff_exists'.1 hr'
      cases hA : cfg.withoutAdded with
      | true => simp [hc hA]
      | false => cases cfg.withoutInferred <;> simp
  have hpairs : ∀ c, cfg.possiblePairs m' c = cfg.possiblePairs m c := by
    intro c
    unfold Sampler.possiblePairs
    rw [hs.managed]
    have := filterM_names (f := id) (p := cfg.keeps m c) (p' := cfg.keeps m' c)
      (l := m.managed.flatMap fun x => m.managed.map fun y => (x, y)) fun p hp => by
        obtain ⟨h1, h2⟩ := mem_cross.1 hp
        unfold Sampler.keeps
        simp only [id]
        rw [hskip hm _ h1 _ h2, hskip hm' _ (hs.managed ▸ h1) _ (hs.managed ▸ h2), hs.inferred]
    rw [List.map_id] at this
    rw [this]
    cases List.filterM (cfg.keeps m c) _ <;> simp [Except.map]
  unfold Sampler.sample Sampler.select
  simp only [hpairs, hs.distanceTable]

/-! ### Two managers, and the exceptions -/

/-- `1`, `2` and `3` linked by two of the three pairs; `4` is against `1`. -/
def infDemo : Manager Nat := runOps (Manager.init [1, 2, 3, 4, 5])
  [.addConstraint 2 3 "MUST_LINK" 1, .addConstraint 3 1 "MUST_LINK" 1, .addConstraint 1 4 "CANNOT_LINK" 1]

/-- By two other pairs; `4` is against `2` and `3`. -/
def infDemo' : Manager Nat := runOps (Manager.init [1, 2, 3, 4, 5])
  [.addConstraint 4 3 "CANNOT_LINK" 1, .addConstraint 1 3 "MUST_LINK" 1, .addConstraint 1 2 "MUST_LINK" 1, .addConstraint 2 4 "CANNOT_LINK" 1]

/-- It is enough to compare the managed IDs. -/
theorem sameInferred_of_managed (hr : Reachable m) (hr' : Reachable m') (hm : m'.managed = m.managed)
    (key : ∀ x ∈ m.managed, ∀ y ∈ m.managed, m'.getInferred x y = m.getInferred x y) : SameInferred m m' := by
  refine ⟨hm, fun x y => ?_⟩
  rw [getInferred_inv hr.inv, getInferred_inv hr'.inv, hm]
  split
  · rfl
  · split
    · rfl
    · rename_i h1 h2
      exact key x (not_not.1 h1) y (not_not.1 h2)

theorem infDemo_same : SameInferred infDemo infDemo' :=
  sameInferred_of_managed ⟨_, _, rfl⟩ ⟨_, _, rfl⟩ (by decide +kernel) (by decide +kernel)

/- The annotations and the lists of the components differ. -/
example : Reachable infDemo ∧ Reachable infDemo' ∧ infDemo.getAdded 1 2 ≠ infDemo'.getAdded 1 2 ∧ infDemo.components = [[2, 3, 1], [4], [5]] ∧
    infDemo'.components = [[1, 3, 2], [4], [5]] := ⟨⟨_, _, rfl⟩, ⟨_, _, rfl⟩, by decide +kernel, by decide +kernel, by decide +kernel⟩

/- Sums of integers do not depend on the order. -/
example : OrderFree (⟨fun v w => (v - w).natAbs, fun l => l.sum / l.length, fun l a b => l.sum / (a * b)⟩ : HierEnv Int Nat) .average ∧
    OrderFree (⟨fun v w => (v - w).natAbs, fun l => l.sum / l.length, fun l a b => l.sum / (a * b)⟩ : HierEnv Int Nat) .ward := by
  refine ⟨⟨?_, nofun, nofun⟩, ⟨nofun, ?_, ?_⟩⟩
  · intro _ l l' h
    simp only [h.sum_eq, h.length_eq]
  · intro _ v w
    show (w - v).natAbs = (v - w).natAbs
    omega
  · intro _ l l' a b h
    simp only [h.sum_eq]

/- A sampling configuration of the documentation. -/
example : (⟨none, none, true, true⟩ : Sampler).withoutAdded = true → (⟨none, none, true, true⟩ : Sampler).withoutInferred = true := fun _ => rfl

/-- With `without_inferred_constraints=False` the sample depends on which pairs were annotated. -/
theorem C89_sampling_added : ∃ (m m' : Manager Nat) (cfg : Sampler) (pick : List (Nat × Nat) → Nat → List (Nat × Nat)),
    Reachable m ∧ Reachable m' ∧ SameInferred m m' ∧ cfg.withoutInferred = false ∧ (∀ l k, pick l k = l.take k) ∧
    cfg.sample m' (some 10) none none (fun _ _ : Int => (0 : Nat)) pick ≠ cfg.sample m (some 10) none none (fun _ _ : Int => (0 : Nat)) pick :=
  ⟨infDemo, infDemo', ⟨none, none, true, false⟩, fun l k => l.take k, ⟨_, _, rfl⟩, ⟨_, _, rfl⟩, infDemo_same, rfl, fun _ _ => rfl,
    by decide +kernel⟩

/-- Average linkage in binary64: loading a saved manager can change the groups. The vectors are the floats 0.1, 0.2, 0.3 (of three must-linked
IDs), 0.4 and 0.0. The mean of the three is 0.19999999999999998 in one order and 0.2 in the other one. -/
theorem C89_average_rounding : ∃ (m m' : Manager Nat) (o : HObject Nat ℚ) (vs : Dict Nat ℚ) (r r' : Dict Nat Int),
    Reachable m ∧ loadManager m.save = .ok m' ∧ SameInferred m m' ∧ o.linkage = .average ∧
    vs = [(1, fl (1 / 10)), (2, fl (2 / 10)), (3, fl (3 / 10)), (4, fl (4 / 10)), (5, 0)] ∧
    (o.cluster flHierEnv m (some vs) (some 2)).2 = .ok r ∧ (o.cluster flHierEnv m' (some vs) (some 2)).2 = .ok r' ∧
    dget? r 1 = dget? r 5 ∧ dget? r 1 ≠ dget? r 4 ∧ dget? r' 1 = dget? r' 4 ∧ dget? r' 1 ≠ dget? r' 5 := by
  refine ⟨runOps (Manager.init [1, 2, 3, 4, 5]) [.addConstraint 2 3 "MUST_LINK" 1, .addConstraint 3 1 "MUST_LINK" 1],
    runOps (Manager.init [1, 2, 3, 4, 5]) [.addConstraint 1 3 "MUST_LINK" 1, .addConstraint 2 3 "MUST_LINK" 1],
    ⟨.average, [], none, []⟩, _, [(1, 0), (2, 0), (3, 0), (4, 1), (5, 0)], [(1, 0), (2, 0), (3, 0), (4, 0), (5, 1)], ⟨_, _, rfl⟩, by decide +kernel,
    sameInferred_of_managed ⟨_, _, rfl⟩ ⟨_, _, rfl⟩ (by decide +kernel) (by decide +kernel), rfl, rfl, by decide +kernel, by decide +kernel,
    by decide +kernel, by decide +kernel, by decide +kernel, by decide +kernel⟩

/-! ### Each theorem applied to a concrete case -/

example := C89_manager (m := infDemo) (m' := infDemo') ⟨_, _, rfl⟩ ⟨_, _, rfl⟩ infDemo_same

example := C89_save_load (m := infDemo) ⟨_, _, rfl⟩

example := C89_kmeans infDemo_same kmDemoEnv 150 (some [(1, 5), (2, 7), (3, 9), (4, 11), (5, 80)]) (some 2)

example := C89_dbscan infDemo_same dbDemoEnv (dbNatParams 3 2) (some [(1, 5), (2, 7), (3, 9), (4, 11), (5, 80)]) none

example := C89_affinity apDemo_ok ⟨20, 3, true⟩ (m := infDemo) (m' := infDemo') ⟨_, _, rfl⟩ ⟨_, _, rfl⟩ infDemo_same
  (some [(1, 5), (2, 7), (3, 9), (4, 11), (5, 80)]) none

example := C89_hierarchical (m := infDemo) (m' := infDemo') ⟨_, _, rfl⟩ ⟨_, _, rfl⟩ infDemo_same hDemoEnv hDemoObject ⟨nofun, nofun, nofun⟩
  (some [(1, 5), (2, 7), (3, 9), (4, 11), (5, 80)]) (some 2)

example := C89_sampling (V := Int) (δ := Nat) (m := infDemo) (m' := infDemo') ⟨_, _, rfl⟩ ⟨_, _, rfl⟩ infDemo_same ⟨none, none, true, true⟩
  (fun _ => rfl) (some 3) none none (fun _ _ => 0) fun l k => l.take k

end Verif
