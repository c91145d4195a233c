import Verif.Proofs.MpcCluster

/-
Properties C48, C49 and C62–C66: MPC-KMeans. Specification vocabulary: `Verif/Spec/Clustering.lean`,
`Verif/Spec/MPC.lean`.
-/

namespace Verif

section
variable {α V κ θ : Type} [LinearOrder α] [LinearOrder κ]

/-! ### A concrete case -/

def mpcDemo : Manager Nat := runOps (Manager.init [3, 1, 2, 4])
  [.addConstraint 1 2 "MUST_LINK" 1, .addConstraint 2 3 "CANNOT_LINK" 1]

def mpcDemoVectors : Dict Nat Int := [(3, 0), (1, 10), (2, 50), (4, 52)]

def mpcDemoEnv : MpcEnv Int Int Unit where
  enum := List.dedup
  depth := 1000
  shuffle _ n := List.range n
  pick _ := 0
  choice _ k := List.range k
  mean l := l.sum / l.length
  zero := 0
  add := (· + ·)
  dist x y := ((x - y).natAbs : Int)
  weigh s _ d := s * d
  identity := ()
  mdist _ x y := ((x - y).natAbs : Int)
  termD _ x y := ((x - y).natAbs : Int)
  termM _ _ _ := 1000
  termC _ _ _ _ := 1000
  metric _ _ _ _ _ _ := ()
  close x y := decide (x = y)

theorem mpcDemo_ok : MpcAssumptions mpcDemoEnv where
  enum l := ⟨List.nodup_dedup l, fun _ => List.mem_dedup⟩
  shuffle _ _ := List.Perm.refl _
  pick sizes h := List.length_pos_iff.2 h
  choice n k h := ⟨by simp [mpcDemoEnv], fun i hi => by simp [mpcDemoEnv] at hi; omega⟩

theorem mpcDemo_reachable : Reachable mpcDemo := ⟨_, _, rfl⟩

/-! ### C48 and C62 -/

/-- If no component is larger than the recursion limit, the preprocessing succeeds; its graphs are the
inferred constraints and its neighbourhoods the connected components. -/
theorem C48_preprocess {enum : List Nat → List Nat} (henum : SetOrder enum) {m : Manager α} (h : Reachable m) {depth : Nat}
    (hd : ∀ c ∈ m.components, c.length ≤ depth) :
    ∃ ml cl mlg clg nbhs, mpcPairs m .mustLink = .ok ml ∧ mpcPairs m .cannotLink = .ok cl ∧
      mpcPreprocess enum depth m.managed.length ml cl = .ok (mlg, clg, nbhs) ∧
      GraphOf m.managed.length mlg (InferredAt m .mustLink) ∧ GraphOf m.managed.length clg (InferredAt m .cannotLink) ∧
      Neighborhoods m nbhs := by
  obtain ⟨ml, cl, h1, h2, h3, -⟩ := mpcPreprocess_manager henum h.inv depth
  obtain ⟨mlg, clg, nbhs, h4, h5, h6, h7⟩ := h3 hd
  exact ⟨ml, cl, mlg, clg, nbhs, h1, h2, h4, h5, h6, h7⟩

example : Reachable mpcDemo ∧ SetOrder mpcDemoEnv.enum ∧ (∀ c ∈ mpcDemo.components, c.length ≤ 2) ∧
    ([2, 1] ∈ mpcDemo.components ∨ [1, 2] ∈ mpcDemo.components) ∧ mpcDemo.getInferred 1 3 = .ok (some .cannotLink) :=
  ⟨mpcDemo_reachable, mpcDemo_ok.enum, by decide +kernel, by decide +kernel, by decide +kernel⟩

/-- The preprocessing needs one nested call per ID of a component: it succeeds iff every component
fits into the recursion limit, otherwise the call raises `RecursionError`. -/
theorem C62_recursion {enum : List Nat → List Nat} (henum : SetOrder enum) {m : Manager α} (h : Reachable m) (depth : Nat) :
    ∃ ml cl, mpcPairs m .mustLink = .ok ml ∧ mpcPairs m .cannotLink = .ok cl ∧
      ((∃ r, mpcPreprocess enum depth m.managed.length ml cl = .ok r) ↔ ∀ c ∈ m.components, c.length ≤ depth) ∧
      ((∃ c ∈ m.components, depth < c.length) → mpcPreprocess enum depth m.managed.length ml cl = .error .recursionError) := by
  obtain ⟨ml, cl, h1, h2, h3, h4⟩ := mpcPreprocess_manager henum h.inv depth
  refine ⟨ml, cl, h1, h2, ⟨?_, fun hd => ?_⟩, h4⟩
  · rintro ⟨r, hr⟩ c hc
    by_contra hcon
    rw [h4 ⟨c, hc, by omega⟩] at hr
    cases hr
  · obtain ⟨mlg, clg, nbhs, h5, -⟩ := h3 hd
    exact ⟨_, h5⟩

/-- `cluster` then raises `RecursionError`, whatever the vectors are. -/
theorem C62_cluster {env : MpcEnv V κ θ} (ha : MpcAssumptions env) {p : MpcParams} {m : Manager α} (h : Reachable m)
    (hbig : ∃ c ∈ m.components, env.depth < c.length) (vectors : Dict α V) {nb : Int} (hnb : 2 ≤ nb) :
    mpcCluster env p m (some vectors) (some nb) = .error .recursionError := by
  obtain ⟨ml, cl, h1, h2, -, h4⟩ := mpcPreprocess_manager ha.enum h.inv env.depth
  unfold mpcCluster
  simp only [bind, Except.bind, h1, h2, mpcLabels, h4 hbig]
  rw [if_neg (by omega)]

example : Reachable mpcDemo ∧ (∃ c ∈ mpcDemo.components, ({ mpcDemoEnv with depth := 1 } : MpcEnv Int Int Unit).depth < c.length) ∧
    mpcCluster { mpcDemoEnv with depth := 1 } ⟨10⟩ mpcDemo (some mpcDemoVectors) (some 2) = .error .recursionError :=
  ⟨mpcDemo_reachable, by decide +kernel, by decide +kernel⟩

/-! ### C49 -/

/-- The assignment step: `t` are the labels of the arg-min loop. With fewer than ten clusters the step
raises `ValueError` iff some cluster received no point (and otherwise returns `t`); with at least
ten clusters and as many points it always returns labels that use all clusters. -/
theorem C49_empty_clusters {env : MpcEnv V κ θ} (ha : MpcAssumptions env) {m : Manager α} {X : List V} {ml cl : Graph}
    (hX : X.length = m.managed.length) (hml : GraphOf m.managed.length ml (InferredAt m .mustLink))
    (hcl : GraphOf m.managed.length cl (InferredAt m .cannotLink)) (A : θ) (far : κ) {centers : List V} (hne : centers ≠ [])
    {nb : Nat} (hnb : centers.length = nb) (it : Nat) :
    ∃ t : List Int,
      (env.shuffle it X.length).foldlM (mpcAssignStep env A far X centers ml cl) (List.replicate X.length (-1)) = .ok t ∧
      t.length = X.length ∧ LabelsBelow nb t ∧
      (AllUsed nb t → mpcAssign env A far X centers ml cl nb it = .ok t) ∧
      (nb < 10 → ((∃ w, mpcAssign env A far X centers ml cl nb it = .error (.valueError w)) ↔ ∃ c : Nat, c < nb ∧ (c : Int) ∉ t)) ∧
      (10 ≤ nb → nb ≤ X.length → ∃ r, mpcAssign env A far X centers ml cl nb it = .ok r ∧ r.length = X.length ∧
        LabelsBelow nb r ∧ AllUsed nb r) := by
  subst hnb
  obtain ⟨t, e, t1, t2, c1, c2, c3⟩ := mpcAssign_cases ha (n := m.managed.length)
    ⟨hX, hml, hcl, fun i j hij => hij.lt.2, fun i j hij => hij.lt.2⟩ A far hne it
  refine ⟨t, e, by omega, t2, c1, fun h10 => ⟨?_, ?_⟩, fun h10 hn => ?_⟩
  · rintro ⟨w, hw⟩
    by_contra hno
    have hu : AllUsed centers.length t := by
      intro c hc
      by_contra hcn
      exact hno ⟨c, hc, hcn⟩
    rw [c1 hu] at hw
    cases hw
  · rintro ⟨c, hc, hcn⟩
    exact c2 (fun hu => hcn (hu c hc)) h10
  · by_cases hu : AllUsed centers.length t
    · exact ⟨t, c1 hu, by omega, t2, hu⟩
    · rcases c3 hu h10 with ⟨w, -, hw⟩ | ⟨r, h1, h2, h3, h4⟩
      · omega
      · exact ⟨r, h1, by omega, h3, h4⟩

/-- Two clusters, all points nearer to the first centre: `ValueError`. Ten clusters: repaired. -/
example : mpcAssign mpcDemoEnv () 52 [0, 10, 50, 52] [20, 900] [(0, [0]), (1, [1, 2]), (2, [1, 2]), (3, [3])]
      [(0, [1, 2]), (1, [0]), (2, [0]), (3, [])] 2 0 = .ok [0, 1, 1, 0] ∧
    mpcAssign { mpcDemoEnv with termC := fun _ _ _ _ => 1 } () 52 [0, 10, 50, 52] [20, 900] [(0, [0]), (1, [1, 2]), (2, [1, 2]), (3, [3])]
      [(0, [1, 2]), (1, [0]), (2, [0]), (3, [])] 2 0 = .error (.valueError "Empty Clusters Exception") ∧
    mpcAssign { mpcDemoEnv with termC := fun _ _ _ _ => 1 } () 52 ((List.range 10).map fun (i : Nat) => (i : Int))
      (20 :: List.replicate 9 900) ((List.range 10).map fun i => (i, [i])) ((List.range 10).map fun i => (i, [])) 10 0 =
        .ok [1, 2, 3, 4, 5, 6, 7, 8, 9, 0] := by decide +kernel

/-! ### C63 -/

omit [LinearOrder α] in
theorem dkeys_append [DecidableEq α] (d e : Dict α Int) : dkeys (d ++ e) = dkeys d ++ dkeys e := List.map_append

theorem nbhs_lt {m : Manager α} {nbhs : List (List Nat)} (hN : Neighborhoods m nbhs) {P : List Nat} (hP : P ∈ nbhs) {i : Nat}
    (hi : i ∈ P) : i < m.managed.length := by
  obtain ⟨c, -, hc⟩ := hN.component P hP
  obtain ⟨x, -, hx⟩ := (hc i).1 hi
  exact (List.getElem?_eq_some_iff.1 hx).1

theorem nbhs_cover {m : Manager α} (h : Inv m) {nbhs : List (List Nat)} (hN : Neighborhoods m nbhs) {i : Nat}
    (hi : i < m.managed.length) : ∃ P ∈ nbhs, i ∈ P := by
  have hx := List.getElem?_eq_getElem hi
  obtain ⟨c, hc, hxc⟩ := exists_component h (List.mem_of_getElem? hx)
  obtain ⟨P, hP, hPc⟩ := hN.all c hc
  exact ⟨P, hP, (hPc i).2 ⟨_, hxc, hx⟩⟩

theorem nbhs_ne_nil {m : Manager α} (h : Inv m) {nbhs : List (List Nat)} (hN : Neighborhoods m nbhs) {P : List Nat} (hP : P ∈ nbhs) :
    P ≠ [] := by
  obtain ⟨c, hc, hPc⟩ := hN.component P hP
  obtain ⟨x, hx⟩ := List.exists_mem_of_ne_nil _ (component_ne_nil h hc)
  obtain ⟨i, hi⟩ := List.mem_iff_getElem?.1 ((mem_component_iff h hc hx).1)
  exact List.ne_nil_of_mem ((hPc i).2 ⟨x, hx, hi⟩)

theorem mpcLabels_result {env : MpcEnv V κ θ} (ha : MpcAssumptions env) {p : MpcParams} (hp : 1 ≤ p.maxIteration) {m : Manager α}
    (h : Inv m) {nb : Nat} (hnb : 1 ≤ nb) {ml cl : List (Nat × Nat)} (em : mpcPairs m .mustLink = .ok ml)
    (ec : mpcPairs m .cannotLink = .ok cl) {X : List V} {labels : List Int}
    (hl : mpcLabels env p m.managed.length (min nb m.managed.length) ml cl X = .ok labels) :
    X.length = m.managed.length ∧ 1 ≤ m.managed.length ∧ GoodLabels m.managed.length (min nb m.managed.length) labels := by
  obtain ⟨ml', cl', em', ec', h3, h4⟩ := mpcPreprocess_manager ha.enum h env.depth
  rw [em] at em'; cases em'
  rw [ec] at ec'; cases ec'
  unfold mpcLabels at hl
  by_cases hd : ∀ c ∈ m.components, c.length ≤ env.depth
  · obtain ⟨mlg, clg, nbhs, h5, hmlg, hclg, hN⟩ := h3 hd
    rw [h5] at hl
    simp only [bind, Except.bind] at hl
    cases hi : mpcInit env X nbhs (min nb m.managed.length) with
    | error e => rw [hi] at hl; cases hl
    | ok centers =>
      rw [hi] at hl
      simp only at hl
      rcases Nat.lt_trichotomy X.length m.managed.length with hlt | heq | hgt
      · obtain ⟨P, hP, hiP⟩ := nbhs_cover h hN hlt
        rw [mpcInit_fewer env ⟨P, hP, _, hiP, Nat.le_refl _⟩] at hi
        cases hi
      · have hn1 : 1 ≤ m.managed.length := by
          by_contra h0
          have hX : X = [] := List.eq_nil_of_length_eq_zero (by omega)
          have hnb0 : nbhs = [] := by
            by_contra hne
            obtain ⟨P, hP⟩ := List.exists_mem_of_ne_nil _ hne
            obtain ⟨i, hi⟩ := List.exists_mem_of_ne_nil _ (nbhs_ne_nil h hN hP)
            have := nbhs_lt hN hP hi
            omega
          unfold mpcInit at hi
          rw [hX, hnb0] at hi
          simp at hi
        have hr : MpcReady m.managed.length X mlg clg (InferredAt m .mustLink) (InferredAt m .cannotLink) :=
          ⟨heq, hmlg, hclg, fun i j hij => hij.lt.2, fun i j hij => hij.lt.2⟩
        have hcl : centers.length = min nb m.managed.length := by
          obtain ⟨hin, -⟩ := mpcInit_ok ha (X := X) (nbhs := nbhs) (fun P hP i hi => by rw [heq]; exact nbhs_lt hN hP hi)
            (nb := min nb m.managed.length) (by omega) (by omega)
          rcases hin with ⟨c', e', hl'⟩ | ⟨e', -⟩
          · rw [hi] at e'
            cases e'
            exact hl'
          · rw [hi] at e'
            cases e'
        exact ⟨heq, hn1, mpcLoop_result ha hr (by omega) _ _ hcl _ (fun h0 => by omega) hl⟩
      · exact absurd hl (mpcLoop_more ha hgt hmlg.1 _ _ _ hp _ _ _ _)
  · have hbig : ∃ c ∈ m.components, env.depth < c.length := by
      by_contra hno
      apply hd
      intro c hc
      by_contra hcon
      exact hno ⟨c, hc, by omega⟩
    rw [h4 hbig] at hl
    cases hl

/-- From the labels to the result. -/
theorem mpcCluster_of_labels {env : MpcEnv V κ θ} {p : MpcParams} {m : Manager α} {nb : Int} (hnb : 2 ≤ nb) {vectors : Dict α V}
    (hv : (dkeys vectors).Nodup) {ml cl : List (Nat × Nat)} (em : mpcPairs m .mustLink = .ok ml)
    (ec : mpcPairs m .cannotLink = .ok cl) {labels : List Int} {n k : Nat} (hn : 1 ≤ n) (hk : k ≤ n) (hlen : vectors.length = n)
    (hl : mpcLabels env p m.managed.length (min nb.toNat m.managed.length) ml cl (dvals vectors) = .ok labels)
    (hg : GoodLabels n k labels) :
    ∃ r0 extra, mpcCluster env p m (some vectors) (some nb) = .ok (r0 ++ extra) ∧
      dkeys r0 = (dkeys vectors).insertionSort (· ≤ ·) ∧ FirstAppearanceOrder (dvals r0) ∧ LabelsAre (dvals r0) k ∧
      (∀ (i j : Nat) (x y : α), (dkeys vectors)[i]? = some x → (dkeys vectors)[j]? = some y →
        (dget? r0 x = dget? r0 y ↔ labels[i]? = labels[j]?)) ∧
      (∀ x, x ∈ dkeys extra ↔ x ∈ m.managed ∧ x ∉ dkeys vectors) ∧ (∀ v ∈ dvals extra, v = -1) ∧ (dkeys (r0 ++ extra)).Nodup := by
  obtain ⟨g1, g2, g3⟩ := hg
  have hkl : (dkeys vectors).length = labels.length := by rw [g1, ← hlen]; simp [dkeys]
  have hfilter : (labels.zipIdx.filter fun q => decide (q.1 ≠ -1)) = labels.zipIdx := by
    rw [List.filter_eq_self]
    rintro ⟨l, i⟩ hq
    have := (g2 l (List.mem_of_getElem? ((List.mk_mem_zipIdx_iff_getElem?).1 hq))).1
    rw [decide_eq_true_eq]
    show l ≠ -1
    omega
  have hitems : (labels.zipIdx.mapM fun q => do return (← lget (dkeys vectors) q.2, q.1) : Except PyErr (List (α × Int))) =
      .ok ((dkeys vectors).zip labels) := by
    rw [mapM_ok_iff, List.forall₂_iff_get]
    refine ⟨by simp [hkl], fun i h1 h2 => ?_⟩
    simp only [List.get_eq_getElem, List.getElem_zipIdx, List.getElem_zip, Nat.zero_add]
    have hi : i < (dkeys vectors).length := by
      rw [List.length_zip] at h2
      omega
    have : lget (dkeys vectors) i = .ok ((dkeys vectors)[i]) := lget_ok.2 (List.getElem?_eq_getElem hi)
    rw [this]
    rfl
  have hkeys : dkeys ((dkeys vectors).zip labels) = dkeys vectors := dkeys_zip (by omega)
  have hdof : dofList ((dkeys vectors).zip labels) = (dkeys vectors).zip labels :=
    dofList_of_nodup (by
      have := hkeys
      unfold dkeys at this ⊢
      rw [this]
      exact hv)
  obtain ⟨r0, er, r1, r2, r3⟩ := rename_ok (clusters := (dkeys vectors).zip labels) (by rw [hkeys]; exact hv)
  rw [hkeys] at r1 r2
  have hpart : ∀ (i j : Nat) (x y : α), (dkeys vectors)[i]? = some x → (dkeys vectors)[j]? = some y →
        (dget? r0 x = dget? r0 y ↔ labels[i]? = labels[j]?) := by
    intro i j x y hx hy
    rw [← dget?_zip (r := labels) hv hx, ← dget?_zip (r := labels) hv hy]
    exact (r2 x (List.mem_of_getElem? hx) y (List.mem_of_getElem? hy)).symm
  have hr0n : (dkeys r0).Nodup := by rw [r1]; exact (List.perm_insertionSort _ _).nodup_iff.2 hv
  -- the IDs without a vector
  have hfold : ∀ (l : List α) (d : Dict α Int), (dkeys d).Nodup → ∃ e, l.foldl (fun d x => if x ∈ dkeys d then d else dset d x (-1)) d = d ++ e ∧
      (∀ x, x ∈ dkeys e ↔ x ∈ l ∧ x ∉ dkeys d) ∧ (∀ v ∈ dvals e, v = -1) ∧ (dkeys (d ++ e)).Nodup := by
    intro l
    induction l with
    | nil => exact fun d hd => ⟨[], by simp, by simp [dkeys], by simp [dvals], by simpa using hd⟩
    | cons a l ih =>
      intro d hd
      rw [List.foldl_cons]
      by_cases hx : a ∈ dkeys d
      · rw [if_pos hx]
        obtain ⟨e, e1, e2, e3, e4⟩ := ih d hd
        refine ⟨e, e1, fun y => ?_, e3, e4⟩
        rw [e2, List.mem_cons]
        constructor
        · rintro ⟨h1, h2⟩
          exact ⟨.inr h1, h2⟩
        · rintro ⟨rfl | h1, h2⟩
          · exact absurd hx h2
          · exact ⟨h1, h2⟩
      · rw [if_neg hx, dset_of_notMem _ hx]
        obtain ⟨e, e1, e2, e3, e4⟩ := ih (d ++ [(a, -1)]) (by
          rw [dkeys_append, List.nodup_append]
          refine ⟨hd, by simp [dkeys], ?_⟩
          intro u hu w hw huw
          simp [dkeys] at hw
          rw [hw] at huw
          exact hx (huw ▸ hu))
        refine ⟨(a, -1) :: e, by rw [e1]; simp, fun y => ?_, ?_, by simpa using e4⟩
        · have : dkeys ((a, (-1 : Int)) :: e) = a :: dkeys e := rfl
          rw [this, List.mem_cons, e2, List.mem_cons, dkeys_append]
          have hdk : dkeys [(a, (-1 : Int))] = [a] := rfl
          rw [hdk, List.mem_append, List.mem_singleton]
          constructor
          · rintro (rfl | ⟨h1, h2⟩)
            · exact ⟨.inl rfl, hx⟩
            · exact ⟨.inr h1, fun hm => h2 (.inl hm)⟩
          · rintro ⟨rfl | h1, h2⟩
            · exact .inl rfl
            · by_cases hya : y = a
              · exact .inl hya
              · exact .inr ⟨h1, fun hm => hm.elim h2 hya⟩
        · intro v hv'
          have : dvals ((a, (-1 : Int)) :: e) = -1 :: dvals e := rfl
          rw [this, List.mem_cons] at hv'
          rcases hv' with rfl | hv'
          · rfl
          · exact e3 v hv'
  obtain ⟨extra, e1, e2, e3, e4⟩ := hfold m.managed r0 hr0n
  refine ⟨r0, extra, ?_, r1, r3, ?_, hpart, fun x => ?_, e3, e4⟩
  · unfold mpcCluster
    simp only [bind, Except.bind, em, ec, hl, hfilter] at hitems ⊢
    rw [if_neg (by omega)]
    simp only [pure, Except.pure] at hitems ⊢
    rw [hitems]
    simp only [hdof, er]
    rw [e1]
  · have hcount := labels_count_on (ids := dkeys vectors) hv (by
      intro h0
      have hk0 : (dkeys vectors).length = n := by rw [← hlen]; simp [dkeys]
      rw [h0] at hk0
      simp at hk0
      omega) r1 r3 (fun x => dget? ((dkeys vectors).zip labels) x) (fun x hx y hy => (r2 x hx y hy).symm)
      (I := (List.range k).map fun (c : Nat) => some (c : Int)) (by
        rw [List.nodup_map_iff_inj_on List.nodup_range]
        intro a _ b _ hab
        exact Int.natCast_inj.1 (Option.some.inj hab)) (by
        intro e
        rw [List.mem_map]
        constructor
        · rintro ⟨c, hc, rfl⟩
          obtain ⟨i, hi⟩ := List.mem_iff_getElem?.1 (g3 c (List.mem_range.1 hc))
          have hil : i < (dkeys vectors).length := by rw [hkl]; exact (List.getElem?_eq_some_iff.1 hi).1
          have hx := List.getElem?_eq_getElem hil
          exact ⟨_, List.mem_of_getElem? hx, by rw [dget?_zip hv hx, hi]⟩
        · rintro ⟨x, hx, rfl⟩
          obtain ⟨i, hi⟩ := List.mem_iff_getElem?.1 hx
          have hil : i < labels.length := by rw [← hkl]; exact (List.getElem?_eq_some_iff.1 hi).1
          have hlab := List.getElem?_eq_getElem hil
          have hb := g2 _ (List.mem_of_getElem? hlab)
          refine ⟨(labels[i]).toNat, List.mem_range.2 (by omega), ?_⟩
          rw [dget?_zip hv hi, hlab]
          congr 1
          omega)
    simpa using hcount
  · rw [e2, r1, List.mem_insertionSort]

theorem mpcCluster_labels {env : MpcEnv V κ θ} (ha : MpcAssumptions env) {p : MpcParams} {m : Manager α} (h : Inv m) {nb : Int} {vectors : Dict α V} {r : Dict α Int}
    (hr : mpcCluster env p m (some vectors) (some nb) = .ok r) : 2 ≤ nb ∧ ∃ ml cl labels, mpcPairs m .mustLink = .ok ml ∧
      mpcPairs m .cannotLink = .ok cl ∧
      mpcLabels env p m.managed.length (min nb.toNat m.managed.length) ml cl (dvals vectors) = .ok labels := by
  obtain ⟨ml, cl, em, ec, -⟩ := mpcPreprocess_manager ha.enum h env.depth
  unfold mpcCluster at hr
  simp only [bind, Except.bind, em, ec] at hr
  by_cases hnb : nb < 2
  · rw [if_pos hnb] at hr
    cases hr
  · rw [if_neg hnb] at hr
    simp only [pure, Except.pure] at hr
    refine ⟨by omega, ml, cl, ?_⟩
    cases hl : mpcLabels env p m.managed.length (min nb.toNat m.managed.length) ml cl (dvals vectors) with
    | error e => rw [hl] at hr; cases hr
    | ok labels => exact ⟨labels, em, ec, rfl⟩

/-- A call that succeeds has as many vectors as managed IDs and returns exactly `min(nb_clusters, n)`
clusters, numbered in order of first appearance, on the sorted keys of the vectors; managed IDs
without a vector follow with label -1. -/
theorem C63_result {env : MpcEnv V κ θ} (ha : MpcAssumptions env) {p : MpcParams} (hp : 1 ≤ p.maxIteration) {m : Manager α}
    (h : Reachable m) {nb : Int} {vectors : Dict α V} (hv : (dkeys vectors).Nodup) {r : Dict α Int}
    (hr : mpcCluster env p m (some vectors) (some nb) = .ok r) :
    vectors.length = m.managed.length ∧ ∃ r0 extra, r = r0 ++ extra ∧
      dkeys r0 = (dkeys vectors).insertionSort (· ≤ ·) ∧ FirstAppearanceOrder (dvals r0) ∧
      LabelsAre (dvals r0) (min nb.toNat m.managed.length) ∧
      (∀ x, x ∈ dkeys extra ↔ x ∈ m.managed ∧ x ∉ dkeys vectors) ∧ (∀ v ∈ dvals extra, v = -1) ∧ (dkeys r).Nodup := by
  obtain ⟨hnb, ml, cl, labels, em, ec, hl⟩ := mpcCluster_labels ha h.inv hr
  obtain ⟨g1, g2, g3⟩ := mpcLabels_result ha hp h.inv (by omega) em ec hl
  have hlen : vectors.length = m.managed.length := by rw [← g1]; simp [dvals]
  obtain ⟨r0, extra, h1, h2, h3, h4, -, h5, h6, h7⟩ := mpcCluster_of_labels hnb hv em ec g2 (Nat.min_le_right _ _) hlen hl g3
  rw [hr] at h1
  cases h1
  exact ⟨hlen, r0, extra, rfl, h2, h3, h4, h5, h6, h7⟩

/-- The constructor only accepts at least one iteration. -/
theorem C63_params {model : String} {maxIteration : Int} {negative : Bool} {p : MpcParams}
    (h : MpcParams.init model maxIteration negative = .ok p) : 1 ≤ p.maxIteration := by
  unfold MpcParams.init at h
  split at h
  · cases h
  · split at h
    · cases h
    · split at h
      · cases h
      · cases h
        show 1 ≤ maxIteration.toNat
        omega

example : MpcParams.init "MPC" 150 false = .ok ⟨150⟩ ∧ MpcParams.init "MPC" 0 false = .error (.valueError "max_iteration") := by
  decide +kernel

/-- With the vectors of exactly the managed IDs, the result labels exactly the managed IDs. -/
theorem C63_managed {env : MpcEnv V κ θ} (ha : MpcAssumptions env) {p : MpcParams} (hp : 1 ≤ p.maxIteration) {m : Manager α}
    (h : Reachable m) {nb : Int} {vectors : Dict α V} (hv : (dkeys vectors).Nodup) (hhas : HasVectors m vectors) {r : Dict α Int}
    (hr : mpcCluster env p m (some vectors) (some nb) = .ok r) :
    dkeys r = m.managed.insertionSort (· ≤ ·) ∧ FirstAppearanceOrder (dvals r) ∧
      LabelsAre (dvals r) (min nb.toNat m.managed.length) := by
  obtain ⟨hlen, r0, extra, rfl, h2, h3, h4, h5, -, -⟩ := C63_result ha hp h hv hr
  have hsub : ∀ x ∈ m.managed, x ∈ dkeys vectors := by
    intro x hx
    obtain ⟨v, hv'⟩ := hhas x hx
    exact mem_dkeys_of_dget? hv'
  have hex : extra = [] := by
    cases extra with
    | nil => rfl
    | cons q e =>
      have := (h5 q.1).1 (by simp [dkeys])
      exact absurd (hsub _ this.1) this.2
  subst hex
  have hmn : m.managed.Nodup := h.inv.d.nodup
  have hperm : m.managed.Perm (dkeys vectors) :=
    (List.subperm_of_subset hmn hsub).perm_of_length_le (by simp [dkeys, hlen])
  rw [List.append_nil]
  refine ⟨?_, h3, h4⟩
  rw [h2]
  exact (List.Perm.eq_of_pairwise (le := (· ≤ ·)) (fun a b _ _ h1 h2 => le_antisymm h1 h2) (List.pairwise_insertionSort _ _)
    (List.pairwise_insertionSort _ _) (((List.perm_insertionSort _ _).trans hperm.symm).trans (List.perm_insertionSort _ _).symm))

example : Reachable mpcDemo ∧ MpcAssumptions mpcDemoEnv ∧ (dkeys mpcDemoVectors).Nodup ∧
    mpcCluster mpcDemoEnv ⟨10⟩ mpcDemo (some mpcDemoVectors) (some 2) = .ok [(1, 0), (2, 0), (3, 1), (4, 0)] :=
  ⟨mpcDemo_reachable, mpcDemo_ok, by decide +kernel, by decide +kernel⟩

/-! ### C64 -/

theorem nbhs_disjoint {m : Manager α} {nbhs : List (List Nat)} (hN : Neighborhoods m nbhs) {P Q : List Nat} (hP : P ∈ nbhs)
    (hQ : Q ∈ nbhs) (hne : P ≠ Q) : List.Disjoint P Q := by
  have hpw := hN.disjoint
  obtain ⟨i, hi⟩ := List.mem_iff_getElem.1 hP
  obtain ⟨hi1, hi2⟩ := hi
  obtain ⟨j, hj1, hj2⟩ := List.mem_iff_getElem.1 hQ
  rw [List.pairwise_iff_getElem] at hpw
  rcases Nat.lt_trichotomy i j with h | h | h
  · have := hpw i j hi1 hj1 h
    rw [hi2, hj2] at this
    exact this
  · subst h
    rw [hi2] at hj2
    exact absurd hj2 hne
  · have := hpw j i hj1 hi1 h
    rw [hi2, hj2] at this
    exact this.symm

theorem nbhs_nodup {m : Manager α} (h : Inv m) {nbhs : List (List Nat)} (hN : Neighborhoods m nbhs) : nbhs.Nodup := by
  refine hN.disjoint.imp_of_mem ?_
  rintro P Q hP - hd rfl
  obtain ⟨i, hi⟩ := List.exists_mem_of_ne_nil _ (nbhs_ne_nil h hN hP)
  exact hd hi hi

theorem nbhs_length {m : Manager α} (h : Inv m) {nbhs : List (List Nat)} (hN : Neighborhoods m nbhs) :
    nbhs.length ≤ m.components.length := by
  have hex := hN.component
  choose! f hf1 hf2 using hex
  have hinj : ∀ P ∈ nbhs, ∀ Q ∈ nbhs, f P = f Q → P = Q := by
    intro P hP Q hQ hPQ
    by_contra hne
    obtain ⟨i, hi⟩ := List.exists_mem_of_ne_nil _ (nbhs_ne_nil h hN hP)
    have hiQ : i ∈ Q := by
      rw [hf2 Q hQ, ← hPQ, ← hf2 P hP]
      exact hi
    exact nbhs_disjoint hN hP hQ hne hi hiQ
  have hmap : (nbhs.map f).Nodup := (List.nodup_map_iff_inj_on (nbhs_nodup h hN)).2 hinj
  have hsub : nbhs.map f ⊆ m.components := by
    intro c hc
    obtain ⟨P, hP, rfl⟩ := List.mem_map.1 hc
    exact hf1 P hP
  have := (List.subperm_of_subset hmap hsub).length_le
  simpa using this

theorem components_le_managed {m : Manager α} (h : Inv m) : m.components.length ≤ m.managed.length := by
  by_cases hne : m.managed = []
  · have : m.components = [] := by
      by_contra hc
      obtain ⟨c, hc⟩ := List.exists_mem_of_ne_nil _ hc
      obtain ⟨x, hx⟩ := List.exists_mem_of_ne_nil _ (component_ne_nil h hc)
      have := (mem_component_iff h hc hx).1
      rw [hne] at this
      cases this
    simp [this]
  · have hex : ∀ c ∈ m.components, ∃ x, x ∈ c := fun c hc => List.exists_mem_of_ne_nil _ (component_ne_nil h hc)
    obtain ⟨x0, -⟩ := List.exists_mem_of_ne_nil _ hne
    have : Nonempty α := ⟨x0⟩
    choose! f hf using hex
    have hmap : (m.components.map f).Nodup := (List.nodup_map_iff_inj_on (components_nodup m)).2 (by
      intro c hc d hd hcd
      exact component_unique h hc hd (hf c hc) (by rw [hcd]; exact hf d hd))
    have hsub : m.components.map f ⊆ m.managed := by
      intro x hx
      obtain ⟨c, hc, rfl⟩ := List.mem_map.1 hx
      exact (mem_component_iff h hc (hf c hc)).1
    have := (List.subperm_of_subset hmap hsub).length_le
    simpa using this

/-- Fewer vectors than managed IDs: `IndexError`. -/
theorem C64_fewer_vectors {env : MpcEnv V κ θ} (ha : MpcAssumptions env) {p : MpcParams} {m : Manager α} (h : Reachable m)
    (hd : ∀ c ∈ m.components, c.length ≤ env.depth) {vectors : Dict α V} (hlt : vectors.length < m.managed.length) {nb : Int}
    (hnb : 2 ≤ nb) : mpcCluster env p m (some vectors) (some nb) = .error .indexError := by
  obtain ⟨ml, cl, em, ec, h3, -⟩ := mpcPreprocess_manager ha.enum h.inv env.depth
  obtain ⟨mlg, clg, nbhs, h5, -, -, hN⟩ := h3 hd
  obtain ⟨P, hP, hiP⟩ := nbhs_cover h.inv hN hlt
  have hi := mpcInit_fewer env (X := dvals vectors) (nbhs := nbhs) ⟨P, hP, _, hiP, by simp [dvals]⟩
    (min nb.toNat m.managed.length)
  unfold mpcCluster
  simp only [bind, Except.bind, em, ec, mpcLabels, h5, hi]
  rw [if_neg (by omega)]

example : (∀ c ∈ mpcDemo.components, c.length ≤ mpcDemoEnv.depth) ∧
    mpcCluster mpcDemoEnv ⟨10⟩ mpcDemo (some [(3, 0), (1, 10), (2, 50)]) (some 2) = .error .indexError ∧
    mpcCluster mpcDemoEnv ⟨10⟩ mpcDemo (some [(3, 0), (1, 10), (2, 50), (4, 52), (5, 1)]) (some 2) = .error .keyError := by
  decide +kernel

/-- No two vectors at a positive distance: the call fails. -/
theorem C64_equal_points {env : MpcEnv V κ θ} (ha : MpcAssumptions env) {p : MpcParams} (hp : 1 ≤ p.maxIteration) {m : Manager α}
    (h : Reachable m) (hd : ∀ c ∈ m.components, c.length ≤ env.depth) (hne : m.managed ≠ []) {vectors : Dict α V}
    (hlen : vectors.length = m.managed.length) (hno : ¬ FarApart env env.identity (dvals vectors)) {nb : Int} (hnb : 2 ≤ nb) :
    mpcCluster env p m (some vectors) (some nb) = .error .assertionError ∨
    (mpcCluster env p m (some vectors) (some nb) = .error .indexError ∧ nb < m.components.length) := by
  obtain ⟨ml, cl, em, ec, h3, -⟩ := mpcPreprocess_manager ha.enum h.inv env.depth
  obtain ⟨mlg, clg, nbhs, h5, -, -, hN⟩ := h3 hd
  have hn1 : 1 ≤ m.managed.length := List.length_pos_iff.2 hne
  have hX : (dvals vectors).length = m.managed.length := by rw [← hlen]; simp [dvals]
  obtain ⟨hin, -⟩ := mpcInit_ok ha (X := dvals vectors) (nbhs := nbhs) (fun P hP i hi => by rw [hX]; exact nbhs_lt hN hP hi)
    (nb := min nb.toNat m.managed.length) (by omega) (by omega)
  obtain ⟨k, hk⟩ : ∃ k, p.maxIteration = k + 1 := ⟨p.maxIteration - 1, by omega⟩
  have hfar := (mpcFarPair_ok env env.identity (dvals vectors)).2 hno
  unfold mpcCluster
  simp only [bind, Except.bind, em, ec, mpcLabels, h5]
  rw [if_neg (by omega)]
  rcases hin with ⟨centers, e, -⟩ | ⟨e, hlt⟩
  · left
    simp only [e, hk, mpcLoop, bind, Except.bind, hfar]
  · right
    refine ⟨by simp only [e], ?_⟩
    have h1 := nbhs_length h.inv hN
    have h2 := components_le_managed h.inv
    omega

/-- A single managed ID: always `AssertionError`. -/
theorem C64_single {env : MpcEnv V κ θ} (ha : MpcAssumptions env) {p : MpcParams} (hp : 1 ≤ p.maxIteration) {m : Manager α}
    (h : Reachable m) (hd : 1 ≤ env.depth) (h1 : m.managed.length = 1) {vectors : Dict α V} (hv : vectors.length = 1) {nb : Int}
    (hnb : 2 ≤ nb) : mpcCluster env p m (some vectors) (some nb) = .error .assertionError := by
  have hcs : ∀ c ∈ m.components, c.length ≤ 1 := by
    intro c hc
    have hsub : c ⊆ m.managed := fun x hx => (mem_component_iff h.inv hc hx).1
    rw [← h1]
    exact (List.subperm_of_subset (component_nodup h.inv hc) hsub).length_le
  have hne : m.managed ≠ [] := by
    intro h0
    rw [h0] at h1
    cases h1
  rcases C64_equal_points ha hp h (fun c hc => le_trans (hcs c hc) hd) hne (by omega) (vectors := vectors) (by
    rintro ⟨i, j, x, y, hij, hx, hy, -⟩
    have := (List.getElem?_eq_some_iff.1 hx).1
    simp [dvals, hv] at this
    omega) hnb with h2 | ⟨-, h2⟩
  · exact h2
  · exfalso
    have hle := components_le_managed h.inv
    omega

example : Reachable (Manager.init [7]) ∧
    mpcCluster mpcDemoEnv ⟨10⟩ (Manager.init [7]) (some [(7, 3)]) (some 2) = .error .assertionError ∧
    mpcCluster mpcDemoEnv ⟨10⟩ mpcDemo (some [(3, 5), (1, 5), (2, 5), (4, 5)]) (some 3) = .error .assertionError ∧
    mpcCluster mpcDemoEnv ⟨10⟩ mpcDemo (some [(3, 5), (1, 5), (2, 5), (4, 5)]) (some 2) = .error .indexError :=
  ⟨⟨_, [], rfl⟩, by decide +kernel, by decide +kernel, by decide +kernel⟩

/-- With at least ten clusters and IDs, no more components than clusters, components within the
recursion limit, as many vectors as IDs and two vectors apart (for every metric), the call succeeds. -/
theorem C64_success {env : MpcEnv V κ θ} (ha : MpcAssumptions env) {p : MpcParams} (hp : 1 ≤ p.maxIteration) {m : Manager α}
    (h : Reachable m) (hd : ∀ c ∈ m.components, c.length ≤ env.depth) {vectors : Dict α V} (hv : (dkeys vectors).Nodup)
    (hlen : vectors.length = m.managed.length) (hfar : ∀ A, FarApart env A (dvals vectors)) {nb : Int} (hnb : 10 ≤ nb)
    (h10 : 10 ≤ m.managed.length)
    (hc : (m.components.length : Int) ≤ nb ∨ ∀ nbhs centers, Neighborhoods m nbhs →
      List.Forall₂ (fun P c => ∃ ys, List.Forall₂ (fun i y => (dvals vectors)[i]? = some y) P ys ∧ c = env.mean ys) nbhs centers →
      FarPoints env centers) :
    ∃ r, mpcCluster env p m (some vectors) (some nb) = .ok r := by
  obtain ⟨ml, cl, em, ec, h3, -⟩ := mpcPreprocess_manager ha.enum h.inv env.depth
  obtain ⟨mlg, clg, nbhs, h5, hmlg, hclg, hN⟩ := h3 hd
  have hX : (dvals vectors).length = m.managed.length := by rw [← hlen]; simp [dvals]
  have hltX : ∀ P ∈ nbhs, ∀ i ∈ P, i < (dvals vectors).length := fun P hP i hi => by rw [hX]; exact nbhs_lt hN hP hi
  obtain ⟨hin, hsep⟩ := mpcInit_ok ha (X := dvals vectors) (nbhs := nbhs) hltX
    (nb := min nb.toNat m.managed.length) (by omega) (by omega)
  have hinit : ∃ centers, mpcInit env (dvals vectors) nbhs (min nb.toNat m.managed.length) = .ok centers ∧
      centers.length = min nb.toNat m.managed.length := by
    rcases hin with hok | ⟨e, hlt⟩
    · exact hok
    · exfalso
      have h1 := nbhs_length h.inv hN
      rcases hc with hc | hc
      · have hcm := components_le_managed h.inv
        omega
      · refine absurd e (hsep (fun P hP => nbhs_ne_nil h.inv hN hP) (fun centers ec' => ?_))
        obtain ⟨c', e', hf'⟩ := mpcMeans_ok env hltX
        rw [ec'] at e'
        cases e'
        exact hc nbhs centers hN hf'
  obtain ⟨centers, ei, hcl⟩ := hinit
  have hr : MpcReady m.managed.length (dvals vectors) mlg clg (InferredAt m .mustLink) (InferredAt m .cannotLink) :=
    ⟨hX, hmlg, hclg, fun i j hij => hij.lt.2, fun i j hij => hij.lt.2⟩
  obtain ⟨labels, hl⟩ := mpcLoop_total ha hr (nb := min nb.toNat m.managed.length) (by omega) (by omega) hfar p.maxIteration 0 hcl env.identity []
  have hlab : mpcLabels env p m.managed.length (min nb.toNat m.managed.length) ml cl (dvals vectors) = .ok labels := by
    unfold mpcLabels
    simp only [bind, Except.bind, h5, ei, hl]
  obtain ⟨g1, g2, g3⟩ := mpcLabels_result ha hp h.inv (by omega) em ec hlab
  obtain ⟨r0, extra, hres, -⟩ := mpcCluster_of_labels (by omega) hv em ec g2 (Nat.min_le_right _ _) hlen hlab g3
  exact ⟨_, hres⟩

def mpcBig : Manager Nat := runOps (Manager.init [0, 1, 2, 3, 4, 5, 6, 7, 8, 9, 10, 11])
  [.addConstraint 0 1 "MUST_LINK" 1, .addConstraint 2 3 "MUST_LINK" 1, .addConstraint 2 0 "CANNOT_LINK" 1]

def mpcBigVectors : Dict Nat Int := (List.range 12).map fun (i : Nat) => (i, ((i * i : Nat) : Int))

example : Reachable mpcBig ∧ (∀ c ∈ mpcBig.components, c.length ≤ mpcDemoEnv.depth) ∧ (dkeys mpcBigVectors).Nodup ∧
    mpcBigVectors.length = mpcBig.managed.length ∧ (∀ A, FarApart mpcDemoEnv A (dvals mpcBigVectors)) ∧
    10 ≤ mpcBig.managed.length ∧ (mpcBig.components.length : Int) ≤ 10 :=
  ⟨⟨_, _, rfl⟩, by decide +kernel, by decide +kernel, by decide +kernel, fun _ => ⟨1, 0, 1, 0, by decide +kernel, by decide +kernel,
    by decide +kernel, show (0 : Int) < (((1 - 0 : Int)).natAbs : Int) by decide⟩, by decide +kernel, by decide +kernel⟩

/-! ### C65 -/

/-- Only the positions of the vectors count: if two dictionaries have the same list of vectors, the
IDs at the same positions are grouped in the same way, whatever the IDs are. -/
theorem C65_positions {env : MpcEnv V κ θ} (ha : MpcAssumptions env) {p : MpcParams} (hp : 1 ≤ p.maxIteration) {m : Manager α}
    (h : Reachable m) {nb : Int} {vectors vectors' : Dict α V} (hv : (dkeys vectors).Nodup) (hv' : (dkeys vectors').Nodup)
    (hsame : dvals vectors = dvals vectors') {r : Dict α Int} (hr : mpcCluster env p m (some vectors) (some nb) = .ok r) :
    ∃ r', mpcCluster env p m (some vectors') (some nb) = .ok r' ∧
      ∀ (i j : Nat) (x y x' y' : α), (dkeys vectors)[i]? = some x → (dkeys vectors)[j]? = some y →
        (dkeys vectors')[i]? = some x' → (dkeys vectors')[j]? = some y' →
        (dget? r x = dget? r y ↔ dget? r' x' = dget? r' y') := by
  obtain ⟨hnb, ml, cl, labels, em, ec, hl⟩ := mpcCluster_labels ha h.inv hr
  obtain ⟨g1, g2, g3⟩ := mpcLabels_result ha hp h.inv (by omega) em ec hl
  have hlen : vectors.length = m.managed.length := by rw [← g1]; simp [dvals]
  have hlen' : vectors'.length = m.managed.length := by rw [← g1, hsame]; simp [dvals]
  obtain ⟨r0, extra, h1, h2, -, -, h3, -⟩ := mpcCluster_of_labels hnb hv em ec g2 (Nat.min_le_right _ _) hlen hl g3
  obtain ⟨r0', extra', h1', h2', -, -, h3', -⟩ := mpcCluster_of_labels hnb hv' em ec g2 (Nat.min_le_right _ _) hlen' (by rw [← hsame]; exact hl) g3
  rw [hr] at h1
  cases h1
  refine ⟨_, h1', fun i j x y x' y' hx hy hx' hy' => ?_⟩
  have happ : ∀ (d e : Dict α Int) (z : α), z ∈ dkeys d → dget? (d ++ e) z = dget? d z := by
    intro d e z hz
    rw [dget?_append]
    obtain ⟨v, hv⟩ := dget?_isSome_of_mem hz
    rw [hv]
    rfl
  have hin : ∀ z ∈ dkeys vectors, z ∈ dkeys r0 := fun z hz => by rw [h2, List.mem_insertionSort]; exact hz
  have hin' : ∀ z ∈ dkeys vectors', z ∈ dkeys r0' := fun z hz => by rw [h2', List.mem_insertionSort]; exact hz
  rw [happ _ _ x (hin x (List.mem_of_getElem? hx)), happ _ _ y (hin y (List.mem_of_getElem? hy)),
    happ _ _ x' (hin' x' (List.mem_of_getElem? hx')), happ _ _ y' (hin' y' (List.mem_of_getElem? hy')),
    h3 i j x y hx hy, h3' i j x' y' hx' hy']

/-- The same vectors in another order: the must-link between 1 and 2 is honoured in the order of the
manager and violated in the other, where it is applied to other IDs. -/
theorem C65_order_matters : ∃ (env : MpcEnv Int Int Unit) (m : Manager Nat) (v v' : Dict Nat Int) (r r' : Dict Nat Int),
    MpcAssumptions env ∧ Reachable m ∧ v.Perm v' ∧ (dkeys v).Nodup ∧ HasVectors m v ∧
    m.getInferred 1 2 = .ok (some .mustLink) ∧ m.getInferred 1 3 = .ok (some .cannotLink) ∧
    mpcCluster env ⟨10⟩ m (some v) (some 2) = .ok r ∧ mpcCluster env ⟨10⟩ m (some v') (some 2) = .ok r' ∧
    LabelsRespect m r ∧ dget? r' 1 ≠ dget? r' 2 ∧ dget? r' 1 = dget? r' 3 := by
  refine ⟨mpcDemoEnv, mpcDemo, mpcDemoVectors, [(1, 10), (2, 50), (4, 52), (3, 0)], [(1, 0), (2, 0), (3, 1), (4, 0)],
    [(1, 0), (2, 1), (3, 0), (4, 1)], mpcDemo_ok, mpcDemo_reachable, by decide +kernel, by decide +kernel, ?_, by decide +kernel,
    by decide +kernel, by decide +kernel, by decide +kernel, ?_, by decide +kernel, by decide +kernel⟩
  · unfold HasVectors
    simp only [exists_dget?_iff]
    decide +kernel
  · intro x y
    have hmem : ∀ t, mpcDemo.getInferred x y = .ok t → x ∈ mpcDemo.managed ∧ y ∈ mpcDemo.managed := fun t ht =>
      mem_of_getInferred mpcDemo_reachable.inv ht
    have hall : ∀ x ∈ mpcDemo.managed, ∀ y ∈ mpcDemo.managed,
        (mpcDemo.getInferred x y = .ok (some .mustLink) → dget? [(1, (0 : Int)), (2, 0), (3, 1), (4, 0)] x = dget? [(1, 0), (2, 0), (3, 1), (4, 0)] y) ∧
        (mpcDemo.getInferred x y = .ok (some .cannotLink) → dget? [(1, (0 : Int)), (2, 0), (3, 1), (4, 0)] x ≠ dget? [(1, 0), (2, 0), (3, 1), (4, 0)] y) := by
      decide +kernel
    exact ⟨fun ht => (hall x (hmem _ ht).1 y (hmem _ ht).2).1 ht, fun ht => (hall x (hmem _ ht).1 y (hmem _ ht).2).2 ht⟩

example : (dkeys mpcDemoVectors).Nodup ∧ (dkeys ([(4, 0), (2, 10), (3, 50), (1, 52)] : Dict Nat Int)).Nodup ∧
    dvals mpcDemoVectors = dvals ([(4, 0), (2, 10), (3, 50), (1, 52)] : Dict Nat Int) := by decide +kernel

/-! ### C66 -/

/-- The arg-min loop is greedy: for every point, in the order of the shuffle, the label is the first
cluster with the smallest penalised distance, where the penalties count the inferred constraints
with the points that come before in that order and with no others. -/
theorem C66_greedy {κ : Type} [LinearOrder κ] [AddCommMonoid κ] {env : MpcEnv V κ θ} (ha : MpcAssumptions env)
    (hadd : ∀ a b, env.add a b = a + b) (hzero : env.zero = 0) {m : Manager α} {X : List V} {ml cl : Graph}
    (hX : X.length = m.managed.length) (hml : GraphOf m.managed.length ml (InferredAt m .mustLink))
    (hcl : GraphOf m.managed.length cl (InferredAt m .cannotLink)) (A : θ) (far : κ) {centers : List V} (hne : centers ≠ [])
    (it : Nat) :
    ∃ t : List Int,
      (env.shuffle it X.length).foldlM (mpcAssignStep env A far X centers ml cl) (List.replicate X.length (-1)) = .ok t ∧
      ∀ before i after x, env.shuffle it X.length = before ++ i :: after → X[i]? = some x →
        ∃ (c : Nat) (y : V), t[i]? = some (c : Int) ∧ centers[c]? = some y ∧ ∀ (d : Nat) (z : V), centers[d]? = some z →
          penalised env A far m X (fun j => if j ∈ before then (t[j]?).getD (-1) else -1) x y i c ≤
            penalised env A far m X (fun j => if j ∈ before then (t[j]?).getD (-1) else -1) x z i d ∧
          (d < c → penalised env A far m X (fun j => if j ∈ before then (t[j]?).getD (-1) else -1) x y i c <
            penalised env A far m X (fun j => if j ∈ before then (t[j]?).getD (-1) else -1) x z i d) := by
  classical
  have hr : MpcReady m.managed.length X ml cl (InferredAt m .mustLink) (InferredAt m .cannotLink) :=
    ⟨hX, hml, hcl, fun i j hij => hij.lt.2, fun i j hij => hij.lt.2⟩
  have hp := ha.shuffle it X.length
  obtain ⟨t, e, hl, -, hsplit⟩ := mpcAssignLoop_ok ha.enum hr A far hne (o := env.shuffle it X.length)
    (hp.nodup_iff.2 List.nodup_range) (fun i hi => by
      rw [← hX]; exact List.mem_range.1 (hp.mem_iff.1 hi)) (s := List.replicate X.length (-1)) (by simp [hX])
  refine ⟨t, e, fun before i after x hsp hx => ?_⟩
  obtain ⟨L, hL, hLj, c, htc, hc, a, hca, hmin⟩ := hsplit before i after hsp
  have hin : i < m.managed.length := by rw [← hX]; exact (List.getElem?_eq_some_iff.1 hx).1
  have hLeq : ∀ j, (L[j]?).getD (-1) = if j ∈ before then (t[j]?).getD (-1) else -1 := by
    intro j
    rw [hLj j]
    by_cases hj : j ∈ before
    · simp [hj]
    · rw [if_neg hj, if_neg hj, List.getElem?_replicate]
      split <;> rfl
  have hsum : ∀ (M : List Nat) (P : Nat → Prop) [DecidablePred P] (R : Nat → Prop) (w : Nat → κ) (t0 : κ), M.Nodup → (∀ j, j ∈ M ↔ R j) → (∀ j, R j → j < m.managed.length) →
      M.foldl (fun t j => if P j then t + w j else t) t0 =
        t0 + ∑ j ∈ (Finset.range m.managed.length).filter (fun j => R j ∧ P j), w j := by
    intro M P _ R w t0 hM hMR hRn
    have h1 : ∀ (M : List Nat) (t0 : κ), M.Nodup → M.foldl (fun t j => if P j then t + w j else t) t0 = t0 + ∑ j ∈ M.toFinset.filter P, w j := by
      intro M
      induction M with
      | nil => intro t0 _; simp
      | cons b M ih =>
        intro t0 hb
        obtain ⟨hb1, hb2⟩ := List.nodup_cons.1 hb
        rw [List.foldl_cons, ih _ hb2, List.toFinset_cons, Finset.filter_insert]
        split
        · rw [Finset.sum_insert (by simp [hb1]), add_assoc]
        · rfl
    rw [h1 M t0 hM]
    congr 1
    apply Finset.sum_congr _ (fun _ _ => rfl)
    ext j
    simp only [Finset.mem_filter, List.mem_toFinset, Finset.mem_range, hMR]
    constructor
    · rintro ⟨h2, h3⟩
      exact ⟨hRn j h2, h2, h3⟩
    · rintro ⟨-, h2, h3⟩
      exact ⟨h2, h3⟩
  have hobj : ∀ (d : Nat) (z : V), centers[d]? = some z → mpcObjective env A far X centers ml cl L i d =
      .ok (penalised env A far m X (fun j => if j ∈ before then (t[j]?).getD (-1) else -1) x z i d) := by
    intro d z hz
    obtain ⟨x', z', M, C, hx', hz', hM, hC, hMR, hCS, hval⟩ := mpcObjective_ok ha.enum hr A far (centers := centers) hL hin
      (List.getElem?_eq_some_iff.1 hz).1
    rw [hx] at hx'; cases hx'
    rw [hz] at hz'; cases hz'
    rw [hval x]
    congr 1
    simp only [hadd, hzero]
    rw [hsum M (fun j => 0 ≤ (L[j]?).getD (-1) ∧ (L[j]?).getD (-1) ≠ (d : Int)) (InferredAt m .mustLink i)
        (fun j => env.termM A x ((X[j]?).getD x)) 0 hM hMR (fun j hj => hj.lt.2),
      hsum C (fun j => (L[j]?).getD (-1) = (d : Int)) (InferredAt m .cannotLink i)
        (fun j => env.termC A far x ((X[j]?).getD x)) 0 hC hCS (fun j hj => hj.lt.2), zero_add, zero_add]
    unfold penalised
    simp only [hLeq]
    congr 1
    · congr 1
      apply Finset.sum_congr (by congr)
      intro j hj
      have hjX : j < X.length := by
        rw [hX]
        simp only [Finset.mem_filter, Finset.mem_range] at hj
        exact hj.1
      rw [List.getElem?_eq_getElem hjX]
      rfl
    · apply Finset.sum_congr (by congr)
      intro j hj
      have hjX : j < X.length := by
        rw [hX]
        simp only [Finset.mem_filter, Finset.mem_range] at hj
        exact hj.1
      rw [List.getElem?_eq_getElem hjX]
      rfl
  have hy := List.getElem?_eq_getElem hc
  refine ⟨c, _, htc, hy, fun d z hz => ?_⟩
  obtain ⟨b, hb, h1, h2⟩ := hmin d (List.getElem?_eq_some_iff.1 hz).1
  rw [hobj c _ hy] at hca
  cases hca
  rw [hobj d z hz] at hb
  cases hb
  exact ⟨h1, h2⟩

example : MpcAssumptions mpcDemoEnv ∧ (∀ a b, mpcDemoEnv.add a b = a + b) ∧ mpcDemoEnv.zero = 0 ∧
    (dvals mpcDemoVectors).length = mpcDemo.managed.length ∧
    (∃ ml cl mlg clg nbhs, mpcPairs mpcDemo .mustLink = .ok ml ∧ mpcPairs mpcDemo .cannotLink = .ok cl ∧
      mpcPreprocess mpcDemoEnv.enum mpcDemoEnv.depth mpcDemo.managed.length ml cl = .ok (mlg, clg, nbhs) ∧
      GraphOf mpcDemo.managed.length mlg (InferredAt mpcDemo .mustLink) ∧
      GraphOf mpcDemo.managed.length clg (InferredAt mpcDemo .cannotLink) ∧ Neighborhoods mpcDemo nbhs) :=
  ⟨mpcDemo_ok, fun _ _ => rfl, rfl, by decide +kernel, C48_preprocess mpcDemo_ok.enum mpcDemo_reachable (by decide +kernel)⟩

end

/-! ### Each theorem applied to a concrete case -/

example := C48_preprocess mpcDemo_ok.enum mpcDemo_reachable (depth := 2) (by decide +kernel)

example := C62_recursion mpcDemo_ok.enum mpcDemo_reachable 1

example := C62_cluster (env := { mpcDemoEnv with depth := 1 }) ⟨mpcDemo_ok.enum, mpcDemo_ok.shuffle, mpcDemo_ok.pick, mpcDemo_ok.choice⟩
  (p := ⟨10⟩) mpcDemo_reachable (by decide +kernel) mpcDemoVectors (nb := 2) (by decide)

theorem mpcDemo_run : mpcCluster mpcDemoEnv ⟨10⟩ mpcDemo (some mpcDemoVectors) (some 2) = .ok [(1, 0), (2, 0), (3, 1), (4, 0)] := by
  decide +kernel

example := C63_result mpcDemo_ok (p := ⟨10⟩) (by decide) mpcDemo_reachable (by decide +kernel) mpcDemo_run

example := C63_managed mpcDemo_ok (p := ⟨10⟩) (by decide) mpcDemo_reachable (by decide +kernel)
  (by unfold HasVectors; simp only [exists_dget?_iff]; decide +kernel) mpcDemo_run

example := C64_fewer_vectors mpcDemo_ok (p := ⟨10⟩) mpcDemo_reachable (by decide +kernel) (vectors := [(3, 0), (1, 10), (2, 50)])
  (by decide +kernel) (nb := 2) (by decide)

example := C64_equal_points mpcDemo_ok (p := ⟨10⟩) (by decide) mpcDemo_reachable (by decide +kernel) (by decide +kernel)
  (vectors := [(3, 5), (1, 5), (2, 5), (4, 5)]) (by decide +kernel)
  (by
    rintro ⟨i, j, x, y, -, h2, h3, h4⟩
    have hx := List.mem_of_getElem? h2
    have hy := List.mem_of_getElem? h3
    simp only [dvals, List.map_cons, List.map_nil, List.mem_cons, List.not_mem_nil, or_false, or_self] at hx hy
    subst hx hy
    revert h4; decide) (nb := 3) (by decide)

example := C64_single mpcDemo_ok (p := ⟨10⟩) (by decide) (m := Manager.init [7]) ⟨_, [], rfl⟩ (by decide) (by decide +kernel)
  (vectors := [(7, 3)]) rfl (nb := 2) (by decide)

example := C65_positions mpcDemo_ok (p := ⟨10⟩) (by decide) mpcDemo_reachable (vectors := mpcDemoVectors)
  (vectors' := [(4, 0), (2, 10), (3, 50), (1, 52)]) (by decide +kernel) (by decide +kernel) (by decide +kernel) mpcDemo_run

end Verif
