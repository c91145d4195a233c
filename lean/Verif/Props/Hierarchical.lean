import Verif.Proofs.HierCut

/-
Properties C35 to C40, C54 and C55: hierarchical clustering. Specification vocabulary:
`Verif/Spec/Clustering.lean`, `Verif/Spec/Hierarchical.lean`.
-/

namespace Verif

variable {α V δ : Type} [LinearOrder α] [LinearOrder δ]

/-! Data of the examples: 1 and 3 must-linked; 1, 2 and 9 pairwise cannot-linked. -/

def hDemo : Manager Nat := runOps (Manager.init [3, 1, 2, 9, 5, 7])
  [.addConstraint 1 3 "MUST_LINK" 1, .addConstraint 1 2 "CANNOT_LINK" 1, .addConstraint 9 3 "CANNOT_LINK" 1,
   .addConstraint 2 9 "CANNOT_LINK" 1]

def hDemoVectors : Dict Nat Int := [(9, 50), (3, 20), (2, 80), (1, 40), (5, 79), (7, 56)]

def hDemoEnv : HierEnv Int Nat where
  metric a b := (a - b).natAbs
  mean l := l.sum / l.length
  ward l a b := l.sum / (a * b)

def hDemoObject : HObject Nat Int := ⟨.single, [], none, []⟩

theorem hDemo_hasVectors : HasVectors hDemo hDemoVectors := by
  unfold HasVectors; simp only [exists_dget?_iff]; decide +kernel

/-! ### The call -/

theorem hier_call {env : HierEnv V δ} (o : HObject α V) {m : Manager α} (h : Reachable m) {vectors : Dict α V}
    (hv : HasVectors m vectors) (hne : m.managed ≠ []) {nb : Int} (hnb : 2 ≤ nb) :
    ∃ root st l r, o.cluster env m (some vectors) (some nb) = (⟨o.linkage, m.managed, some root, st⟩, .ok r) ∧
      Built env o.linkage m vectors root st ∧ Explored .size st (min nb m.managed.length) [root] l ∧ CutResult m st l r := by
  obtain ⟨table, hT⟩ := distanceTable_total (metric := env.metric) hne hv
  obtain ⟨root, st, e1, hb⟩ := hBuild_ok o.linkage h.inv (pairTable_of_ok hT) hv hne
  obtain ⟨l, r, -, hE, e2, hr⟩ := hCut_ok h.inv hb (min nb m.managed.length) .size
  refine ⟨root, st, l, r, ?_, hb, hE, hr⟩
  unfold HObject.cluster
  simp only [if_neg (show ¬ nb < 2 by omega), hT, e1]
  unfold HObject.cut
  simp only [e2]

/-- A call that returns had vectors for all IDs, and `nb_clusters ≥ 2`. -/
theorem hier_args {env : HierEnv V δ} {o o' : HObject α V} {m : Manager α} {vectors : Option (Dict α V)} {nb : Option Int}
    {r : Dict α Int} (hr : o.cluster env m vectors nb = (o', .ok r)) :
    ∃ vs n, vectors = some vs ∧ nb = some n ∧ 2 ≤ n ∧ HasVectors m vs ∧ m.managed ≠ [] := by
  unfold HObject.cluster at hr
  cases vectors with
  | none => simp at hr
  | some vs =>
    cases nb with
    | none => simp at hr
    | some n =>
      simp only at hr
      by_cases hn : n < 2
      · rw [if_pos hn] at hr; simp at hr
      · rw [if_neg hn] at hr
        cases hT : distanceTable m vs env.metric with
        | error e => rw [hT] at hr; simp at hr
        | ok table => exact ⟨vs, n, rfl, rfl, by omega, hasVectors_of_table hT, nonempty_of_table hT⟩

theorem hier_ok {env : HierEnv V δ} {o o' : HObject α V} {m : Manager α} (h : Reachable m) {vectors : Option (Dict α V)}
    {nb : Option Int} {r : Dict α Int} (hr : o.cluster env m vectors nb = (o', .ok r)) :
    ∃ vs n root st l, vectors = some vs ∧ nb = some n ∧ 2 ≤ n ∧ m.managed ≠ [] ∧ o' = ⟨o.linkage, m.managed, some root, st⟩ ∧
      Built env o.linkage m vs root st ∧ Explored .size st (min n m.managed.length) [root] l ∧ CutResult m st l r := by
  obtain ⟨vs, n, rfl, rfl, hn, hv, hne⟩ := hier_args hr
  obtain ⟨root, st, l, r', e, hb, hE, hR⟩ := hier_call o h hv hne hn (env := env)
  rw [hr] at e
  cases e
  exact ⟨vs, n, root, st, l, rfl, rfl, hn, hne, rfl, hb, hE, hR⟩

/-! ### C35 to C37 -/

/-- Whenever `cluster` returns, the labels respect every inferred constraint. -/
theorem C35_constraints {env : HierEnv V δ} {o o' : HObject α V} {m : Manager α} (h : Reachable m)
    {vectors : Option (Dict α V)} {nb : Option Int} {r : Dict α Int}
    (hr : o.cluster env m vectors nb = (o', .ok r)) : LabelsRespect m r := by
  obtain ⟨vs, n, root, st, l, -, -, hn, hne, -, hb, hE, hR⟩ := hier_ok h hr
  have ht := hb.tree
  rw [labelsRespect_iff h.inv]
  refine ⟨fun x y hx hl => ?_, fun x y hl he => ?_⟩
  · obtain ⟨c, hc, hxc⟩ := hR.cut.exists hx
    exact (hR.same x hx y (hl.mem h.inv hx)).2 ⟨c, hc, hxc, ht.closed c x hxc y hl⟩
  · obtain ⟨hx, hy⟩ := hl.mem h.inv
    obtain ⟨c, hc, hxc, hyc⟩ := (hR.same x hx y hy).1 he
    by_cases hcr : c = root
    · subst hcr
      have hl1 : l = [c] := by
        rcases hE.count h.inv hb with h1 | ⟨h1, -⟩
        · exact h1
        · exact absurd hc h1
      subst hl1
      rcases hE.final with hf | ⟨-, d, hd, -, nd, hnd, h0⟩
      · -- one ID only
        rw [List.length_singleton] at hf
        have h1 : m.managed.length = 1 := by
          have := List.length_pos_iff.2 hne
          omega
        match hm : m.managed, h1 with
        | [a], _ =>
          rw [hm, List.mem_singleton] at hx hy
          subst hx; subst hy
          exact not_both h.inv (MustLinked.refl m _) hl
      · rw [List.mem_singleton] at hd
        subst hd
        have hcomp := (ht.leaf d nd hnd h0).1
        rw [membersOf_eq hnd] at hxc hyc
        exact not_both h.inv (((mem_component_iff h.inv hcomp hxc).2 y).1 hyc) hl
    · exact ht.nocl c hcr x hxc y hyc hl

/-- With the single linkage; the root has three children. -/
def hDemoResult : Dict Nat Int := [(1, 0), (2, 1), (3, 0), (5, 1), (7, 2), (9, 2)]

example : (hDemoObject.cluster hDemoEnv hDemo (some hDemoVectors) (some 2)).2 = .ok hDemoResult ∧
    hDemo.components.length = 5 ∧ hDemo.getInferred 3 9 = .ok (some .cannotLink) := by decide +kernel

example : ∀ link ∈ [Linkage.ward, .average, .complete],
    (({ hDemoObject with linkage := link } : HObject Nat Int).cluster hDemoEnv hDemo (some hDemoVectors) (some 4)).2.isOk := by
  decide +kernel

/-- On a non-empty manager whose IDs have vectors, with `nb_clusters ≥ 2`, `cluster` returns, with
labels `0..k-1` on exactly the managed IDs, and it made fewer merges than there are components.
(The two `while` loops have fuel in the model; `outOfFuel` is excluded as every other failure is.) -/
theorem C36_no_failure (env : HierEnv V δ) (o : HObject α V) {m : Manager α} (h : Reachable m) {vectors : Dict α V}
    (hv : HasVectors m vectors) (hne : m.managed ≠ []) {nb : Int} (hnb : 2 ≤ nb) :
    ∃ o' r, o.cluster env m (some vectors) (some nb) = (o', .ok r) ∧
      dkeys r = m.managed.insertionSort (· ≤ ·) ∧ FirstAppearanceOrder (dvals r) ∧
      (∃ k : Nat, 1 ≤ k ∧ k ≤ m.components.length ∧ LabelsAre (dvals r) k) ∧
      m.components.length ≤ o'.storage.length ∧ o'.storage.length - m.components.length < m.components.length := by
  obtain ⟨root, st, l, r, e, hb, hE, hR⟩ := hier_call (env := env) o h hv hne hnb
  have hsz := hb.size
  have hlab := hR.labels
  refine ⟨_, r, e, hR.keys, hR.order, ⟨l.length, ?_, ?_, hlab⟩, hsz.1, by simp only; omega⟩
  · obtain ⟨x, hx⟩ := List.exists_mem_of_ne_nil _ hne
    obtain ⟨c, hc, -⟩ := hR.cut.exists hx
    exact List.length_pos_of_mem hc
  · refine labels_le_components h.inv ?_ ?_ ((labelsRespect_iff h.inv).1 (C35_constraints h e)).1 hlab
    · rw [hR.keys]; exact (List.perm_insertionSort _ _).nodup_iff.2 h.inv.d.nodup
    · intro x hx; rw [hR.keys] at hx; exact (List.mem_insertionSort _).1 hx

example : HasVectors hDemo hDemoVectors ∧ hDemo.managed ≠ [] := ⟨hDemo_hasVectors, by decide +kernel⟩

/-- Missing or too small `nb_clusters`, and vectors that are not a dictionary, are refused; the tree
of the object stays as it was. -/
theorem C36_refused (env : HierEnv V δ) (o : HObject α V) (m : Manager α) (vectors : Option (Dict α V))
    (nb : Option Int) (hbad : vectors = none ∨ nb = none ∨ ∃ n, nb = some n ∧ n < 2) :
    ∃ w o', o.cluster env m vectors nb = (o', .error (.valueError w)) ∧ o'.root = o.root ∧ o'.storage = o.storage := by
  unfold HObject.cluster
  cases vectors with
  | none => exact ⟨_, _, rfl, rfl, rfl⟩
  | some vs =>
    cases nb with
    | none => exact ⟨_, _, rfl, rfl, rfl⟩
    | some n =>
      rcases hbad with h | h | ⟨k, h, hk⟩
      · cases h
      · cases h
      · cases h
        simp only [if_pos hk]
        exact ⟨_, _, rfl, rfl, rfl⟩

omit [LinearOrder α] in
/-- The constructor accepts exactly the four linkages. -/
theorem C36_init (linkage : String) : (∃ o : HObject α V, HObject.init linkage = .ok o) ↔
    linkage ∈ ["ward", "average", "complete", "single"] := by
  have key : (∃ k, Linkage.parse linkage = .ok k) ↔ linkage ∈ ["ward", "average", "complete", "single"] := by
    unfold Linkage.parse
    by_cases h1 : linkage = "ward"
    · simp [h1]
    by_cases h2 : linkage = "average"
    · simp [h2]
    by_cases h3 : linkage = "complete"
    · simp [h3]
    by_cases h4 : linkage = "single"
    · simp [h4]
    simp [h1, h2, h3, h4]
  rw [← key]
  unfold HObject.init
  cases Linkage.parse linkage with
  | error e =>
    constructor
    · rintro ⟨o, ho⟩; cases ho
    · rintro ⟨o, ho⟩; cases ho
  | ok k => exact ⟨fun _ => ⟨k, rfl⟩, fun _ => ⟨_, rfl⟩⟩

/-- After `cluster` the object holds a well-formed dendrogram. -/
theorem C37_dendrogram {env : HierEnv V δ} {o o' : HObject α V} {m : Manager α} (h : Reachable m)
    {vectors : Option (Dict α V)} {nb : Option Int} {r : Dict α Int}
    (hr : o.cluster env m vectors nb = (o', .ok r)) : ∃ root, o'.root = some root ∧ Dendrogram m root o'.storage := by
  obtain ⟨vs, n, root, st, l, -, -, -, -, rfl, hb, -⟩ := hier_ok h hr
  exact ⟨root, rfl, hb.dendrogram h.inv⟩

def hDemoTree : Dict Nat (HCluster Nat Int) :=
  [(0, ⟨0, [], 0, [1, 3], 30⟩), (1, ⟨0, [], 0, [2], 80⟩), (2, ⟨0, [], 0, [9], 50⟩), (3, ⟨0, [], 0, [5], 79⟩),
   (4, ⟨0, [], 0, [7], 56⟩), (5, ⟨1, [1, 3], 1, [2, 5], 79⟩), (6, ⟨2, [2, 4], 1, [9, 7], 53⟩),
   (7, ⟨3, [0, 5, 6], 2, [1, 3, 2, 5, 9, 7], 54⟩)]

example : (hDemoObject.cluster hDemoEnv hDemo (some hDemoVectors) (some 2)).1.root = some 7 ∧
    (hDemoObject.cluster hDemoEnv hDemo (some hDemoVectors) (some 2)).1.storage = hDemoTree := by decide +kernel

/-! ### C38 and C39: cuts -/

/-- Finer cuts refine coarser ones. -/
theorem C38_nested {env : HierEnv V δ} {o o' : HObject α V} {m : Manager α} (h : Reachable m)
    {vectors : Option (Dict α V)} {nb : Option Int} {r : Dict α Int} (hr : o.cluster env m vectors nb = (o', .ok r))
    {k1 k2 : Int} (hk : k1 ≤ k2) {by_ : CutBy} {r1 r2 : Dict α Int} (h1 : o'.cut k1 by_ = .ok r1) (h2 : o'.cut k2 by_ = .ok r2)
    {x y : α} (hx : x ∈ m.managed) (hy : y ∈ m.managed) (he : dget? r2 x = dget? r2 y) : dget? r1 x = dget? r1 y := by
  obtain ⟨vs, n, root, st, l, -, -, -, -, rfl, hb, -⟩ := hier_ok h hr
  exact hCut_nested h.inv hb hk h1 h2 hx hy he

/-- The two cuts exist; they differ in the example. -/
theorem C38_cuts {env : HierEnv V δ} {o o' : HObject α V} {m : Manager α} (h : Reachable m)
    {vectors : Option (Dict α V)} {nb : Option Int} {r : Dict α Int} (hr : o.cluster env m vectors nb = (o', .ok r))
    (k : Int) (by_ : CutBy) : ∃ r1 c, o'.cut k by_ = .ok r1 ∧ dkeys r1 = m.managed.insertionSort (· ≤ ·) ∧
      FirstAppearanceOrder (dvals r1) ∧ LabelsAre (dvals r1) c := by
  obtain ⟨vs, n, root, st, l, -, -, -, -, rfl, hb, -⟩ := hier_ok h hr
  obtain ⟨l, r1, -, -, e, hR⟩ := hCut_ok h.inv hb k by_
  exact ⟨r1, l.length, e, hR.keys, hR.order, hR.labels⟩

example : hCut hDemo.managed hDemoTree 7 2 .iteration = .ok hDemoResult ∧
    hCut hDemo.managed hDemoTree 7 4 .iteration = .ok [(1, 0), (2, 1), (3, 0), (5, 1), (7, 2), (9, 3)] ∧
    hCut hDemo.managed hDemoTree 7 4 .size = .ok hDemoResult := by decide +kernel

/-- The number of clusters of a cut by iteration at `2 ≤ k ≤` number of components: `k`, or the
number of children of the root if that is more. -/
theorem C39_iteration {env : HierEnv V δ} {o o' : HObject α V} {m : Manager α} (h : Reachable m)
    {vectors : Option (Dict α V)} {nb : Option Int} {r : Dict α Int} (hr : o.cluster env m vectors nb = (o', .ok r))
    {k : Nat} (h2 : 2 ≤ k) (hk : k ≤ m.components.length) :
    ∃ root n r', o'.root = some root ∧ dget? o'.storage root = some n ∧ o'.cut k .iteration = .ok r' ∧
      LabelsAre (dvals r') (max k n.children.length) := by
  obtain ⟨vs, nb', root, st, l, -, -, -, -, rfl, hb, -⟩ := hier_ok h hr
  obtain ⟨n, hn⟩ := hb.tree.keys.exists (hb.tree.cur root (by simp))
  obtain ⟨l, r', -, hE, e, hR⟩ := hCut_ok h.inv hb k .iteration
  refine ⟨root, n, r', rfl, hn, e, ?_⟩
  have hc := hE.count_iteration h.inv hb (by omega) (by omega)
  have hw : rootWidth st root = n.children.length := by unfold rootWidth; rw [hn]
  rw [hw] at hc
  have hl : l.length = max k n.children.length := by omega
  have := hR.labels
  rwa [hl] at this

/-- Exactly `k` clusters when the root has at most two children, at least `k` in any case. -/
theorem C39_iteration_exact {env : HierEnv V δ} {o o' : HObject α V} {m : Manager α} (h : Reachable m)
    {vectors : Option (Dict α V)} {nb : Option Int} {r : Dict α Int} (hr : o.cluster env m vectors nb = (o', .ok r))
    {k : Nat} (h1 : 1 ≤ k) (hk : k ≤ m.components.length) :
    ∃ root n r' c, o'.root = some root ∧ dget? o'.storage root = some n ∧ o'.cut k .iteration = .ok r' ∧
      LabelsAre (dvals r') c ∧ k ≤ c ∧ (n.children.length ≤ 2 → c = k) := by
  by_cases h2 : 2 ≤ k
  · obtain ⟨root, n, r', e1, e2, e3, e4⟩ := C39_iteration h hr h2 hk
    exact ⟨root, n, r', _, e1, e2, e3, e4, by omega, by omega⟩
  · obtain ⟨vs, nb', root, st, l, -, -, -, -, rfl, hb, -⟩ := hier_ok h hr
    obtain ⟨n, hn⟩ := hb.tree.keys.exists (hb.tree.cur root (by simp))
    obtain ⟨l, r', -, hE, e, hR⟩ := hCut_ok h.inv hb k .iteration
    refine ⟨root, n, r', l.length, rfl, hn, e, hR.labels, ?_, fun _ => ?_⟩
    all_goals
      have hl : l = [root] := by
        cases hE with
        | enough _ => rfl
        | leaf _ _ _ _ _ => rfl
        | split hlt _ _ _ _ _ => rw [List.length_singleton] at hlt; omega
      rw [hl, List.length_singleton]
      omega

/-- The root of the example has three children, so that `k = 2` gives three clusters. -/
example : hCut hDemo.managed hDemoTree 7 2 .iteration = .ok hDemoResult ∧
    (hDemoResult.map (·.2)).max? = some 2 ∧ 3 ≤ hDemo.components.length := by decide +kernel

/-- With either criterion, a cut at `k` gives at most `k` clusters, or as many as the root has children if
that is more. -/
theorem C39_upper {env : HierEnv V δ} {o o' : HObject α V} {m : Manager α} (h : Reachable m)
    {vectors : Option (Dict α V)} {nb : Option Int} {r : Dict α Int} (hr : o.cluster env m vectors nb = (o', .ok r))
    {k : Nat} (h1 : 1 ≤ k) (by_ : CutBy) :
    ∃ root n r' c, o'.root = some root ∧ dget? o'.storage root = some n ∧ o'.cut k by_ = .ok r' ∧
      LabelsAre (dvals r') c ∧ c ≤ max k n.children.length := by
  obtain ⟨vs, nb', root, st, l, -, -, -, -, rfl, hb, -⟩ := hier_ok h hr
  obtain ⟨n, hn⟩ := hb.tree.keys.exists (hb.tree.cur root (by simp))
  obtain ⟨l, r', -, hE, e, hR⟩ := hCut_ok h.inv hb k by_
  refine ⟨root, n, r', l.length, rfl, hn, e, hR.labels, ?_⟩
  have hw : rootWidth st root = n.children.length := by unfold rootWidth; rw [hn]
  rcases hE.count h.inv hb with rfl | ⟨-, -, -, h4⟩
  · rw [List.length_singleton]; omega
  · rw [hw] at h4; omega

/-- Five must-linked IDs and three others. -/
def hShort : Manager Nat := runOps (Manager.init [1, 2, 3, 4, 5, 6, 7, 8])
  [.addConstraint 1 2 "MUST_LINK" 1, .addConstraint 2 3 "MUST_LINK" 1, .addConstraint 3 4 "MUST_LINK" 1,
   .addConstraint 4 5 "MUST_LINK" 1]

def hShortVectors : Dict Nat Int := [(1, 0), (2, 0), (3, 1), (4, 0), (5, 0), (6, 100), (7, 101), (8, 103)]

/-- By size, fewer than `k` clusters can be returned although there are more components: here
`cluster` with `nb_clusters = 3` returns two clusters, whereas the cut by iteration gives three. -/
theorem C39_size_shortfall : ∃ (m : Manager Nat) (vectors : Dict Nat Int) (o' : HObject Nat Int) (r r' : Dict Nat Int),
    Reachable m ∧ hDemoObject.cluster hDemoEnv m (some vectors) (some 3) = (o', .ok r) ∧ m.components.length = 4 ∧
      LabelsAre (dvals r) 2 ∧ o'.cut 3 .iteration = .ok r' ∧ LabelsAre (dvals r') 3 := by
  refine ⟨hShort, hShortVectors, (hDemoObject.cluster hDemoEnv hShort (some hShortVectors) (some 3)).1,
    [(1, 0), (2, 0), (3, 0), (4, 0), (5, 0), (6, 1), (7, 1), (8, 1)],
    [(1, 0), (2, 0), (3, 0), (4, 0), (5, 0), (6, 1), (7, 1), (8, 2)], ⟨_, _, rfl⟩, ?_, by decide +kernel, ?_,
    by decide +kernel, ?_⟩
  · rw [Prod.ext_iff]
    exact ⟨rfl, by decide +kernel⟩
  · intro d
    simp only [dvals, List.map_cons, List.map_nil, List.mem_cons, List.not_mem_nil, or_false]
    omega
  · intro d
    simp only [dvals, List.map_cons, List.map_nil, List.mem_cons, List.not_mem_nil, or_false]
    omega

/-! ### C40: histories of calls on one object -/

/-- A cut is refused with `ValueError` until a call of `cluster` has returned; afterwards it never
raises, whatever the later calls. -/
theorem C40_cut {env : HierEnv V δ} {o : HObject α V} {b : Bool} (hH : HHistory env o b) (nb : Int) (by_ : CutBy) :
    (b = false → o.cut nb by_ = .error (.valueError "clustering_root")) ∧ (b = true → ∃ r, o.cut nb by_ = .ok r) := by
  have key : (b = false → o.root = none) ∧ (b = true → ∃ (m : Manager α) (vs : Dict α V) (link : Linkage) (root : Nat),
      Reachable m ∧ o.root = some root ∧ Built env link m vs root o.storage) := by
    induction hH with
    | @init linkage o ho =>
      refine ⟨fun _ => ?_, fun h => by cases h⟩
      unfold HObject.init at ho
      cases hl : Linkage.parse linkage with
      | error e => rw [hl] at ho; cases ho
      | ok k => rw [hl] at ho; cases ho; rfl
    | @cluster o b m vectors nb _ hm ih =>
      cases hc : o.cluster env m vectors nb with
      | mk o' res =>
        cases res with
        | ok r =>
          obtain ⟨vs, n, root, st, l, -, -, -, -, rfl, hb, -⟩ := hier_ok hm hc
          refine ⟨fun h => ?_, fun _ => ⟨m, vs, _, root, hm, rfl, hb⟩⟩
          simp [Except.isOk, Except.toBool] at h
        | error e =>
          have hkeep : o'.root = o.root ∧ o'.storage = o.storage := by
            unfold HObject.cluster at hc
            cases vectors with
            | none => cases hc; exact ⟨rfl, rfl⟩
            | some vs =>
              cases nb with
              | none => cases hc; exact ⟨rfl, rfl⟩
              | some n =>
                simp only at hc
                by_cases hn : n < 2
                · rw [if_pos hn] at hc; cases hc; exact ⟨rfl, rfl⟩
                · cases hT : distanceTable m vs env.metric with
                  | error e => rw [if_neg hn, hT] at hc; cases hc; exact ⟨rfl, rfl⟩
                  | ok table =>
                    obtain ⟨root, st, l, r, e', -⟩ := hier_call (env := env) o hm (hasVectors_of_table hT)
                      (nonempty_of_table hT) (show 2 ≤ n by omega)
                    unfold HObject.cluster at e'
                    simp only at e'
                    rw [hc] at e'
                    cases e'
          simp only [Except.isOk, Except.toBool, Bool.or_false, hkeep.1, hkeep.2]
          exact ih
  unfold HObject.cut
  constructor
  · intro hb
    rw [key.1 hb]
  · intro hb
    obtain ⟨m, vs, link, root, hm, hr, hB⟩ := key.2 hb
    rw [hr]
    exact hCut_any hm.inv hB o.ids nb by_

/-- A refused call, a successful one, and another refused one. -/
example : HHistory hDemoEnv (((hDemoObject.cluster hDemoEnv hDemo (some hDemoVectors) (some 1)).1.cluster hDemoEnv hDemo
    (some hDemoVectors) (some 2)).1.cluster hDemoEnv hShort none none).1 true := by
  have h0 : HHistory hDemoEnv hDemoObject false := .init (linkage := "single") rfl
  have h1 := h0.cluster (m := hDemo) (vectors := some hDemoVectors) (nb := some 1) (⟨_, _, rfl⟩)
  have h2 := h1.cluster (m := hDemo) (vectors := some hDemoVectors) (nb := some 2) (⟨_, _, rfl⟩)
  have h3 := h2.cluster (m := hShort) (vectors := none) (nb := none) (⟨_, _, rfl⟩)
  have e : (false || (hDemoObject.cluster hDemoEnv hDemo (some hDemoVectors) (some 1)).2.isOk ||
      ((hDemoObject.cluster hDemoEnv hDemo (some hDemoVectors) (some 1)).1.cluster hDemoEnv hDemo
        (some hDemoVectors) (some 2)).2.isOk || (((hDemoObject.cluster hDemoEnv hDemo (some hDemoVectors) (some 1)).1.cluster
        hDemoEnv hDemo (some hDemoVectors) (some 2)).1.cluster hDemoEnv hShort none none).2.isOk) = true := by decide +kernel
  rw [e] at h3
  exact h3

/-- Finding: a refused call replaces the list of IDs, so that a later cut mixes the tree of the
successful call with the IDs of the refused one: here the labels of 4, 6 and 8, which are not in
the tree, are those of the initial value `-1`, renamed. -/
theorem finding_refused_call_changes_ids :
    let o1 := (hDemoObject.cluster hDemoEnv hDemo (some hDemoVectors) (some 2)).1
    let o2 := (o1.cluster hDemoEnv hShort (some hShortVectors) (some 1)).1
    (o1.cluster hDemoEnv hShort (some hShortVectors) (some 1)).2 = .error (.valueError "nb_clusters") ∧
    o1.cut 2 .size = .ok hDemoResult ∧
    o2.cut 2 .size = .ok [(1, 0), (2, 1), (3, 0), (4, 2), (5, 1), (6, 2), (7, 3), (8, 2), (9, 3)] := by decide +kernel

/-- Finding: a cut in one cluster is accepted and puts cannot-linked IDs together. -/
theorem finding_cut_one_cluster :
    (hDemoObject.cluster hDemoEnv hDemo (some hDemoVectors) (some 2)).1.cut 1 .size =
      .ok [(1, 0), (2, 0), (3, 0), (5, 0), (7, 0), (9, 0)] ∧ hDemo.getInferred 1 2 = .ok (some .cannotLink) := by
  decide +kernel

/-- Finding: on an empty manager `cluster` raises, from `vstack` of no rows. -/
theorem finding_hier_empty_manager (env : HierEnv V δ) (o : HObject α V) {m : Manager α}
    (hm : m.managed = []) (vectors : Dict α V) {nb : Int} (hnb : 2 ≤ nb) :
    (o.cluster env m (some vectors) (some nb)).2 = .error (.valueError "vstack") := by
  have hT : distanceTable m vectors env.metric = .error (.valueError "vstack") := by
    unfold distanceTable; rw [hm]; rfl
  unfold HObject.cluster
  simp only [if_neg (show ¬ nb < 2 by omega), hT]

/-! ### C54 and C55: the merging -/

/-- Every inner node is the merge of the two closest clusters at the time of its creation, except
possibly the root, which may be the merge of all the clusters, any two of them opposed. -/
theorem C54_closest_merge {env : HierEnv V δ} {o o' : HObject α V} {m : Manager α} (h : Reachable m)
    {vectors : Dict α V} {nb : Option Int} {r : Dict α Int} (hr : o.cluster env m (some vectors) nb = (o', .ok r))
    {i : Nat} {n : HCluster α V} (hn : dget? o'.storage i = some n) (hne : n.children ≠ []) :
    ClosestMerge env o.linkage m vectors o'.storage i n ∨ (o'.root = some i ∧ ForcedMerge m o'.storage i n) := by
  obtain ⟨vs, n', root, st, l, hvs, -, -, -, rfl, hb, -⟩ := hier_ok h hr
  cases hvs
  rcases hb.kind i n hn hne with h1 | ⟨rfl, h1⟩
  · exact .inl h1
  · exact .inr ⟨rfl, h1⟩

/-- The nodes 5 and 6 of the example are of the first kind and 7 is of the second. -/
example : (dget? hDemoTree 6).map (·.children) = some [2, 4] ∧ (dget? hDemoTree 7).map (·.children) = some [0, 5, 6] := by
  decide +kernel

/-- A cut by iteration gives a state that the merging went through: the clusters that existed when
some cluster `i` was created (all of them, if `i` is the next ID). -/
theorem C55_cut_is_merging_state {env : HierEnv V δ} {o o' : HObject α V} {m : Manager α} (h : Reachable m)
    {vectors : Option (Dict α V)} {nb : Option Int} {r : Dict α Int} (hr : o.cluster env m vectors nb = (o', .ok r))
    {k : Int} {r' : Dict α Int} (h' : o'.cut k .iteration = .ok r') :
    ∃ i, m.components.length ≤ i ∧ i ≤ o'.storage.length ∧ ∀ x ∈ m.managed, ∀ y ∈ m.managed,
      (dget? r' x = dget? r' y ↔ ∃ j, Alive o'.storage i j ∧ x ∈ membersOf o'.storage j ∧ y ∈ membersOf o'.storage j) := by
  obtain ⟨vs, n', root, st, l, -, -, -, -, rfl, hb, -⟩ := hier_ok h hr
  obtain ⟨l, r'', -, hE, e, hR⟩ := hCut_ok h.inv hb k .iteration
  have e' : hCut m.managed st root k .iteration = .ok r' := h'
  rw [e] at e'
  cases e'
  obtain ⟨i, h1, h2, h3⟩ := hE.alive h.inv hb
  refine ⟨i, h1, h2, fun x hx y hy => ?_⟩
  rw [hR.same x hx y hy]
  constructor
  · rintro ⟨c, hc, hh⟩; exact ⟨c, (h3 c).1 hc, hh⟩
  · rintro ⟨c, hc, hh⟩; exact ⟨c, (h3 c).2 hc, hh⟩

example : (hDemoObject.cluster hDemoEnv hDemo (some hDemoVectors) (some 2)).1.cut 4 .iteration =
    .ok [(1, 0), (2, 1), (3, 0), (5, 1), (7, 2), (9, 3)] := by decide +kernel

/-! ### Each theorem applied to a concrete case -/

/-- The object left by the call of the examples. -/
def hDemoAfter : HObject Nat Int := (hDemoObject.cluster hDemoEnv hDemo (some hDemoVectors) (some 2)).1

theorem hDemo_run : hDemoObject.cluster hDemoEnv hDemo (some hDemoVectors) (some 2) = (hDemoAfter, .ok hDemoResult) :=
  Prod.ext_iff.2 ⟨rfl, by decide +kernel⟩

example := C35_constraints ⟨_, _, rfl⟩ hDemo_run

example := C36_no_failure hDemoEnv hDemoObject (m := hDemo) ⟨_, _, rfl⟩ hDemo_hasVectors (by decide +kernel) (nb := 2) (by decide)

example := C36_refused hDemoEnv hDemoObject hDemo (some hDemoVectors) (some 1) (.inr (.inr ⟨1, rfl, by decide⟩))

example := C37_dendrogram ⟨_, _, rfl⟩ hDemo_run

example := C38_nested ⟨_, _, rfl⟩ hDemo_run (k1 := 2) (k2 := 4) (by decide) (by_ := .iteration) (r1 := hDemoResult)
  (r2 := [(1, 0), (2, 1), (3, 0), (5, 1), (7, 2), (9, 3)]) (by decide +kernel) (by decide +kernel) (x := 2) (y := 5)
  (by decide +kernel) (by decide +kernel) (by decide +kernel)

example := C38_cuts ⟨_, _, rfl⟩ hDemo_run 4 .iteration

example := C39_iteration ⟨_, _, rfl⟩ hDemo_run (k := 4) (by decide) (by decide +kernel)

example := C39_iteration_exact ⟨_, _, rfl⟩ hDemo_run (k := 1) (by decide) (by decide +kernel)

example := C39_upper ⟨_, _, rfl⟩ hDemo_run (k := 4) (by decide) .size

example := C54_closest_merge ⟨_, _, rfl⟩ hDemo_run (i := 6) (n := ⟨2, [2, 4], 1, [9, 7], 53⟩) (by decide +kernel) (by decide)

example := C55_cut_is_merging_state ⟨_, _, rfl⟩ hDemo_run (k := 4) (r' := [(1, 0), (2, 1), (3, 0), (5, 1), (7, 2), (9, 3)])
  (by decide +kernel)

end Verif
