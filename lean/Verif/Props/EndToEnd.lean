import Verif.Spec.Loop
import Verif.Props.Sampling
import Verif.Props.KMeans
import Verif.Props.Hierarchical
import Verif.Props.DBScan

/-
Properties C69 to C71: constraints, sampling and clustering together. Specification vocabulary:
`Verif/Spec/Loop.lean`.
-/

namespace Verif

variable {α V δ : Type} [LinearOrder α] [LinearOrder δ]

/-! ### C69 -/

theorem Algo.labels {a : Algo α V δ} (ha : a.Ok) {m : Manager α} (hm : Reachable m) {vectors : Dict α V}
    (hv : HasVectors m vectors) {nb : Int} {r : Dict α Int} (hr : a.run m vectors nb = .ok r) :
    LabelsRespect m r ∧ dkeys r = m.managed.insertionSort (· ≤ ·) ∧ FirstAppearanceOrder (dvals r) := by
  cases a with
  | kmeans env it =>
    obtain ⟨he, model, it', tol, hi⟩ := ha
    simp only [Algo.run] at hr
    cases hc : kmCluster env it m (some vectors) (some nb) with
    | error e => rw [hc] at hr; cases hr
    | ok p =>
      rw [hc] at hr
      obtain ⟨r', cs⟩ := p
      cases hr
      have h2 := C32_labels he hm hv hi hc
      exact ⟨C31_constraints he hm hv hi hc, h2.1, h2.2.1⟩
  | hierarchical env o =>
    simp only [Algo.run] at hr
    have hc : o.cluster env m (some vectors) (some nb) = ((o.cluster env m (some vectors) (some nb)).1, .ok r) := by
      rw [← hr]
    obtain ⟨vs, n, e1, e2, hn, -, hne⟩ := hier_args hc
    cases e2
    obtain ⟨o', r', e, hk, hf, -⟩ := C36_no_failure env o hm hv hne hn
    rw [hc] at e
    cases e
    exact ⟨C35_constraints hm hc, hk, hf⟩

theorem Algo.total {a : Algo α V δ} (ha : a.Ok) {m : Manager α} (hm : Reachable m) (hne : m.managed ≠ [])
    {vectors : Dict α V} (hv : HasVectors m vectors) {nb : Int} (hnb : 2 ≤ nb) : ∃ r, a.run m vectors nb = .ok r := by
  cases a with
  | kmeans env it =>
    obtain ⟨he, model, it', tol, hi⟩ := ha
    obtain ⟨r, cs, e⟩ := C33_no_failure he hm hv hne hi hnb
    exact ⟨r, by simp only [Algo.run, e]; rfl⟩
  | hierarchical env o =>
    obtain ⟨o', r, e, -⟩ := C36_no_failure env o hm hv hne hnb
    exact ⟨r, by simp only [Algo.run, e]⟩

/-- When every pair is known, both algorithms return the must-link classes: two IDs have the same
label iff they are must-linked. -/
theorem C69_complete_forces_partition {a : Algo α V δ} (ha : a.Ok) {m : Manager α} (hm : Reachable m)
    (hcomp : m.complete = true) {vectors : Dict α V} (hv : HasVectors m vectors) {nb : Int} {r : Dict α Int}
    (hr : a.run m vectors nb = .ok r) {x y : α} (hx : x ∈ m.managed) (hy : y ∈ m.managed) :
    dget? r x = dget? r y ↔ m.getInferred x y = .ok (some .mustLink) := by
  obtain ⟨h1, -⟩ := Algo.labels ha hm hv hr
  obtain ⟨t, ht⟩ := (C13_completude_exact hm).1 hcomp x hx y hy
  constructor
  · intro he
    cases t with
    | mustLink => exact ht
    | cannotLink => exact absurd he ((h1 x y).2 ht)
  · exact (h1 x y).1

/-- So the result does not depend on the algorithm, its parameters, the vectors, the random choices
or the number of clusters asked for: it is one and the same dictionary. -/
theorem C69_same_result {a b : Algo α V δ} (ha : a.Ok) (hb : b.Ok) {m : Manager α} (hm : Reachable m)
    (hcomp : m.complete = true) {vectors vectors' : Dict α V} (hv : HasVectors m vectors) (hv' : HasVectors m vectors')
    {nb nb' : Int} {r r' : Dict α Int} (hr : a.run m vectors nb = .ok r) (hr' : b.run m vectors' nb' = .ok r') :
    r = r' := by
  obtain ⟨-, hk, hf⟩ := Algo.labels ha hm hv hr
  obtain ⟨-, hk', hf'⟩ := Algo.labels hb hm hv' hr'
  have hn : (dkeys r).Nodup := by rw [hk]; exact (List.perm_insertionSort _ _).nodup_iff.2 hm.inv.d.nodup
  have hn' : (dkeys r').Nodup := by rw [hk']; exact (List.perm_insertionSort _ _).nodup_iff.2 hm.inv.d.nodup
  have hkk : dkeys r = dkeys r' := by rw [hk, hk']
  have hmem : ∀ x, x ∈ dkeys r → x ∈ m.managed := fun x hx => by rw [hk] at hx; exact (List.mem_insertionSort _).1 hx
  have hvals : ∀ d : Dict α Int, (dkeys d).Nodup → dvals d = (dkeys d).map (lab d) := by
    intro d hd
    unfold dvals dkeys
    rw [List.map_map]
    apply List.map_congr_left
    intro p hp
    show p.2 = lab d p.1
    rw [lab, dget?_of_mem hd hp]; rfl
  rw [hvals r hn] at hf
  rw [hvals r' hn', ← hkk] at hf'
  have huniq := firstAppearance_unique hf hf' (by
    intro x hx y hy
    have e1 := (C69_complete_forces_partition ha hm hcomp hv hr (hmem x hx) (hmem y hy)).trans
      (C69_complete_forces_partition hb hm hcomp hv' hr' (hmem x hx) (hmem y hy)).symm
    rw [dget?_lab hx, dget?_lab hy, dget?_lab (hkk ▸ hx), dget?_lab (hkk ▸ hy)] at e1
    simpa using e1)
  apply dict_ext hn hkk
  intro x
  by_cases hx : x ∈ dkeys r
  · rw [dget?_lab hx, dget?_lab (hkk ▸ hx), huniq x hx]
  · rw [dget?_eq_none_iff.2 hx, dget?_eq_none_iff.2 (hkk ▸ hx)]

/-- C-DBScan keeps one half of this: with complete constraints its clusters are inside the must-link
classes. -/
theorem C69_dbscan_refines {env : DbEnv α V δ} {p : DbParams δ} (ha : DbAssumptions env p) {m : Manager α}
    (hm : Reachable m) (hcomp : m.complete = true) {vectors : Option (Dict α V)} {nb : Option Int} {o : DbObject α}
    (hr : dbCluster env p m vectors nb = .ok o) {d : Dict α Int} (hd : o.predicted = some d) {x y : α}
    (hx : x ∈ m.managed) (hy : y ∈ m.managed) (he : dget? d x = dget? d y) :
    m.getInferred x y = .ok (some .mustLink) := by
  obtain ⟨t, ht⟩ := (C13_completude_exact hm).1 hcomp x hx y hy
  cases t with
  | mustLink => exact ht
  | cannotLink =>
    obtain ⟨d', a, b, h1, h2, h3, h4⟩ := C44_cannot_links ha hm hr ht
    rw [hd] at h1
    cases h1
    rw [h2, h3, Option.some.injEq] at he
    exact absurd he h4

/-- A complete manager: classes {1, 3}, {2, 5} and {9}. -/
def eeDemo : Manager Nat := runOps (Manager.init [3, 1, 2, 9, 5])
  [.addConstraint 1 3 "MUST_LINK" 1, .addConstraint 1 2 "CANNOT_LINK" 1, .addConstraint 9 3 "CANNOT_LINK" 1,
   .addConstraint 2 9 "CANNOT_LINK" 1, .addConstraint 5 2 "MUST_LINK" 1]

def eeKMeans : Algo Nat Int Nat := .kmeans kmDemoEnv 150
def eeHier : Algo Nat Int Nat := .hierarchical hDemoEnv hDemoObject

theorem eeKMeans_ok : eeKMeans.Ok := ⟨kmDemoEnv_ok, "COP", 150, false, rfl⟩

theorem eeDemo_hasVectors : HasVectors eeDemo kmDemoVectors := by
  unfold HasVectors; simp only [exists_dget?_iff]; decide +kernel

example : Reachable eeDemo ∧ eeKMeans.Ok ∧ eeHier.Ok ∧ HasVectors eeDemo kmDemoVectors :=
  ⟨⟨_, _, rfl⟩, eeKMeans_ok, trivial, eeDemo_hasVectors⟩

example : eeDemo.complete = true ∧ eeKMeans.run eeDemo kmDemoVectors 2 = .ok [(1, 0), (2, 1), (3, 0), (5, 1), (9, 2)] ∧
    eeHier.run eeDemo kmDemoVectors 4 = .ok [(1, 0), (2, 1), (3, 0), (5, 1), (9, 2)] := by decide +kernel

example : ∃ o, dbCluster dbDemoEnv (dbNatParams 1 3) eeDemo (some kmDemoVectors) none = .ok o ∧ o.predicted.isSome := by
  obtain ⟨o, ho⟩ := C42_no_failure (dbDemo_ok 1 3) ⟨_, _, rfl⟩ (by decide +kernel) eeDemo_hasVectors (m := eeDemo)
  obtain ⟨d, -, -, hd, -⟩ := C41_labels (dbDemo_ok 1 3) ⟨_, _, rfl⟩ ho
  exact ⟨o, ho, by rw [hd]; rfl⟩

/-! ### C70 -/

/-- The iteration is a round of a session in the sense of C29, with the labels it computed itself. -/
theorem iteration_ok {truth : α → Nat} {vectors : Dict α V} {m : Manager α} (hm : Reachable m) (hs : Satisfies m truth)
    (hne : m.managed ≠ []) (hv : HasVectors m vectors) {i : Iteration α V δ} (hi : i.Ok) :
    ∃ labels batch m', i.algo.run m vectors i.nbClusters = .ok labels ∧
      i.sampler.sample m (some i.nbPairs) (some labels) (some vectors) i.metric i.pick = .ok batch ∧
      annotate truth m batch = .ok m' ∧ i.run truth vectors m = .ok m' ∧ Reachable m' ∧ Satisfies m' truth ∧
      KnowsMore m m' ∧
      (i.sampler.withoutInferred = true → batch ≠ [] → (unknownPairs m').length < (unknownPairs m).length) := by
  obtain ⟨labels, hl⟩ := Algo.total hi.algo hm hne hv hi.clusters
  obtain ⟨-, hk, -⟩ := Algo.labels hi.algo hm hv hl
  have hin : InputsGiven i.sampler m (some labels) (some vectors) := by
    refine ⟨fun _ => ⟨labels, rfl, fun x hx => ?_⟩, fun _ => ⟨hne, vectors, rfl, hv⟩⟩
    exact dget?_isSome_of_mem (by rw [hk]; exact (List.mem_insertionSort _).2 hx)
  obtain ⟨batch, m', h1, h2, h3, h4, h5, h6⟩ :=
    round_step hm hs (r := ⟨i.sampler, i.nbPairs, some labels, some vectors, i.metric, i.pick⟩) hi.pairs hi.pick hin
  refine ⟨labels, batch, m', hl, h1, h2, ?_, h3, h4, h5, h6⟩
  unfold Iteration.run
  rw [hl]
  show Except.bind (i.sampler.sample m (some i.nbPairs) (some labels) (some vectors) i.metric i.pick) _ = _
  rw [h1]
  exact h2

theorem interactive_ok {truth : α → Nat} {vectors : Dict α V} {m : Manager α} (hm : Reachable m) (hs : Satisfies m truth)
    (hne : m.managed ≠ []) (hv : HasVectors m vectors) {its : List (Iteration α V δ)} (hi : ∀ i ∈ its, i.Ok) :
    ∃ m', interactive truth vectors m its = .ok m' ∧ Reachable m' ∧ Satisfies m' truth ∧ KnowsMore m m' ∧
      ((∀ i ∈ its, 1 ≤ i.nbPairs ∧ i.sampler.clusters = none ∧ i.sampler.withoutInferred = true) →
        m'.complete = true ∨ (unknownPairs m').length + its.length ≤ (unknownPairs m).length) := by
  induction its generalizing m with
  | nil => exact ⟨m, rfl, hm, hs, .refl m, fun _ => .inr (by simp)⟩
  | cons i its ih =>
    obtain ⟨labels, batch, m1, -, s0, s1, s2, s3, s4, s5, s6⟩ := iteration_ok hm hs hne hv (hi i (by simp))
    obtain ⟨m2, t1, t2, t3, t4, t5⟩ := ih s3 s4 (by rw [s5.1]; exact hne) (by unfold HasVectors; rw [s5.1]; exact hv)
      (fun q hq => hi q (by simp [hq]))
    refine ⟨m2, ?_, t2, t3, s5.trans t4, fun hall => ?_⟩
    · show Except.bind (i.run truth vectors m) _ = _
      rw [s2]; exact t1
    · obtain ⟨a1, a2, a3⟩ := hall i (by simp)
      rcases t5 (fun q hq => hall q (by simp [hq])) with h | h
      · exact .inl h
      · by_cases hb : batch = []
        · left
          have hc := (sample_nil_iff hm a2 a3 a1 (hi i (by simp)).pick s0).1 hb
          rw [complete_iff_unknown hm] at hc
          rw [complete_iff_unknown t2, List.eq_nil_iff_forall_not_mem]
          intro p hp
          have := unknown_mono hm.inv (s5.trans t4) p hp
          rw [hc] at this
          exact absurd this (by simp)
        · right
          have := s6 a3 hb
          rw [List.length_cons]
          omega

/-- The loop never raises when the annotator is truthful: every call of clustering, sampling and
`add_constraint` succeeds, in every iteration, whatever algorithm, parameters, sampler and random
choices are used in each; and at the end the truth satisfies the constraints. -/
theorem C70_loop_never_raises {truth : α → Nat} {vectors : Dict α V} {m : Manager α} (hm : Reachable m)
    (hs : Satisfies m truth) (hne : m.managed ≠ []) (hv : HasVectors m vectors) {its : List (Iteration α V δ)}
    (hi : ∀ i ∈ its, i.Ok) :
    ∃ m', interactive truth vectors m its = .ok m' ∧ Reachable m' ∧ Satisfies m' truth ∧ m'.managed = m.managed := by
  obtain ⟨m', h1, h2, h3, h4, -⟩ := interactive_ok hm hs hne hv hi
  exact ⟨m', h1, h2, h3, h4.1⟩

/-- From a new manager: after `n(n-1)/2` iterations (at least one pair each, default exclusions, no
cluster restriction), clustering returns exactly the true partition, with any of the algorithms and
any parameters, also with a wrong number of clusters and vectors that say nothing about the truth. -/
theorem C70_loop_finds_truth {ids : List α} (hids : ids ≠ []) {truth : α → Nat} {vectors : Dict α V}
    (hv : ∀ x ∈ ids, ∃ v, dget? vectors x = some v) {its : List (Iteration α V δ)}
    (hi : ∀ i ∈ its, i.Ok ∧ 1 ≤ i.nbPairs ∧ i.sampler.clusters = none ∧ i.sampler.withoutInferred = true)
    (hlen : ids.length * (ids.length - 1) / 2 ≤ its.length) {a : Algo α V δ} (ha : a.Ok) {nb : Int} (hnb : 2 ≤ nb) :
    ∃ m r, interactive truth vectors (Manager.init ids) its = .ok m ∧ a.run m vectors nb = .ok r ∧
      (∀ x, x ∈ dkeys r ↔ x ∈ ids) ∧
      ∀ x ∈ ids, ∀ y ∈ ids, (dget? r x = dget? r y ↔ truth x = truth y) := by
  have hm := Reachable.init (α := α) ids
  have hs := init_satisfies ids truth
  have hkeys : (Manager.init ids).managed = ounion [] ids := init_keys ids
  have hmem : ∀ x, x ∈ (Manager.init ids).managed ↔ x ∈ ids := by
    intro x; rw [hkeys, mem_ounion]; simp
  have hne : (Manager.init ids).managed ≠ [] := by
    obtain ⟨x, hx⟩ := List.exists_mem_of_ne_nil _ hids
    exact List.ne_nil_of_mem ((hmem x).2 hx)
  have hle : (Manager.init ids).managed.length ≤ ids.length := by rw [hkeys]; exact ounion_nil_length_le ids
  have hv' : HasVectors (Manager.init ids) vectors := fun x hx => hv x ((hmem x).1 hx)
  obtain ⟨m', h1, h2, h3, h4, h5⟩ := interactive_ok hm hs hne hv' (its := its) (fun i hi' => (hi i hi').1)
  have hcomp : m'.complete = true := by
    rcases h5 (fun i hi' => (hi i hi').2) with h | h
    · exact h
    · rw [complete_iff_unknown h2, ← List.length_eq_zero_iff]
      have hb := unknown_bound hm.inv
      have hlen' : (Manager.init ids).managed.length * ((Manager.init ids).managed.length - 1) ≤
          ids.length * (ids.length - 1) := Nat.mul_le_mul hle (by omega)
      omega
  have hv2 : HasVectors m' vectors := by unfold HasVectors; rw [h4.1]; exact hv'
  have hmem' : ∀ x, x ∈ m'.managed ↔ x ∈ ids := fun x => by rw [h4.1, hmem]
  obtain ⟨r, hr⟩ := Algo.total ha h2 (by rw [h4.1]; exact hne) hv2 hnb
  obtain ⟨-, hk, -⟩ := Algo.labels ha h2 hv2 hr
  refine ⟨m', r, h1, hr, fun x => by rw [hk, List.mem_insertionSort, hmem'], fun x hx y hy => ?_⟩
  have hx' := (hmem' x).2 hx
  have hy' := (hmem' y).2 hy
  rw [C69_complete_forces_partition ha h2 hcomp hv2 hr hx' hy', inferred_ml_iff h2.inv hx' hy']
  constructor
  · exact satisfies_chain h3
  · intro he
    rcases (complete_iff h2.inv).1 hcomp x hx' y hy' with hl | hl
    · exact hl
    · exact absurd he (satisfies_sep h3 hl)

/-- Three iterations with different algorithms on three IDs; the vectors contradict the truth. -/
def eeIterations : List (Iteration Nat Int Nat) :=
  [⟨eeKMeans, 2, defaultSampler, 1, demoMetric, fun l k => l.reverse.take k⟩,
   ⟨eeHier, 2, ⟨none, some .farthestNeighbors, true, true⟩, 1, demoMetric, fun l k => l.reverse.take k⟩,
   ⟨eeKMeans, 3, ⟨none, some .closestNeighbors, true, true⟩, 2, demoMetric, fun l k => l.reverse.take k⟩]

theorem eeIterations_ok : ∀ i ∈ eeIterations, i.Ok ∧ 1 ≤ i.nbPairs ∧ i.sampler.clusters = none ∧ i.sampler.withoutInferred = true := by
  intro i hi
  simp only [eeIterations, List.mem_cons, List.not_mem_nil, or_false] at hi
  rcases hi with rfl | rfl | rfl
  · exact ⟨⟨eeKMeans_ok, by decide, by decide, takeLast_randomSample⟩, by decide, rfl, rfl⟩
  · exact ⟨⟨trivial, by decide, by decide, takeLast_randomSample⟩, by decide, rfl, rfl⟩
  · exact ⟨⟨eeKMeans_ok, by decide, by decide, takeLast_randomSample⟩, by decide, rfl, rfl⟩

example : (interactive (fun x => x % 2) [(5, 100), (1, 0), (2, 1)] (Manager.init [5, 1, 2]) eeIterations).map
    (fun m => (m.complete, m.components)) = .ok (true, [[1, 5], [2]]) := by decide +kernel

/-! ### C71 -/

open Classical in
theorem sample_nil_none {s : Sampler} {m : Manager α} (h : Inv m) {n : Int} (hn : 1 ≤ n) {cl : Option (Dict α Int)}
    {vs : Option (Dict α V)} {metric : V → V → δ} {pick : List (α × α) → Nat → List (α × α)} (hpick : RandomSample pick)
    (hb : s.sample m (some n) cl vs metric pick = .ok []) (p : α × α) : ¬ Eligible s m cl p := by
  intro hp
  obtain ⟨k, hk, -, -, hlen⟩ := sample_facts h hpick hb
  have := hlen ((allPairs m).filter fun q => decide (Eligible s m cl q)) ((allPairs_nodup h).filter _) (fun q => by
    rw [List.mem_filter, decide_eq_true_iff, mem_allPairs]
    exact ⟨fun hq => hq.2, fun hq => ⟨⟨hq.left, hq.right⟩, hq⟩⟩)
  have hpos : 0 < ((allPairs m).filter fun q => decide (Eligible s m cl q)).length :=
    List.length_pos_of_mem (List.mem_filter.2 ⟨mem_allPairs.2 ⟨hp.left, hp.right⟩, by simpa using hp⟩)
  rw [Option.some.injEq] at hk
  rw [List.length_nil] at this
  omega

/-- An ordered pair of managed IDs that is not eligible only because its relation is known. -/
theorem known_of_not_eligible {s : Sampler} {m : Manager α} (h : Inv m) {cl : Option (Dict α Int)} {x y : α}
    (hx : x ∈ m.managed) (hy : y ∈ m.managed) (hlt : x < y)
    (hsame : s.clusters = some .sameCluster → ∃ d a b, cl = some d ∧ dget? d x = some a ∧ dget? d y = some b ∧ a = b)
    (hdiff : s.clusters = some .differentClusters → ∃ d a b, cl = some d ∧ dget? d x = some a ∧ dget? d y = some b ∧ a ≠ b)
    (hno : ¬ Eligible s m cl (x, y)) : MustLinked m x y ∨ CannotLinked m x y := by
  by_contra hc
  have hc' := not_or.1 hc
  refine hno ⟨hx, hy, hlt, hsame, hdiff, fun _ => ?_, fun _ => (inferred_none_iff h hx hy).2 hc'⟩
  show m.getAdded x y = _
  rw [getAdded_eq h.d hx hy, (known_none_iff h).2]
  intro t ha
  cases t with
  | mustLink => exact hc'.1 (Chain.single ha)
  | cannotLink => exact hc'.2 ⟨x, y, .refl, ha, .refl⟩

/-- When a sampler restricted to the same cluster finds no pair of unknown relation, the clustering
is pure: each cluster is inside one true class. -/
theorem C71_nothing_in_same_cluster {a : Algo α V δ} (ha : a.Ok) {truth : α → Nat} {m : Manager α} (hm : Reachable m)
    (hs : Satisfies m truth) {vectors : Dict α V} (hv : HasVectors m vectors) {nb : Int} {labels : Dict α Int}
    (hr : a.run m vectors nb = .ok labels) {s : Sampler} (hc : s.clusters = some .sameCluster)
    {n : Int} (hn : 1 ≤ n) {vs : Option (Dict α V)} {metric : V → V → δ}
    {pick : List (α × α) → Nat → List (α × α)} (hpick : RandomSample pick)
    (hb : s.sample m (some n) (some labels) vs metric pick = .ok []) {x y : α} (hx : x ∈ m.managed) (hy : y ∈ m.managed)
    (he : dget? labels x = dget? labels y) : truth x = truth y := by
  obtain ⟨hl, hk, -⟩ := Algo.labels ha hm hv hr
  have key : ∀ x ∈ m.managed, ∀ y ∈ m.managed, x < y → dget? labels x = dget? labels y → truth x = truth y := by
    intro x hx y hy hlt he
    obtain ⟨c, hxc⟩ := dget?_isSome_of_mem (d := labels) (k := x) (by rw [hk]; exact (List.mem_insertionSort _).2 hx)
    rcases known_of_not_eligible hm.inv hx hy hlt (fun _ => ⟨labels, c, c, rfl, hxc, he ▸ hxc, rfl⟩)
      (fun h => by rw [hc] at h; cases h) (sample_nil_none hm.inv hn hpick hb (x, y)) with h | h
    · exact satisfies_chain hs h
    · exact absurd he ((hl x y).2 ((inferred_cl_iff hm.inv hx hy).2 h))
  rcases lt_trichotomy x y with h | h | h
  · exact key x hx y hy h he
  · rw [h]
  · exact (key y hy x hx h he.symm).symm

/-- When a sampler restricted to different clusters finds no pair of unknown relation, the clustering
is complete: each true class is inside one cluster. -/
theorem C71_nothing_across_clusters {a : Algo α V δ} (ha : a.Ok) {truth : α → Nat} {m : Manager α} (hm : Reachable m)
    (hs : Satisfies m truth) {vectors : Dict α V} (hv : HasVectors m vectors) {nb : Int} {labels : Dict α Int}
    (hr : a.run m vectors nb = .ok labels) {s : Sampler} (hc : s.clusters = some .differentClusters)
    {n : Int} (hn : 1 ≤ n) {vs : Option (Dict α V)} {metric : V → V → δ}
    {pick : List (α × α) → Nat → List (α × α)} (hpick : RandomSample pick)
    (hb : s.sample m (some n) (some labels) vs metric pick = .ok []) {x y : α} (hx : x ∈ m.managed) (hy : y ∈ m.managed)
    (he : truth x = truth y) : dget? labels x = dget? labels y := by
  obtain ⟨hl, hk, -⟩ := Algo.labels ha hm hv hr
  have key : ∀ x ∈ m.managed, ∀ y ∈ m.managed, x < y → truth x = truth y → dget? labels x = dget? labels y := by
    intro x hx y hy hlt he
    by_contra hne
    obtain ⟨c, hxc⟩ := dget?_isSome_of_mem (d := labels) (k := x) (by rw [hk]; exact (List.mem_insertionSort _).2 hx)
    obtain ⟨c', hyc⟩ := dget?_isSome_of_mem (d := labels) (k := y) (by rw [hk]; exact (List.mem_insertionSort _).2 hy)
    rcases known_of_not_eligible hm.inv hx hy hlt (fun h => by rw [hc] at h; cases h)
      (fun _ => ⟨labels, c, c', rfl, hxc, hyc, fun h => hne (by rw [hxc, hyc, h])⟩)
      (sample_nil_none hm.inv hn hpick hb (x, y)) with h | h
    · exact hne ((hl x y).1 ((inferred_ml_iff hm.inv hx hy).2 h))
    · exact satisfies_sep hs h he
  rcases lt_trichotomy x y with h | h | h
  · exact key x hx y hy h he
  · rw [h]
  · exact (key y hy x hx h he.symm).symm

/-- Not complete, yet nothing is left to ask inside the clusters: 9 is alone in its cluster. -/
def eePure : Manager Nat := runOps (Manager.init [3, 1, 2, 9]) [.addConstraint 1 3 "MUST_LINK" 1, .addConstraint 1 2 "CANNOT_LINK" 1]

example : eePure.complete = false ∧ eeKMeans.run eePure [(3, 0), (1, 2), (2, 80), (9, 200)] 3 =
      .ok [(1, 0), (2, 1), (3, 0), (9, 2)] ∧
    Sampler.sample ⟨some .sameCluster, none, true, true⟩ eePure (some 2) (some [(1, 0), (2, 1), (3, 0), (9, 2)])
      (some [(3, 0), (1, 2), (2, 80), (9, 200)]) demoMetric (fun l k => l.reverse.take k) = .ok [] := by decide +kernel

/-- Nothing is left to ask across the clusters, but 2 and 9 are in one cluster. -/
def eeFull : Manager Nat := runOps (Manager.init [3, 1, 2, 9])
  [.addConstraint 1 3 "MUST_LINK" 1, .addConstraint 1 2 "CANNOT_LINK" 1, .addConstraint 1 9 "CANNOT_LINK" 1]

example : eeFull.complete = false ∧ eeHier.run eeFull [(3, 0), (1, 2), (2, 80), (9, 81)] 2 =
      .ok [(1, 0), (2, 1), (3, 0), (9, 1)] ∧
    Sampler.sample ⟨some .differentClusters, none, true, true⟩ eeFull (some 2) (some [(1, 0), (2, 1), (3, 0), (9, 1)])
      (some [(3, 0), (1, 2), (2, 80), (9, 81)]) demoMetric (fun l k => l.reverse.take k) = .ok [] := by decide +kernel

/-! ### Each theorem applied to a concrete case -/

example := C69_complete_forces_partition eeKMeans_ok (m := eeDemo) ⟨_, _, rfl⟩ (by decide +kernel) eeDemo_hasVectors (nb := 2)
  (r := [(1, 0), (2, 1), (3, 0), (5, 1), (9, 2)]) (by decide +kernel) (x := 1) (y := 3) (by decide +kernel) (by decide +kernel)

example := C69_same_result (a := eeKMeans) (b := eeHier) eeKMeans_ok trivial (m := eeDemo) ⟨_, _, rfl⟩ (by decide +kernel)
  eeDemo_hasVectors eeDemo_hasVectors (nb := 2) (nb' := 4) (r := [(1, 0), (2, 1), (3, 0), (5, 1), (9, 2)])
  (r' := [(1, 0), (2, 1), (3, 0), (5, 1), (9, 2)]) (by decide +kernel) (by decide +kernel)

theorem eeIds_hasVectors : ∀ x ∈ [5, 1, 2], ∃ v, dget? ([(5, 100), (1, 0), (2, 1)] : Dict Nat Int) x = some v := by
  simp only [exists_dget?_iff]; decide

example := C70_loop_never_raises (truth := fun x => x % 2) (m := Manager.init [5, 1, 2]) (.init _) (init_satisfies _ _) (by decide +kernel)
  (vectors := [(5, 100), (1, 0), (2, 1)]) (fun x hx => eeIds_hasVectors x (by revert x; decide +kernel)) fun i hi => (eeIterations_ok i hi).1

example := C70_loop_finds_truth (ids := [5, 1, 2]) (by decide) (truth := fun x => x % 2) eeIds_hasVectors eeIterations_ok (by decide)
  (a := eeHier) trivial (nb := 2) (by decide)

theorem eePure_truth : Satisfies eePure fun x => if x = 2 then 1 else if x = 9 then 2 else 0 :=
  satisfies_of_managed (Reachable.inv ⟨_, _, rfl⟩) (by decide +kernel)

theorem eePure_hasVectors : HasVectors eePure [(3, (0 : Int)), (1, 2), (2, 80), (9, 200)] := by
  unfold HasVectors; simp only [exists_dget?_iff]; decide +kernel

example := C71_nothing_in_same_cluster eeKMeans_ok (m := eePure) ⟨_, _, rfl⟩ eePure_truth eePure_hasVectors (nb := 3)
  (labels := [(1, 0), (2, 1), (3, 0), (9, 2)]) (by decide +kernel) (s := ⟨some .sameCluster, none, true, true⟩) rfl (n := 2) (by decide)
  (vs := some [(3, 0), (1, 2), (2, 80), (9, 200)]) (metric := demoMetric) takeLast_randomSample (by decide +kernel)
  (x := 1) (y := 3) (by decide +kernel) (by decide +kernel) (by decide)

theorem eeFull_truth : Satisfies eeFull fun x => if x = 2 ∨ x = 9 then 1 else 0 :=
  satisfies_of_managed (Reachable.inv ⟨_, _, rfl⟩) (by decide +kernel)

theorem eeFull_hasVectors : HasVectors eeFull [(3, (0 : Int)), (1, 2), (2, 80), (9, 81)] := by
  unfold HasVectors; simp only [exists_dget?_iff]; decide +kernel

example := C71_nothing_across_clusters (a := eeHier) trivial (m := eeFull) ⟨_, _, rfl⟩ eeFull_truth eeFull_hasVectors (nb := 2)
  (labels := [(1, 0), (2, 1), (3, 0), (9, 1)]) (by decide +kernel) (s := ⟨some .differentClusters, none, true, true⟩) rfl (n := 2)
  (by decide) (vs := some [(3, 0), (1, 2), (2, 80), (9, 81)]) (metric := demoMetric) takeLast_randomSample (by decide +kernel)
  (x := 2) (y := 9) (by decide +kernel) (by decide +kernel) (by decide)

end Verif
