import Verif.Model.Factory
import Verif.Model.Affinity
import Verif.Model.Spectral
import Verif.Model.MPC
import Verif.Model.KMeans
import Verif.Model.Hierarchical
import Verif.Model.DBScan
import Verif.Spec.Factory
import Verif.Py.DictLemmas
import Verif.Proofs.Sampling
import Verif.Proofs.Manager
import Mathlib.Tactic.NormNum

/-
C51: the factories build what they name.
-/

namespace Verif

/-- `check` is the test of the allowed values `P`. -/
structure Check.Tests (c : Check) (name : String) (P : PyVal → Prop) (numeric : Bool) : Prop where
  ok : ∀ v, c.run name v = .ok () ↔ P v
  value : ∀ v t, c.run name v = .error (.valueError t) → t = name ∧ (numeric = true → ∃ q, v.num = some q)
  type : ∀ v e, c.run name v = .error e → e = .valueError name ∨ e = .typeError ∧ numeric = true ∧ v.num = none

theorem tests_any (name : String) : Check.any.Tests name (fun _ => True) false :=
  ⟨fun v => by simp [Check.run], fun v t h => by simp [Check.run] at h, fun v e h => by simp [Check.run] at h⟩

theorem tests_oneOf (name : String) (l : List PyVal) : (Check.oneOf l).Tests name (· ∈ l) false := by
  refine ⟨fun v => ?_, fun v t h => ?_, fun v e h => ?_⟩
  · by_cases hv : v ∈ l <;> simp [Check.run, hv]
  · by_cases hv : v ∈ l <;> simp [Check.run, hv] at h
    exact ⟨h.symm, by simp⟩
  · by_cases hv : v ∈ l <;> simp [Check.run, hv] at h
    exact .inl h.symm

theorem tests_atLeast (name : String) (b : Rat) : (Check.atLeast b).Tests name (AtLeast b) true := by
  refine ⟨fun v => ?_, fun v t h => ?_, fun v e h => ?_⟩ <;> cases hq : v.num with
    | none => simp_all [Check.run, AtLeast]
    | some q => by_cases hb : q < b <;> simp_all [Check.run, AtLeast, not_le]

theorem tests_moreThan (name : String) : (Check.moreThan 0).Tests name Positive true := by
  refine ⟨fun v => ?_, fun v t h => ?_, fun v e h => ?_⟩ <;> cases hq : v.num with
    | none => simp_all [Check.run, Positive]
    | some q => by_cases hb : q ≤ 0 <;> simp_all [Check.run, Positive, not_le]

theorem tests_noneOrAtLeast (name : String) (b : Rat) :
    (Check.noneOrAtLeast b).Tests name (fun v => v = .none ∨ AtLeast b v) true := by
  refine ⟨fun v => ?_, fun v t h => ?_, fun v e h => ?_⟩ <;> by_cases hn : v = .none <;> cases hq : v.num with
    | none => simp_all [Check.run, AtLeast]
    | some q => by_cases hb : q < b <;> simp_all [Check.run, AtLeast, not_le]


/-- The options `opts` of a constructor implement the documented options `docs`. -/
def Implements (opts : List Opt) (docs : List DocOpt) : Prop :=
  List.Forall₂ (fun o d => o.name = d.name ∧ o.default = d.default ∧ d.allowed d.default ∧
    o.check.Tests o.tag d.allowed d.numeric) opts docs

theorem implements_documented (c : ClusteringClass) : Implements c.opts c.documented := by
  have h2 : ∀ (name : String) (l : List PyVal) (P : PyVal → Prop), (∀ v, v ∈ l ↔ P v) → (Check.oneOf l).Tests name P false := by
    intro name l P h
    have : P = (· ∈ l) := funext fun v => propext (h v).symm
    rw [this]
    exact tests_oneOf name l
  cases c
  · exact .cons ⟨rfl, rfl, ⟨150, rfl, by norm_num⟩, tests_atLeast _ _⟩ (.cons ⟨rfl, rfl, ⟨10, rfl, by norm_num⟩, tests_atLeast _ _⟩
      (.cons ⟨rfl, rfl, trivial, tests_any _⟩ (.cons ⟨rfl, rfl, trivial, tests_any _⟩ .nil)))
  · exact .cons ⟨rfl, rfl, ⟨1 / 2, rfl, by norm_num⟩, tests_moreThan _⟩ (.cons ⟨rfl, rfl, ⟨5, rfl, by norm_num⟩, tests_moreThan _⟩
      (.cons ⟨rfl, rfl, trivial, tests_any _⟩ .nil))
  · exact .cons ⟨rfl, rfl, .inl rfl, h2 _ _ _ fun v => by simp⟩ (.cons ⟨rfl, rfl, trivial, tests_any _⟩ .nil)
  · exact .cons ⟨rfl, rfl, rfl, h2 _ _ _ fun v => by simp⟩ (.cons ⟨rfl, rfl, ⟨150, rfl, by norm_num⟩, tests_atLeast _ _⟩
      (.cons ⟨rfl, rfl, ⟨1 / 10000, rfl, by norm_num⟩, tests_atLeast _ _⟩ (.cons ⟨rfl, rfl, trivial, tests_any _⟩ .nil)))
  · exact .cons ⟨rfl, rfl, rfl, h2 _ _ _ fun v => by simp⟩ (.cons ⟨rfl, rfl, ⟨150, rfl, by norm_num⟩, tests_atLeast _ _⟩
      (.cons ⟨rfl, rfl, ⟨1, rfl, by norm_num⟩, tests_atLeast _ _⟩ (.cons ⟨rfl, rfl, trivial, tests_any _⟩ .nil)))
  · exact .cons ⟨rfl, rfl, rfl, h2 _ _ _ fun v => by simp⟩ (.cons ⟨rfl, rfl, .inl rfl, tests_noneOrAtLeast _ _⟩
      (.cons ⟨rfl, rfl, trivial, tests_any _⟩ .nil))

/-- Loop over the options. -/
theorem options_ok {kw : Kwargs} {opts : List Opt} {docs : List DocOpt} (hi : Implements opts docs) :
    (∀ attrs, (opts.mapM fun o => do
        let v := (dget? kw o.name).getD o.default
        o.check.run o.tag v
        return (o.name, v) : Except PyErr (Dict String PyVal)) = .ok attrs →
      (∀ d ∈ docs, Given kw d.name d.allowed) ∧ attrs = docs.map fun d => (d.name, (dget? kw d.name).getD d.default)) ∧
    ∀ e, (opts.mapM fun o => do
        let v := (dget? kw o.name).getD o.default
        o.check.run o.tag v
        return (o.name, v) : Except PyErr (Dict String PyVal)) = .error e →
      ∃ d ∈ docs, ∃ v, dget? kw d.name = some v ∧ ¬ d.allowed v ∧
        (e = .valueError d.reported ∧ (d.numeric = true → ∃ q, v.num = some q) ∨ e = .typeError ∧ d.numeric = true ∧ v.num = none) := by
  induction hi with
  | nil =>
    refine ⟨fun attrs h => ?_, fun e h => ?_⟩
    · cases h; exact ⟨by simp, rfl⟩
    · cases h
  | @cons o d opts docs hod _ ih =>
    obtain ⟨hname, hdef, hdd, ht⟩ := hod
    obtain ⟨ih1, ih2⟩ := ih
    cases hc : o.check.run o.tag ((dget? kw o.name).getD o.default) with
    | error e' =>
      refine ⟨fun attrs h => ?_, fun e h => ?_⟩
      · simp [List.mapM_cons, hc, bind, Except.bind] at h
      · simp only [List.mapM_cons, hc, bind, Except.bind] at h
        cases h
        have hna : ¬ d.allowed ((dget? kw o.name).getD o.default) := fun ha => by
          rw [(ht.ok _).2 ha] at hc; cases hc
        cases hg : dget? kw o.name with
        | none => rw [hg, Option.getD_none, hdef] at hna; exact absurd hdd hna
        | some v =>
          rw [hg, Option.getD_some] at hna hc
          refine ⟨d, by simp, v, hname ▸ hg, hna, ?_⟩
          rcases ht.type v _ hc with rfl | ⟨rfl, h1, h2⟩
          · exact .inl ⟨by rw [Opt.tag, DocOpt.reported, hname], (ht.value v _ hc).2⟩
          · exact .inr ⟨rfl, h1, h2⟩
    | ok u =>
      have hal := (ht.ok _).1 hc
      refine ⟨fun attrs h => ?_, fun e h => ?_⟩
      · simp only [List.mapM_cons, hc, bind, Except.bind, pure, Except.pure] at h
        split at h
        · cases h
        · rename_i attrs' h'
          cases h
          obtain ⟨h1, rfl⟩ := ih1 attrs' (by simpa only [bind, Except.bind, pure, Except.pure] using h')
          refine ⟨?_, by simp [hname, hdef]⟩
          intro d' hd'
          rcases List.mem_cons.1 hd' with rfl | hd'
          · intro v hv
            rw [hname, hv, Option.getD_some] at hal
            exact hal
          · exact h1 d' hd'
      · simp only [List.mapM_cons, hc, bind, Except.bind, pure, Except.pure] at h
        split at h
        · rename_i e' h'
          cases h
          obtain ⟨d', hd', h1⟩ := ih2 e (by simpa only [bind, Except.bind, pure, Except.pure] using h')
          exact ⟨d', by simp [hd'], h1⟩
        · cases h

theorem implements_names {opts : List Opt} {docs : List DocOpt} (hi : Implements opts docs) :
    opts.map Opt.name = docs.map DocOpt.name := by
  induction hi with
  | nil => rfl
  | cons h _ ih => simp [h.1, ih]

/-- A constructor with documented options. -/
theorem construct_spec {opts : List Opt} {docs : List DocOpt} (hi : Implements opts docs) (kw : Kwargs) :
    ((∃ o, construct opts kw = .ok o) ↔ "self" ∉ dkeys kw ∧ ∀ d ∈ docs, Given kw d.name d.allowed) ∧
    (∀ o, construct opts kw = .ok o → o.attrs = docs.map (fun d => (d.name, (dget? kw d.name).getD d.default)) ∧
      o.kargs = kw.filter fun p => decide (p.1 ∉ docs.map DocOpt.name)) ∧
    (∀ t, construct opts kw = .error (.valueError t) → ∃ d ∈ docs, d.reported = t ∧ ∃ v, dget? kw d.name = some v ∧ ¬ d.allowed v ∧
      (d.numeric = true → ∃ q, v.num = some q)) ∧
    (∀ e, construct opts kw = .error e → (∃ t, e = .valueError t) ∨ e = .typeError ∧ ("self" ∈ dkeys kw ∨
      ∃ d ∈ docs, d.numeric = true ∧ ∃ v, dget? kw d.name = some v ∧ v.num = none)) := by
  obtain ⟨h1, h2⟩ := options_ok (kw := kw) hi
  unfold construct
  by_cases hs : "self" ∈ dkeys kw
  · simp only [hs, if_true, not_true_eq_false, false_and, iff_false]
    refine ⟨by simp, by simp, by simp, fun e h => ?_⟩
    cases h
    exact .inr ⟨rfl, .inl trivial⟩
  · simp only [hs, if_false, not_false_eq_true, true_and, false_or]
    cases hm : (opts.mapM fun o => do
        let v := (dget? kw o.name).getD o.default
        o.check.run o.tag v
        return (o.name, v) : Except PyErr (Dict String PyVal)) with
    | error e =>
      obtain ⟨d, hd, v, hv, hna, hcase⟩ := h2 e hm
      simp only [bind, Except.bind, pure, Except.pure]
      refine ⟨⟨by simp, fun h => absurd (h d hd v hv) hna⟩, by simp, fun t ht => ?_, fun e' he => ?_⟩
      · cases ht
        rcases hcase with ⟨h, hq⟩ | ⟨h, -⟩
        · cases h; exact ⟨d, hd, rfl, v, hv, hna, hq⟩
        · cases h
      · cases he
        rcases hcase with ⟨h, hq⟩ | ⟨h, hq, hn⟩
        · exact .inl ⟨_, h⟩
        · exact .inr ⟨h, d, hd, hq, v, hv, hn⟩
    | ok attrs =>
      obtain ⟨hg, rfl⟩ := h1 attrs hm
      simp only [bind, Except.bind, pure, Except.pure]
      refine ⟨⟨fun _ => hg, fun _ => ⟨_, rfl⟩⟩, fun o ho => ?_, by simp, by simp⟩
      cases ho
      exact ⟨rfl, by rw [implements_names hi]⟩

theorem clusteringFactory_name (c : ClusteringClass) (kargs : Kwargs) :
    clusteringFactory c.name kargs = (construct c.opts kargs).map fun o => (c, o) := by
  cases c <;> simp [clusteringFactory, ClusteringClass.name, bind, Except.bind, pure, Except.pure] <;>
    cases construct _ kargs <;> rfl

/-- An unknown name is refused with `ValueError`, whatever the options. -/
theorem C51_clustering_unknown {algorithm : String} (h : ∀ c : ClusteringClass, algorithm ≠ c.name) (kargs : Kwargs) :
    clusteringFactory algorithm kargs = .error (.valueError "algorithm") := by
  have : algorithm ∉ ["affinity_propagation", "dbscan", "hierarchical", "kmeans", "mpckmeans", "spectral"] := by
    intro hm
    simp only [List.mem_cons, List.not_mem_nil, or_false] at hm
    rcases hm with rfl | rfl | rfl | rfl | rfl | rfl
    · exact h .affinityPropagation rfl
    · exact h .dbscan rfl
    · exact h .hierarchical rfl
    · exact h .kmeans rfl
    · exact h .mpckmeans rfl
    · exact h .spectral rfl
  simp [clusteringFactory, this, throw, throwThe, MonadExceptOf.throw, bind, Except.bind]

example : ∀ c : ClusteringClass, "k-means" ≠ c.name := by intro c; cases c <;> decide

/-- The name of a class builds an object of that class, exactly when every documented option that is given has an
allowed value (and the keyword `self` is not given). -/
theorem C51_clustering_builds (c : ClusteringClass) (kargs : Kwargs) :
    ((∃ r, clusteringFactory c.name kargs = .ok r) ↔ "self" ∉ dkeys kargs ∧ ∀ d ∈ c.documented, Given kargs d.name d.allowed) ∧
    ∀ r, clusteringFactory c.name kargs = .ok r → r.1 = c ∧
      r.2.attrs = c.documented.map (fun d => (d.name, (dget? kargs d.name).getD d.default)) ∧
      r.2.kargs = kargs.filter fun p => decide (p.1 ∉ c.documented.map DocOpt.name) := by
  obtain ⟨h1, h2, -⟩ := construct_spec (implements_documented c) kargs
  rw [clusteringFactory_name]
  constructor
  · rw [← h1]
    cases construct c.opts kargs <;> simp [Except.map]
  · intro r hr
    cases hc : construct c.opts kargs with
    | error e => rw [hc] at hr; cases hr
    | ok o =>
      rw [hc] at hr
      cases hr
      exact ⟨rfl, h2 o hc⟩

/-- The exceptions of a known name: `ValueError` for an option whose value is not allowed, `TypeError` for the keyword
`self` or for something else than a number where a number is compared. -/
theorem C51_clustering_errors (c : ClusteringClass) (kargs : Kwargs) {e : PyErr}
    (he : clusteringFactory c.name kargs = .error e) :
    (∃ d ∈ c.documented, e = .valueError d.reported ∧ ∃ v, dget? kargs d.name = some v ∧ ¬ d.allowed v ∧
        (d.numeric = true → ∃ q, v.num = some q)) ∨
      e = .typeError ∧ ("self" ∈ dkeys kargs ∨ ∃ d ∈ c.documented, d.numeric = true ∧
        ∃ v, dget? kargs d.name = some v ∧ v.num = none) := by
  obtain ⟨-, -, h3, h4⟩ := construct_spec (implements_documented c) kargs
  rw [clusteringFactory_name] at he
  cases hc : construct c.opts kargs with
  | ok o => rw [hc] at he; cases he
  | error e' =>
    rw [hc] at he
    cases he
    rcases h4 _ hc with ⟨t, rfl⟩ | h
    · obtain ⟨d, hd, rfl, v, hv⟩ := h3 t hc
      exact .inl ⟨d, hd, rfl, v, hv⟩
    · exact .inr h

example : clusteringFactory "kmeans" [("max_iteration", .int 0)] = .error (.valueError "max_iteration") := by decide +kernel
example : clusteringFactory "kmeans" [("max_iteration", .none)] = .error .typeError := by decide +kernel
example : clusteringFactory "mpckmeans" [("w", .int (-1))] = .error (.valueError "weight") := by decide +kernel

/-- Without options, every class is built with the documented default values. -/
theorem C51_clustering_defaults (c : ClusteringClass) : ∃ o, clusteringFactory c.name [] = .ok (c, o) ∧ o.kargs = [] ∧
    ∀ d ∈ c.documented, dget? o.attrs d.name = some d.default := by
  obtain ⟨h1, h2⟩ := C51_clustering_builds c []
  obtain ⟨r, hr⟩ := h1.2 ⟨by simp [dkeys], fun d _ v hv => by simp [dget?] at hv⟩
  obtain ⟨e, ha, hk⟩ := h2 r hr
  refine ⟨r.2, by rw [hr, ← e], by simpa using hk, fun d hd => ?_⟩
  rw [ha]
  cases c <;> simp only [ClusteringClass.documented, List.mem_cons, List.not_mem_nil, or_false] at hd <;>
    rcases hd with rfl | rfl | rfl | rfl <;> rfl

/-- An option that is not documented changes nothing but `self.kargs`: a misspelt option is not reported. -/
theorem C51_unknown_option_ignored (c : ClusteringClass) (kargs : Kwargs) {k : String} (v : PyVal) (hk : k ∉ c.documented.map DocOpt.name)
    (hs : k ≠ "self") {o : PyObject} (ho : clusteringFactory c.name kargs = .ok (c, o)) :
    ∃ o', clusteringFactory c.name ((k, v) :: kargs) = .ok (c, o') ∧ o'.attrs = o.attrs ∧ o'.kargs = (k, v) :: o.kargs := by
  obtain ⟨h1, h2⟩ := C51_clustering_builds c kargs
  obtain ⟨h1', h2'⟩ := C51_clustering_builds c ((k, v) :: kargs)
  have hget : ∀ d ∈ c.documented, dget? ((k, v) :: kargs) d.name = dget? kargs d.name := by
    intro d hd
    have : k ≠ d.name := fun e => hk (e ▸ List.mem_map_of_mem hd)
    simp [dget?, this]
  obtain ⟨hself, hg⟩ := h1.1 ⟨_, ho⟩
  obtain ⟨r, hr⟩ := h1'.2 ⟨by simpa [dkeys, hs.symm] using hself, fun d hd w hw => hg d hd w (hget d hd ▸ hw)⟩
  obtain ⟨e, ha, hkk⟩ := h2' r hr
  obtain ⟨-, hb, hkb⟩ := h2 _ ho
  refine ⟨r.2, by rw [hr, ← e], ?_, ?_⟩
  · rw [ha, hb]
    exact List.map_congr_left fun d hd => by rw [hget d hd]
  · rw [hkk, hkb, List.filter_cons, if_pos (by simpa using hk)]

example : ∃ o, clusteringFactory "kmeans" [("max_iterations", .int 0)] = .ok (.kmeans, o) :=
  ⟨_, (by decide +kernel : _ = Except.ok (ClusteringClass.kmeans, (⟨[("model", .str "COP"), ("max_iteration", .int 150),
    ("tolerance", .float (1 / 10000)), ("random_seed", .none)], [("max_iterations", .int 0)]⟩ : PyObject)))⟩

/-! ### Sampling -/

theorem tests_boolean (name : String) : Check.boolean.Tests name (fun v => ∃ b, v = .bool b) false := by
  refine ⟨fun v => ?_, fun v t h => ?_, fun v e h => ?_⟩ <;> cases v <;> simp_all [Check.run]

theorem clustersVal_mem (v : PyVal) : v ∈ [PyVal.none, .str "same_cluster", .str "different_clusters"] ↔ ∃ c, v = clustersVal c := by
  simp only [List.mem_cons, List.not_mem_nil, or_false]
  constructor
  · rintro (rfl | rfl | rfl)
    exacts [⟨none, rfl⟩, ⟨some .sameCluster, rfl⟩, ⟨some .differentClusters, rfl⟩]
  · rintro ⟨_ | _ | _, rfl⟩ <;> simp [clustersVal]

theorem distanceVal_mem (v : PyVal) : v ∈ [PyVal.none, .str "closest_neighbors", .str "farthest_neighbors"] ↔ ∃ c, v = distanceVal c := by
  simp only [List.mem_cons, List.not_mem_nil, or_false]
  constructor
  · rintro (rfl | rfl | rfl)
    exacts [⟨none, rfl⟩, ⟨some .closestNeighbors, rfl⟩, ⟨some .farthestNeighbors, rfl⟩]
  · rintro ⟨_ | _ | _, rfl⟩ <;> simp [distanceVal]

theorem implements_sampler : Implements samplerOpts samplerDocumented := by
  have h2 : ∀ (name : String) (l : List PyVal) (P : PyVal → Prop), (∀ v, v ∈ l ↔ P v) → (Check.oneOf l).Tests name P false := by
    intro name l P h
    have : P = (· ∈ l) := funext fun v => propext (h v).symm
    rw [this]
    exact tests_oneOf name l
  exact .cons ⟨rfl, rfl, trivial, tests_any _⟩ (.cons ⟨rfl, rfl, ⟨none, rfl⟩, h2 _ _ _ clustersVal_mem⟩
    (.cons ⟨rfl, rfl, ⟨none, rfl⟩, h2 _ _ _ distanceVal_mem⟩ (.cons ⟨rfl, rfl, ⟨true, rfl⟩, tests_boolean _⟩
    (.cons ⟨rfl, rfl, ⟨true, rfl⟩, tests_boolean _⟩ .nil))))

/-- The keywords that an algorithm name fixes. -/
def fixedKeywords : String → Kwargs
  | "random_in_same_cluster" => [("clusters_restriction", .str "same_cluster")]
  | "farthest_in_same_cluster" => [("distance_restriction", .str "farthest_neighbors"), ("clusters_restriction", .str "same_cluster")]
  | "closest_in_different_clusters" =>
    [("distance_restriction", .str "closest_neighbors"), ("clusters_restriction", .str "different_clusters")]
  | _ => []

/-- An unknown name is refused with `ValueError`, whatever the options. -/
theorem C51_sampling_unknown {algorithm : String} (h : ∀ r ∈ samplingAlgorithms, algorithm ≠ r.1) (kargs : Kwargs) :
    samplingFactory algorithm kargs = .error (.valueError "algorithm") := by
  have : algorithm ∉ ["random", "random_in_same_cluster", "farthest_in_same_cluster", "closest_in_different_clusters"] := by
    intro hm
    simp only [List.mem_cons, List.not_mem_nil, or_false] at hm
    have hm' : algorithm ∈ samplingAlgorithms.map Prod.fst := by simpa [samplingAlgorithms] using hm
    obtain ⟨r, hr, e⟩ := List.mem_map.1 hm'
    exact h r hr e.symm
  simp [samplingFactory, this, throw, throwThe, MonadExceptOf.throw, bind, Except.bind]

example : ∀ r ∈ samplingAlgorithms, "closest_in_same_cluster" ≠ r.1 := by decide

theorem samplingFactory_eq {algorithm : String} (h : algorithm ∈ samplingAlgorithms.map Prod.fst) (kargs : Kwargs) :
    samplingFactory algorithm kargs =
      if (dkeys (fixedKeywords algorithm)).any (fun k => decide (k ∈ dkeys kargs)) = true then .error .typeError
      else construct samplerOpts (fixedKeywords algorithm ++ kargs) := by
  simp only [samplingAlgorithms, List.map_cons, List.map_nil, List.mem_cons, List.not_mem_nil, or_false] at h
  rcases h with rfl | rfl | rfl | rfl
  · simp [samplingFactory, fixedKeywords, dkeys]
  all_goals
    simp [samplingFactory, fixedKeywords, callWith, dkeys, bind, Except.bind]
    split <;> rename_i h' <;> split at h' <;> simp_all

theorem clustersVal_inj {c c' : Option ClustersRestriction} (h : clustersVal c = clustersVal c') : c = c' := by
  rcases c with _ | _ | _ <;> rcases c' with _ | _ | _ <;> simp_all [clustersVal]

theorem distanceVal_inj {c c' : Option DistanceRestriction} (h : distanceVal c = distanceVal c') : c = c' := by
  rcases c with _ | _ | _ <;> rcases c' with _ | _ | _ <;> simp_all [distanceVal]

theorem dget?_append_gen {κ ν : Type} [DecidableEq κ] (d d' : Dict κ ν) (x : κ) :
    dget? (d ++ d') x = (dget? d x).or (dget? d' x) := by
  induction d with
  | nil => simp [dget?]
  | cons q d ih =>
    obtain ⟨k, v⟩ := q
    by_cases h : k = x <;> simp [dget?, h, ih]

/-- The attributes of a sampling object. -/
theorem construct_sampler {kw : Kwargs} {o : PyObject} (ho : construct samplerOpts kw = .ok o) :
    ∃ c d a i, o.sampler = some ⟨c, d, a, i⟩ ∧ (dget? kw "clusters_restriction").getD .none = clustersVal c ∧
      (dget? kw "distance_restriction").getD .none = distanceVal d ∧
      (dget? kw "without_added_constraints").getD (.bool true) = .bool a ∧
      (dget? kw "without_inferred_constraints").getD (.bool true) = .bool i := by
  obtain ⟨h1, h2, -⟩ := construct_spec implements_sampler kw
  obtain ⟨hs, hg⟩ := h1.1 ⟨o, ho⟩
  obtain ⟨ha, -⟩ := h2 o ho
  have get : ∀ d ∈ samplerDocumented, d.allowed d.default → d.allowed ((dget? kw d.name).getD d.default) := by
    intro d hd hdd
    cases e : dget? kw d.name with
    | none => simpa using hdd
    | some v => simpa using hg d hd v e
  obtain ⟨c, hc⟩ := get ⟨"clusters_restriction", .none, fun v => ∃ c, v = clustersVal c, false⟩ (by simp [samplerDocumented]) ⟨none, rfl⟩
  obtain ⟨d, hd⟩ := get ⟨"distance_restriction", .none, fun v => ∃ d, v = distanceVal d, false⟩ (by simp [samplerDocumented]) ⟨none, rfl⟩
  obtain ⟨a, haa⟩ := get ⟨"without_added_constraints", .bool true, fun v => ∃ b, v = .bool b, false⟩ (by simp [samplerDocumented]) ⟨true, rfl⟩
  obtain ⟨i, hi⟩ := get ⟨"without_inferred_constraints", .bool true, fun v => ∃ b, v = .bool b, false⟩ (by simp [samplerDocumented]) ⟨true, rfl⟩
  simp only at hc hd haa hi
  refine ⟨c, d, a, i, ?_, hc, hd, haa, hi⟩
  have e1 : dget? o.attrs "clusters_restriction" = some (clustersVal c) := by
    rw [ha]; simp [samplerDocumented, dget?, hc]
  have e2 : dget? o.attrs "distance_restriction" = some (distanceVal d) := by
    rw [ha]; simp [samplerDocumented, dget?, hd]
  have e3 : dget? o.attrs "without_added_constraints" = some (.bool a) := by
    rw [ha]; simp [samplerDocumented, dget?, haa]
  have e4 : dget? o.attrs "without_inferred_constraints" = some (.bool i) := by
    rw [ha]; simp [samplerDocumented, dget?, hi]
  unfold PyObject.sampler
  rw [e1, e2, e3, e4]
  rcases c with _ | _ | _ <;> rcases d with _ | _ | _ <;>
    simp [clustersVal, distanceVal, Sampler.init, bind, Except.bind, pure, Except.pure, Except.toOption]

/-- The four names are exactly the four documented combinations of restrictions. An object is built exactly when a
restriction that the name fixes is not given again and every documented option that is given has an allowed value;
its restrictions are those of the name, and otherwise those of the options. -/
theorem C51_sampling {algorithm : String} {c : Option ClustersRestriction} {d : Option DistanceRestriction}
    (h : (algorithm, c, d) ∈ samplingAlgorithms) (kargs : Kwargs) :
    ((∃ o, samplingFactory algorithm kargs = .ok o) ↔
      (c ≠ none → "clusters_restriction" ∉ dkeys kargs) ∧ (d ≠ none → "distance_restriction" ∉ dkeys kargs) ∧
      "self" ∉ dkeys kargs ∧ ∀ d ∈ samplerDocumented, Given kargs d.name d.allowed) ∧
    ∀ o, samplingFactory algorithm kargs = .ok o → ∃ s, o.sampler = some s ∧
      (c ≠ none ∨ "clusters_restriction" ∉ dkeys kargs → s.clusters = c) ∧
      (d ≠ none ∨ "distance_restriction" ∉ dkeys kargs → s.distance = d) ∧
      (c = none → clustersVal s.clusters = (dget? kargs "clusters_restriction").getD .none) ∧
      (d = none → distanceVal s.distance = (dget? kargs "distance_restriction").getD .none) ∧
      .bool s.withoutAdded = (dget? kargs "without_added_constraints").getD (.bool true) ∧
      .bool s.withoutInferred = (dget? kargs "without_inferred_constraints").getD (.bool true) := by
  have hmem : algorithm ∈ samplingAlgorithms.map Prod.fst := List.mem_map_of_mem (f := Prod.fst) h
  have hF : ∀ k v, dget? (fixedKeywords algorithm) k = some v ↔
      k = "clusters_restriction" ∧ c ≠ none ∧ v = clustersVal c ∨ k = "distance_restriction" ∧ d ≠ none ∧ v = distanceVal d := by
    intro k v
    simp only [samplingAlgorithms, List.mem_cons, List.not_mem_nil, or_false, Prod.mk.injEq] at h
    rcases h with ⟨rfl, rfl, rfl⟩ | ⟨rfl, rfl, rfl⟩ | ⟨rfl, rfl, rfl⟩ | ⟨rfl, rfl, rfl⟩ <;>
      by_cases h1 : k = "clusters_restriction" <;> by_cases h2 : k = "distance_restriction" <;>
      simp_all [fixedKeywords, dget?, clustersVal, distanceVal, eq_comm]
  rw [samplingFactory_eq hmem]
  generalize fixedKeywords algorithm = F at hF
  have hFnone : ∀ k, k ≠ "clusters_restriction" → k ≠ "distance_restriction" → dget? F k = none := by
    intro k h1 h2
    cases e : dget? F k with
    | none => rfl
    | some v => rcases (hF k v).1 e with ⟨rfl, -⟩ | ⟨rfl, -⟩ <;> contradiction
  have hFkeys : ∀ k, k ∈ dkeys F ↔ k = "clusters_restriction" ∧ c ≠ none ∨ k = "distance_restriction" ∧ d ≠ none := by
    intro k
    rw [← exists_dget?_iff]
    simp only [hF]
    constructor
    · rintro ⟨v, ⟨rfl, h1, -⟩ | ⟨rfl, h1, -⟩⟩
      exacts [.inl ⟨rfl, h1⟩, .inr ⟨rfl, h1⟩]
    · rintro (⟨rfl, h1⟩ | ⟨rfl, h1⟩)
      exacts [⟨_, .inl ⟨rfl, h1, rfl⟩⟩, ⟨_, .inr ⟨rfl, h1, rfl⟩⟩]
  have hclash : (dkeys F).any (fun k => decide (k ∈ dkeys kargs)) = true ↔
      ¬ ((c ≠ none → "clusters_restriction" ∉ dkeys kargs) ∧ (d ≠ none → "distance_restriction" ∉ dkeys kargs)) := by
    simp only [List.any_eq_true, decide_eq_true_eq, hFkeys]
    constructor
    · rintro ⟨k, ⟨rfl, h1⟩ | ⟨rfl, h1⟩, h2⟩ ⟨h3, h4⟩
      exacts [h3 h1 h2, h4 h1 h2]
    · intro hn
      by_cases h3 : c ≠ none → "clusters_restriction" ∉ dkeys kargs
      · by_cases h4 : d ≠ none → "distance_restriction" ∉ dkeys kargs
        · exact absurd ⟨h3, h4⟩ hn
        · simp only [Classical.not_imp, not_not] at h4
          exact ⟨_, .inr ⟨rfl, h4.1⟩, h4.2⟩
      · simp only [Classical.not_imp, not_not] at h3
        exact ⟨_, .inl ⟨rfl, h3.1⟩, h3.2⟩
  have hnone : ∀ {k}, k ∉ dkeys kargs → dget? kargs k = none := fun {k} hk => by
    cases e : dget? kargs k with
    | none => rfl
    | some v => exact absurd (mem_dkeys_of_dget? e) hk
  by_cases hcl : (c ≠ none → "clusters_restriction" ∉ dkeys kargs) ∧ (d ≠ none → "distance_restriction" ∉ dkeys kargs)
  · have hif : ¬ (dkeys F).any (fun k => decide (k ∈ dkeys kargs)) = true := fun e => hclash.1 e hcl
    rw [if_neg hif]
    have hself : "self" ∉ dkeys (F ++ kargs) ↔ "self" ∉ dkeys kargs := by
      have : "self" ∉ dkeys F := by rw [hFkeys]; simp
      simp only [dkeys, List.map_append, List.mem_append] at this ⊢
      tauto
    constructor
    · rw [(construct_spec implements_sampler _).1, hself]
      constructor
      · rintro ⟨h1, h2⟩
        refine ⟨hcl.1, hcl.2, h1, fun dd hdd v hv => ?_⟩
        refine h2 dd hdd v ?_
        rw [dget?_append_gen]
        cases e : dget? F dd.name with
        | none => simpa using hv
        | some w =>
          rcases (hF _ _).1 e with ⟨e1, h3, -⟩ | ⟨e1, h3, -⟩
          · exact absurd (mem_dkeys_of_dget? hv) (e1 ▸ hcl.1 h3)
          · exact absurd (mem_dkeys_of_dget? hv) (e1 ▸ hcl.2 h3)
      · rintro ⟨-, -, h1, h2⟩
        refine ⟨h1, fun dd hdd v hv => ?_⟩
        rw [dget?_append_gen] at hv
        cases e : dget? F dd.name with
        | none => exact h2 dd hdd v (by simpa [e] using hv)
        | some w =>
          rw [e] at hv
          simp only [Option.some_or, Option.some.injEq] at hv
          subst hv
          simp only [samplerDocumented, List.mem_cons, List.not_mem_nil, or_false] at hdd
          rcases (hF _ _).1 e with ⟨e1, h3, rfl⟩ | ⟨e1, h3, rfl⟩ <;>
            rcases hdd with rfl | rfl | rfl | rfl | rfl <;> first | exact ⟨_, rfl⟩ | exact absurd e1 (by decide)
    · intro o ho
      obtain ⟨c', d', a, i, e, h1, h2, h3, h4⟩ := construct_sampler ho
      rw [dget?_append_gen] at h1 h2 h3 h4
      rw [hFnone _ (by decide) (by decide), Option.none_or] at h3 h4
      refine ⟨_, e, ?_, ?_, ?_, ?_, h3.symm, h4.symm⟩
      · intro hor
        apply clustersVal_inj
        by_cases hc0 : c = none
        · have hk : "clusters_restriction" ∉ dkeys kargs := hor.resolve_left (fun h => h hc0)
          have e0 : dget? F "clusters_restriction" = none := by
            cases e : dget? F "clusters_restriction" with
            | none => rfl
            | some v => rcases (hF _ _).1 e with ⟨-, h5, -⟩ | ⟨h5, -⟩
                        · exact absurd hc0 h5
                        · exact absurd h5 (by decide)
          rw [e0, hnone hk] at h1
          rw [hc0, ← h1]
          rfl
        · rw [(hF _ _).2 (.inl ⟨rfl, hc0, rfl⟩)] at h1
          simpa using h1.symm
      · intro hor
        apply distanceVal_inj
        by_cases hc0 : d = none
        · have hk : "distance_restriction" ∉ dkeys kargs := hor.resolve_left (fun h => h hc0)
          have e0 : dget? F "distance_restriction" = none := by
            cases e : dget? F "distance_restriction" with
            | none => rfl
            | some v => rcases (hF _ _).1 e with ⟨h5, -⟩ | ⟨-, h5, -⟩
                        · exact absurd h5 (by decide)
                        · exact absurd hc0 h5
          rw [e0, hnone hk] at h2
          rw [hc0, ← h2]
          rfl
        · rw [(hF _ _).2 (.inr ⟨rfl, hc0, rfl⟩)] at h2
          simpa using h2.symm
      · intro hc0
        have e0 : dget? F "clusters_restriction" = none := by
          cases e : dget? F "clusters_restriction" with
          | none => rfl
          | some v => rcases (hF _ _).1 e with ⟨-, h5, -⟩ | ⟨h5, -⟩
                      · exact absurd hc0 h5
                      · exact absurd h5 (by decide)
        rw [e0, Option.none_or] at h1
        exact h1.symm
      · intro hc0
        have e0 : dget? F "distance_restriction" = none := by
          cases e : dget? F "distance_restriction" with
          | none => rfl
          | some v => rcases (hF _ _).1 e with ⟨h5, -⟩ | ⟨-, h5, -⟩
                      · exact absurd h5 (by decide)
                      · exact absurd hc0 h5
        rw [e0, Option.none_or] at h2
        exact h2.symm
  · rw [if_pos (hclash.2 hcl)]
    refine ⟨⟨by simp, fun h' => absurd ⟨h'.1, h'.2.1⟩ hcl⟩, by simp⟩

/-- Giving again a restriction that the name fixes is a `TypeError`. -/
theorem C51_sampling_twice {algorithm : String} {c : Option ClustersRestriction} {d : Option DistanceRestriction}
    (h : (algorithm, c, d) ∈ samplingAlgorithms) {kargs : Kwargs}
    (hk : c ≠ none ∧ "clusters_restriction" ∈ dkeys kargs ∨ d ≠ none ∧ "distance_restriction" ∈ dkeys kargs) :
    samplingFactory algorithm kargs = .error .typeError := by
  have hmem : algorithm ∈ samplingAlgorithms.map Prod.fst := List.mem_map_of_mem (f := Prod.fst) h
  rw [samplingFactory_eq hmem, if_pos]
  have hany : ∃ k ∈ dkeys (fixedKeywords algorithm), k ∈ dkeys kargs := by
    simp only [samplingAlgorithms, List.mem_cons, List.not_mem_nil, or_false, Prod.mk.injEq] at h
    rcases h with ⟨rfl, rfl, rfl⟩ | ⟨rfl, rfl, rfl⟩ | ⟨rfl, rfl, rfl⟩ | ⟨rfl, rfl, rfl⟩ <;>
      rcases hk with ⟨h1, h2⟩ | ⟨h1, h2⟩ <;>
      first | exact absurd rfl h1 | exact ⟨_, by simp [fixedKeywords, dkeys], h2⟩
  obtain ⟨k, h1, h2⟩ := hany
  exact List.any_eq_true.2 ⟨k, h1, decide_eq_true h2⟩

example : samplingFactory "closest_in_different_clusters" [("distance_restriction", .str "closest_neighbors")] =
    .error .typeError := C51_sampling_twice (c := some .differentClusters) (d := some .closestNeighbors) (by simp [samplingAlgorithms]) (by simp [dkeys])

/-- Two names with the same options never build the same sampler when the restrictions are left to the names. -/
theorem C51_sampling_distinct {r r' : String × Option ClustersRestriction × Option DistanceRestriction}
    (h : r ∈ samplingAlgorithms) (h' : r' ∈ samplingAlgorithms) (hne : r ≠ r') {kargs : Kwargs}
    (hc : "clusters_restriction" ∉ dkeys kargs) (hd : "distance_restriction" ∉ dkeys kargs) {o o' : PyObject}
    (ho : samplingFactory r.1 kargs = .ok o) (ho' : samplingFactory r'.1 kargs = .ok o') : o.sampler ≠ o'.sampler := by
  obtain ⟨s, hs, h1, h2, -⟩ := (C51_sampling (algorithm := r.1) (c := r.2.1) (d := r.2.2) h kargs).2 o ho
  obtain ⟨s', hs', h1', h2', -⟩ := (C51_sampling (algorithm := r'.1) (c := r'.2.1) (d := r'.2.2) h' kargs).2 o' ho'
  intro e
  rw [hs, hs'] at e
  cases e
  have e1 := (h1 (.inr hc)).symm.trans (h1' (.inr hc))
  have e2 := (h2 (.inr hd)).symm.trans (h2' (.inr hd))
  have key : ∀ r ∈ samplingAlgorithms, ∀ r' ∈ samplingAlgorithms, r.2 = r'.2 → r = r' := by decide
  exact hne (key r h r' h' (Prod.ext e1 e2))

example : (samplingFactory "farthest_in_same_cluster" [("random_seed", .int 1), ("without_added_constraints", .bool false)]).toOption.bind
    PyObject.sampler = some ⟨some .sameCluster, some .farthestNeighbors, false, true⟩ := by decide +kernel

/-! ### Constraints manager -/

/-- `managing_factory` builds the constraints manager of the given IDs, whatever the other keywords, exactly for the name
`binary`. -/
theorem C51_managing {α : Type} [LinearOrder α] (ids : List α) (manager : String) (kargs : Kwargs) :
    (manager ≠ "binary" → managingFactory ids manager kargs = .error (.valueError "manager")) ∧
    (manager = "binary" → "self" ∈ dkeys kargs → managingFactory ids manager kargs = .error .typeError) ∧
    (manager = "binary" → "self" ∉ dkeys kargs → ∃ m, managingFactory ids manager kargs = .ok (m, kargs) ∧ Reachable m ∧
      (∀ x, x ∈ m.managed ↔ x ∈ ids) ∧ ∀ x y, x ∈ ids → y ∈ ids → x ≠ y → m.getAdded x y = .ok none ∧ m.getInferred x y = .ok none) := by
  refine ⟨fun h => ?_, fun h hs => ?_, fun h hs => ⟨Manager.init ids, ?_, .init ids, ?_, ?_⟩⟩
  · simp [managingFactory, h, throw, throwThe, MonadExceptOf.throw, bind, Except.bind]
  · simp [managingFactory, h, hs, throw, throwThe, MonadExceptOf.throw, bind, Except.bind]
  · simp [managingFactory, h, hs, pure, Except.pure]
  · intro x
    unfold Manager.managed
    rw [init_keys, mem_ounion]
    simp
  · intro x y hx hy hne
    have hk : ∀ z, z ∈ ids → z ∈ dkeys (Manager.init ids).dict := fun z hz => by
      rw [init_keys, mem_ounion]; exact .inr hz
    refine ⟨?_, ?_⟩
    · rw [getAdded_eq (init_dinv ids) (hk x hx) (hk y hy), init_known]
      simp [hne]
    · have ht : ∀ z, z ∈ ids → dget? (Manager.init ids).trans z = some (TEntry.fresh z) := fun z hz => by
        unfold Manager.init
        simp only
        rw [dget?_dofList_map ids (fun x => TEntry.fresh x) z]
        simp [hz]
      have hkt : ∀ z, z ∈ ids → z ∈ dkeys (Manager.init ids).trans := fun z hz => mem_dkeys_of_dget? (ht z hz)
      simp [Manager.getInferred, hkt x hx, hkt y hy, dget_of_dget? (ht y hy), TEntry.fresh, hne, bind, Except.bind, pure, Except.pure]

example : "self" ∉ dkeys ([("threshold", .float (1 / 2))] : Kwargs) := by decide

/-! ### The typed constructors of the algorithm models accept the same options -/

theorem atLeast_int (n a : Int) : AtLeast (n : Rat) (.int a) ↔ n ≤ a := by
  simp [AtLeast, PyVal.num]

theorem atLeast_float (b q : Rat) : AtLeast b (.float q) ↔ b ≤ q := by
  simp [AtLeast, PyVal.num]

theorem given_some {kw : Kwargs} {k : String} {v : PyVal} (h : dget? kw k = some v) (P : PyVal → Prop) : Given kw k P ↔ P v := by
  simp [Given, h]

theorem given_true (kw : Kwargs) (k : String) : Given kw k (fun _ => True) := fun _ _ => trivial

theorem C51_agrees_affinity (a b : Int) (c : Bool) :
    (∃ o, clusteringFactory "affinity_propagation" [("max_iteration", .int a), ("convergence_iteration", .int b),
      ("absolute_must_links", .bool c)] = .ok o) ↔ ∃ p, ApParams.init a b c = .ok p := by
  refine (C51_clustering_builds .affinityPropagation _).1.trans ?_
  generalize hk : ([("max_iteration", .int a), ("convergence_iteration", .int b), ("absolute_must_links", .bool c)] : Kwargs) = kw
  have e0 : "self" ∉ dkeys kw := by rw [← hk]; simp [dkeys]
  have e1 : dget? kw "max_iteration" = some (.int a) := by rw [← hk]; simp [dget?]
  have e2 : dget? kw "convergence_iteration" = some (.int b) := by rw [← hk]; simp [dget?]
  have hl : (∀ d ∈ ClusteringClass.affinityPropagation.documented, Given kw d.name d.allowed) ↔ 1 ≤ a ∧ 1 ≤ b := by
    simp only [ClusteringClass.documented, List.forall_mem_cons, given_some e1, given_some e2, given_true, true_and]
    rw [← atLeast_int 1 a, ← atLeast_int 1 b]
    simp
  rw [hl, ApParams.init]
  by_cases h1 : a < 1 <;> by_cases h2 : b < 1 <;> simp [h1, h2, e0] <;> omega

theorem C51_agrees_kmeans (model : String) (a : Int) (tol : Rat) :
    (∃ o, clusteringFactory "kmeans" [("model", .str model), ("max_iteration", .int a), ("tolerance", .float tol)] = .ok o) ↔
      ∃ p, kmInit model a (decide (tol < 0)) = .ok p := by
  refine (C51_clustering_builds .kmeans _).1.trans ?_
  generalize hk : ([("model", .str model), ("max_iteration", .int a), ("tolerance", .float tol)] : Kwargs) = kw
  have e0 : "self" ∉ dkeys kw := by rw [← hk]; simp [dkeys]
  have e1 : dget? kw "model" = some (.str model) := by rw [← hk]; simp [dget?]
  have e2 : dget? kw "max_iteration" = some (.int a) := by rw [← hk]; simp [dget?]
  have e3 : dget? kw "tolerance" = some (.float tol) := by rw [← hk]; simp [dget?]
  have hl : (∀ d ∈ ClusteringClass.kmeans.documented, Given kw d.name d.allowed) ↔ model = "COP" ∧ 1 ≤ a ∧ 0 ≤ tol := by
    simp only [ClusteringClass.documented, List.forall_mem_cons, given_some e1, given_some e2, given_some e3, given_true, true_and]
    rw [← atLeast_int 1 a, ← atLeast_float]
    simp
  rw [hl, kmInit]
  by_cases h0 : model = "COP" <;> by_cases h1 : a < 1 <;> by_cases h2 : tol < 0 <;> simp [h0, h1, h2, e0]
  · exact ⟨not_lt.1 h1, not_lt.1 h2⟩

theorem C51_agrees_mpc (model : String) (a : Int) (w : Rat) :
    (∃ o, clusteringFactory "mpckmeans" [("model", .str model), ("max_iteration", .int a), ("w", .float w)] = .ok o) ↔
      ∃ p, MpcParams.init model a (decide (w < 0)) = .ok p := by
  refine (C51_clustering_builds .mpckmeans _).1.trans ?_
  generalize hk : ([("model", .str model), ("max_iteration", .int a), ("w", .float w)] : Kwargs) = kw
  have e0 : "self" ∉ dkeys kw := by rw [← hk]; simp [dkeys]
  have e1 : dget? kw "model" = some (.str model) := by rw [← hk]; simp [dget?]
  have e2 : dget? kw "max_iteration" = some (.int a) := by rw [← hk]; simp [dget?]
  have e3 : dget? kw "w" = some (.float w) := by rw [← hk]; simp [dget?]
  have hl : (∀ d ∈ ClusteringClass.mpckmeans.documented, Given kw d.name d.allowed) ↔ model = "MPC" ∧ 1 ≤ a ∧ 0 ≤ w := by
    simp only [ClusteringClass.documented, List.forall_mem_cons, given_some e1, given_some e2, given_some e3, given_true, true_and]
    rw [← atLeast_int 1 a, ← atLeast_float]
    simp
  rw [hl, MpcParams.init]
  by_cases h0 : model = "MPC" <;> by_cases h1 : a < 1 <;> by_cases h2 : w < 0 <;> simp [h0, h1, h2, e0]
  · exact ⟨not_lt.1 h1, not_lt.1 h2⟩

theorem C51_agrees_spectral (model : String) (n : Option Int) :
    (∃ o, clusteringFactory "spectral" [("model", .str model), ("nb_components", n.elim .none .int)] = .ok o) ↔
      ∃ p, SpecParams.init model n = .ok p := by
  refine (C51_clustering_builds .spectral _).1.trans ?_
  generalize hk : ([("model", .str model), ("nb_components", n.elim .none .int)] : Kwargs) = kw
  have e0 : "self" ∉ dkeys kw := by rw [← hk]; simp [dkeys]
  have e1 : dget? kw "model" = some (.str model) := by rw [← hk]; simp [dget?]
  have e2 : dget? kw "nb_components" = some (n.elim .none .int) := by rw [← hk]; simp [dget?]
  have hl : (∀ d ∈ ClusteringClass.spectral.documented, Given kw d.name d.allowed) ↔ model = "SPEC" ∧ ∀ i, n = some i → 2 ≤ i := by
    simp only [ClusteringClass.documented, List.forall_mem_cons, given_some e1, given_some e2, given_true, true_and]
    cases n with
    | none => simp
    | some i => have := atLeast_int 2 i; simp at this ⊢; simp [this]
  rw [hl, SpecParams.init]
  cases n with
  | none => by_cases h0 : model = "SPEC" <;> simp [h0, e0]
  | some i => by_cases h0 : model = "SPEC" <;> by_cases h1 : i < 2 <;> simp [h0, h1, e0]; omega

theorem C51_agrees_hierarchical {α V : Type} [LinearOrder α] (linkage : String) :
    (∃ o, clusteringFactory "hierarchical" [("linkage", .str linkage)] = .ok o) ↔
      ∃ o : HObject α V, HObject.init linkage = .ok o := by
  refine (C51_clustering_builds .hierarchical _).1.trans ?_
  generalize hk : ([("linkage", .str linkage)] : Kwargs) = kw
  have e0 : "self" ∉ dkeys kw := by rw [← hk]; simp [dkeys]
  have e1 : dget? kw "linkage" = some (.str linkage) := by rw [← hk]; simp [dget?]
  have hl : (∀ d ∈ ClusteringClass.hierarchical.documented, Given kw d.name d.allowed) ↔
      linkage = "ward" ∨ linkage = "average" ∨ linkage = "complete" ∨ linkage = "single" := by
    simp only [ClusteringClass.documented, List.forall_mem_cons, given_some e1, given_true, true_and]
    simp
  rw [hl, HObject.init, Linkage.parse]
  by_cases h0 : linkage = "ward" <;> by_cases h1 : linkage = "average" <;> by_cases h2 : linkage = "complete" <;>
    by_cases h3 : linkage = "single" <;> simp [h0, h1, h2, h3, e0, bind, Except.bind, pure, Except.pure]

theorem C51_agrees_dbscan (eps : Rat) (enough : Nat → Bool) (n : Int) :
    (∃ o, clusteringFactory "dbscan" [("eps", .float eps), ("min_samples", .int n)] = .ok o) ↔
      ∃ p, DbParams.init eps enough (decide (0 < eps)) n = .ok p := by
  refine (C51_clustering_builds .dbscan _).1.trans ?_
  generalize hk : ([("eps", .float eps), ("min_samples", .int n)] : Kwargs) = kw
  have e0 : "self" ∉ dkeys kw := by rw [← hk]; simp [dkeys]
  have e1 : dget? kw "eps" = some (.float eps) := by rw [← hk]; simp [dget?]
  have e2 : dget? kw "min_samples" = some (.int n) := by rw [← hk]; simp [dget?]
  have hl : (∀ d ∈ ClusteringClass.dbscan.documented, Given kw d.name d.allowed) ↔ 0 < eps ∧ 0 < n := by
    simp only [ClusteringClass.documented, List.forall_mem_cons, given_some e1, given_some e2, given_true, true_and]
    simp [Positive, PyVal.num]
  rw [hl, DbParams.init]
  by_cases h1 : 0 < eps <;> by_cases h2 : n ≤ 0 <;> simp [h1, h2, e0]
  omega

/-! ### Each theorem applied to a concrete case -/

example : ∀ d ∈ ClusteringClass.kmeans.documented, Given [("max_iteration", .int 7)] d.name d.allowed :=
  ((C51_clustering_builds .kmeans [("max_iteration", .int 7)]).1.1 ⟨_, (by decide +kernel : _ = Except.ok (ClusteringClass.kmeans,
    (⟨[("model", .str "COP"), ("max_iteration", .int 7), ("tolerance", .float (1 / 10000)), ("random_seed", .none)], []⟩ : PyObject)))⟩).2

example := C51_sampling (algorithm := "farthest_in_same_cluster") (c := some .sameCluster) (d := some .farthestNeighbors)
  (by simp [samplingAlgorithms]) [("random_seed", .int 1)]

example := C51_sampling_distinct (r := ("random", none, none)) (r' := ("random_in_same_cluster", some .sameCluster, none))
  (by simp [samplingAlgorithms]) (by simp [samplingAlgorithms]) (by simp) (kargs := [("random_seed", .int 1)]) (by decide) (by decide) rfl rfl

end Verif
