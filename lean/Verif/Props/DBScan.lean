import Verif.Proofs.DBLabels
import Verif.Proofs.DBFinal

/-
Properties C41 to C44 and C56 to C59: C-DBScan. Specification vocabulary: `Verif/Spec/Clustering.lean`,
`Verif/Spec/DBScan.lean`.
-/

namespace Verif

variable {α V δ : Type} [LinearOrder α] [LinearOrder δ]

/-! Data of the examples: two groups of IDs on a line, 1 and 6 must-linked across the groups, 2 and
7 cannot-linked, 9 alone, and 8 close to a cannot-linked ID. -/

def dbDemo : Manager Nat := runOps (Manager.init [5, 1, 2, 3, 6, 7, 8, 9])
  [.addConstraint 1 6 "MUST_LINK" 1, .addConstraint 2 7 "CANNOT_LINK" 1, .addConstraint 8 7 "CANNOT_LINK" 1]

def dbDemoVectors : Dict Nat Int := [(1, 10), (2, 11), (3, 12), (5, 13), (6, 50), (7, 51), (8, 52), (9, 90)]

def dbDemoEnv : DbEnv Nat Int Nat where
  metric a b := (a - b).natAbs
  enum l := l.dedup
  none := 0

/-- `eps = n`, `min_samples = k`, with the comparison of line 525. -/
def dbNatParams (n k : Nat) : DbParams Nat := ⟨n, fun i => decide (n ≤ i), k⟩

theorem dbDemo_ok (n k : Nat) : DbAssumptions dbDemoEnv (dbNatParams n k) where
  enum l := ⟨List.nodup_dedup l, fun _ => List.mem_dedup⟩
  self v := by show (v - v).natAbs ≤ n; simp

theorem dbDemo_hasVectors : HasVectors dbDemo dbDemoVectors := by
  unfold HasVectors; simp only [exists_dget?_iff]; decide +kernel

/-- What `cluster` needs in order to return. -/
theorem dbCluster_ok_args {env : DbEnv α V δ} {p : DbParams δ} {m : Manager α} {vectors : Option (Dict α V)}
    {nb : Option Int} {o : DbObject α} (hr : dbCluster env p m vectors nb = .ok o) :
    ∃ vs, vectors = some vs ∧ nb = none ∧ HasVectors m vs ∧ m.managed ≠ [] := by
  unfold dbCluster at hr
  cases vectors with
  | none => simp at hr
  | some vs =>
    cases nb with
    | some n => simp at hr
    | none =>
      simp only at hr
      cases e : distanceTable m vs env.metric with
      | error _ => rw [e] at hr; cases hr
      | ok table => exact ⟨vs, rfl, rfl, hasVectors_of_table e, nonempty_of_table e⟩

/-- Whenever `cluster` returns, exactly the managed IDs are labelled; the labels are
`-j, …, -1, 0, …, k - 1`, where `k` and `j` are the numbers of clusters and of ignored points that
the object records, and each negative label is given to one ID only. -/
theorem C41_labels {env : DbEnv α V δ} {p : DbParams δ} (ha : DbAssumptions env p) {m : Manager α} (h : Reachable m)
    {vectors : Option (Dict α V)} {nb : Option Int} {o : DbObject α} (hr : dbCluster env p m vectors nb = .ok o) :
    ∃ d, ∃ k j : Nat, o.predicted = some d ∧ o.regular = k ∧ o.single = j ∧ o.total = k + j ∧
      (dkeys d).Perm m.managed ∧ (∀ c, c ∈ dvals d ↔ -(j : Int) ≤ c ∧ c < k) ∧
      ∀ x y c, dget? d x = some c → dget? d y = some c → c < 0 → x = y := by
  obtain ⟨vs, rfl, rfl, hv, hne⟩ := dbCluster_ok_args hr
  obtain ⟨o', d, k, j, e, hd, ⟨reg, ign, rfl, hrs, hrm, hrf, hrl, hik, hiv⟩, h1, h2, h3, -⟩ := dbCluster_ok h.inv ha hne hv
  rw [hr] at e
  cases e
  have hn : m.managed.Nodup := h.inv.d.nodup
  have hrn : (dkeys reg).Nodup := hrs.imp fun hlt => ne_of_lt hlt
  have hin : (dkeys ign).Nodup := by rw [hik]; exact hn.filter _
  refine ⟨_, k, j, hd, h1, h2, h3, ?_, fun c => ?_, fun x y c hx hy hc => ?_⟩
  · rw [List.perm_ext_iff_of_nodup _ hn]
    · intro x
      have hik' : x ∈ dkeys ign ↔ x ∈ m.managed ∧ x ∉ dkeys reg := by
        rw [hik, List.mem_filter, decide_eq_true_eq]
      simp only [dkeys, List.map_append, List.mem_append]
      simp only [dkeys] at hik' hrm
      rw [hik']
      constructor
      · rintro (hx | hx)
        · exact hrm x hx
        · exact hx.1
      · intro hx
        by_cases hxr : x ∈ List.map Prod.fst reg
        · exact .inl hxr
        · exact .inr ⟨hx, hxr⟩
    · have hdis : ∀ a ∈ dkeys reg, ∀ b ∈ dkeys ign, a ≠ b := by
        intro a ha b hb
        rw [hik, List.mem_filter, decide_eq_true_eq] at hb
        rintro rfl
        exact hb.2 ha
      simp only [dkeys, List.map_append]
      exact List.nodup_append.2 ⟨hrn, hin, hdis⟩
  · simp only [dvals, List.map_append, List.mem_append]
    simp only [dvals] at hrl hiv
    rw [hrl c, hiv, List.mem_map]
    constructor
    · rintro (hc | ⟨i, hi, rfl⟩)
      · omega
      · rw [List.mem_range] at hi; omega
    · intro hc
      by_cases h0 : 0 ≤ c
      · exact .inl ⟨h0, hc.2⟩
      · exact .inr ⟨(-c - 1).toNat, List.mem_range.2 (by omega), by omega⟩
  · rw [dget?_append, Option.or_eq_some_iff] at hx hy
    have hreg : ∀ z, dget? reg z ≠ some c := fun z hz => by
      have := ((hrl c).1 (List.mem_map.2 ⟨(z, c), mem_of_dget? hz, rfl⟩)).1
      omega
    have hx' := hx.resolve_left (hreg x)
    have hy' := hy.resolve_left (hreg y)
    obtain ⟨a, ha, hax⟩ := List.getElem_of_mem (mem_of_dget? hx'.2)
    obtain ⟨b, hb, hby⟩ := List.getElem_of_mem (mem_of_dget? hy'.2)
    have hval : ∀ (a : Nat) (ha : a < ign.length), ign[a].2 = -(a : Int) - 1 := by
      intro a ha
      have hlen : ign.length = j := by
        have := congrArg List.length hiv
        simpa [dvals] using this
      have hga : (dvals ign)[a]'(by simpa [dvals] using ha) = ign[a].2 := by simp [dvals]
      rw [← hga]
      simp only [hiv, List.getElem_map, List.getElem_range]
    have e1 := hval a ha
    have e2 := hval b hb
    rw [hax] at e1
    rw [hby] at e2
    simp only at e1 e2
    have : a = b := by omega
    subst this
    rw [hax] at hby
    exact congrArg Prod.fst hby

/-- The exact form of the labelling: regular clusters named by first appearance over the sorted
clustered IDs, ignored IDs named in the order of the manager. -/
theorem C41_order {env : DbEnv α V δ} {p : DbParams δ} (ha : DbAssumptions env p) {m : Manager α} (h : Reachable m)
    {vectors : Option (Dict α V)} {nb : Option Int} {o : DbObject α} (hr : dbCluster env p m vectors nb = .ok o) :
    ∃ d, ∃ k j : Nat, o.predicted = some d ∧ o.regular = k ∧ o.single = j ∧ DbLabelling m d k j := by
  obtain ⟨vs, rfl, rfl, hv, hne⟩ := dbCluster_ok_args hr
  obtain ⟨o', d, k, j, e, hd, hl, h1, h2, -⟩ := dbCluster_ok h.inv ha hne hv
  rw [hr] at e
  cases e
  exact ⟨d, k, j, hd, h1, h2, hl⟩

/-- `cluster` returns as soon as every managed ID has a vector and there is a managed ID; the `while`
loop needs no more rounds than there are local clusters. -/
theorem C42_no_failure {env : DbEnv α V δ} {p : DbParams δ} (ha : DbAssumptions env p) {m : Manager α} (h : Reachable m)
    (hne : m.managed ≠ []) {vectors : Dict α V} (hv : HasVectors m vectors) :
    ∃ o, dbCluster env p m (some vectors) none = .ok o := by
  obtain ⟨o, d, k, j, e, -⟩ := dbCluster_ok h.inv ha hne hv
  exact ⟨o, e⟩

/-- The branches of lines 351-360 and 386-395 are never executed: when the must-links are handled every managed ID is noise or has
a local cluster of its own, so the table `clusters_of_data_IDs` of lines 320-327 plays no part. -/
theorem C42_dead_branches {env : DbEnv α V δ} {p : DbParams δ} (ha : DbAssumptions env p) {m : Manager α} (h : Reachable m)
    (hne : m.managed ≠ []) {vectors : Dict α V} (hv : HasVectors m vectors) :
    ∃ table labels locals, distanceTable m vectors env.metric = .ok table ∧ dbLocals p m table m.managed = .ok (labels, locals) ∧
      ∀ x ∈ m.managed, (dget? labels x = some .noise ∨ x ∈ dkeys locals) ∧ ∀ t t',
        dbOwn labels locals t x = dbOwn labels locals t' x ∧ dbPartner labels locals t x = dbPartner labels locals t' x := by
  obtain ⟨table, et⟩ := distanceTable_total (metric := env.metric) hne hv
  have hT : DbTable p m table := dbTable_of_ok ha et
  obtain ⟨⟨labels, locals⟩, e1, hL⟩ := dbLocals_ok h.inv hT
  refine ⟨table, labels, locals, et, e1, fun x hx => ⟨hL.done x hx, fun t t' => ?_⟩⟩
  unfold dbOwn dbPartner
  rcases hL.done x hx with h1 | h1
  · rw [dget_eq_ok.2 h1]
    exact ⟨rfl, rfl⟩
  · obtain ⟨v, hv1⟩ := dget?_isSome_of_mem (show x ∈ dkeys labels by rw [hL.keys]; exact hx)
    rw [dget_eq_ok.2 hv1]
    refine ⟨?_, ?_⟩ <;>
    · show (if _ then _ else _) = (if _ then _ else _)
      rw [if_pos h1, if_pos h1]

/-- A requested number of clusters is refused, and so are vectors that are not a dictionary. -/
theorem C42_refused {env : DbEnv α V δ} {p : DbParams δ} {m : Manager α} {vectors : Option (Dict α V)} {nb : Option Int}
    (h : vectors = none ∨ nb ≠ none) : ∃ s, dbCluster env p m vectors nb = .error (.valueError s) := by
  cases vectors with
  | none => exact ⟨_, rfl⟩
  | some vs =>
    cases nb with
    | none => simp at h
    | some n => exact ⟨_, rfl⟩

omit [LinearOrder δ] in
/-- `__init__` accepts exactly a positive radius and at least one sample. -/
theorem C42_init {eps : δ} {enough : Nat → Bool} {positive : Bool} {n : Int} :
    (positive = true ∧ 0 < n → DbParams.init eps enough positive n = .ok ⟨eps, enough, n.toNat⟩) ∧
      (¬ (positive = true ∧ 0 < n) → ∃ s, DbParams.init eps enough positive n = .error (.valueError s)) := by
  unfold DbParams.init
  constructor
  · rintro ⟨h1, h2⟩
    rw [if_neg (by simp [h1]), if_neg (by omega)]
  · intro h
    by_cases h1 : positive = false
    · rw [if_pos h1]; exact ⟨_, rfl⟩
    · rw [if_neg h1]
      by_cases h2 : n ≤ 0
      · rw [if_pos h2]; exact ⟨_, rfl⟩
      · exact absurd ⟨by simpa using h1, by omega⟩ h

/-- Whenever `cluster` returns, two IDs with an inferred cannot-link have different labels. -/
theorem C44_cannot_links {env : DbEnv α V δ} {p : DbParams δ} (ha : DbAssumptions env p) {m : Manager α} (h : Reachable m)
    {vectors : Option (Dict α V)} {nb : Option Int} {o : DbObject α} (hr : dbCluster env p m vectors nb = .ok o) {x y : α}
    (hxy : m.getInferred x y = .ok (some .cannotLink)) :
    ∃ d, ∃ a b : Int, o.predicted = some d ∧ dget? d x = some a ∧ dget? d y = some b ∧ a ≠ b := by
  obtain ⟨hx, hy⟩ := mem_of_getInferred h.inv hxy
  have hcl := (inferred_cl_iff h.inv hx hy).1 hxy
  obtain ⟨d, k, j, hd, -, -, -, hk, -⟩ := C41_labels ha h hr
  obtain ⟨vs, rfl, rfl, hv, hne⟩ := dbCluster_ok_args hr
  obtain ⟨o', d', k', j', e, hd', -, -, -, -, hno, -⟩ := dbCluster_ok h.inv ha hne hv
  rw [hr] at e
  cases e
  rw [hd] at hd'
  cases hd'
  obtain ⟨a, hxa⟩ := dget?_isSome_of_mem (hk.mem_iff.2 hx)
  obtain ⟨b, hyb⟩ := dget?_isSome_of_mem (hk.mem_iff.2 hy)
  refine ⟨d, a, b, hd, hxa, hyb, ?_⟩
  rintro rfl
  exact hno x y a hxa hyb hcl

/-- On the demo: all the kinds of labels, two core clusters, one local cluster left. -/
theorem dbDemo_cluster : dbCluster dbDemoEnv (dbNatParams 2 3) dbDemo (some dbDemoVectors) none = .ok {
    predicted := some [(1, 0), (2, 1), (3, 1), (5, 1), (6, 0), (7, 0), (8, -1), (9, -2)]
    labels := [(5, .core), (1, .core), (2, .core), (3, .core), (6, .singleCore), (7, .singleCore), (8, .singleCore), (9, .noise)]
    locals := [(8, [8])]
    cores := [(5, [1, 5, 2, 3]), (1, [1, 6, 7])]
    regular := 2
    single := 2
    total := 4 } := by decide +kernel

example : Reachable dbDemo ∧ HasVectors dbDemo dbDemoVectors ∧ dbDemo.managed ≠ [] ∧
    dbDemo.getInferred 2 7 = .ok (some .cannotLink) := ⟨⟨_, _, rfl⟩, dbDemo_hasVectors, by decide +kernel, by decide +kernel⟩

/-! ### What C-DBScan does not guarantee -/

def dbFar : Manager Nat := runOps (Manager.init [1, 3, 2, 4]) [.addConstraint 1 2 "MUST_LINK" 1]

def dbFarVectors : Dict Nat Int := [(1, 100), (2, 2), (3, 1), (4, 0)]

/-- Two IDs with a must-link can get different labels. -/
theorem C43_must_link_violated : ∃ (m : Manager Nat) (vectors : Dict Nat Int) (o : DbObject Nat) (d : Dict Nat Int) (a b : Int),
    Reachable m ∧ DbAssumptions dbDemoEnv (dbNatParams 1 3) ∧
    dbCluster dbDemoEnv (dbNatParams 1 3) m (some vectors) none = .ok o ∧ o.predicted = some d ∧
    m.getInferred 1 2 = .ok (some .mustLink) ∧ dget? d 1 = some a ∧ dget? d 2 = some b ∧ a ≠ b := by
  refine ⟨dbFar, dbFarVectors, ⟨some [(1, 0), (2, 1), (3, 1), (4, 1)], [(1, .noise), (3, .core), (2, .noise), (4, .noise)], [],
    [(1, [1, 3, 2, 4]), (3, [2, 4, 3])], 2, 0, 2⟩, [(1, 0), (2, 1), (3, 1), (4, 1)], 0, 1, ⟨_, _, rfl⟩, dbDemo_ok 1 3, ?_⟩
  decide +kernel

/-- What `CORE`, `SINGLE_CORE` and `NOISE` mean in the object after a call that returns. -/
theorem C56_density_labels {env : DbEnv α V δ} {p : DbParams δ} (ha : DbAssumptions env p) {m : Manager α} (h : Reachable m)
    {vectors : Dict α V} {nb : Option Int} {o : DbObject α} (hr : dbCluster env p m (some vectors) nb = .ok o) :
    DensityLabels env p m vectors o.labels := by
  obtain ⟨vs, e, rfl, -⟩ := dbCluster_ok_args hr
  exact dbLabels_ok h.inv ha hr

/-- Without a cannot-link, the labels are those of DBScan: `CORE` for the IDs with `min_samples` IDs
within the radius, `NOISE` for the others. -/
theorem C56_without_cannot_links {env : DbEnv α V δ} {p : DbParams δ} (ha : DbAssumptions env p) {m : Manager α}
    (h : Reachable m) (hno : ∀ x ∈ m.managed, ∀ y ∈ m.managed, m.getInferred x y ≠ .ok (some .cannotLink))
    {vectors : Dict α V} {nb : Option Int} {o : DbObject α} (hr : dbCluster env p m (some vectors) nb = .ok o) {x : α}
    (hx : x ∈ m.managed) :
    (dget? o.labels x = some .core ∨ dget? o.labels x = some .noise) ∧
      (dget? o.labels x = some .core ↔ ∃ S : List α, S.Nodup ∧ p.minSamples ≤ S.length ∧
        ∀ y ∈ S, y ∈ m.managed ∧ Near env p vectors x y) := by
  have hl := C56_density_labels ha h hr
  have hcl : ∀ y z, ¬ CannotLinked m y z := fun y z hyz => by
    obtain ⟨hy, hz⟩ := CannotLinked.mem h.inv hyz
    exact hno y hy z hz ((inferred_cl_iff h.inv hy hz).2 hyz)
  have hns : ∀ y, dget? o.labels y ≠ some .singleCore := fun y hy => by
    obtain ⟨c, a, b, -, -, -, -, hab⟩ := hl.single y hy
    exact hcl a b hab
  obtain ⟨v, hv⟩ := dget?_isSome_of_mem (d := o.labels) (k := x) (by rw [hl.keys]; exact hx)
  have hv' : v = .core ∨ v = .noise := by
    have h1 := hl.labelled x hx
    have h2 := hns x
    rw [hv] at h1 h2
    cases v <;> simp_all
  refine ⟨by rw [hv]; rcases hv' with rfl | rfl <;> simp, fun hc => ?_, fun hS => ?_⟩
  · obtain ⟨S, h1, h2, h3, -⟩ := hl.core x hc
    exact ⟨S, h1, h2, h3⟩
  · obtain ⟨S, h1, h2, h3⟩ := hS
    rcases hv' with rfl | rfl
    · exact hv
    · have := hl.noise x hv S h1 fun y hy => ⟨(h3 y hy).1, (h3 y hy).2, hns y⟩
      omega

/-! Data of the next witness: 5 and 6 must-linked and close, 7 close to 6, and 1 far away. -/

def dbClose : Manager Nat := runOps (Manager.init [1, 5, 6, 7]) [.addConstraint 5 6 "MUST_LINK" 1]

def dbCloseVectors : Dict Nat Int := [(1, 100), (5, 10), (6, 11), (7, 13)]

theorem dbClose_cluster : dbCluster dbDemoEnv (dbNatParams 2 1) dbClose (some dbCloseVectors) none = .ok
    ⟨some [(5, 0), (6, 0), (1, -1), (7, -2)], [(1, .core), (5, .core), (6, .core), (7, .core)],
      [(1, [1]), (5, []), (6, [7]), (7, [7])], [(5, [5, 6])], 1, 2, 3⟩ := by decide +kernel

example : ∀ x ∈ dbClose.managed, ∀ y ∈ dbClose.managed, dbClose.getInferred x y ≠ .ok (some .cannotLink) := by
  decide +kernel

/-- Two `CORE` IDs within the radius of each other can be in different clusters, and a `CORE` ID can
be an ignored point, although there is no cannot-link at all: line 458 takes the local cluster with
the smallest ID instead of the closest one, and line 525 compares the size of a cluster with the
radius instead of `min_samples`. -/
theorem C57_core_ids_ignored : ∃ (m : Manager Nat) (vectors : Dict Nat Int) (o : DbObject Nat) (d : Dict Nat Int) (a : Int),
    Reachable m ∧ DbAssumptions dbDemoEnv (dbNatParams 2 1) ∧
    dbCluster dbDemoEnv (dbNatParams 2 1) m (some vectors) none = .ok o ∧ o.predicted = some d ∧
    (∀ x ∈ m.managed, ∀ y ∈ m.managed, m.getInferred x y ≠ .ok (some .cannotLink)) ∧
    dget? o.labels 6 = some .core ∧ dget? o.labels 7 = some .core ∧ Near dbDemoEnv (dbNatParams 2 1) vectors 6 7 ∧
    dget? d 6 = some a ∧ 0 ≤ a ∧ dget? d 7 = some (-2) := by
  refine ⟨dbClose, dbCloseVectors, _, [(5, 0), (6, 0), (1, -1), (7, -2)], 0, ⟨_, _, rfl⟩, dbDemo_ok 2 1, dbClose_cluster, rfl, ?_,
    rfl, rfl, ⟨11, 13, rfl, rfl, ?_⟩, rfl, Int.le_refl 0, rfl⟩ <;> decide +kernel

/-- Each core cluster of the object contains all the IDs that are must-linked to its ID, is made of
managed IDs, and has no cannot-link inside. -/
theorem C58_core_clusters {env : DbEnv α V δ} {p : DbParams δ} (ha : DbAssumptions env p) {m : Manager α} (h : Reachable m)
    {vectors : Option (Dict α V)} {nb : Option Int} {o : DbObject α} (hr : dbCluster env p m vectors nb = .ok o) {x : α}
    {pts : List α} (hx : dget? o.cores x = some pts) :
    x ∈ m.managed ∧ x ∈ pts ∧ (∀ y ∈ pts, y ∈ m.managed) ∧
      (∀ y, m.getInferred x y = .ok (some .mustLink) → y ∈ pts) ∧
      ∀ y ∈ pts, ∀ z ∈ pts, m.getInferred y z ≠ .ok (some .cannotLink) := by
  obtain ⟨vs, rfl, rfl, hv, hne⟩ := dbCluster_ok_args hr
  obtain ⟨o', d, k, j, e, -, -, -, -, -, -, hcores⟩ := dbCluster_ok h.inv ha hne hv
  rw [hr] at e
  cases e
  obtain ⟨h1, h2, h3⟩ := hcores x pts hx
  refine ⟨h1, h3 x h1 (MustLinked.refl m x), h2.2.1, fun y hy => ?_, fun y hy z hz hcl => ?_⟩
  · obtain ⟨-, hym⟩ := mem_of_getInferred h.inv hy
    exact h3 y hym ((inferred_ml_iff h.inv h1 hym).1 hy)
  · exact h2.2.2 y hy z hz ((inferred_cl_iff h.inv (h2.2.1 y hy) (h2.2.1 z hz)).1 hcl)

example : dget? [(5, [1, 5, 2, 3]), (1, [1, 6, 7])] 1 = some [1, 6, 7] ∧ dbDemo.getInferred 1 6 = .ok (some .mustLink) := by
  decide +kernel

/-- The labels are those of the recorded clusters: an ID is in a regular cluster iff it is in a core
cluster, or in a remaining local cluster that is big enough; two such IDs share a label iff they are
in the same cluster, where the last core cluster wins. -/
theorem C59_labels_of_clusters {env : DbEnv α V δ} {p : DbParams δ} (ha : DbAssumptions env p) {m : Manager α} (h : Reachable m)
    {vectors : Option (Dict α V)} {nb : Option Int} {o : DbObject α} (hr : dbCluster env p m vectors nb = .ok o) :
    ∃ d, o.predicted = some d ∧
      (∀ x, (∃ c, dget? d x = some c ∧ 0 ≤ c) ↔ ∃ w, Owner p o.cores o.locals x w) ∧
      ∀ x y w w', Owner p o.cores o.locals x w → Owner p o.cores o.locals y w' → (dget? d x = dget? d y ↔ w = w') := by
  obtain ⟨vs, rfl, rfl, hv, hne⟩ := dbCluster_ok_args hr
  obtain ⟨labels, cores, rest, e, hn, hcores, hrest⟩ := dbCluster_parts h.inv ha hne hv
  rw [hr] at e
  obtain ⟨s, r, name, er, hnd, hd, hN⟩ := dbFinish_named hn hrest.nodup e.symm
  have hmn : m.managed.Nodup := h.inv.d.nodup
  rw [dbIgnore_fold hmn] at hd
  obtain ⟨r', er', hrk, hrs, hrf⟩ := rename_ok hnd
  rw [er] at er'
  cases er'
  have hmem : ∀ x, x ∈ dkeys r ↔ x ∈ dkeys s.1 := fun x => by rw [hrk]; exact List.mem_insertionSort _
  have hR : ∀ z c, dget? r z = some c → 0 ≤ c := fun z c hz =>
    ((firstAppearance_labelsAre hrf c).1 (List.mem_map.2 ⟨(z, c), mem_of_dget? hz, rfl⟩)).1
  have hown : ∀ x w, Owner p o.cores o.locals x w → x ∈ dkeys s.1 := fun x w hw => by
    obtain ⟨c, hc, -⟩ := hN.of_own x w hw
    exact mem_dkeys_of_dget? hc
  have hget : ∀ x, x ∈ dkeys s.1 → ∀ d', dget? (r ++ d') x = dget? r x := fun x hx d' => by
    obtain ⟨v, hv⟩ := dget?_isSome_of_mem ((hmem x).2 hx)
    rw [dget?_append, hv]
    rfl
  refine ⟨_, hd, fun x => ⟨?_, ?_⟩, fun x y w w' hx hy => ?_⟩
  · rintro ⟨c, hc, h0⟩
    rw [dget?_append, Option.or_eq_some_iff] at hc
    rcases hc with hc | ⟨-, hc⟩
    · obtain ⟨v, hv⟩ := dget?_isSome_of_mem ((hmem x).1 (mem_dkeys_of_dget? hc))
      obtain ⟨-, -, w, -, hw⟩ := hN.of_label x v hv
      exact ⟨w, hw⟩
    · obtain ⟨q, -, hq⟩ := List.mem_map.1 (mem_of_dget? hc)
      have : c = -1 - (q.2 : Int) := (congrArg Prod.snd hq).symm
      omega
  · rintro ⟨w, hw⟩
    have hx := hown x w hw
    obtain ⟨v, hv⟩ := dget?_isSome_of_mem ((hmem x).2 hx)
    exact ⟨v, by rw [hget x hx]; exact hv, hR x v hv⟩
  · have hxk := hown x w hx
    have hyk := hown y w' hy
    rw [hget x hxk, hget y hyk, ← hrs x hxk y hyk]
    obtain ⟨c, hc, hcn⟩ := hN.of_own x w hx
    obtain ⟨c', hc', hcn'⟩ := hN.of_own y w' hy
    rw [hc, hc']
    constructor
    · intro he
      cases he
      rw [hcn] at hcn'
      cases hcn'
      rfl
    · rintro rfl
      have h1 := hN.of_label x c hc
      have h2 := hN.of_label y c' hc'
      rw [hN.inj c c' h1.1 h1.2.1 h2.1 h2.2.1 (hcn.trans hcn'.symm)]

example : Owner (dbNatParams 2 3) [(5, [1, 5, 2, 3]), (1, [1, 6, 7])] [(8, [8])] 1 (.inl 1) ∧
    Owner (dbNatParams 1 3) [(5, [1, 5, 2, 3]), (1, [1, 6, 7])] [(8, [8])] 8 (.inr 8) :=
  ⟨⟨[(5, [1, 5, 2, 3])], [1, 6, 7], [], rfl, by simp, by simp⟩, by simp, [8], rfl, by simp, rfl⟩

end Verif
