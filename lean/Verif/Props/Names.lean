import Verif.Proofs.NamesDB
import Verif.Props.Vectors
import Verif.Props.DBOrder
import Verif.Props.KMeans
import Verif.Props.Hierarchical

/-
C86: the names of the IDs. `f` gives every ID another name.
-/

namespace Verif

variable {α β V δ κ μ θ : Type} [LinearOrder α] [LinearOrder β] [LinearOrder δ] {f : α → β}
variable {m : Manager α} {m' : Manager β}

/-- Any history with the other names: each call returns the same value or raises the same error, and the manager answers
the same. -/
theorem C86_manager (hf : f.Injective) (ids : List α) (ops : List (Op α)) :
    runResults (Manager.init (ids.map f)) (ops.map (Op.mapIds f)) = runResults (Manager.init ids) ops ∧
      Renamed f (runOps (Manager.init ids) ops) (runOps (Manager.init (ids.map f)) (ops.map (Op.mapIds f))) :=
  renamed_runOps hf ids ops

/-- The order inside the lists of `get_connected_components` is also the same, if the names are in the same order or if
nothing was deleted. -/
theorem C86_component_lists (hf : f.Injective) (ids : List α) (ops : List (Op α))
    (h : StrictMono f ∨ ∀ op ∈ ops, op.deletes = false) :
    (runOps (Manager.init (ids.map f)) (ops.map (Op.mapIds f))).components = (runOps (Manager.init ids) ops).components.map (List.map f) :=
  components_runOps hf ids ops h

/-- Two names exchanged. -/
def swapNat (a b : Nat) (x : Nat) : Nat := if x = a then b else if x = b then a else x

theorem swapNat_injective (a b : Nat) : Function.Injective (swapNat a b) := by
  intro x y h
  unfold swapNat at h
  split at h <;> split at h <;> (try split at h) <;> (try split at h) <;> omega

/-- Otherwise the order inside a list can differ. -/
theorem C86_component_order : ∃ (f : Nat → Nat) (ids : List Nat) (ops : List (Op Nat)), f.Injective ∧
    (runOps (Manager.init (ids.map f)) (ops.map (Op.mapIds f))).components ≠ (runOps (Manager.init ids) ops).components.map (List.map f) :=
  ⟨swapNat 1 2, [1, 2, 3], [.addConstraint 2 1 "MUST_LINK" 1, .deleteDataID 3], swapNat_injective 1 2, by decide +kernel⟩

/-- The history of `kmDemo`. -/
def kmDemoOps : List (Op Nat) :=
  [.addConstraint 1 3 "MUST_LINK" 1, .addConstraint 1 2 "CANNOT_LINK" 1, .addConstraint 9 3 "CANNOT_LINK" 1,
   .addConstraint 2 9 "CANNOT_LINK" 1]

/-- `kmDemo` with the names 1 and 9 exchanged. -/
def kmDemoSwap : Manager Nat := runOps (Manager.init ([3, 1, 2, 9, 5].map (swapNat 1 9))) (kmDemoOps.map (Op.mapIds (swapNat 1 9)))

theorem kmDemoSwap_renamed : Renamed (swapNat 1 9) kmDemo kmDemoSwap := (C86_manager (swapNat_injective 1 9) _ kmDemoOps).2

example : kmDemoOps.all (fun op => op.deletes = false) ∧ kmDemo.components = [[1, 3], [2], [9], [5]] ∧
    kmDemoSwap.components = [[9, 3], [2], [1], [5]] := by decide +kernel

/-- COP-KMeans: the same groups of IDs and the same centroids; with names in the same order the same labels. -/
theorem C86_kmeans (hf : f.Injective) (hr : Renamed f m m') {env : KMeansEnv α V δ} {env' : KMeansEnv β V δ}
    (he : RenamedKMeans f m env env') (henv' : env'.Ok) (maxIteration : Nat) {vs : Dict α V} {vs' : Dict β V}
    (hv : RenamedVectors f m vs vs') (nb : Option Int) :
    SameOutcome (fun r r' => RenamedLabels f r.1 r'.1 ∧ r.2 = r'.2) (kmCluster env maxIteration m (some vs) nb)
      (kmCluster env' maxIteration m' (some vs') nb) := by
  rw [C85_kmeans henv' maxIteration (hv.same hf hr.managed)]
  unfold kmCluster
  cases nb with
  | none => exact rfl
  | some n =>
    simp only
    split
    · exact rfl
    · rw [show m'.managed.length = m.managed.length by rw [hr.managed, List.length_map]]
      exact kmCOP_names hf hr he.metric he.mean he.enum he.small (by rw [hr.managed]; exact he.shuffle) vs _ _

/- The other names give other labels to the same groups. -/
example : RenamedKMeans (swapNat 1 9) kmDemo kmDemoEnv kmDemoEnv ∧
    RenamedVectors (swapNat 1 9) kmDemo kmDemoVectors ((7, 7) :: (renameKeys (swapNat 1 9) kmDemoVectors).reverse) ∧
    kmCluster kmDemoEnv 150 kmDemo (some kmDemoVectors) (some 2) =
      .ok ([(1, 0), (2, 1), (3, 0), (5, 1), (9, 2)], [(2, 30), (1, 50), (0, 79)]) ∧
    kmCluster kmDemoEnv 150 kmDemoSwap (some (renameKeys (swapNat 1 9) kmDemoVectors)) (some 2) =
      .ok ([(1, 0), (2, 1), (3, 2), (5, 1), (9, 2)], [(2, 30), (1, 50), (0, 79)]) :=
  ⟨⟨rfl, rfl, rfl, rfl, by decide +kernel⟩, by unfold RenamedVectors; decide +kernel, by decide +kernel, by decide +kernel⟩

/-- Hierarchical clustering: the same dendrogram and the same groups of IDs. -/
theorem C86_hierarchical (hf : f.Injective) (hr : Renamed f m m') (hm' : Reachable m')
    (hc : m'.components = m.components.map (List.map f)) (env : HierEnv V δ) (o : HObject α V) {vs : Dict α V} {vs' : Dict β V}
    (hv : RenamedVectors f m vs vs') (nb : Option Int) :
    ((o.mapIds f).cluster env m' (some vs') nb).1 = (o.cluster env m (some vs) nb).1.mapIds f ∧
      SameOutcome (RenamedLabels f) (o.cluster env m (some vs) nb).2 ((o.mapIds f).cluster env m' (some vs') nb).2 := by
  rw [C85_hierarchical env _ hm' (hv.same hf hr.managed)]
  unfold HObject.cluster
  cases nb with
  | none => exact ⟨by simp [HObject.mapIds, hr.managed], rfl⟩
  | some n =>
    simp only
    by_cases hn : n < 2
    · rw [if_pos hn, if_pos hn]
      exact ⟨by simp [HObject.mapIds, hr.managed], rfl⟩
    · rw [if_neg hn, if_neg hn, distanceTable_names hf hr]
      cases distanceTable m vs env.metric with
      | error e => exact ⟨by simp [HObject.mapIds, Except.map, hr.managed], rfl⟩
      | ok table =>
        have hb := hBuild_names (env := env) (link := o.linkage) hf hr hc vs table
        simp only [Except.map] at hb ⊢
        rw [show (o.mapIds f).linkage = o.linkage from rfl, hb]
        cases hBuild env o.linkage m vs table with
        | error e => exact ⟨by simp [HObject.mapIds, hr.managed], rfl⟩
        | ok r =>
          have hlen : (m'.managed.length : Int) = m.managed.length := by rw [hr.managed, List.length_map]
          refine ⟨by simp [HObject.mapIds, hr.managed, nameStorage, dmap], ?_⟩
          simp only [hlen]
          rw [hr.managed]
          exact cut_names hf ⟨o.linkage, m.managed, some r.1, r.2⟩ _ _

example : Reachable kmDemoSwap ∧ kmDemoSwap.components = kmDemo.components.map (List.map (swapNat 1 9)) ∧
    RenamedVectors (swapNat 1 9) kmDemo kmDemoVectors (renameKeys (swapNat 1 9) kmDemoVectors) ∧
    (hDemoObject.cluster hDemoEnv kmDemo (some kmDemoVectors) (some 2)).2.toOption ≠ none :=
  ⟨⟨_, _, rfl⟩, by decide +kernel, by unfold RenamedVectors; decide +kernel, by decide +kernel⟩

/-- Spectral clustering: the same matrix and the same groups of IDs. -/
theorem C86_spectral [LinearOrder κ] (hf : f.Injective) (hr : Renamed f m m') (env : SpecEnv V κ) {vs : Dict α V} {vs' : Dict β V}
    (hv : RenamedVectors f m vs vs') (nb : Option Int) :
    SameOutcome (fun o o' => o'.nbClusters = o.nbClusters ∧ o'.similarity = o.similarity ∧ RenamedLabels f o.predicted o'.predicted)
      (specCluster env m (some vs) nb) (specCluster env m' (some vs') nb) := by
  rw [C85_spectral env (hv.same hf hr.managed)]
  unfold specCluster
  cases nb with
  | none => exact rfl
  | some n =>
    simp only [bind, Except.bind]
    by_cases hn : n < 2
    · rw [if_pos hn, if_pos hn]; exact rfl
    · rw [if_neg hn, if_neg hn, stackRows_names hf hr.managed, show m'.managed.length = m.managed.length by rw [hr.managed, List.length_map]]
      cases stackRows m vs with
      | error e => exact rfl
      | ok rows =>
        simp only [specImprint_names hr]
        cases specImprint env m (rows.map fun v => rows.map fun w => env.kernel v w) with
        | error e => exact rfl
        | ok S =>
          simp only
          cases env.solve (min n.toNat m.managed.length) S with
          | error e => exact rfl
          | ok labels =>
            simp only [specItems_names hr]
            cases m.managed.zipIdx.mapM (specEntry labels) with
            | error e => exact rfl
            | ok items =>
              obtain ⟨r, r', e1, e2, h, -⟩ := renameClusters_names hf (nodup_dkeys_dofList items)
              simp only [Except.map, dofList_names hf, e1, e2]
              exact ⟨rfl, rfl, h⟩

/-- Affinity propagation: the same groups of IDs. -/
theorem C86_affinity [LinearOrder κ] (hf : f.Injective) (hr : Renamed f m m') (hc : m'.components = m.components.map (List.map f))
    (env : ApEnv V κ μ θ) (p : ApParams) {vs : Dict α V} {vs' : Dict β V} (hv : RenamedVectors f m vs vs') (nb : Option Int) :
    SameOutcome (RenamedLabels f) (apCluster env p m (some vs) nb) (apCluster env p m' (some vs') nb) := by
  rw [C85_affinity env p (hv.same hf hr.managed)]
  unfold apCluster
  cases nb with
  | some n => exact rfl
  | none =>
    simp only
    rw [stackRows_names hf hr.managed, apCannotLinks_names hr, apClosures_names hf hr hc, hr.managed]
    cases stackRows m vs with
    | error e => exact rfl
    | ok rows =>
      cases m.components.mapM fun c => c.mapM fun x => dget (dofList m.managed.zipIdx) x with
      | error e => exact rfl
      | ok mls =>
        cases apCannotLinks m with
        | error e => exact rfl
        | ok cls =>
          simp only [bind, Except.bind]
          cases apRun env p (rows.map fun v => rows.map fun w => env.neg (env.dist v w)) mls cls with
          | error e => exact rfl
          | ok labels => exact renameItems_names hf (apItems_names m.managed labels)

/-- MPC-KMeans: the same groups of IDs. Its `vectors` are read by position, so they are in the same order. -/
theorem C86_mpckmeans [LinearOrder κ] (hf : f.Injective) (hr : Renamed f m m') (env : MpcEnv V κ θ) (p : MpcParams) (vs : Dict α V)
    (nb : Option Int) :
    SameOutcome (RenamedLabels f) (mpcCluster env p m (some vs) nb) (mpcCluster env p m' (some (renameKeys f vs)) nb) := by
  unfold mpcCluster
  cases nb with
  | none => exact rfl
  | some n =>
    simp only [bind, Except.bind]
    by_cases hn : n < 2
    · rw [if_pos hn, if_pos hn]; exact rfl
    · rw [if_neg hn, if_neg hn, mpcPairs_names hr, mpcPairs_names hr, show m'.managed.length = m.managed.length by rw [hr.managed, List.length_map],
        renameKeys_eq, dvals_dmap, List.map_id, dkeys_dmap]
      cases mpcPairs m .mustLink with
      | error e => exact rfl
      | ok ml =>
        cases mpcPairs m .cannotLink with
        | error e => exact rfl
        | ok cl =>
          simp only
          cases mpcLabels env p m.managed.length (min n.toNat m.managed.length) ml cl (dvals vs) with
          | error e => exact rfl
          | ok labels =>
            have hi : ((labels.zipIdx.filter fun q => decide (q.1 ≠ -1)).mapM fun q =>
                  (do return (← lget ((dkeys vs).map f) q.2, q.1) : Except PyErr (β × Int))) =
                ((labels.zipIdx.filter fun q => decide (q.1 ≠ -1)).mapM fun q =>
                  (do return (← lget (dkeys vs) q.2, q.1) : Except PyErr (α × Int))).map (List.map (nameFst f)) := by
              refine mapM_values fun q _ => ?_
              rw [lget_names]
              cases lget (dkeys vs) q.2 <;> rfl
            simp only [bind, Except.bind] at hi
            simp only [hi]
            generalize List.mapM (m := Except PyErr) (β := α × Int) _ (labels.zipIdx.filter fun q => decide (q.1 ≠ -1)) = M
            cases M with
            | error e => exact rfl
            | ok items =>
              obtain ⟨r, r', e1, e2, h, h1, h2⟩ := renameClusters_names hf (nodup_dkeys_dofList items)
              simp only [Except.map, dofList_names hf, e1, e2, hr.managed]
              refine complete_names hf m.managed h fun x _ => iff_of_false (fun e => ?_) fun e => ?_
              · exact absurd (h2 _ _ e) (by decide)
              · exact absurd (h1 _ _ e) (by decide)

/-- Sampling, with names in the same order: the same pairs. -/
theorem C86_sampling (hf : StrictMono f) (hr : Renamed f m m') (cfg : Sampler) {c : Dict α Int} {c' : Dict β Int}
    (hc : RenamedVectors f m c c') {vs : Dict α V} {vs' : Dict β V} (hv : RenamedVectors f m vs vs') (metric : V → V → δ)
    {pick : List (α × α) → Nat → List (α × α)} {pick' : List (β × β) → Nat → List (β × β)}
    (hp : ∀ l k, pick' (l.map fun q => (f q.1, f q.2)) k = (pick l k).map fun q => (f q.1, f q.2)) (nb : Option Int) :
    cfg.sample m' nb (some c') (some vs') metric pick' =
      (cfg.sample m nb (some c) (some vs) metric pick).map (List.map fun q => (f q.1, f q.2)) := by
  unfold Sampler.sample
  cases nb with
  | none => rfl
  | some n =>
    simp only [Option.isNone_some, Option.getD_some, Bool.false_eq_true, and_false, if_false]
    split
    · rfl
    · split
      · rfl
      · exact select_names hf hr cfg hc hv metric n.toNat hp

/- Names in the same order. -/
example : StrictMono (fun x : Nat => 10 * x + 7) ∧ Renamed (fun x : Nat => 10 * x + 7) kmDemo
    (runOps (Manager.init ([3, 1, 2, 9, 5].map fun x => 10 * x + 7)) (kmDemoOps.map (Op.mapIds fun x => 10 * x + 7))) := by
  have h : StrictMono (fun x : Nat => 10 * x + 7) := fun a b hab => by simp only; omega
  exact ⟨h, (C86_manager h.injective _ kmDemoOps).2⟩

open Classical in
/-- An order of sets under the other names. -/
noncomputable def nameEnum (f : α → β) (enum : List α → List α) (l : List β) : List β :=
  if h : ∃ l0 : List α, l = l0.map f then (enum h.choose).map f else l.dedup

omit [LinearOrder α] in
theorem nameEnum_map (hf : f.Injective) (enum : List α → List α) (l : List α) : nameEnum f enum (l.map f) = (enum l).map f := by
  have h : ∃ l0 : List α, l.map f = l0.map f := ⟨l, rfl⟩
  unfold nameEnum
  rw [dif_pos h]
  have := List.map_injective_iff.2 hf h.choose_spec
  rw [← this]

omit [LinearOrder α] in
theorem nameEnum_setOrder (hf : f.Injective) {enum : List α → List α} (he : SetOrder enum) : SetOrder (nameEnum f enum) := by
  intro l
  unfold nameEnum
  split
  · rename_i h
    obtain ⟨h1, h2⟩ := he h.choose
    refine ⟨h1.map hf, fun y => ?_⟩
    conv_rhs => rw [h.choose_spec]
    simp only [List.mem_map, h2]
  · exact ⟨List.nodup_dedup l, fun y => List.mem_dedup⟩

/-- C-DBScan, with names in the same order: the same object, whatever the orders of sets. The string for "not assigned" must
be the same managed ID or no managed ID. -/
theorem C86_dbscan (hf : StrictMono f) (hr : Renamed f m m') (hm' : Reachable m') {env : DbEnv α V δ} {env' : DbEnv β V δ} {p : DbParams δ}
    (ha : DbAssumptions env p) (ha' : DbAssumptions env' p) (hmetric : env'.metric = env.metric)
    (hnone : ∀ x ∈ m.managed, env'.none = f x ↔ env.none = x) {vs : Dict α V} {vs' : Dict β V} (hv : RenamedVectors f m vs vs')
    (nb : Option Int) :
    SameOutcome (RenamedDb f) (dbCluster env p m (some vs) nb) (dbCluster env' p m' (some vs') nb) := by
  have hi := hf.injective
  cases nb with
  | some n => exact rfl
  | none =>
    rw [C85_dbscan env' p (hv.same hi hr.managed)]
    let e : DbEnv β V δ := ⟨env.metric, nameEnum f env.enum, f env.none⟩
    have hae : DbAssumptions e p := ⟨nameEnum_setOrder hi ha.enum, ha.self⟩
    have h1 : dbCluster e p m' (some (dmap f id vs)) none = (dbCluster env p m (some vs) none).map (DbObject.mapIds f) :=
      dbCluster_names hf hr rfl (nameEnum_map hi env.enum) rfl vs
    have h2 := C84_set_order hae ha' hmetric.symm hm' (fun y hy => by
      rw [hr.managed] at hy
      obtain ⟨x, hx, rfl⟩ := List.mem_map.1 hy
      exact (hi.eq_iff.trans (hnone x hx).symm)) (some (dmap f id vs)) none
    rcases h2 with ⟨er, g1, g2⟩ | ⟨o, o', g1, g2, g3⟩
    · rw [g2]
      rw [h1] at g1
      cases e1 : dbCluster env p m (some vs) none with
      | ok o => rw [e1] at g1; cases g1
      | error er' => rw [e1] at g1; cases g1; exact rfl
    · rw [g2]
      rw [h1] at g1
      cases e1 : dbCluster env p m (some vs) none with
      | error er' => rw [e1] at g1; cases g1
      | ok o0 =>
        rw [e1] at g1
        cases g1
        obtain ⟨k1, k2, k3, k4, k5, k6, k7⟩ := g3
        refine ⟨k1, k2, k3, ?_, k4, k5, k6⟩
        have : List.Forall₂ (fun a b => a.1 = b.1 ∧ a.2.Perm b.2) (o0.cores.map fun q => (f q.1, q.2.map f)) o'.cores := k7
        rw [List.forall₂_map_left_iff] at this
        exact this.imp fun a b h => ⟨h.1.symm, h.2.symm⟩

example : (∀ x ∈ kmDemo.managed, 0 = 10 * x + 7 ↔ 0 = x) ∧ DbAssumptions (dbOrderEnv List.dedup 0) (dbNatParams 20 1) ∧
    DbAssumptions (dbOrderEnv (fun l => l.dedup.reverse) 0) (dbNatParams 20 1) ∧
    RenamedVectors (fun x => 10 * x + 7) kmDemo kmDemoVectors (renameKeys (fun x => 10 * x + 7) kmDemoVectors) ∧
    (dbCluster (dbOrderEnv List.dedup 0) (dbNatParams 20 1) kmDemo (some kmDemoVectors) none).toOption ≠ none :=
  ⟨by decide +kernel, dbOrderEnv_ok dedup_setOrder _ _ _, dbOrderEnv_ok reverse_setOrder _ _ _, by unfold RenamedVectors; decide +kernel,
    by decide +kernel⟩

/-- Five IDs: 1 and 2 must be together, 5 is near them, 3 is near 5, 4 is far away. -/
def namesDemo : List (Op Nat) := [.addConstraint 1 2 "MUST_LINK" 1]

def namesVectors : Dict Nat Int := [(1, 0), (2, 0), (5, 2), (3, 4), (4, 100)]

/-- With names in another order the groups of C-DBScan can differ (line 458 takes the smallest ID, not the nearest cluster):
with the names 3 and 4 exchanged, the near ID is not in the cluster any more. -/
theorem C86_dbscan_names : ∃ (f : Nat → Nat) (ids : List Nat) (ops : List (Op Nat)) (env : DbEnv Nat Int Nat) (p : DbParams Nat)
    (vs r r' : Dict Nat Int), f.Injective ∧ DbAssumptions env p ∧ env.none ∉ ids ∧ env.none ∉ ids.map f ∧
    (dbCluster env p (runOps (Manager.init ids) ops) (some vs) none).map (·.predicted) = .ok (some r) ∧
    (dbCluster env p (runOps (Manager.init (ids.map f)) (ops.map (Op.mapIds f))) (some (renameKeys f vs)) none).map (·.predicted) =
      .ok (some r') ∧
    dget? r 1 = dget? r 3 ∧ dget? r' (f 1) ≠ dget? r' (f 3) :=
  ⟨swapNat 3 4, [1, 2, 5, 3, 4], namesDemo, dbOrderEnv List.dedup 0, dbNatParams 2 1, namesVectors, _, _, swapNat_injective 3 4,
    dbOrderEnv_ok dedup_setOrder _ _ _, by decide, by decide, rfl, rfl, by decide +kernel, by decide +kernel⟩

/-! ### Each theorem applied to a concrete case -/

example := C86_manager (swapNat_injective 1 9) [3, 1, 2, 9, 5] kmDemoOps

example := C86_component_lists (swapNat_injective 1 9) [3, 1, 2, 9, 5] kmDemoOps (.inr (by decide +kernel))

example := C86_kmeans (swapNat_injective 1 9) kmDemoSwap_renamed (env := kmDemoEnv) (env' := kmDemoEnv)
  ⟨rfl, rfl, rfl, rfl, by decide +kernel⟩ kmDemoEnv_ok 150 (vs := kmDemoVectors)
  (vs' := (7, 7) :: (renameKeys (swapNat 1 9) kmDemoVectors).reverse) (by unfold RenamedVectors; decide +kernel) (some 2)

example := C86_hierarchical (swapNat_injective 1 9) kmDemoSwap_renamed ⟨_, _, rfl⟩ (by decide +kernel) hDemoEnv hDemoObject
  (vs := kmDemoVectors) (vs' := renameKeys (swapNat 1 9) kmDemoVectors) (by unfold RenamedVectors; decide +kernel) (some 2)

def kmDemoTens : Manager Nat :=
  runOps (Manager.init ([3, 1, 2, 9, 5].map fun x => 10 * x + 7)) (kmDemoOps.map (Op.mapIds fun x => 10 * x + 7))

theorem kmDemoTens_renamed : Renamed (fun x : Nat => 10 * x + 7) kmDemo kmDemoTens :=
  (C86_manager (fun a b (hab : 10 * a + 7 = 10 * b + 7) => by omega) [3, 1, 2, 9, 5] kmDemoOps).2

theorem kmDemoTens_reachable : Reachable kmDemoTens := ⟨_, _, rfl⟩

example := C86_dbscan (f := fun x : Nat => 10 * x + 7) (m := kmDemo) (fun a b hab => by simp only; omega) kmDemoTens_renamed
  kmDemoTens_reachable (env := dbOrderEnv List.dedup 0) (env' := dbOrderEnv (fun l => l.dedup.reverse) 0) (p := dbNatParams 20 1)
  (dbOrderEnv_ok dedup_setOrder _ _ _) (dbOrderEnv_ok reverse_setOrder _ _ _) rfl (by decide +kernel) (vs := kmDemoVectors)
  (vs' := renameKeys (fun x => 10 * x + 7) kmDemoVectors) (by unfold RenamedVectors; decide +kernel) none

example := C86_mpckmeans (swapNat_injective 1 9) kmDemoSwap_renamed mpcDemoEnv ⟨10⟩ kmDemoVectors (some 2)

end Verif
