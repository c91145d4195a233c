import Verif.Spec.Reuse
import Verif.Proofs.ObjectsRun
import Verif.Props.KMeans
import Verif.Props.Hierarchical
import Verif.Props.DBScan
import Verif.Props.Spectral
import Verif.Props.Affinity
import Verif.Props.MPC

/-
Properties C53 and C67: clustering objects used several times. Specification vocabulary:
`Verif/Spec/Reuse.lean`.

In all theorems the earlier calls are arbitrary: other managers, other vectors, other behaviour of the
external functions, refused arguments, and calls that raise an exception half way.
-/

namespace Verif

open Meth

section
variable {σ ω β ρ : Type}

theorem Used.keeps {step : ω → Meth σ β} {π : σ → ρ} (h : ∀ o, Keeps π (step o)) {fresh s : σ} (hs : Used step fresh s) :
    π s = π fresh := by
  induction hs with
  | new => rfl
  | next o _ ih => exact (h o _).trans ih

/-- An operation that does what a computation on its arguments and the kept attributes does. -/
theorem same_of_runs {step : ω → Meth σ β} {π : σ → ρ} (hk : ∀ o, Keeps π (step o)) {ε : Type} {o : ω} {fresh : σ}
    {r : Except PyErr ε} {k : ε → σ × β} (h : ∀ s, π s = π fresh → Runs (step o) s r k) :
    SameAnswer step fresh o ∧ SameObject step fresh o := by
  have e : ∀ s, Used step fresh s → (step o s).2 = r.map fun c => (k c).2 := fun s hs => (h s (hs.keeps hk)).result
  refine ⟨fun s hs => ?_, fun s hs hok => ?_⟩
  · rw [e s hs, e fresh .new]
  · have h1 := h s (hs.keeps hk)
    have h2 := h fresh rfl
    rw [e fresh .new] at hok
    cases r with
    | error x => obtain ⟨b, hb⟩ := hok; cases hb
    | ok c => exact (show step o s = _ from h1).trans (show step o fresh = _ from h2).symm

end

section
variable {α V δ κ μ θ : Type} [LinearOrder α] [LinearOrder δ] [LinearOrder κ]

/-! ### C53 -/

/-- KMeans: a call answers as on a new object, and leaves the same object when it succeeds. -/
theorem C53_kmeans (maxIteration : Nat) (c : ClusterCall (KMeansEnv α V δ) α V) :
    SameAnswer KmSelf.cluster ⟨maxIteration, none, none, none, none, none, none, none⟩ c ∧
      SameObject KmSelf.cluster ⟨maxIteration, none, none, none, none, none, none, none⟩ c :=
  same_of_runs km_keeps fun s hs => by have h := km_cluster c s; rw [hs] at h; exact h

/-- The answer of a used object is that of `kmCluster`, about which C31 to C34 and C55 speak. -/
theorem C53_kmeans_model (maxIteration : Nat) (c : ClusterCall (KMeansEnv α V δ) α V) {s : KmSelf α V}
    (hs : Used (KmSelf.cluster (α := α) (V := V) (δ := δ)) ⟨maxIteration, none, none, none, none, none, none, none⟩ s) :
    (KmSelf.cluster c s).2 = (kmCluster c.env maxIteration c.manager c.vectors c.nb).map Prod.fst := by
  rw [(km_cluster c s).result, hs.keeps km_keeps]

example : (KmSelf.cluster ⟨kmDemoEnv, kmDemo, some kmDemoVectors, some 3⟩
      (KmSelf.cluster ⟨kmDemoEnv, runOps (Manager.init [7, 8]) [], some [(7, 1), (8, 2)], some 2⟩
        (KmSelf.cluster ⟨kmDemoEnv, kmDemo, none, some 3⟩ ⟨10, none, none, none, none, none, none, none⟩).1).1).2.isOk = true := by
  decide +kernel

theorem h_op_keeps (o : ClusterCall (HierEnv V δ) α V ⊕ Int × CutBy) : Keeps HSelf.linkage (HSelf.op o) := by
  cases o with
  | inl c => exact h_keeps c
  | inr q => unfold HSelf.op HSelf.cut; keeps

/-- Hierarchical clustering: a call of `cluster` answers as on a new object, and leaves the same
object when it succeeds; the earlier operations may be cuts of earlier trees too. -/
theorem C53_hierarchical (linkage : Linkage) (c : ClusterCall (HierEnv V δ) α V) :
    SameAnswer HSelf.op (HSelf.fresh linkage) (.inl c) ∧ SameObject HSelf.op (HSelf.fresh linkage) (.inl c) :=
  same_of_runs h_op_keeps fun s hs => by have h := h_cluster c s; rw [hs] at h; exact h

omit [LinearOrder α] [LinearOrder δ] [LinearOrder κ] in
theorem HSelf.fresh_sim (linkage : Linkage) (V δ : Type) :
    (HSelf.fresh linkage : HSelf α V δ).Sim (⟨linkage, [], none, []⟩ : HObject α V) :=
  ⟨rfl, rfl, fun h => absurd rfl h, fun h => absurd rfl h⟩

theorem used_sim {linkage : Linkage} {s : HSelf α V δ} (hs : Used HSelf.op (HSelf.fresh linkage) s) : ∃ o : HObject α V, s.Sim o := by
  induction hs with
  | new => exact ⟨_, HSelf.fresh_sim linkage V δ⟩
  | next o _ ih =>
    obtain ⟨ob, hob⟩ := ih
    cases o with
    | inl c => exact ⟨_, (hob.cluster c).1⟩
    | inr q => exact ⟨ob, by show ((HSelf.cut q.1 q.2 _).1).Sim ob; rw [hob.cut]; exact hob⟩

/-- A used object answers as the object `HObject`, about which C35 to C40 and C54 speak. -/
theorem C53_hierarchical_model (linkage : Linkage) {s : HSelf α V δ} (hs : Used HSelf.op (HSelf.fresh linkage) s) :
    ∃ o : HObject α V, o.linkage = linkage ∧
      (∀ c, (HSelf.cluster c s).2 = (o.cluster c.env c.manager c.vectors c.nb).2) ∧
      ∀ nb by_, (HSelf.cut nb by_ s).2 = o.cut nb by_ := by
  obtain ⟨o, ho⟩ := used_sim hs
  refine ⟨o, ?_, fun c => (ho.cluster c).2, fun nb by_ => ?_⟩
  · rw [← ho.linkage]; exact hs.keeps h_op_keeps
  · rw [ho.cut]

example : (HSelf.op (.inl ⟨hDemoEnv, hDemo, some hDemoVectors, some 4⟩)
      (HSelf.op (.inl ⟨hDemoEnv, runOps (Manager.init [7, 8]) [], some [(7, 1)], some 2⟩)
        (HSelf.op (.inr (3, .size)) (HSelf.op (.inl ⟨hDemoEnv, runOps (Manager.init [7, 8]) [], some [(7, 1), (8, 2)], some 2⟩)
          (HSelf.fresh .complete)).1).1).1).2.isOk = true := by
  decide +kernel

/-- C-DBScan: a call answers as on a new object, and leaves the same object when it succeeds. -/
theorem C53_dbscan (p : DbParams δ) (c : ClusterCall (DbEnv α V δ) α V) :
    SameAnswer DbSelf.cluster ⟨p, none, none, none, none, none, none, none, none, 0, 0, 0⟩ c ∧
      SameObject DbSelf.cluster ⟨p, none, none, none, none, none, none, none, none, 0, 0, 0⟩ c := by
  have hk := db_keeps (α := α) (V := V) (δ := δ)
  refine ⟨fun s hs => ?_, fun s hs hok => ?_⟩
  · rw [(db_cluster c s).1, (db_cluster c _).1, hs.keeps hk]
  · rw [(db_cluster c _).1] at hok
    cases hr : dbCluster c.env p c.manager c.vectors c.nb with
    | error x => simp only [hr] at hok; obtain ⟨b, hb⟩ := hok; cases hb
    | ok o =>
      have h1 := (db_cluster c s).2 o (by rw [hs.keeps hk]; exact hr)
      obtain ⟨table, ht, e1⟩ := h1
      obtain ⟨table', ht', e2⟩ := (db_cluster c ⟨p, none, none, none, none, none, none, none, none, 0, 0, 0⟩).2 o hr
      rw [ht] at ht'
      cases ht'
      rw [e1, e2, hs.keeps hk]

/-- The answer of a used object is that of `dbCluster`, about which C41 to C44 and C56 to C59 speak. -/
theorem C53_dbscan_model (p : DbParams δ) (c : ClusterCall (DbEnv α V δ) α V) {s : DbSelf α V δ}
    (hs : Used (DbSelf.cluster (α := α) (V := V) (δ := δ)) ⟨p, none, none, none, none, none, none, none, none, 0, 0, 0⟩ s) :
    (DbSelf.cluster c s).2 = (dbCluster c.env p c.manager c.vectors c.nb).map fun o => o.predicted.getD [] := by
  rw [(db_cluster c s).1, hs.keeps db_keeps]

example : (DbSelf.cluster ⟨dbDemoEnv, dbDemo, some dbDemoVectors, none⟩
      (DbSelf.cluster ⟨dbDemoEnv, dbFar, some dbFarVectors, none⟩
        (DbSelf.cluster ⟨dbDemoEnv, dbFar, some [], none⟩
          ⟨dbNatParams 2 3, none, none, none, none, none, none, none, none, 0, 0, 0⟩).1).1).2.isOk = true := by
  decide +kernel

/-- Spectral clustering: a call answers as on a new object, and leaves the same object when it succeeds. -/
theorem C53_spectral (nbComponents : Option Int) (c : ClusterCall (SpecEnv V κ) α V) :
    SameAnswer SpecSelf.cluster ⟨nbComponents, none, none, none, none, none, none, none⟩ c ∧
      SameObject SpecSelf.cluster ⟨nbComponents, none, none, none, none, none, none, none⟩ c :=
  same_of_runs spec_keeps fun s hs => by have h := spec_cluster c s; rw [hs] at h; exact h

/-- The answer of a used object is that of `specCluster`, about which C45 speaks. -/
theorem C53_spectral_model (c : ClusterCall (SpecEnv V κ) α V) (s : SpecSelf α V κ) :
    (SpecSelf.cluster c s).2 = (specCluster c.env c.manager c.vectors c.nb).map fun o => o.predicted :=
  (spec_cluster c s).result

example : (SpecSelf.cluster ⟨specDemoEnv, specDemo, some specDemoVectors, some 2⟩
      (SpecSelf.cluster ⟨specDemoEnv, runOps (Manager.init [7, 8]) [], some [(7, 1), (8, 2)], some 2⟩
        (SpecSelf.cluster ⟨specDemoEnv, specDemo, some [], some 2⟩
          ⟨some 3, none, none, none, none, none, none, none⟩).1).1).2.isOk = true := by
  decide +kernel

/-- Affinity propagation: a call answers as on a new object, and leaves the same object when it succeeds. -/
theorem C53_affinity (p : ApParams) (c : ClusterCall (ApEnv V κ μ θ) α V) :
    SameAnswer ApSelf.cluster ⟨p, none, none, none, none⟩ c ∧ SameObject ApSelf.cluster ⟨p, none, none, none, none⟩ c :=
  same_of_runs ap_keeps fun s hs => by have h := ap_cluster c s; rw [hs] at h; exact h

/-- The answer of a used object is that of `apCluster`, about which C46, C47, C60 and C61 speak. -/
theorem C53_affinity_model (p : ApParams) (c : ClusterCall (ApEnv V κ μ θ) α V) {s : ApSelf α V}
    (hs : Used (ApSelf.cluster (α := α) (V := V) (κ := κ) (μ := μ) (θ := θ)) ⟨p, none, none, none, none⟩ s) :
    (ApSelf.cluster c s).2 = apCluster c.env p c.manager c.vectors c.nb := by
  rw [(ap_cluster c s).result, hs.keeps ap_keeps]
  cases apCluster c.env _ c.manager c.vectors c.nb <;> rfl

example : (ApSelf.cluster ⟨apDemoEnv, apDemo, some apDemoVectors, none⟩
      (ApSelf.cluster ⟨apEquiEnv, apEqui, some [(1, 10), (2, 20), (3, 30)], none⟩
        (ApSelf.cluster ⟨apDemoEnv, apDemo, some apDemoVectors, some 2⟩ ⟨⟨20, 3, true⟩, none, none, none, none⟩).1).1).2.isOk = true := by
  decide +kernel

/-- MPC-KMeans: a call answers as on a new object, and leaves the same object when it succeeds. -/
theorem C53_mpckmeans (p : MpcParams) (c : ClusterCall (MpcEnv V κ θ) α V) :
    SameAnswer MpcSelf.cluster ⟨p, none, none, none, none, none, none, none, none⟩ c ∧
      SameObject MpcSelf.cluster ⟨p, none, none, none, none, none, none, none, none⟩ c :=
  same_of_runs mpc_keeps fun s hs => by have h := mpc_cluster c s; rw [hs] at h; exact h

/-- The answer of a used object is that of `mpcCluster`, about which C48, C49 and C62 to C66 speak. -/
theorem C53_mpckmeans_model (p : MpcParams) (c : ClusterCall (MpcEnv V κ θ) α V) {s : MpcSelf α V}
    (hs : Used (MpcSelf.cluster (α := α) (V := V) (κ := κ) (θ := θ)) ⟨p, none, none, none, none, none, none, none, none⟩ s) :
    (MpcSelf.cluster c s).2 = mpcCluster c.env p c.manager c.vectors c.nb := by
  rw [(mpc_cluster c s).result, hs.keeps mpc_keeps, mpcAll_predicted]

example : (MpcSelf.cluster ⟨mpcDemoEnv, mpcDemo, some mpcDemoVectors, some 2⟩
      (MpcSelf.cluster ⟨mpcDemoEnv, mpcBig, some mpcBigVectors, some 10⟩
        (MpcSelf.cluster ⟨mpcDemoEnv, mpcDemo, some [], some 2⟩
          ⟨⟨5⟩, none, none, none, none, none, none, none, none⟩).1).1).2.isOk = true := by
  decide +kernel

/-! ### C67 -/

/-- What a refused call leaves: the IDs of the refused manager with the tree of the last call. -/
theorem refused_ids (o : HObject α V) (env : HierEnv V δ) (m : Manager α) {vectors : Option (Dict α V)} {n : Option Int}
    (hbad : vectors = none ∨ n = none ∨ ∃ k, n = some k ∧ k < 2) :
    (o.cluster env m vectors n).1 = { o with ids := m.managed } ∧ ∃ w, (o.cluster env m vectors n).2 = .error (.valueError w) := by
  unfold HObject.cluster
  cases vectors with
  | none => exact ⟨rfl, _, rfl⟩
  | some vs =>
    cases n with
    | none => exact ⟨rfl, _, rfl⟩
    | some n =>
      have hn : n < 2 := by simpa using hbad
      simp only [hn, if_true]
      exact ⟨trivial, _, rfl⟩

/-- An ID that is in no cluster of the tree gets a label when it is in the list of IDs. -/
theorem hCut_foreign {env : HierEnv V δ} {link : Linkage} {m : Manager α} (h : Inv m) {vectors : Dict α V} {root : Nat}
    {st : Dict Nat (HCluster α V)} (hb : Built env link m vectors root st) (ids : List α) (nb : Int) (by_ : CutBy) :
    ∃ r, hCut ids st root nb by_ = .ok r ∧ ∀ y ∈ ids, y ∉ m.managed → y ∈ dkeys r := by
  obtain ⟨l, e1, hE⟩ := hExplore_ok (by_ := by_) (nb := nb) h hb.tree (fuel := nb.toNat) hb.cutInv_root (by simp)
    (by rw [List.length_singleton]; omega)
  have hc := hE.cutInv h hb.tree hb.cutInv_root
  obtain ⟨d', e2, -, e3, -, e5⟩ := hAffect_loop hb.tree.keys hc.stored (hc.flat_nodup h)
    (dofList (ids.map fun x => (x, (-1 : Int))))
  obtain ⟨r, e6, e7, -⟩ := rename_ok (e5 (nodup_dkeys_dofList _))
  refine ⟨r, ?_, fun y hy hym => ?_⟩
  · unfold hCut
    rw [e1]
    show (do renameClusters (← hAffect ids st l)) = _
    unfold hAffect
    rw [e2]
    exact e6
  · rw [e7, List.mem_insertionSort]
    have := e3 y (fun hmem => hym (hc.cover.mem_iff.1 hmem))
    have hk : y ∈ dkeys (dofList (ids.map fun x => (x, (-1 : Int)))) := by
      rw [mem_dkeys_dofList_map]
      exact hy
    obtain ⟨v, hv⟩ := dget?_isSome_of_mem hk
    rw [hv] at this
    exact mem_dkeys_of_dget? this

/-- A refused call of `cluster` (arguments that are not accepted) for a manager with the same IDs does
not change what `compute_predicted_clusters` answers. -/
theorem C67_same_ids {linkage : Linkage} {s : HSelf α V δ} (hs : Used HSelf.op (HSelf.fresh linkage) s) {m : Manager α}
    (hm : s.ids = some m.managed) (env : HierEnv V δ) {vectors : Option (Dict α V)} {n : Option Int}
    (hbad : vectors = none ∨ n = none ∨ ∃ k, n = some k ∧ k < 2) (nb : Int) (by_ : CutBy) :
    (HSelf.cut nb by_ (HSelf.cluster ⟨env, m, vectors, n⟩ s).1).2 = (HSelf.cut nb by_ s).2 := by
  obtain ⟨o, ho⟩ := used_sim hs
  rw [ho.cut, (ho.cluster ⟨env, m, vectors, n⟩).1.cut]
  show (HObject.cluster env o m vectors n).1.cut nb by_ = o.cut nb by_
  rw [(refused_ids o env m hbad).1]
  unfold HObject.cut
  dsimp only
  cases hr : o.root with
  | none => rfl
  | some root =>
    have := ho.ids (by simp [hr])
    rw [hm, Option.some.injEq] at this
    rw [this]

/-- A refused call for other IDs does: before, the answers speak about the IDs of the last successful
call only; after it they also give clusters to the IDs of the refused manager, which are not in the tree. -/
theorem C67_other_ids {linkage : Linkage} {s : HSelf α V δ} (hs : Used HSelf.op (HSelf.fresh linkage) s)
    {c : ClusterCall (HierEnv V δ) α V} (h : Reachable c.manager) {r : Dict α Int} (hr : (HSelf.cluster c s).2 = .ok r)
    (env : HierEnv V δ) (m : Manager α) {vectors : Option (Dict α V)} {n : Option Int}
    (hbad : vectors = none ∨ n = none ∨ ∃ k, n = some k ∧ k < 2) (nb : Int) (by_ : CutBy) :
    ∃ before after, (HSelf.cut nb by_ (HSelf.cluster c s).1).2 = .ok before ∧
      (∃ w, (HSelf.cluster ⟨env, m, vectors, n⟩ (HSelf.cluster c s).1).2 = .error (.valueError w)) ∧
      (HSelf.cut nb by_ (HSelf.cluster ⟨env, m, vectors, n⟩ (HSelf.cluster c s).1).1).2 = .ok after ∧
      ∀ y ∈ m.managed, y ∉ c.manager.managed → y ∉ dkeys before ∧ y ∈ dkeys after := by
  obtain ⟨o, ho⟩ := used_sim hs
  have h1 := ho.cluster c
  rw [hr] at h1
  have hcl : o.cluster c.env c.manager c.vectors c.nb = ((o.cluster c.env c.manager c.vectors c.nb).1, .ok r) :=
    Prod.ext rfl h1.2.symm
  obtain ⟨vs, k, root, st, l, -, -, -, -, ho', hb, -, -⟩ := hier_ok h hcl
  have hsim := h1.1
  rw [ho'] at hsim
  obtain ⟨l', r', -, -, e2, hR⟩ := hCut_ok h.inv hb nb by_
  obtain ⟨a, e3, ha⟩ := hCut_foreign h.inv hb m.managed nb by_
  have h2 := hsim.cluster ⟨env, m, vectors, n⟩
  have h3 := refused_ids (⟨o.linkage, c.manager.managed, some root, st⟩ : HObject α V) env m hbad
  have hsim2 := h2.1
  dsimp only at hsim2
  rw [h3.1] at hsim2
  refine ⟨r', a, ?_, ?_, ?_, fun y hy hyc => ⟨?_, ha y hy hyc⟩⟩
  · rw [hsim.cut]; exact e2
  · rw [h2.2]; exact h3.2
  · rw [hsim2.cut]; exact e3
  · rw [hR.keys, List.mem_insertionSort]; exact hyc

/-- The hypotheses hold in this case, where 99 gets the cluster 3 of its own. -/
example : Reachable hDemo ∧
    (HSelf.cluster ⟨hDemoEnv, hDemo, some hDemoVectors, some 4⟩ (HSelf.fresh .complete)).2.isOk = true ∧
    99 ∈ (Manager.init [99]).managed ∧ 99 ∉ hDemo.managed ∧
    (HSelf.cut 2 .size (HSelf.cluster ⟨hDemoEnv, Manager.init [99], none, some 2⟩
      (HSelf.cluster ⟨hDemoEnv, hDemo, some hDemoVectors, some 4⟩ (HSelf.fresh .complete)).1).1).2 =
        .ok [(1, 0), (2, 1), (3, 0), (5, 1), (7, 2), (9, 2), (99, 3)] :=
  ⟨⟨_, _, rfl⟩, by decide +kernel, by decide +kernel, by decide +kernel, by decide +kernel⟩

end

end Verif
