import Verif.Proofs.KMeansCount
import Verif.Proofs.CannotLinks
import Verif.Props.KMeans

/-
Property C88: how many clusters COP-KMeans returns.
-/

namespace Verif

variable {α V δ : Type} [LinearOrder α] [LinearOrder δ]

/-- Without cannot-links there are never more clusters than asked for. -/
theorem C88_no_more {env : KMeansEnv α V δ} (he : env.Ok) {m : Manager α} (h : Reachable m) {vectors : Dict α V}
    (hv : HasVectors m vectors) (hcl : ∀ x y, m.getInferred x y ≠ .ok (some .cannotLink)) {model : String} {it : Int} {tol : Bool}
    {maxIteration : Nat} (hi : kmInit model it tol = .ok maxIteration) {nb : Int} {r : Dict α Int} {cs : Dict Int V}
    (hr : kmCluster env maxIteration m (some vectors) (some nb) = .ok (r, cs)) :
    ∃ k : Nat, 1 ≤ k ∧ (k : Int) ≤ nb ∧ LabelsAre (dvals r) k := by
  obtain ⟨n, h0, hn, hne⟩ := kmCluster_ok_args hr (kmInit_pos hi)
  cases h0
  obtain ⟨c0, new, c1, h1, h2, h3⟩ := kmCluster_last (kmInit_pos hi) hr
  have hlen : 0 < m.managed.length := List.length_pos_iff.2 hne
  have hcl' : ∀ x y, ¬ CannotLinked m x y := by
    intro x y hl
    obtain ⟨hx, hy⟩ := hl.mem h.inv
    exact hcl x y ((inferred_cl_iff h.inv hx hy).2 hl)
  obtain ⟨new', cs', e1, hd⟩ := kmPass_ok he h.inv hv hne (min nb.toNat m.managed.length)
    (h1.inv he h.inv hv (by omega) (by omega))
  rw [h2] at e1
  cases e1
  have hk : dkeys new = m.managed := hd.pass.keys
  have hlow := runCentroids_low he h.inv hv (by omega) (by omega) hcl' (.pass h1 h2)
  obtain ⟨-, -, k, hk1, -, hk2⟩ := C32_labels he h hv hi hr
  have hcount := kmCount h.inv hne hk h3
  refine ⟨_, ?_, ?_, hcount⟩
  · obtain ⟨x, hx⟩ := List.exists_mem_of_ne_nil _ hne
    obtain ⟨v, hxv⟩ := dget?_isSome_of_mem (show x ∈ dkeys new by rw [hk]; exact hx)
    exact List.length_pos_of_mem (List.mem_dedup.2 ((mem_dvals (by rw [hk]; exact h.inv.d.nodup)).2 ⟨x, hxv⟩))
  · have hsub : (dvals new).dedup ⊆ (List.range (min nb.toNat m.managed.length)).map fun i : Nat => (i : Int) := by
      intro v hv1
      obtain ⟨h4, h5⟩ := hlow v ((hd.keys v).2 (List.mem_dedup.1 hv1))
      exact List.mem_map.2 ⟨v.toNat, List.mem_range.2 (by omega), by omega⟩
    have := (List.subperm_of_subset (List.nodup_dedup _) hsub).length_le
    rw [List.length_map, List.length_range] at this
    omega

/-- Without constraints, IDs with the same vector are in the same cluster. So there may be fewer clusters than asked for. -/
theorem C88_equal_vectors {env : KMeansEnv α V δ} (he : env.Ok) {m : Manager α} (h : Reachable m) {vectors : Dict α V}
    (hv : HasVectors m vectors) (hu : ∀ x ∈ m.managed, ∀ y ∈ m.managed, x ≠ y → m.getInferred x y = .ok none) {model : String} {it : Int} {tol : Bool}
    {maxIteration : Nat} (hi : kmInit model it tol = .ok maxIteration) {nb : Option Int} {r : Dict α Int} {cs : Dict Int V}
    (hr : kmCluster env maxIteration m (some vectors) nb = .ok (r, cs)) {x y : α} (hx : x ∈ m.managed) (hy : y ∈ m.managed)
    (hxy : dget? vectors x = dget? vectors y) : dget? r x = dget? r y := by
  obtain ⟨n, h0, hn, hne⟩ := kmCluster_ok_args hr (kmInit_pos hi)
  subst h0
  obtain ⟨c0, new, c1, h1, h2, h3⟩ := kmCluster_last (kmInit_pos hi) hr
  have hlen : 0 < m.managed.length := List.length_pos_iff.2 hne
  have hcl' : ∀ x y, ¬ CannotLinked m x y := Unconstrained.cl hu h.inv
  have hci := h1.inv he h.inv hv (by omega) (by omega)
  obtain ⟨new', cs', e1, hd⟩ := kmPass_ok he h.inv hv hne (min n.toNat m.managed.length) hci
  rw [h2] at e1
  cases e1
  have hk : dkeys new = m.managed := hd.pass.keys
  obtain ⟨r', e2, -, hsp, -⟩ := rename_managed h.inv hk
  rw [h3] at e2
  cases e2
  rw [← hsp x hx y hy]
  obtain ⟨dist, d1, d2, -⟩ := kmPass_inPass h2
  obtain ⟨dist', d1', ht⟩ := kmDistances_ok (env := env) h.inv hv hne hci
  rw [d1] at d1'
  cases d1'
  have key : ∀ s, InPass m (min n.toNat m.managed.length) c0 dist s → ∀ z ∈ m.managed, z ∉ s.1 →
      ∃ lab row, dget? s.2 z = some lab ∧ dget? dist z = some row ∧ kmNearest row (dkeys c0) = .ok lab := by
    intro s hs
    induction hs with
    | start => exact fun z hz hnz => absurd hz hnz
    | @step s w s' hs hl e ih =>
      have hp := hs.inv h.inv hv hci ht
      have hwt := List.mem_of_getLast? hl
      have hwm := hp.sub w hwt
      obtain ⟨row, hr1, hr2⟩ := ht.row hv hwm
      obtain ⟨lab, s'', f1, f2, -, -, f3, f4, f5⟩ := kmAssign_ok (nb := min n.toNat m.managed.length) h.inv (s := (s.1.dropLast, s.2)) hp.keys
        (hp.nodup.sublist (List.dropLast_sublist _)) hwm hci.nonneg hr1 hr2
      rw [e] at f1
      cases f1
      have f6 := (kmChoose_free (nb := min n.toNat m.managed.length) h.inv hcl' hci.ne hp.keys hwm hr1).symm.trans f2
      intro z hz hzs
      by_cases hzw : z = w
      · subst hzw
        exact ⟨lab, row, f4 z hz (MustLinked.refl m z), hr1, f6⟩
      · have hnl : ¬ MustLinked m w z := fun h0 => hzw (Unconstrained.ml hu h.inv hwm h0).symm
        rw [f5 z hnl]
        refine ih z hz fun hzt => hzs ((f3 z).2 ⟨?_, fun h0 => hnl h0.2⟩)
        have hsplit := List.dropLast_append_getLast? w hl
        rw [← hsplit, List.mem_append, List.mem_singleton] at hzt
        exact hzt.resolve_right hzw
  obtain ⟨la, ra, a1, a2, a3⟩ := key _ d2 x hx (by simp)
  obtain ⟨lb, rb, b1, b2, b3⟩ := key _ d2 y hy (by simp)
  simp only at a1 b1
  rw [a1, b1]
  obtain ⟨v, hxv⟩ := hv x hx
  obtain ⟨ra', g1, g2, g3⟩ := ht x hx v hxv
  obtain ⟨rb', g4, g5, g6⟩ := ht y hy v (hxy ▸ hxv)
  rw [a2] at g1; cases g1
  rw [b2] at g4; cases g4
  have : kmNearest ra (dkeys c0) = kmNearest rb (dkeys c0) := by
    apply kmNearest_congr
    intro c hc
    obtain ⟨w, hw⟩ := dget?_isSome_of_mem hc
    rw [dget_of_dget? (g3 c w hw), dget_of_dget? (g6 c w hw)]
  rw [a3, b3] at this
  rw [Except.ok.inj this]

/- Five IDs with two different vectors: of four clusters asked for, two are returned. -/
example : kmInit "COP" 150 false = .ok 150 ∧
    (kmCluster kmDemoEnv 150 (Manager.init [1, 2, 3, 4, 5]) (some [(1, 7), (2, 7), (3, 30), (4, 7), (5, 30)]) (some 4)).map Prod.fst =
      .ok [(1, 0), (2, 0), (3, 1), (4, 0), (5, 1)] ∧
    ∀ x ∈ [1, 2, 3, 4, 5], ∀ y ∈ [1, 2, 3, 4, 5], x ≠ y → (Manager.init [1, 2, 3, 4, 5]).getInferred x y = .ok none := by
  decide +kernel

/-- Two IDs at the end of the list that take the two initial centroids; all others are cannot-linked to both and must-linked to none.
Then every ID has its own cluster, although two or three clusters can be enough. -/
theorem C88_alone {env : KMeansEnv α V δ} (he : env.Ok) (hmean : ∀ v, env.mean [v] = v)
    (hmetric : ∀ v w, v ≠ w → env.metric v v < env.metric v w) {m : Manager α} (h : Reachable m) {L : List α} {a b : α}
    (hman : m.managed = L ++ [a, b])
    (hleaf : ∀ x ∈ L, m.getInferred x a = .ok (some .cannotLink) ∧ m.getInferred x b = .ok (some .cannotLink))
    (hml : ∀ x y, m.getInferred x y = .ok (some .mustLink) → x = y) {vectors : Dict α V} {vec : α → V}
    (hvec : ∀ x ∈ m.managed, dget? vectors x = some (vec x)) (hinj : ∀ x ∈ m.managed, ∀ y ∈ m.managed, vec x = vec y → x = y)
    (hsh : (env.shuffle m.managed).take 2 = [a, b] ∨ (env.shuffle m.managed).take 2 = [b, a])
    {model : String} {it : Int} {tol : Bool} {maxIteration : Nat} (hi : kmInit model it tol = .ok maxIteration) :
    ∃ r cs, kmCluster env maxIteration m (some vectors) (some 2) = .ok (r, cs) ∧ LabelsAre (dvals r) m.managed.length := by
  have hv : HasVectors m vectors := fun x hx => ⟨_, hvec x hx⟩
  have hlen : m.managed.length = L.length + 2 := by rw [hman]; simp
  have hne : m.managed ≠ [] := List.length_pos_iff.1 (by omega)
  have hmin : min (2 : Int).toNat m.managed.length = 2 := by
    show min 2 m.managed.length = 2
    omega
  obtain ⟨new0, r, cs, hr, -⟩ := kmCluster_ok he h.inv hv hne (le_refl (2 : Int)) (kmInit_pos hi)
  refine ⟨r, cs, hr, ?_⟩
  obtain ⟨c0, new, c1, h1, h2, h3⟩ := kmCluster_last (kmInit_pos hi) hr
  rw [hmin] at h1 h2
  have ham : a ∈ m.managed := by rw [hman]; simp
  have hbm : b ∈ m.managed := by rw [hman]; simp
  -- the labels of every pass
  have hpass : ∀ c, RunCentroids env m vectors 2 c → ∀ new c', kmPass env m vectors 2 c = .ok (new, c') →
      (∃ k, Alone m vec c k) ∨ kmInitialize env m.managed vectors 2 = .ok c →
      ∀ x ∈ m.managed, ∀ y ∈ m.managed, dget? new x = dget? new y → x = y := by
    intro c hc new c' e hcase
    obtain ⟨dist, d1, d2, -⟩ := kmPass_inPass e
    rcases hcase with ⟨k, hk⟩ | e0
    · intro x hx y hy hxy
      rw [hk.inPass he h.inv hvec hinj hmetric hml (by omega) (by omega) hc d1 d2 x hx (by simp),
        hk.inPass he h.inv hvec hinj hmetric hml (by omega) (by omega) hc d1 d2 y hy (by simp)] at hxy
      exact hk.inj x hx y hy (Option.some.inj hxy)
    · obtain ⟨q1, q2⟩ := kmInitialize_keys e0
      have hkeys : ∀ k, k ∈ dkeys c ↔ k = 0 ∨ k = 1 := by
        intro k
        rw [q1]
        simp [List.range_succ]
      obtain ⟨x0, v0, p1, p2, p3⟩ := q2 0 (by omega)
      obtain ⟨x1, v1, p4, p5, p6⟩ := q2 1 (by omega)
      rcases hsh with hsh | hsh
      · rw [hsh] at p1 p4
        cases p1; cases p4
        rw [hvec _ ham] at p2
        rw [hvec _ hbm] at p5
        cases p2; cases p5
        obtain ⟨-, -, -, -, g⟩ := hubs_inPass he h.inv hvec hinj hmetric hml (by omega) (by omega) hman hleaf (i := 0) (j := 1)
          (by omega) hkeys p3 p6 hc d1 d2
        exact fun x hx y hy hxy => g x hx (by simp) y hy (by simp) hxy
      · rw [hsh] at p1 p4
        cases p1; cases p4
        rw [hvec _ hbm] at p2
        rw [hvec _ ham] at p5
        cases p2; cases p5
        obtain ⟨-, -, -, -, g⟩ := hubs_inPass he h.inv hvec hinj hmetric hml (by omega) (by omega) hman hleaf (i := 1) (j := 0)
          (by omega) (fun k => (hkeys k).trans or_comm) p6 p3 hc d1 d2
        exact fun x hx y hy hxy => g x hx (by simp) y hy (by simp) hxy
  have hrun : ∀ c, RunCentroids env m vectors 2 c → (∃ k, Alone m vec c k) ∨ kmInitialize env m.managed vectors 2 = .ok c := by
    intro c hc
    induction hc with
    | init e => exact .inr e
    | @pass c new c' hc e ih =>
      left
      obtain ⟨new', cs', e1, hd⟩ := kmPass_ok he h.inv hv hne 2 (hc.inv he h.inv hv (by omega) (by omega))
      rw [e] at e1
      cases e1
      obtain ⟨-, -, -, e3⟩ := kmPass_inPass e
      exact ⟨_, alone_of_labels he hmean h.inv hvec hd.pass.keys (hpass c hc new c' e ih) e3 hd.keys⟩
  have hdist := hpass c0 h1 new c1 h2 (hrun c0 h1)
  obtain ⟨new', cs', e1, hd⟩ := kmPass_ok he h.inv hv hne 2 (h1.inv he h.inv hv (by omega) (by omega))
  rw [h2] at e1
  cases e1
  have hk : dkeys new = m.managed := hd.pass.keys
  have hcount := kmCount h.inv hne hk h3
  have hnd : (dkeys new).Nodup := by rw [hk]; exact h.inv.d.nodup
  have hlen2 : (dvals new).dedup.length = m.managed.length := by
    have hvn : (dvals new).Nodup := by
      have : dvals new = m.managed.map (labelFn new) := by
        rw [← hk]
        unfold dkeys dvals
        rw [List.map_map]
        refine List.map_congr_left fun p hp => ?_
        show p.2 = labelFn new p.1
        rw [labelFn, dget?_of_mem hnd hp]; rfl
      rw [this]
      refine List.Nodup.map_on ?_ h.inv.d.nodup
      intro x hx y hy hxy
      refine hdist x hx y hy ?_
      rw [labelFn_spec (show x ∈ dkeys new by rw [hk]; exact hx), labelFn_spec (show y ∈ dkeys new by rw [hk]; exact hy), hxy]
    rw [hvn.dedup, ← hk]
    simp [dkeys, dvals]
  rw [hlen2] at hcount
  exact hcount

/-- Finding: for every `N` there are cannot-links between `N + 2` IDs that two clusters satisfy, such that COP-KMeans, asked for two
clusters, returns `N + 2`: whatever the vectors, if the two IDs linked to all others are the initial centroids. -/
theorem C88_too_many (N : Nat) : ∃ m : Manager Nat, Reachable m ∧ m.managed = List.range (N + 2) ∧
    (∃ f : Nat → Nat, Satisfies m f ∧ ∀ x, f x < 2) ∧
    ∀ (V δ : Type) [LinearOrder δ] (env : KMeansEnv Nat V δ), env.Ok → (∀ v, env.mean [v] = v) →
      (∀ v w, v ≠ w → env.metric v v < env.metric v w) → (env.shuffle m.managed).take 2 = [N, N + 1] →
      ∀ (vectors : Dict Nat V) (vec : Nat → V), (∀ x ∈ m.managed, dget? vectors x = some (vec x)) → vec.Injective →
      ∀ model it tol maxIteration, kmInit model it tol = .ok maxIteration →
      ∃ r cs, kmCluster env maxIteration m (some vectors) (some 2) = .ok (r, cs) ∧ LabelsAre (dvals r) (N + 2) := by
  obtain ⟨m, h1, h2, h3⟩ := exists_cannot_manager (List.nodup_range (n := N + 2))
    (E := (List.range N).map (fun x => (x, N)) ++ (List.range N).map fun x => (x, N + 1)) (by
      intro p hp
      rcases List.mem_append.1 hp with hp | hp <;>
      · obtain ⟨x, hx, rfl⟩ := List.mem_map.1 hp
        have := List.mem_range.1 hx
        simp only [List.mem_range]
        omega)
  have hE : ∀ x y : Nat, (x, y) ∈ (List.range N).map (fun x => (x, N)) ++ ((List.range N).map fun x => (x, N + 1)) ↔
      x < N ∧ (y = N ∨ y = N + 1) := by
    intro x y
    simp only [List.mem_append, List.mem_map, List.mem_range, Prod.mk.injEq]
    constructor
    · rintro (⟨z, h0, rfl, rfl⟩ | ⟨z, h0, rfl, rfl⟩)
      · exact ⟨h0, .inl rfl⟩
      · exact ⟨h0, .inr rfl⟩
    · rintro ⟨h0, rfl | rfl⟩
      · exact .inl ⟨x, h0, rfl, rfl⟩
      · exact .inr ⟨x, h0, rfl, rfl⟩
  have hmanaged : ∀ x, x ∈ m.managed ↔ x < N + 2 := fun x => by rw [h2, List.mem_range]
  have hml : ∀ x y, m.getInferred x y = .ok (some .mustLink) → x = y := by
    intro x y h0
    obtain ⟨hx, hy⟩ := mem_of_getInferred h1.inv h0
    rw [h2] at hx hy
    rw [h3 x hx y hy] at h0
    by_contra hne
    rw [if_neg hne] at h0
    split at h0 <;> cases h0
  have hcl : ∀ x y, m.getInferred x y = .ok (some .cannotLink) → (x < N ∧ N ≤ y) ∨ (y < N ∧ N ≤ x) := by
    intro x y h0
    obtain ⟨hx, hy⟩ := mem_of_getInferred h1.inv h0
    rw [h2] at hx hy
    rw [h3 x hx y hy] at h0
    split at h0
    · cases h0
    · split at h0
      · rename_i hc
        rw [hE, hE] at hc
        omega
      · cases h0
  refine ⟨m, h1, h2, ⟨fun x => if x < N then 0 else 1, fun x y => ?_, fun x => by
    show (if x < N then 0 else 1) < 2
    split <;> omega⟩, ?_⟩
  · constructor
    · intro h0
      have : x = y := by
        obtain ⟨hx, hy⟩ := AddedAs.mem h1.inv h0
        exact hml x y ((inferred_ml_iff h1.inv hx hy).2 (.single h0))
      rw [this]
    · intro h0
      obtain ⟨hx, hy⟩ := AddedAs.mem h1.inv h0
      have := hcl x y ((inferred_cl_iff h1.inv hx hy).2 ⟨x, y, .refl, h0, .refl⟩)
      simp only
      split <;> split <;> omega
  · intro V δ _ env he hmean hmetric hsh vectors vec hvec hinj model it tol maxIteration hi
    have hman : m.managed = List.range N ++ [N, N + 1] := by
      rw [h2, List.range_succ, List.range_succ, List.append_assoc]; rfl
    obtain ⟨r, cs, e1, e2⟩ := C88_alone he hmean hmetric h1 hman (fun x hx => by
      have hx' := List.mem_range.1 hx
      constructor
      · rw [h3 x (List.mem_range.2 (by omega)) N (List.mem_range.2 (by omega)), if_neg (by omega), if_pos (.inl ((hE _ _).2 ⟨hx', .inl rfl⟩))]
      · rw [h3 x (List.mem_range.2 (by omega)) (N + 1) (List.mem_range.2 (by omega)), if_neg (by omega),
          if_pos (.inl ((hE _ _).2 ⟨hx', .inr rfl⟩))]) hml hvec (fun x _ y _ hxy => hinj hxy) (.inl hsh) hi
    rw [h2, List.length_range] at e2
    exact ⟨r, cs, e1, e2⟩

/- With three others, in integers. -/
def fanDemo : Manager Nat := runOps (Manager.init [0, 1, 2, 3, 4])
  [.addConstraint 0 3 "CANNOT_LINK" 1, .addConstraint 1 3 "CANNOT_LINK" 1, .addConstraint 2 3 "CANNOT_LINK" 1,
   .addConstraint 0 4 "CANNOT_LINK" 1, .addConstraint 1 4 "CANNOT_LINK" 1, .addConstraint 2 4 "CANNOT_LINK" 1]

/- The hypotheses of `C88_alone`, and its conclusion. -/
example : fanDemo.managed = [0, 1, 2] ++ [3, 4] ∧ Reachable fanDemo ∧ (kmDemoEnv.shuffle fanDemo.managed).take 2 = [4, 3] ∧
    (∀ x ∈ [0, 1, 2], fanDemo.getInferred x 3 = .ok (some .cannotLink) ∧ fanDemo.getInferred x 4 = .ok (some .cannotLink)) ∧
    (∀ v, kmDemoEnv.mean [v] = v) ∧ (∀ v w, v ≠ w → kmDemoEnv.metric v v < kmDemoEnv.metric v w) ∧
    ((kmCluster kmDemoEnv 150 fanDemo (some [(0, 1), (1, 20), (2, 21), (3, 0), (4, 2)]) (some 2)).map Prod.fst) =
      .ok [(0, 0), (1, 1), (2, 2), (3, 3), (4, 4)] := by
  refine ⟨by decide +kernel, ⟨_, _, rfl⟩, by decide +kernel, by decide +kernel, fun v => ?_, fun v w hvw => ?_, by decide +kernel⟩
  · show ([v].sum : Int) / (([v].length : Nat) : Int) = v
    simp
  · show (v - v).natAbs < (v - w).natAbs
    omega

/- The hypothesis of `C88_no_more`, with a must-link. -/
example : ∀ x ∈ [1, 2, 3], ∀ y ∈ [1, 2, 3], (runOps (Manager.init [1, 2, 3]) [.addConstraint 1 2 "MUST_LINK" 1]).getInferred x y ≠
    .ok (some .cannotLink) := by decide +kernel

end Verif
