import Verif.Spec.LoopTrace
import Verif.Props.Check
import Verif.Props.EndToEnd
import Verif.Props.HierSeparated
import Verif.Props.KMSeparated

/-
C114: how many questions the interactive loop asks. Specification vocabulary: `Verif/Spec/LoopTrace.lean`.
-/

namespace Verif

variable {α V δ : Type} [LinearOrder α] [LinearOrder δ]

/-- The iteration as a round of a session. -/
def Iteration.round (vectors : Dict α V) (i : Iteration α V δ) (labels : Dict α Int) : Round α V δ :=
  ⟨i.sampler, i.nbPairs, some labels, some vectors, i.metric, i.pick⟩

/-- The loop is a session with the clusterings that it computes itself. -/
theorem loop_session {truth : α → Nat} {vectors : Dict α V} {m : Manager α} (hm : Reachable m) (hs : Satisfies m truth)
    (hne : m.managed ≠ []) (hv : HasVectors m vectors) {its : List (Iteration α V δ)} (hi : ∀ i ∈ its, i.Ok) :
    ∃ m' tr, interactive truth vectors m its = .ok m' ∧ loopTrace truth vectors m its = .ok tr ∧ tr.length = its.length ∧
      session truth m (List.zipWith (fun i t => i.round vectors t.1) its tr) = .ok m' ∧
      asked truth m (List.zipWith (fun i t => i.round vectors t.1) its tr) = .ok (traceAsked tr) ∧
      List.Forall₂ (fun (i : Iteration α V δ) (t : Dict α Int × List (α × α)) =>
        InputsGiven i.sampler m (some t.1) (some vectors) ∧
        ∃ m1 : Manager α, Reachable m1 ∧ Satisfies m1 truth ∧ m1.managed = m.managed ∧ i.algo.run m1 vectors i.nbClusters = .ok t.1) its tr := by
  induction its generalizing m with
  | nil => exact ⟨m, [], rfl, rfl, rfl, rfl, rfl, .nil⟩
  | cons i its ih =>
    obtain ⟨labels, batch, m1, s0, s1, s2, s3, s4, s5, s6, -⟩ := iteration_ok hm hs hne hv (hi i (by simp))
    obtain ⟨m2, tr, t1, t2, t3, t4, t5, t6⟩ := ih s4 s5 (by rw [s6.1]; exact hne) (by unfold HasVectors; rw [s6.1]; exact hv)
      (fun q hq => hi q (by simp [hq]))
    obtain ⟨-, hk, -⟩ := Algo.labels (hi i (by simp)).algo hm hv s0
    refine ⟨m2, (labels, batch) :: tr, ?_, ?_, by simp [t3], ?_, ?_, .cons ⟨?_, m, hm, hs, rfl, s0⟩ (t6.imp fun j t h => ⟨?_, ?_⟩)⟩
    · show Except.bind (i.run truth vectors m) _ = _
      rw [s3]; exact t1
    · unfold loopTrace
      simp only [bind, Except.bind, s0, s1, s2, t2]
      rfl
    · show (i.sampler.sample m (some i.nbPairs) (some labels) (some vectors) i.metric i.pick >>= fun b => annotate truth m b >>= fun m' => session truth m' _) = _
      simp only [bind, Except.bind, s1, s2]
      exact t4
    · show (i.sampler.sample m (some i.nbPairs) (some labels) (some vectors) i.metric i.pick >>= fun b => annotate truth m b >>= fun m' => asked truth m' _ >>= fun rest => pure (b ++ rest)) = _
      simp only [bind, Except.bind, s1, s2, t5]
      rfl
    · refine ⟨fun _ => ⟨labels, rfl, fun x hx => ?_⟩, fun _ => ⟨hne, vectors, rfl, hv⟩⟩
      exact dget?_isSome_of_mem (by rw [hk]; exact (List.mem_insertionSort _).2 hx)
    · have := h.1
      exact ⟨fun hc => by rw [← s6.1]; exact this.labels hc, fun hc => by rw [← s6.1]; exact this.vectors hc⟩
    · obtain ⟨m3, q1, q2, q3, q4⟩ := h.2
      exact ⟨m3, q1, q2, q3.trans s6.1, q4⟩

omit [LinearOrder α] [LinearOrder δ] in
theorem mem_rounds {vectors : Dict α V} {its : List (Iteration α V δ)} {tr : List (Dict α Int × List (α × α))}
    {P : Iteration α V δ → Dict α Int × List (α × α) → Prop} (h : List.Forall₂ P its tr) {r : Round α V δ}
    (hr : r ∈ List.zipWith (fun i t => i.round vectors t.1) its tr) : ∃ i ∈ its, ∃ t ∈ tr, P i t ∧ r = i.round vectors t.1 := by
  induction h with
  | nil => simp at hr
  | cons hp _ ih =>
    rw [List.zipWith_cons_cons, List.mem_cons] at hr
    rcases hr with rfl | hr
    · exact ⟨_, by simp, _, by simp, hp, rfl⟩
    · obtain ⟨i, hi, t, ht, h1, h2⟩ := ih hr
      exact ⟨i, by simp [hi], t, by simp [ht], h1, h2⟩

/-- C70 with fewer iterations: `n - k` and the number of pairs of different classes. -/
theorem C114_enough {ids : List α} (hids : ids ≠ []) {truth : α → Nat} {vectors : Dict α V}
    (hv : ∀ x ∈ ids, ∃ v, dget? vectors x = some v) {its : List (Iteration α V δ)}
    (hi : ∀ i ∈ its, i.Ok ∧ 1 ≤ i.nbPairs ∧ i.sampler.clusters = none ∧ i.sampler.withoutInferred = true)
    (hlen : ids.toFinset.card + (crossPairs truth ids).card ≤ its.length + classes truth ids) {a : Algo α V δ} (ha : a.Ok)
    {nb : Int} (hnb : 2 ≤ nb) :
    ∃ m r, interactive truth vectors (Manager.init ids) its = .ok m ∧ m.complete = true ∧ a.run m vectors nb = .ok r ∧
      GivesClasses m.managed truth r := by
  have hne : (Manager.init ids).managed ≠ [] := by
    obtain ⟨x, hx⟩ := List.exists_mem_of_ne_nil _ hids
    exact List.ne_nil_of_mem ((init_mem ids x).2 hx)
  have hv' : HasVectors (Manager.init ids) vectors := fun x hx => hv x ((init_mem ids x).1 hx)
  obtain ⟨m', tr, t1, t2, t3, t4, t5, t6⟩ := loop_session (.init ids) (init_satisfies ids truth) hne hv' (fun i hi' => (hi i hi').1)
  obtain ⟨m'', c1, c2⟩ := C91_from_scratch ids truth (rounds := List.zipWith (fun i t => i.round vectors t.1) its tr) (fun r hr => by
    obtain ⟨i, hi', t, -, ⟨hin, -⟩, rfl⟩ := mem_rounds t6 hr
    obtain ⟨h1, h2, h3, h4⟩ := hi i hi'
    exact ⟨h2, h1.pick, hin, h3, h4⟩) (by rw [List.length_zipWith, t3, Nat.min_self]; exact hlen)
  rw [t4] at c1
  cases c1
  obtain ⟨m'', e, h2, h3, h4, -⟩ := interactive_ok (.init ids) (init_satisfies ids truth) hne hv' (fun i hi' => (hi i hi').1)
  rw [t1] at e
  cases e
  have hv2 : HasVectors m' vectors := by unfold HasVectors; rw [h4.1]; exact hv'
  obtain ⟨r, hr⟩ := Algo.total ha h2 (by rw [h4.1]; exact hne) hv2 hnb
  refine ⟨m', r, t1, c2, hr, (Algo.labels ha h2 hv2 hr).2.1, fun x hx y hy => ?_⟩
  rw [C69_complete_forces_partition ha h2 c2 hv2 hr hx hy, inferred_ml_iff h2.inv hx hy]
  refine ⟨satisfies_chain h3, fun he => ?_⟩
  rcases (complete_iff h2.inv).1 c2 x hx y hy with hl | hl
  · exact hl
  · exact absurd he (satisfies_sep h3 hl)

/-- No loop completes the constraints of a new manager with fewer than `n - k + k(k-1)/2` questions, whatever its algorithms,
samplers and sizes of batches. -/
theorem C114_least {ids : List α} (hids : ids ≠ []) {truth : α → Nat} {vectors : Dict α V}
    (hv : ∀ x ∈ ids, ∃ v, dget? vectors x = some v) {its : List (Iteration α V δ)} (hi : ∀ i ∈ its, i.Ok) {m' : Manager α}
    (hloop : interactive truth vectors (Manager.init ids) its = .ok m') (hc : m'.complete = true)
    {tr : List (Dict α Int × List (α × α))} (htr : loopTrace truth vectors (Manager.init ids) its = .ok tr) :
    ids.toFinset.card + classes truth ids * (classes truth ids - 1) / 2 ≤ (traceAsked tr).length + classes truth ids := by
  have hne : (Manager.init ids).managed ≠ [] := by
    obtain ⟨x, hx⟩ := List.exists_mem_of_ne_nil _ hids
    exact List.ne_nil_of_mem ((init_mem ids x).2 hx)
  have hv' : HasVectors (Manager.init ids) vectors := fun x hx => hv x ((init_mem ids x).1 hx)
  obtain ⟨m'', tr', t1, t2, t3, t4, t5, t6⟩ := loop_session (.init ids) (init_satisfies ids truth) hne hv' hi
  rw [hloop] at t1
  rw [htr] at t2
  cases t1
  cases t2
  have hq := questions_eq_asked truth (Manager.init ids) (List.zipWith (fun i t => i.round vectors t.1) its tr)
  rw [t5] at hq
  exact C91_least ids truth (fun r hr => by
    obtain ⟨i, hi', t, -, ⟨hin, -⟩, rfl⟩ := mem_rounds t6 hr
    exact ⟨(hi i hi').pairs, (hi i hi').pick, hin⟩) t4 hc hq

theorem loopLabels_unique {ids : List α} {r r' : Dict α Int} (hn : ids.Nodup) (hk : dkeys r = ids) (hk' : dkeys r' = ids)
    (hf : FirstAppearanceOrder (dvals r)) (hf' : FirstAppearanceOrder (dvals r'))
    (hsame : ∀ x ∈ ids, ∀ y ∈ ids, (dget? r x = dget? r y ↔ dget? r' x = dget? r' y)) : r = r' := by
  have hvals : ∀ d : Dict α Int, (dkeys d).Nodup → dvals d = (dkeys d).map (lab d) := by
    intro d hd
    unfold dvals dkeys
    rw [List.map_map]
    apply List.map_congr_left
    intro p hp
    show p.2 = lab d p.1
    rw [lab, dget?_of_mem hd hp]; rfl
  rw [hvals r (hk ▸ hn), hk] at hf
  rw [hvals r' (hk' ▸ hn), hk'] at hf'
  have huniq := firstAppearance_unique hf hf' (by
    intro x hx y hy
    have e1 := hsame x hx y hy
    rw [dget?_lab (hk ▸ hx), dget?_lab (hk ▸ hy), dget?_lab (hk' ▸ hx), dget?_lab (hk' ▸ hy)] at e1
    simpa using e1)
  apply dict_ext (hk ▸ hn) (hk.trans hk'.symm)
  intro x
  by_cases hx : x ∈ ids
  · rw [dget?_lab (hk ▸ hx), dget?_lab (hk' ▸ hx), huniq x hx]
  · rw [dget?_eq_none_iff.2 (hk ▸ hx), dget?_eq_none_iff.2 (hk' ▸ hx)]

theorem ConfirmStep.labels {c : ClustersRestriction} {vectors : Dict α V} {m m' : Manager α} {truth : α → Nat} (hm : Reachable m)
    (hm' : Reachable m') (hmm : m'.managed = m.managed) (hv : HasVectors m vectors) (hs : Satisfies m truth) (hs' : Satisfies m' truth)
    {c' : ClustersRestriction} {i j : Iteration α V δ} (hi : ConfirmStep c vectors m.managed truth i)
    (hj : ConfirmStep c' vectors m.managed truth j) {r r' : Dict α Int} (hr : i.algo.run m vectors i.nbClusters = .ok r)
    (hr' : j.algo.run m' vectors j.nbClusters = .ok r') : r = r' ∧ GivesClasses m.managed truth r := by
  have hv' : HasVectors m' vectors := by unfold HasVectors; rw [hmm]; exact hv
  obtain ⟨-, k1, f1⟩ := Algo.labels hi.ok.algo hm hv hr
  obtain ⟨-, k2, f2⟩ := Algo.labels hj.ok.algo hm' hv' hr'
  obtain ⟨q, e1, g1⟩ := hi.finds m hm rfl hs
  obtain ⟨q', e2, g2⟩ := hj.finds m' hm' hmm hs'
  rw [hr] at e1
  rw [hr'] at e2
  cases e1
  cases e2
  refine ⟨loopLabels_unique ((List.perm_insertionSort _ _).nodup_iff.2 hm.inv.d.nodup) k1 (k2.trans (by rw [hmm]; rfl)) f1 f2 fun x hx y hy => ?_, g1⟩
  rw [List.mem_insertionSort] at hx hy
  rw [g1.2 x hx y hy, g2.2 x hx y hy]

theorem forall₂_split {ι κ : Type} {R : ι → κ → Prop} {a b : List ι} {l : List κ} (h : List.Forall₂ R (a ++ b) l) :
    ∃ l1 l2, l = l1 ++ l2 ∧ List.Forall₂ R a l1 ∧ List.Forall₂ R b l2 := by
  induction a generalizing l with
  | nil => exact ⟨[], l, rfl, .nil, h⟩
  | cons x a ih =>
    cases h with
    | cons hx ht =>
      obtain ⟨l1, l2, rfl, h1, h2⟩ := ih ht
      exact ⟨_ :: l1, l2, rfl, .cons hx h1, h2⟩

theorem forall₂_mem {ι κ : Type} {R : ι → κ → Prop} {a : List ι} {l : List κ} (h : List.Forall₂ R a l) {y : κ} (hy : y ∈ l) :
    ∃ x ∈ a, R x y := by
  induction h with
  | nil => simp at hy
  | cons hx _ ih =>
    rcases List.mem_cons.1 hy with rfl | hy
    · exact ⟨_, List.mem_cons_self .., hx⟩
    · obtain ⟨x, h1, h2⟩ := ih hy
      exact ⟨x, List.mem_cons_of_mem _ h1, h2⟩

theorem GivesClasses.right {ids : List α} {truth : α → Nat} {r : Dict α Int} (h : GivesClasses ids truth r) : RightLabels truth ids r := h.2

theorem exists_right (truth : α → Nat) (ids : List α) : ∃ labels : Dict α Int, RightLabels truth ids labels := by
  refine ⟨dofList (ids.map fun x => (x, (truth x : Int))), ?_⟩
  have key : ∀ x ∈ ids, dget? (dofList (ids.map fun x => (x, (truth x : Int)))) x = some (truth x : Int) := fun x hx => by
    rw [dget?_dofList_map, if_pos hx]
  intro x hx y hy
  rw [key x hx, key y hy]
  simp

/-- If the algorithms find the classes whatever correct annotations they get, all clusterings of the loop are the classes, and `n - k`
iterations with a question in one cluster, all answered with MUST_LINK, and `k(k-1)/2` with a question in different clusters, all answered
with CANNOT_LINK, complete the constraints. -/
theorem C114_confirm {ids : List α} (hids : ids ≠ []) {truth : α → Nat} {vectors : Dict α V}
    (hv : ∀ x ∈ ids, ∃ v, dget? vectors x = some v) {inside across : List (Iteration α V δ)}
    (hin : ∀ i ∈ inside, ConfirmStep .sameCluster vectors (Manager.init ids).managed truth i)
    (hac : ∀ i ∈ across, ConfirmStep .differentClusters vectors (Manager.init ids).managed truth i)
    (hli : ids.toFinset.card = inside.length + classes truth ids)
    (hla : classes truth ids * (classes truth ids - 1) / 2 = across.length) :
    ∃ m' tr a b, interactive truth vectors (Manager.init ids) (inside ++ across) = .ok m' ∧ m'.complete = true ∧
      loopTrace truth vectors (Manager.init ids) (inside ++ across) = .ok tr ∧
      (∀ t ∈ tr, GivesClasses (Manager.init ids).managed truth t.1) ∧ traceAsked tr = a ++ b ∧
      a.length = inside.length ∧ (∀ p ∈ a, truth p.1 = truth p.2) ∧ b.length = across.length ∧ ∀ p ∈ b, truth p.1 ≠ truth p.2 := by
  have hm := Reachable.init (α := α) ids
  have hs := init_satisfies ids truth
  have hne : (Manager.init ids).managed ≠ [] := by
    obtain ⟨x, hx⟩ := List.exists_mem_of_ne_nil _ hids
    exact List.ne_nil_of_mem ((init_mem ids x).2 hx)
  have hv' : HasVectors (Manager.init ids) vectors := fun x hx => hv x ((init_mem ids x).1 hx)
  have hstep : ∀ i ∈ inside ++ across, ∃ c, ConfirmStep c vectors (Manager.init ids).managed truth i := fun i hi => by
    rcases List.mem_append.1 hi with h | h
    · exact ⟨_, hin i h⟩
    · exact ⟨_, hac i h⟩
  obtain ⟨m', tr, t1, t2, t3, t4, t5, t6⟩ := loop_session hm hs hne hv' (fun i hi => (hstep i hi).choose_spec.ok)
  obtain ⟨L, hL, hLtr⟩ : ∃ L : Dict α Int, RightLabels truth (Manager.init ids).managed L ∧
      List.Forall₂ (fun (i : Iteration α V δ) (t : Dict α Int × List (α × α)) => t.1 = L ∧ GivesClasses (Manager.init ids).managed truth t.1 ∧
        InputsGiven i.sampler (Manager.init ids) (some t.1) (some vectors)) (inside ++ across) tr := by
    cases hits : inside ++ across with
    | nil =>
      rw [hits] at t6
      cases t6
      obtain ⟨L, hL⟩ := exists_right truth (Manager.init ids).managed
      exact ⟨L, hL, .nil⟩
    | cons i0 rest =>
      obtain ⟨c0, h0⟩ := hstep i0 (by rw [hits]; simp)
      obtain ⟨L, e0, g0⟩ := h0.finds _ hm rfl hs
      rw [hits] at hstep t6
      refine ⟨L, g0.right, ?_⟩
      have aux : ∀ (l : List (Iteration α V δ)) (tr' : List (Dict α Int × List (α × α))),
          (∀ i ∈ l, ∃ c, ConfirmStep c vectors (Manager.init ids).managed truth i) →
          List.Forall₂ (fun (i : Iteration α V δ) (t : Dict α Int × List (α × α)) =>
            InputsGiven i.sampler (Manager.init ids) (some t.1) (some vectors) ∧
            ∃ m1 : Manager α, Reachable m1 ∧ Satisfies m1 truth ∧ m1.managed = (Manager.init ids).managed ∧
              i.algo.run m1 vectors i.nbClusters = .ok t.1) l tr' →
          List.Forall₂ (fun (i : Iteration α V δ) (t : Dict α Int × List (α × α)) => t.1 = L ∧ GivesClasses (Manager.init ids).managed truth t.1 ∧
            InputsGiven i.sampler (Manager.init ids) (some t.1) (some vectors)) l tr' := by
        intro l tr' hl hf
        induction hf with
        | nil => exact .nil
        | cons hx _ ih =>
          refine .cons ?_ (ih fun i hi => hl i (by simp [hi]))
          obtain ⟨hi1, m1, q1, q2, q3, q4⟩ := hx
          obtain ⟨c1, h1⟩ := hl _ (List.mem_cons_self ..)
          obtain ⟨u1, u2⟩ := ConfirmStep.labels hm q1 q3 hv' hs q2 h0 h1 e0 q4
          exact ⟨u1.symm, u1 ▸ u2, hi1⟩
      exact aux _ _ hstep t6
  obtain ⟨tr1, tr2, rfl, f1, f2⟩ := forall₂_split hLtr
  have hz : List.zipWith (fun (i : Iteration α V δ) (t : Dict α Int × List (α × α)) => i.round vectors t.1) (inside ++ across) (tr1 ++ tr2) =
      List.zipWith (fun i t => i.round vectors t.1) inside tr1 ++ List.zipWith (fun i t => i.round vectors t.1) across tr2 :=
    List.zipWith_append f1.length_eq
  rw [hz] at t4 t5
  have o1 : ∀ r ∈ List.zipWith (fun (i : Iteration α V δ) (t : Dict α Int × List (α × α)) => i.round vectors t.1) inside tr1,
      OneQuestion .sameCluster L (Manager.init ids) r := fun r hr => by
    obtain ⟨i, hi, t, -, ⟨u1, -, u3⟩, rfl⟩ := mem_rounds f1 hr
    have h := hin i hi
    exact ⟨h.one, h.restricted, h.unknown, by show some t.1 = _; rw [u1], h.ok.pick, u3⟩
  have o2 : ∀ r ∈ List.zipWith (fun (i : Iteration α V δ) (t : Dict α Int × List (α × α)) => i.round vectors t.1) across tr2,
      OneQuestion .differentClusters L (Manager.init ids) r := fun r hr => by
    obtain ⟨i, hi, t, -, ⟨u1, -, u3⟩, rfl⟩ := mem_rounds f2 hr
    have h := hac i hi
    exact ⟨h.one, h.restricted, h.unknown, by show some t.1 = _; rw [u1], h.ok.pick, u3⟩
  have l1 : (List.zipWith (fun (i : Iteration α V δ) (t : Dict α Int × List (α × α)) => i.round vectors t.1) inside tr1).length = inside.length := by
    rw [List.length_zipWith, ← f1.length_eq, Nat.min_self]
  have l2 : (List.zipWith (fun (i : Iteration α V δ) (t : Dict α Int × List (α × α)) => i.round vectors t.1) across tr2).length = across.length := by
    rw [List.length_zipWith, ← f2.length_eq, Nat.min_self]
  have hL' : RightLabels truth ids L := fun x hx y hy => hL x ((init_mem ids x).2 hx) y ((init_mem ids y).2 hy)
  obtain ⟨m2, ps, r1, r2, r3, r4⟩ := C113_right hL' o1 o2 (by rw [l1]; omega) (by rw [l2]; omega)
  rw [t4] at r1
  cases r1
  rw [t5] at r3
  cases r3
  obtain ⟨m1, a, i1, i2, i3, i4, i5⟩ := C113_inside hm hs hL o1
  rw [l1, init_components, init_classes] at i4
  -- the second part
  obtain ⟨k1, k2, k3, -⟩ := asked_known hm hs (fun r hr => (o1 r hr).pick) i1 i2
  have hs1 : session truth m1 (List.zipWith (fun (i : Iteration α V δ) (t : Dict α Int × List (α × α)) => i.round vectors t.1) across tr2) = .ok m' := by
    rw [session_append, i1] at t4
    exact t4
  obtain ⟨b, hb⟩ := asked_total hs1
  have hab := asked_append i1 i2 hb
  rw [t5] at hab
  have hab' : traceAsked (tr1 ++ tr2) = a ++ b := by injection hab
  refine ⟨m', tr1 ++ tr2, a, b, t1, r2, t2, fun t ht => ?_, hab', by omega, i3, ?_, ?_⟩
  · obtain ⟨i, -, -, h, -⟩ := forall₂_mem hLtr ht
    exact h
  · rw [hab', List.length_append] at r4
    omega
  · obtain ⟨guess, hg⟩ := exists_guess L
    have hL1 : RightLabels truth m1.managed L := by rw [k3.1]; exact hL
    have hsg := satisfies_guess hg (hL1.satisfy k1.inv k2)
    have hcl : classes guess m1.managed = classes truth ids := by rw [guess_count hg, hL1.count, k3.1, init_classes]
    rw [init_components] at i5
    obtain ⟨m3, qs, -, p2, -, -, -, -, p7, -⟩ := across_phase hg k1 k3.1 hsg (no_inside_left k1 hsg (by rw [hcl]; omega)) o2
    have hag : ∀ p ∈ qs, (truth p.1 = truth p.2 ↔ guess p.1 = guess p.2) := fun p hp => by
      obtain ⟨h1, h2, -⟩ := p7 p hp
      rw [hg, hL1 _ h1 _ h2]
    have := (asked_congr p2 hag).1
    rw [hb] at this
    cases this
    exact fun p hp he => (p7 p hp).2.2 ((hag p hp).1 he)

/-- Hierarchical clustering finds classes that its linkage separates, if no class is as large as two others together (C104). -/
theorem C114_hierarchical {env : HierEnv V δ} (o : HObject α V) {vectors : Dict α V} {ids : List α}
    (hv : ∀ x ∈ ids, ∃ v, dget? vectors x = some v) {f : α → Nat} (hs : LinkageSeparates env o.linkage vectors ids f)
    (h2 : 2 ≤ classes f ids)
    (hsize : ∀ x ∈ ids, ∀ y ∈ ids, ∀ z ∈ ids, f x ≠ f y → classSize ids f (f z) < classSize ids f (f x) + classSize ids f (f y)) :
    FindsClasses (.hierarchical env o) vectors ids f (classes f ids : Nat) := by
  rintro m hm rfl hf
  obtain ⟨o', r, e, g⟩ := C104_cluster o hm hv hf hs h2 hsize
  exact ⟨r, by simp only [Algo.run, e], g⟩

/-- COP-KMeans finds classes that its centers separate, if its initial centroids are in different classes (C105). -/
theorem C114_kmeans {env : KMeansEnv α V δ} (he : env.Ok) {model : String} {it : Int} {tol : Bool} {maxIteration : Nat}
    (hi : kmInit model it tol = .ok maxIteration) {vectors : Dict α V} {ids : List α}
    (hv : ∀ x ∈ ids, ∃ v, dget? vectors x = some v) {f : α → Nat} (hs : CentersSeparate env vectors ids f) (h2 : 2 ≤ classes f ids)
    (hini : ((initialIds env ids (classes f ids)).map f).Nodup) :
    FindsClasses (.kmeans env maxIteration) vectors ids f (classes f ids : Nat) := by
  rintro m hm rfl hf
  obtain ⟨r, cs, e, g⟩ := C105_classes he hm hv hi hf hs h2 hini
  exact ⟨r, by simp only [Algo.run, e]; rfl, g⟩

/-! ### Each theorem applied to a concrete case -/

def loopVectors : Dict Nat ℚ := [(2, 0), (3, 1), (4, 10), (5, 12), (6, 30)]

def loopMetric (a b : ℚ) : ℚ := (a - b) * (a - b)

def loopStep (c : Option ClustersRestriction) : Iteration Nat ℚ ℚ :=
  ⟨.hierarchical lineEnv (sepObject .complete), 3, ⟨c, none, true, true⟩, 1, loopMetric, fun l k => l.take k⟩

theorem loopStep_ok (c : Option ClustersRestriction) : (loopStep c).Ok := ⟨trivial, (by decide : (2 : Int) ≤ 3), (by decide : (0 : Int) ≤ 1), askPick_random⟩

theorem loopVectors_given : ∀ x ∈ [2, 5, 3, 4, 6], ∃ v, dget? loopVectors x = some v := by
  simp only [exists_dget?_iff]; decide +kernel

theorem loop_finds : FindsClasses (.hierarchical lineEnv (sepObject .complete)) loopVectors [2, 5, 3, 4, 6] sepClass' 3 :=
  C114_hierarchical (sepObject .complete) loopVectors_given
    (C104_single_complete (.inr rfl) (distancesSeparate_of_check (by decide +kernel))) (by decide +kernel) (by decide +kernel)

theorem loopStep_confirm (c : ClustersRestriction) : ConfirmStep c loopVectors (Manager.init [2, 5, 3, 4, 6]).managed sepClass' (loopStep (some c)) :=
  ⟨loopStep_ok _, rfl, rfl, rfl, (by decide +kernel : (Manager.init [2, 5, 3, 4, 6]).managed = [2, 5, 3, 4, 6]) ▸ loop_finds⟩

example := C114_confirm (ids := [2, 5, 3, 4, 6]) (by decide) loopVectors_given
  (inside := List.replicate 2 (loopStep (some .sameCluster))) (across := List.replicate 3 (loopStep (some .differentClusters)))
  (fun i hi => List.eq_of_mem_replicate hi ▸ loopStep_confirm _) (fun i hi => List.eq_of_mem_replicate hi ▸ loopStep_confirm _)
  (by decide +kernel) (by decide +kernel)

example : (loopTrace sepClass' loopVectors (Manager.init [2, 5, 3, 4, 6])
    (List.replicate 2 (loopStep (some .sameCluster)) ++ List.replicate 3 (loopStep (some .differentClusters)))).map traceAsked =
    .ok [(2, 3), (4, 5), (2, 5), (2, 6), (5, 6)] := by decide +kernel

example := C114_enough (ids := [2, 5, 3, 4, 6]) (by decide) (truth := sepClass') loopVectors_given
  (its := List.replicate 10 (loopStep none))
  (fun i hi => List.eq_of_mem_replicate hi ▸ ⟨loopStep_ok _, by decide, rfl, rfl⟩) (by decide +kernel)
  (a := .hierarchical lineEnv (sepObject .single)) trivial (nb := 2) (by decide)

example : ∃ m' tr, interactive sepClass' loopVectors (Manager.init [2, 5, 3, 4, 6]) (List.replicate 10 (loopStep none)) = .ok m' ∧
    m'.complete = true ∧ loopTrace sepClass' loopVectors (Manager.init [2, 5, 3, 4, 6]) (List.replicate 10 (loopStep none)) = .ok tr := by
  obtain ⟨m', r, h1, h2, -⟩ := C114_enough (ids := [2, 5, 3, 4, 6]) (by decide) (truth := sepClass') loopVectors_given
    (its := List.replicate 10 (loopStep none))
    (fun i hi => List.eq_of_mem_replicate hi ▸ ⟨loopStep_ok _, by decide, rfl, rfl⟩) (by decide +kernel)
    (a := .hierarchical lineEnv (sepObject .single)) trivial (nb := 2) (by decide)
  obtain ⟨m'', tr, t1, t2, -⟩ := loop_session (.init [2, 5, 3, 4, 6]) (init_satisfies _ sepClass') (by decide +kernel)
    (vectors := loopVectors) (by unfold HasVectors; simp only [exists_dget?_iff]; decide +kernel) (its := List.replicate 10 (loopStep none))
    (fun i hi => List.eq_of_mem_replicate hi ▸ loopStep_ok _)
  exact ⟨m', tr, h1, h2, t2⟩

example (m' : Manager Nat) (tr : List (Dict Nat Int × List (Nat × Nat)))
    (h1 : interactive sepClass' loopVectors (Manager.init [2, 5, 3, 4, 6]) (List.replicate 10 (loopStep none)) = .ok m')
    (h2 : m'.complete = true) (h3 : loopTrace sepClass' loopVectors (Manager.init [2, 5, 3, 4, 6]) (List.replicate 10 (loopStep none)) = .ok tr) :=
  C114_least (by decide) loopVectors_given (fun i hi => List.eq_of_mem_replicate hi ▸ loopStep_ok _) h1 h2 h3

example := C114_kmeans kmSepReal_ok (model := "COP") (it := 150) (tol := false) (maxIteration := 150) (by decide +kernel)
  (vectors := sepReal) (ids := [2, 4, 3, 5]) (f := sepClass') (by simp only [exists_dget?_iff]; decide +kernel)
  (by have h := kmSepReal_separate
      exact (by decide +kernel : (Manager.init [2, 4, 3, 5]).managed = [2, 4, 3, 5]) ▸ h) (by decide +kernel)
  (by unfold initialIds kmSepReal realKMeans
      simp only [id]
      decide)

end Verif
