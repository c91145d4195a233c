import Verif.Proofs.OrderHier
import Verif.Props.Hierarchical
import Verif.Props.Sampling
import Verif.Props.KMeans
import Verif.Props.DBScan

/-
Property C93: the order in which the IDs were given to the manager. Specification vocabulary: `Verif/Spec/Order.lean`.
-/

namespace Verif

variable {α V δ : Type} [LinearOrder α] [LinearOrder δ]

theorem SameUpToOrder.symm {m m' : Manager α} (h : SameUpToOrder m m') : SameUpToOrder m' m :=
  ⟨fun x => (h.managed x).symm, fun x y => (h.inferred x y).symm⟩

theorem SameUpToOrder.mustLinked {m m' : Manager α} (hm : Inv m) (hm' : Inv m') (h : SameUpToOrder m m') (x y : α) :
    MustLinked m x y ↔ MustLinked m' x y := by
  have key : ∀ {m m' : Manager α}, Inv m → Inv m' → SameUpToOrder m m' → MustLinked m x y → MustLinked m' x y := by
    intro m m' hm hm' h hl
    by_cases hx : x ∈ m.managed
    · have hy := hl.mem hm hx
      have := (inferred_ml_iff (th := 1) hm hx hy).2 hl
      rw [← h.inferred] at this
      exact (inferred_ml_iff hm' ((h.managed x).2 hx) ((h.managed y).2 hy)).1 this
    · rcases Relation.ReflTransGen.cases_head hl with e | ⟨z, hz, -⟩
      · exact e ▸ MustLinked.refl _ _
      · exact absurd (AddedAs.mem hm hz).1 hx
  exact ⟨key hm hm' h, key hm' hm h.symm⟩

theorem SameUpToOrder.cannotLinked {m m' : Manager α} (hm : Inv m) (hm' : Inv m') (h : SameUpToOrder m m') (x y : α) :
    CannotLinked m x y ↔ CannotLinked m' x y := by
  have key : ∀ {m m' : Manager α}, Inv m → Inv m' → SameUpToOrder m m' → CannotLinked m x y → CannotLinked m' x y := by
    intro m m' hm hm' h hl
    obtain ⟨hx, hy⟩ := hl.mem hm
    have := (inferred_cl_iff (th := 1) hm hx hy).2 hl
    rw [← h.inferred] at this
    exact (inferred_cl_iff hm' ((h.managed x).2 hx) ((h.managed y).2 hy)).1 this
  exact ⟨key hm hm' h, key hm' hm h.symm⟩

theorem SameUpToOrder.components {m m' : Manager α} (hm : Inv m) (hm' : Inv m') (h : SameUpToOrder m m') :
    m'.components.length = m.components.length := by
  have key : ∀ {m m' : Manager α}, Inv m → Inv m' → SameUpToOrder m m' →
      ∀ S, S ∈ m.components.map List.toFinset → S ∈ m'.components.map List.toFinset := by
    intro m m' hm hm' h S hS
    obtain ⟨c, hc, rfl⟩ := List.mem_map.1 hS
    obtain ⟨x, hx⟩ := List.exists_mem_of_ne_nil _ (component_ne_nil hm hc)
    obtain ⟨h1, h2⟩ := mem_component_iff hm hc hx
    obtain ⟨c', hc', hx'⟩ := exists_component hm' ((h.managed x).2 h1)
    refine List.mem_map.2 ⟨c', hc', ?_⟩
    ext y
    rw [List.mem_toFinset, List.mem_toFinset, h2 y, (mem_component_iff hm' hc' hx').2 y]
    exact (h.mustLinked hm hm' x y).symm
  have nd : ∀ {m : Manager α}, Inv m → (m.components.map List.toFinset).Nodup := by
    intro m hm
    refine List.Nodup.map_on (fun c hc d hd e => ?_) (components_nodup m)
    obtain ⟨x, hx⟩ := List.exists_mem_of_ne_nil _ (component_ne_nil hm hc)
    have := Finset.ext_iff.1 e x
    rw [List.mem_toFinset, List.mem_toFinset] at this
    exact component_unique hm hc hd hx (this.1 hx)
  have := ((List.perm_ext_iff_of_nodup (nd hm') (nd hm)).2 fun S => ⟨key hm' hm h.symm S, key hm hm' h S⟩).length_eq
  simpa using this

/-! ### Hierarchical clustering -/

/-- If at each merge of the first run the two merged clusters are strictly the best pair, then any other order of the IDs gives
the same labels, the same inner nodes of the tree, and the same later cuts. -/
theorem C93_hierarchical {env : HierEnv V δ} {o o₁ : HObject α V} (hu : Unordered env o.linkage) {m m' : Manager α} (hm : Reachable m)
    (hm' : Reachable m') (hs : SameUpToOrder m m') {vectors : Dict α V} {nb : Option Int} {r : Dict α Int}
    (hr : o.cluster env m (some vectors) nb = (o₁, .ok r)) (hst : StrictMerges env o.linkage m vectors o₁.storage) :
    ∃ o₂, o.cluster env m' (some vectors) nb = (o₂, .ok r) ∧ o₂.root = o₁.root ∧ o₂.storage.length = o₁.storage.length ∧
      (∀ i, m.components.length ≤ i → (membersOf o₁.storage i).Perm (membersOf o₂.storage i)) ∧
      ∀ k by_, o₂.cut k by_ = o₁.cut k by_ := by
  obtain ⟨vs, n, root, st, l, hvs, rfl, hn, hne, rfl, hb, -, -⟩ := hier_ok hm hr
  cases hvs
  obtain ⟨vs, n', hvs, hnb, -, hv, -⟩ := hier_args hr
  cases hvs; cases hnb
  have hv' : HasVectors m' vectors := fun x hx => hv x ((hs.managed x).1 hx)
  have hne' : m'.managed ≠ [] := by
    obtain ⟨x, hx⟩ := List.exists_mem_of_ne_nil _ hne
    exact List.ne_nil_of_mem ((hs.managed x).2 hx)
  obtain ⟨root', st', l', r', e, hb', -, -⟩ := hier_call (env := env) o hm' hv' hne' hn
  have hK := hs.components hm.inv hm'.inv
  have hsh := sameShape hm.inv hm'.inv hb hb' hu hst (hs.mustLinked hm.inv hm'.inv) (hs.cannotLinked hm.inv hm'.inv) hs.managed hK
  have hcut : ∀ k by_, hCut m'.managed st' root' k by_ = hCut m.managed st root k by_ := fun k by_ =>
    cut_desc hm.inv hm'.inv hb hb' hK hs.managed hsh by_ k
  have hlen : m'.managed.length = m.managed.length :=
    ((List.perm_ext_iff_of_nodup hm'.inv.d.nodup hm.inv.d.nodup).2 hs.managed).length_eq
  have hroot : root' = root := by have := hb.last; have := hb'.last; have := hsh.length; omega
  have hval : ∀ {m : Manager α} {o₁ : HObject α V} {root : Nat} {st : Dict Nat (HCluster α V)} {r : Dict α Int},
      o.cluster env m (some vectors) (some n) = (o₁, .ok r) → o₁ = ⟨o.linkage, m.managed, some root, st⟩ →
        hCut m.managed st root (min n m.managed.length) .size = .ok r := by
    intro m o₁ root st r h1 h2
    unfold HObject.cluster at h1
    simp only [if_neg (show ¬ n < 2 by omega)] at h1
    cases hT : distanceTable m vectors env.metric with
    | error e => rw [hT] at h1; simp at h1
    | ok table =>
      rw [hT] at h1
      simp only at h1
      cases hB : hBuild env o.linkage m vectors table with
      | error e => rw [hB] at h1; simp at h1
      | ok q =>
        obtain ⟨root2, st2⟩ := q
        rw [hB] at h1
        simp only [Prod.mk.injEq] at h1
        obtain ⟨h3, h4⟩ := h1
        rw [h2] at h3
        cases h3
        exact h4
  have hr2 : r' = r := by
    have h1 := hval hr rfl
    have h2 := hval e rfl
    rw [hcut, hlen, h1] at h2
    exact (Except.ok.inj h2).symm
  subst hr2
  refine ⟨_, e, by rw [hroot], hsh.length, fun i hi => ?_, hcut⟩
  by_cases hi' : i < st.length
  · exact desc_perm hb hb' (hsh.desc i hi hi').symm
  · have hout : ∀ {m : Manager α} {root : Nat} {st : Dict Nat (HCluster α V)}, Built env o.linkage m vectors root st → ¬ i < st.length →
        membersOf st i = [] := by
      intro m root st hb h
      unfold membersOf
      cases hg : dget? st i with
      | none => rfl
      | some n => exact absurd (hb.tree.keys.lt hg) h
    show (membersOf st i).Perm (membersOf st' i)
    rw [hout hb hi', hout hb' (by rw [hsh.length]; exact hi')]

/-- With linkage "single" or "complete" it is enough that different pairs of IDs have different distances. -/
theorem C93_distinct_distances {env : HierEnv V δ} {o o₁ : HObject α V} (hl : o.linkage = .single ∨ o.linkage = .complete)
    (hsym : ∀ v w, env.metric w v = env.metric v w) {m : Manager α} (hm : Reachable m) {vectors : Dict α V} {nb : Option Int} {r : Dict α Int}
    (hd : DistinctDistances env.metric vectors m.managed) (hr : o.cluster env m (some vectors) nb = (o₁, .ok r)) :
    Unordered env o.linkage ∧ StrictMerges env o.linkage m vectors o₁.storage := by
  have hu : Unordered env o.linkage := by
    refine ⟨⟨?_, ?_, ?_⟩, hsym, ?_⟩ <;> intro h <;> rcases hl with h' | h' <;> rw [h'] at h <;> cases h
  refine ⟨hu, ?_⟩
  obtain ⟨vs, n, root, st, l, hvs, -, -, -, rfl, hb, -, -⟩ := hier_ok hm hr
  cases hvs
  have hatt : ∀ {xs ys : List α} {d : δ}, LinkageIs env o.linkage vectors xs ys d →
      ∃ x ∈ xs, ∃ y ∈ ys, ∃ v w, dget? vectors x = some v ∧ dget? vectors y = some w ∧ d = env.metric v w := by
    intro xs ys d h
    rcases hl with h' | h' <;> rw [h'] at h <;> exact h.1
  intro i nd a b hn hc c e hca hea hce hne ho d d' h1 h2 hh
  have hi : i ≤ st.length := le_of_lt (hb.tree.keys.lt hn)
  have ha := hb.child_alive hn (c := a) (by rw [hc]; simp)
  have hba := hb.child_alive hn (c := b) (by rw [hc]; simp)
  have hab : a < b := by
    have := hb.ordered i nd hn
    rw [hc] at this
    simpa using this
  obtain ⟨x, hx, y, hy, v, w, e1, e2, e3⟩ := hatt h1
  obtain ⟨x', hx', y', hy', v', w', e1', e2', e3'⟩ := hatt h2
  have hxy : x ≠ y := by
    rintro rfl
    have := hb.alive_eq hi ha hba hx hy
    omega
  have hxy' : x' ≠ y' := by
    rintro rfl
    have := hb.alive_eq hi hca hea hx' hy'
    omega
  have hsub := hb.tree.sub
  rcases hd x (hsub _ x hx) y (hsub _ y hy) x' (hsub _ x' hx') y' (hsub _ y' hy') hxy hxy' v w v' w' e1 e2 e1' e2'
      (by rw [← e3, ← e3', hh.1]) with ⟨rfl, rfl⟩ | ⟨rfl, rfl⟩
  · exact hne (by rw [hb.alive_eq hi ha hca hx hx', hb.alive_eq hi hba hea hy hy'])
  · have h3 := hb.alive_eq hi ha hea hx hy'
    have h4 := hb.alive_eq hi hba hca hy hx'
    omega

/-! Data of the examples: vectors with different distances, a must-link and a cannot-link, in two orders. -/

def orderOps : List (Op Nat) := [.addConstraint 1 5 "MUST_LINK" 1, .addConstraint 2 5 "CANNOT_LINK" 1]
def orderDemo : Manager Nat := runOps (Manager.init [1, 2, 3, 4, 5]) orderOps
def orderDemo' : Manager Nat := runOps (Manager.init [4, 2, 5, 1, 3]) orderOps.reverse
def orderVectors : Dict Nat Int := [(1, 1), (2, 2), (3, 4), (4, 8), (5, 16)]

theorem orderDemo_ids : ∀ x, x ∈ orderDemo'.managed ↔ x ∈ orderDemo.managed := by
  have h : orderDemo'.managed.Perm orderDemo.managed := by decide +kernel
  exact fun x => h.mem_iff

/-- Added constraints outside the managed IDs are the same error. -/
theorem sameAdded_of_managed {m m' : Manager α} (hmem : ∀ x, x ∈ m'.managed ↔ x ∈ m.managed)
    (h : ∀ x ∈ m.managed, ∀ y ∈ m.managed, m'.getAdded x y = m.getAdded x y) (x y : α) : m'.getAdded x y = m.getAdded x y := by
  by_cases hx : x ∈ m.managed
  · by_cases hy : y ∈ m.managed
    · exact h x hx y hy
    · have hx' := (hmem x).2 hx
      have hy' : y ∉ m'.managed := fun h => hy ((hmem y).1 h)
      unfold Manager.managed at hx hy hx' hy'
      unfold Manager.getAdded
      simp only [hx, hy, hx', hy', not_true_eq_false, not_false_eq_true, if_true, if_false]; rfl
  · have hx' : x ∉ m'.managed := fun h => hx ((hmem x).1 h)
    unfold Manager.managed at hx hx'
    unfold Manager.getAdded
    simp only [hx, hx', not_false_eq_true, if_true]; rfl

theorem orderDemo_added (x y : Nat) : orderDemo.getAdded x y = orderDemo'.getAdded x y :=
  sameAdded_of_managed (fun x => (orderDemo_ids x).symm) (by decide +kernel) x y

theorem orderDemo_same : SameUpToOrder orderDemo orderDemo' :=
  ⟨orderDemo_ids, fun x y => ((C19_order_independence (m₁ := orderDemo) (m₂ := orderDemo') ⟨_, _, rfl⟩ ⟨_, _, rfl⟩
    (fun x => (orderDemo_ids x).symm) (fun x y _ => orderDemo_added x y)).1 x y).symm⟩

theorem orderVectors_distinct : DistinctDistances hDemoEnv.metric orderVectors orderDemo.managed := by
  have h : ∀ x ∈ orderDemo.managed, ∀ y ∈ orderDemo.managed, ∀ x' ∈ orderDemo.managed, ∀ y' ∈ orderDemo.managed, x ≠ y → x' ≠ y' →
      (((dget? orderVectors x).bind fun v => (dget? orderVectors y).map fun w => hDemoEnv.metric v w) =
        ((dget? orderVectors x').bind fun v => (dget? orderVectors y').map fun w => hDemoEnv.metric v w)) →
      (x = x' ∧ y = y') ∨ (x = y' ∧ y = x') := by decide +kernel
  intro x hx y hy x' hx' y' hy' n1 n2 v w v' w' e1 e2 e3 e4 e
  exact h x hx y hy x' hx' y' hy' n1 n2 (by rw [e1, e2, e3, e4]; exact congrArg some e)

/-- The two orders give the same labels; the numbers of the leaves are not the same. -/
example : Reachable orderDemo ∧ Reachable orderDemo' ∧ SameUpToOrder orderDemo orderDemo' ∧
    (∀ v w, hDemoEnv.metric w v = hDemoEnv.metric v w) ∧ DistinctDistances hDemoEnv.metric orderVectors orderDemo.managed ∧
    (hDemoObject.cluster hDemoEnv orderDemo (some orderVectors) (some 3)).2 = .ok [(1, 0), (2, 1), (3, 1), (4, 2), (5, 0)] ∧
    (hDemoObject.cluster hDemoEnv orderDemo' (some orderVectors) (some 3)).2 = .ok [(1, 0), (2, 1), (3, 1), (4, 2), (5, 0)] ∧
    membersOf (hDemoObject.cluster hDemoEnv orderDemo (some orderVectors) (some 3)).1.storage 0 = [1, 5] ∧
    membersOf (hDemoObject.cluster hDemoEnv orderDemo' (some orderVectors) (some 3)).1.storage 0 = [4] :=
  ⟨⟨_, _, rfl⟩, ⟨_, _, rfl⟩, orderDemo_same, fun v w => by show (w - v).natAbs = (v - w).natAbs; omega, orderVectors_distinct,
    by decide +kernel, by decide +kernel, by decide +kernel, by decide +kernel⟩

/-! ### Sampling -/

/-- Sampling the closest or farthest pairs, when no two candidates have the same distance, does not depend on the order of the
IDs. -/
theorem C93_sampling {m m' : Manager α} (hm : Reachable m) (hm' : Reachable m') (hs : SameUpToOrder m m')
    (hadd : ∀ x y, m'.getAdded x y = m.getAdded x y) {cfg : Sampler} (hd : cfg.distance ≠ none) {clustering : Option (Dict α Int)}
    {vectors : Option (Dict α V)} (hin : InputsGiven cfg m clustering vectors) {metric : V → V → δ}
    (hdist : ∀ p q, Eligible cfg m clustering p → Eligible cfg m clustering q → ∀ d, DistanceIs vectors metric p d →
      DistanceIs vectors metric q d → p = q) (nb : Option Int) (pick pick' : List (α × α) → Nat → List (α × α)) :
    cfg.sample m' nb clustering vectors metric pick' = cfg.sample m nb clustering vectors metric pick := by
  have hpick : ∀ (m : Manager α) (pick pick' : List (α × α) → Nat → List (α × α)),
      cfg.sample m nb clustering vectors metric pick' = cfg.sample m nb clustering vectors metric pick := by
    intro m pick pick'
    unfold Sampler.sample Sampler.select
    cases hc : cfg.distance with
    | none => exact absurd hc hd
    | some d => rfl
  have htake : RandomSample (fun (l : List (α × α)) k => l.take k) := fun l k hk =>
    ⟨by rw [List.length_take]; omega, (List.take_sublist k l).subperm⟩
  rw [hpick m' (fun l k => l.take k) pick', hpick m (fun l k => l.take k) pick]
  have helig : ∀ p, Eligible cfg m' clustering p ↔ Eligible cfg m clustering p := fun p =>
    ⟨fun h => ⟨(hs.managed _).1 h.left, (hs.managed _).1 h.right, h.ordered, h.same, h.different, fun e => hadd p.1 p.2 ▸ h.notAdded e,
      fun e => hs.inferred p.1 p.2 ▸ h.notInferred e⟩,
     fun h => ⟨(hs.managed _).2 h.left, (hs.managed _).2 h.right, h.ordered, h.same, h.different, fun e => (hadd p.1 p.2).symm ▸ h.notAdded e,
      fun e => (hs.inferred p.1 p.2).symm ▸ h.notInferred e⟩⟩
  have hin' : InputsGiven cfg m' clustering vectors := by
    refine ⟨fun hc => ?_, fun hc => ?_⟩
    · obtain ⟨d, h1, h2⟩ := hin.labels hc
      exact ⟨d, h1, fun x hx => h2 x ((hs.managed x).1 hx)⟩
    · obtain ⟨h0, d, h1, h2⟩ := hin.vectors hc
      obtain ⟨x, hx⟩ := List.exists_mem_of_ne_nil _ h0
      exact ⟨List.ne_nil_of_mem ((hs.managed x).2 hx), d, h1, fun x hx => h2 x ((hs.managed x).1 hx)⟩
  cases nb with
  | none => rfl
  | some n =>
    by_cases hn : n < 0
    · unfold Sampler.sample
      simp only [if_pos hn]
    · obtain ⟨k, rfl⟩ : ∃ k : Nat, n = k := ⟨n.toNat, by omega⟩
      obtain ⟨r, hr⟩ := C25_sample_succeeds hm k hin metric fun l k => l.take k
      obtain ⟨r', hr'⟩ := C25_sample_succeeds hm' k hin' metric fun l k => l.take k
      obtain ⟨n1, h1⟩ := C24_samples_well_formed hm htake hr
      obtain ⟨n2, h2⟩ := C24_samples_well_formed hm' htake hr'
      have hlen : r'.length = r.length := by
        obtain ⟨L, hL⟩ := possiblePairs_total hm.inv hin
        obtain ⟨l1, l2, -⟩ := possiblePairs_ok hm.inv (fun hc => by
          obtain ⟨d, e, -⟩ := hin.labels (fun h0 => by rw [h0] at hc; cases hc)
          rw [e]; rfl) hL
        rw [C25_sample_size hm htake hr l1 l2, C25_sample_size hm' htake hr' l1 (fun p => (l2 p).trans (helig p).symm)]
      have hdis : ∀ p, Eligible cfg m clustering p → ∃ d, DistanceIs vectors metric p d := fun p hp =>
        C26_every_eligible_pair_has_a_distance hin hd metric hp
      rw [hr, hr']
      congr 1
      -- a sorted list of the best candidates is unique
      have key : ∀ (R : δ → δ → Prop), (∀ a b, R a b → R b a → a = b) →
          (r.Pairwise (fun p q => ∀ d e, DistanceIs vectors metric p d → DistanceIs vectors metric q e → R d e) ∧
            ∀ p ∈ r, ∀ q, Eligible cfg m clustering q → q ∉ r → ∀ d e, DistanceIs vectors metric p d → DistanceIs vectors metric q e → R d e) →
          (r'.Pairwise (fun p q => ∀ d e, DistanceIs vectors metric p d → DistanceIs vectors metric q e → R d e) ∧
            ∀ p ∈ r', ∀ q, Eligible cfg m' clustering q → q ∉ r' → ∀ d e, DistanceIs vectors metric p d → DistanceIs vectors metric q e → R d e) →
          r' = r := by
        rintro R hR ⟨s1, s2⟩ ⟨s3, s4⟩
        have hsub : ∀ p ∈ r', p ∈ r := by
          intro p hp
          by_contra hpr
          obtain ⟨q, hq, hq'⟩ : ∃ q ∈ r, q ∉ r' := by
            by_contra hno
            push Not at hno
            have hsp : (p :: r).Subperm r' := by
              refine List.subperm_of_subset (List.nodup_cons.2 ⟨hpr, n1⟩) fun q hq => ?_
              rcases List.mem_cons.1 hq with rfl | hq
              · exact hp
              · exact hno q hq
            have := hsp.length_le
            rw [List.length_cons] at this
            omega
          obtain ⟨d, hd1⟩ := hdis p ((helig p).1 (h2 p hp))
          obtain ⟨e, he1⟩ := hdis q (h1 q hq)
          have g1 := s2 q hq p ((helig p).1 (h2 p hp)) hpr e d he1 hd1
          have g2 := s4 p hp q ((helig q).2 (h1 q hq)) hq' d e hd1 he1
          have := hR _ _ g1 g2
          subst this
          exact hpr (hdist q p (h1 q hq) ((helig p).1 (h2 p hp)) e he1 hd1 ▸ hq)
        have hperm : r'.Perm r := (List.subperm_of_subset n2 hsub).perm_of_length_le (le_of_eq hlen.symm)
        refine hperm.eq_of_pairwise (fun p q hp hq g1 g2 => ?_) s3 s1
        obtain ⟨d, hd1⟩ := hdis p ((helig p).1 (h2 p hp))
        obtain ⟨e, he1⟩ := hdis q (h1 q hq)
        have := hR _ _ (g1 d e hd1 he1) (g2 e d he1 hd1)
        subst this
        exact hdist p q ((helig p).1 (h2 p hp)) (h1 q hq) d hd1 he1
      cases hc : cfg.distance with
      | none => exact absurd hc hd
      | some c =>
        cases c with
        | closestNeighbors =>
          obtain ⟨a1, a2, -⟩ := C26_closest_optimal hm hr hc
          obtain ⟨b1, b2, -⟩ := C26_closest_optimal hm' hr' hc
          exact key (fun a b => a ≤ b) (fun a b => le_antisymm) ⟨a1, a2⟩ ⟨b1, b2⟩
        | farthestNeighbors =>
          obtain ⟨a1, a2, -⟩ := C27_farthest_optimal hm hr hc
          obtain ⟨b1, b2, -⟩ := C27_farthest_optimal hm' hr' hc
          exact key (fun a b => b ≤ a) (fun a b h1 h2 => le_antisymm h2 h1) ⟨a1, a2⟩ ⟨b1, b2⟩

example : (⟨none, some .closestNeighbors, true, true⟩ : Sampler).sample orderDemo (some 3) none (some orderVectors) hDemoEnv.metric
      (fun l k => l.take k) = .ok [(2, 3), (1, 3), (3, 4)] ∧
    (⟨none, some .closestNeighbors, true, true⟩ : Sampler).sample orderDemo' (some 3) none (some orderVectors) hDemoEnv.metric
      (fun l k => l.take k) = .ok [(2, 3), (1, 3), (3, 4)] ∧
    InputsGiven (⟨none, some .closestNeighbors, true, true⟩ : Sampler) orderDemo none (some orderVectors) := by
  refine ⟨by decide +kernel, by decide +kernel, fun h => absurd rfl h, fun _ => ⟨by decide +kernel, orderVectors, rfl, ?_⟩⟩
  simp only [exists_dget?_iff]; decide +kernel

/-! ### Where the order matters -/

/-- With equal distances the sample and the hierarchical clustering depend on the order of the IDs. -/
theorem C93_ties : ∃ (m m' : Manager Nat) (vectors : Dict Nat Int), Reachable m ∧ Reachable m' ∧ (∀ x, x ∈ m'.managed ↔ x ∈ m.managed) ∧
    (∀ x y, m'.getAdded x y = m.getAdded x y) ∧
    (∃ p p', p ≠ p' ∧ (⟨none, some .closestNeighbors, true, true⟩ : Sampler).sample m (some 1) none (some vectors) hDemoEnv.metric
        (fun l k => l.take k) = .ok [p] ∧
      (⟨none, some .closestNeighbors, true, true⟩ : Sampler).sample m' (some 1) none (some vectors) hDemoEnv.metric
        (fun l k => l.take k) = .ok [p']) ∧
    ∃ r r', (hDemoObject.cluster hDemoEnv m (some vectors) (some 2)).2 = .ok r ∧
      (hDemoObject.cluster hDemoEnv m' (some vectors) (some 2)).2 = .ok r' ∧ ¬ SamePartition m.managed r r' := by
  have hp : (Manager.init [3, 2, 1] : Manager Nat).managed.Perm (Manager.init [1, 2, 3] : Manager Nat).managed := by decide +kernel
  refine ⟨Manager.init [1, 2, 3], Manager.init [3, 2, 1], [(1, 0), (2, 1), (3, 2)], ⟨_, [], rfl⟩, ⟨_, [], rfl⟩, fun x => hp.mem_iff,
    sameAdded_of_managed (fun x => hp.mem_iff) (by decide +kernel), ⟨(1, 2), (2, 3), by decide, by decide +kernel, by decide +kernel⟩,
    [(1, 0), (2, 0), (3, 1)], [(1, 0), (2, 1), (3, 1)], by decide +kernel, by decide +kernel, fun h => ?_⟩
  exact absurd h (by unfold SamePartition; decide +kernel)

/-- C-DBScan depends on the order of the IDs even when it has no constraint and all distances that matter are on the same side of
`eps`: the neighbourhood seen first takes the points it reaches. -/
theorem C93_dbscan_order : ∃ (m m' : Manager Nat) (vectors : Dict Nat Int), Reachable m ∧ Reachable m' ∧
    (∀ x, x ∈ m'.managed ↔ x ∈ m.managed) ∧ (∀ x y, m'.getAdded x y = m.getAdded x y) ∧ DbAssumptions dbDemoEnv (dbNatParams 1 3) ∧
    ∃ r r', (dbCluster dbDemoEnv (dbNatParams 1 3) m (some vectors) none).map DbObject.predicted = .ok (some r) ∧
      (dbCluster dbDemoEnv (dbNatParams 1 3) m' (some vectors) none).map DbObject.predicted = .ok (some r') ∧
      ¬ SamePartition m.managed r r' := by
  have hp : (Manager.init [4, 2, 3, 1, 5, 6] : Manager Nat).managed.Perm (Manager.init [1, 2, 3, 4, 5, 6] : Manager Nat).managed := by
    decide +kernel
  refine ⟨Manager.init [1, 2, 3, 4, 5, 6], Manager.init [4, 2, 3, 1, 5, 6], [(1, 0), (2, 1), (3, 2), (4, 3), (5, 4), (6, 5)], ⟨_, [], rfl⟩,
    ⟨_, [], rfl⟩, fun x => hp.mem_iff, sameAdded_of_managed (fun x => hp.mem_iff) (by decide +kernel), dbDemo_ok 1 3,
    [(1, 0), (2, 0), (3, 0), (4, 0), (5, 0), (6, 0)], [(1, 0), (2, 0), (3, 1), (4, 1), (5, 1), (6, 1)], by decide +kernel,
    by decide +kernel, fun h => absurd h (by unfold SamePartition; decide +kernel)⟩

/-- COP-KMeans that starts from the same centroids depends on the order of the IDs: of two IDs that cannot be linked, the one treated
first takes the closest centroid. -/
theorem C93_kmeans_order : ∃ (env : KMeansEnv Nat Int Nat) (m m' : Manager Nat) (vectors : Dict Nat Int), env.Ok ∧ Reachable m ∧ Reachable m' ∧
    (∀ x, x ∈ m'.managed ↔ x ∈ m.managed) ∧ (∀ x y, m'.getAdded x y = m.getAdded x y) ∧ env.shuffle m.managed = env.shuffle m'.managed ∧
    ∃ r r', (kmCluster env 150 m (some vectors) (some 2)).map Prod.fst = .ok r ∧
      (kmCluster env 150 m' (some vectors) (some 2)).map Prod.fst = .ok r' ∧ ¬ SamePartition m.managed r r' := by
  let m : Manager Nat := runOps (Manager.init [1, 2, 3, 4]) [.addConstraint 3 4 "CANNOT_LINK" 1]
  let m' : Manager Nat := runOps (Manager.init [1, 2, 4, 3]) [.addConstraint 3 4 "CANNOT_LINK" 1]
  have hp : m'.managed.Perm m.managed := by decide +kernel
  refine ⟨{ kmDemoEnv with shuffle := fun l => l.insertionSort (· ≤ ·) }, m, m', [(1, 0), (2, 100), (3, 1), (4, 2)],
    ⟨kmDemoEnv_ok.enum, fun l => List.perm_insertionSort _ l⟩, ⟨_, _, rfl⟩, ⟨_, _, rfl⟩, fun x => hp.mem_iff,
    sameAdded_of_managed (fun x => hp.mem_iff) (by decide +kernel), by decide +kernel,
    [(1, 0), (2, 1), (3, 1), (4, 0)], [(1, 0), (2, 1), (3, 0), (4, 1)], by decide +kernel, by decide +kernel,
    fun h => absurd h (by unfold SamePartition; decide +kernel)⟩

end Verif
