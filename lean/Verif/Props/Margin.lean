import Verif.Proofs.Margin
import Verif.Props.Order
import Verif.Props.Geometry
import Verif.Props.Sampling
import Verif.Props.HierHeights
import Verif.Props.FloatDist
import Mathlib.Algebra.Order.BigOperators.Group.List
import Mathlib.Tactic.Linarith

/-
C111: small errors of the distances.

The package computes its distances with rounding errors. These errors do not change a tree when each merge wins by a margin, do not
change C-DBScan when no distance is close to the radius, and do not change the sampled pairs when no two distances are close. Without
any margin, every decision is still within twice the error of the best one.
-/

set_option linter.unusedSectionVars false

namespace Verif

variable {α V V' δ δ' : Type} [LinearOrder α] [LinearOrder δ] [LinearOrder δ'] {m : Manager α}

/-! ### Hierarchical clustering -/

/-- If each merge of a tree is strictly the best one for other distances, then the other distances give the same tree, hence the same
labels. -/
theorem C111_same_tree {env : HierEnv V δ} {env' : HierEnv V' δ'} (hm : Reachable m) {o o₁ : HObject α V} {o' : HObject α V'}
    (ho : SameTree o o') {vs : Dict α V} {vs' : Dict α V'} {nb : Option Int} {r : Dict α Int}
    (hr : o.cluster env m (some vs) nb = (o₁, .ok r)) (hv' : HasVectors m vs') (hbest : BestMerges env' o.linkage m vs' o₁.storage) :
    (o'.cluster env' m (some vs') nb).2 = .ok r ∧ SameTree o₁ (o'.cluster env' m (some vs') nb).1 := by
  obtain ⟨vs0, n, h0, rfl, hn, hv, hne⟩ := hier_args hr
  cases h0
  obtain ⟨table, hT⟩ := distanceTable_total (metric := env.metric) hne hv
  obtain ⟨table', hT'⟩ := distanceTable_total (metric := env'.metric) hne hv'
  obtain ⟨root, st, e1, hb⟩ := hBuild_ok o.linkage hm.inv (pairTable_of_ok hT) hv hne
  obtain ⟨root', st', e1', hb'⟩ := hBuild_ok o.linkage hm.inv (pairTable_of_ok hT') hv' hne
  have hst : o₁.storage = st := by
    unfold HObject.cluster at hr
    simp only [if_neg (show ¬ n < 2 by omega), hT, e1] at hr
    exact (congrArg (fun q : HObject α V × Except PyErr (Dict α Int) => q.1.storage) hr).symm
  rw [hst] at hbest
  obtain ⟨h1, h2, h3⟩ := agree_all hm.inv hb hb' hbest fun i hi => by
    have g1 := hBuild_leaves hm.inv hv e1 hi
    have g2 := hBuild_leaves hm.inv hv' e1' hi
    rw [g1] at g2
    exact (Option.some.inj g2).symm
  have key := cluster_bare (env := env) (env' := env') ho (vs := vs) (vs' := vs') (some n) (.inr ⟨table, table', hT, hT', by
    rw [e1, e1']
    show Except.ok _ = Except.ok _
    unfold bareTree
    rw [h2, bare_of_agree hb.tree.keys hb'.tree.keys h1 h3]⟩)
  rw [hr] at key
  exact key

section Group
variable [AddCommGroup δ] [IsOrderedAddMonoid δ]

/-- Distances that are off by at most `ε` give the same tree and the same labels, when each merge of the exact tree wins by more than
`2 ε`. -/
theorem C111_hierarchical {env : HierEnv V δ} {env' : HierEnv V' δ} (hm : Reachable m) {o o₁ : HObject α V} {o' : HObject α V'}
    (ho : SameTree o o') {vs : Dict α V} {vs' : Dict α V'} {nb : Option Int} {r : Dict α Int}
    (hr : o.cluster env m (some vs) nb = (o₁, .ok r)) (hv' : HasVectors m vs') {ε : δ}
    (hclose : LinkageWithin ε o.linkage m env vs env' vs') (hmargin : MergeMargin (ε + ε) env o.linkage m vs o₁.storage) :
    (o'.cluster env' m (some vs') nb).2 = .ok r ∧ SameTree o₁ (o'.cluster env' m (some vs') nb).1 := by
  refine C111_same_tree hm ho hr hv' ?_
  obtain ⟨vs0, n, root, st, l, h0, rfl, hn, hne, rfl, hb, -, -⟩ := hier_ok hm hr
  cases h0
  obtain ⟨vs0, n0, h0, -, -, hv, -⟩ := hier_args hr
  cases h0
  intro i nd a b hnd hc c e hca hea hce hpq hop d d' hd hd'
  left
  have hi : i ≤ st.length := le_of_lt (hb.tree.keys.lt hnd)
  have haa := hb.child_alive hnd (c := a) (by rw [hc]; simp)
  have hab := hb.child_alive hnd (c := b) (by rw [hc]; simp)
  have hlt : a < b := by have := hb.ordered i nd hnd; rw [hc] at this; simpa using this
  have ok := fun {p q : Nat} (hp : Alive st i p) (hq : Alive st i q) (hpq : p < q) => hb.alive_pair hi hp hq hpq
  have ex : ∀ {p q : Nat}, Alive st i p → Alive st i q → p < q → ∃ t, LinkageIs env o.linkage vs (membersOf st p) (membersOf st q) t := by
    intro p q hp hq hpq
    exact linkage_exists hv (ok hp hq hpq).2.1 (ok hp hq hpq).2.2.1 fun x hx => (ok hp hq hpq).2.2.2 x hx
  obtain ⟨t, ht⟩ := ex haa hab hlt
  obtain ⟨t', ht'⟩ := ex hca hea hce
  have h1 := abs_le.1 (hclose _ _ (ok haa hab hlt).2.1 (ok haa hab hlt).2.2.1 (ok haa hab hlt).1 (ok haa hab hlt).2.2.2 t d ht hd)
  have h2 := abs_le.1 (hclose _ _ (ok hca hea hce).2.1 (ok hca hea hce).2.2.1 (ok hca hea hce).1 (ok hca hea hce).2.2.2 t' d' ht' hd')
  have h3 := hmargin i nd a b hnd hc c e hca hea hce hpq hop t t' ht ht'
  have h4 : d ≤ t + ε := by have := h1.2; rw [sub_le_iff_le_add] at this; rwa [add_comm] at this
  have h5 : t' ≤ d' + ε := by
    have := h2.1
    rw [neg_le_sub_iff_le_add] at this
    exact this
  have h6 : t + ε + ε < d' + ε := by rw [add_assoc]; exact lt_of_lt_of_le h3 h5
  exact lt_of_le_of_lt h4 (lt_of_add_lt_add_right h6)

/-- Without any margin: each merge of two clusters, chosen with distances that are off by at most `ε`, is at most `2 ε` farther apart than
the closest pair that existed. -/
theorem C111_near_best {env : HierEnv V δ} {env' : HierEnv V' δ} (hm : Reachable m) {o' o₁ : HObject α V'} {vs : Dict α V}
    {vs' : Dict α V'} {nb : Option Int} {r : Dict α Int} (hr : o'.cluster env' m (some vs') nb = (o₁, .ok r)) {ε : δ}
    (hclose : LinkageWithin ε o'.linkage m env vs env' vs') {i a b : Nat} {n : HCluster α V'} (hn : dget? o₁.storage i = some n)
    (hc : n.children = [a, b]) {c e : Nat} (hca : Alive o₁.storage i c) (hea : Alive o₁.storage i e) (hce : c < e)
    (hop : ¬ Opposed m (membersOf o₁.storage c) (membersOf o₁.storage e)) {d d' : δ}
    (hd : LinkageIs env o'.linkage vs (membersOf o₁.storage a) (membersOf o₁.storage b) d)
    (hd' : LinkageIs env o'.linkage vs (membersOf o₁.storage c) (membersOf o₁.storage e) d') : d ≤ d' + (ε + ε) := by
  obtain ⟨vs0, n0, root, st, l, h0, rfl, hn0, hne, rfl, hb, -, -⟩ := hier_ok hm hr
  cases h0
  dsimp only at hn hca hea hop hd hd' ⊢
  have hi : i ≤ st.length := le_of_lt (hb.tree.keys.lt hn)
  have haa := hb.child_alive hn (c := a) (by rw [hc]; simp)
  have hab := hb.child_alive hn (c := b) (by rw [hc]; simp)
  have hlt : a < b := by have := hb.ordered i n hn; rw [hc] at this; simpa using this
  rcases hb.kind i n hn (by rw [hc]; simp) with h | ⟨-, h⟩
  · obtain ⟨a', b', h1, -, -, -, -, t, h2, h3⟩ := h
    rw [hc] at h1
    cases h1
    obtain ⟨t', h4, h5⟩ := h3 c e hca hea hce hop
    have p1 := hb.alive_pair hi haa hab hlt
    have p2 := hb.alive_pair hi hca hea hce
    have g1 := abs_le.1 (hclose _ _ p1.2.1 p1.2.2.1 p1.1 p1.2.2.2 d t hd h2)
    have g2 := abs_le.1 (hclose _ _ p2.2.1 p2.2.2.1 p2.1 p2.2.2.2 d' t' hd' h4)
    have g3 : t ≤ t' := h5.elim le_of_lt fun h => h.1.le
    have g4 : d ≤ t + ε := by have := g1.1; rwa [neg_le_sub_iff_le_add] at this
    have g5 : t' ≤ d' + ε := by have := g2.2; rw [sub_le_iff_le_add] at this; rwa [add_comm] at this
    calc d ≤ t + ε := g4
      _ ≤ t' + ε := by gcongr
      _ ≤ d' + ε + ε := by gcongr
      _ = d' + (ε + ε) := add_assoc _ _ _
  · exact absurd (h.opposed hm.inv hca hea (by omega)) hop

/-- With linkage "single" or "complete", the linkage distances are as close as the distances of the IDs. -/
theorem C111_linkage {env : HierEnv V δ} {env' : HierEnv V' δ} {link : Linkage} (hl : link = .single ∨ link = .complete) {vs : Dict α V}
    {vs' : Dict α V'} {ε : δ} (hv : HasVectors m vs) (hv' : HasVectors m vs') (h : DistancesWithin ε m env.metric vs env'.metric vs') :
    LinkageWithin ε link m env vs env' vs' := by
  intro xs ys hx hy hnd hman d d' hd hd'
  have hcl : ∀ x ∈ xs, ∀ y ∈ ys, ∃ v w v' w', dget? vs x = some v ∧ dget? vs y = some w ∧ dget? vs' x = some v' ∧ dget? vs' y = some w' ∧
      env'.metric v' w' ≤ env.metric v w + ε ∧ env.metric v w ≤ env'.metric v' w' + ε := by
    intro x hx y hy
    have mx := hman x (List.mem_append_left _ hx)
    have my := hman y (List.mem_append_right _ hy)
    obtain ⟨v, e1⟩ := hv x mx
    obtain ⟨w, e2⟩ := hv y my
    obtain ⟨v', e3⟩ := hv' x mx
    obtain ⟨w', e4⟩ := hv' y my
    have := abs_le.1 (h x mx y my (env.metric v w) (env'.metric v' w') (by unfold distanceOf; rw [e1, e2]) (by unfold distanceOf; rw [e3, e4]))
    refine ⟨v, w, v', w', e1, e2, e3, e4, ?_, ?_⟩
    · have := this.2; rw [sub_le_iff_le_add] at this; rwa [add_comm] at this
    · have := this.1; rwa [neg_le_sub_iff_le_add] at this
  have key : d' ≤ d + ε ∧ d ≤ d' + ε := by
    rcases hl with rfl | rfl
    · obtain ⟨⟨x, hx, y, hy, v, w, e1, e2, rfl⟩, h1⟩ := hd
      obtain ⟨⟨x', hx', y', hy', v', w', e1', e2', rfl⟩, h1'⟩ := hd'
      obtain ⟨a, b, a', b', f1, f2, f3, f4, f5, f6⟩ := hcl x hx y hy
      obtain ⟨p, q, p', q', g1, g2, g3, g4, g5, g6⟩ := hcl x' hx' y' hy'
      rw [e1] at f1; rw [e2] at f2; rw [e1'] at g3; rw [e2'] at g4
      cases f1; cases f2; cases g3; cases g4
      exact ⟨(h1' x hx y hy _ _ f3 f4).trans f5, (h1 x' hx' y' hy' _ _ g1 g2).trans g6⟩
    · obtain ⟨⟨x, hx, y, hy, v, w, e1, e2, rfl⟩, h1⟩ := hd
      obtain ⟨⟨x', hx', y', hy', v', w', e1', e2', rfl⟩, h1'⟩ := hd'
      obtain ⟨a, b, a', b', f1, f2, f3, f4, f5, f6⟩ := hcl x hx y hy
      obtain ⟨p, q, p', q', g1, g2, g3, g4, g5, g6⟩ := hcl x' hx' y' hy'
      rw [e1] at f1; rw [e2] at f2; rw [e1'] at g3; rw [e2'] at g4
      cases f1; cases f2; cases g3; cases g4
      refine ⟨g5.trans ?_, f6.trans ?_⟩
      · gcongr; exact h1 x' hx' y' hy' _ _ g1 g2
      · gcongr; exact h1' x hx y hy _ _ f3 f4
  rw [abs_le]
  constructor
  · rw [neg_le_sub_iff_le_add]; exact key.2
  · rw [sub_le_iff_le_add, add_comm]; exact key.1

/-- With linkage "single" or "complete", distances of different pairs that differ by more than `μ` make each merge win by more than `μ`. -/
theorem C111_gap {env : HierEnv V δ} {o o₁ : HObject α V} (hl : o.linkage = .single ∨ o.linkage = .complete) (hm : Reachable m)
    {vs : Dict α V} {nb : Option Int} {r : Dict α Int} (hr : o.cluster env m (some vs) nb = (o₁, .ok r)) {μ : δ}
    (hgap : GapDistances μ env.metric vs m.managed) : MergeMargin μ env o.linkage m vs o₁.storage := by
  obtain ⟨vs0, n0, root, st, l, h0, rfl, hn0, hne, rfl, hb, -, -⟩ := hier_ok hm hr
  cases h0
  intro i n a b hn hc c e hca hea hce hpq hop d d' hd hd'
  dsimp only at *
  have hi : i ≤ st.length := le_of_lt (hb.tree.keys.lt hn)
  have haa := hb.child_alive hn (c := a) (by rw [hc]; simp)
  have hab := hb.child_alive hn (c := b) (by rw [hc]; simp)
  have hlt : a < b := by have := hb.ordered i n hn; rw [hc] at this; simpa using this
  have hle : d ≤ d' := by
    rcases hb.kind i n hn (by rw [hc]; simp) with h | ⟨-, h⟩
    · obtain ⟨a', b', h1, -, -, -, -, t, h2, h3⟩ := h
      rw [hc] at h1
      cases h1
      obtain ⟨t', h4, h5⟩ := h3 c e hca hea hce hop
      rw [hd.unique h2, hd'.unique h4]
      exact h5.elim le_of_lt fun h => h.1.le
    · exact absurd (h.opposed hm.inv hca hea (by omega)) hop
  have hatt : ∀ {xs ys : List α} {d : δ}, LinkageIs env o.linkage vs xs ys d →
      ∃ x ∈ xs, ∃ y ∈ ys, ∃ v w, dget? vs x = some v ∧ dget? vs y = some w ∧ d = env.metric v w := by
    intro xs ys d h
    rcases hl with h' | h' <;> rw [h'] at h <;> exact h.1
  obtain ⟨x, hx, y, hy, v, w, e1, e2, rfl⟩ := hatt hd
  obtain ⟨x', hx', y', hy', v', w', e1', e2', rfl⟩ := hatt hd'
  have hxy : x ≠ y := by
    rintro rfl
    have := hb.alive_eq hi haa hab hx hy
    omega
  have hxy' : x' ≠ y' := by
    rintro rfl
    have := hb.alive_eq hi hca hea hx' hy'
    omega
  have := hgap x (hb.tree.sub a x hx) y (hb.tree.sub b y hy) x' (hb.tree.sub c x' hx') y' (hb.tree.sub e y' hy') hxy hxy' (by
    rintro (⟨rfl, rfl⟩ | ⟨rfl, rfl⟩)
    · exact hpq (by rw [hb.alive_eq hi haa hca hx hx', hb.alive_eq hi hab hea hy hy'])
    · have h1 := hb.alive_eq hi haa hea hx hy'
      have h2 := hb.alive_eq hi hab hca hy hx'
      omega) _ _ (by unfold distanceOf; rw [e1, e2]) (by unfold distanceOf; rw [e1', e2'])
  rw [abs_of_nonneg (sub_nonneg.2 hle), lt_sub_iff_add_lt, add_comm] at this
  exact this

/-- C-DBScan: distances that are off by at most `ε` change nothing, when no distance is within `ε` of the radius. -/
theorem C111_dbscan {env : DbEnv α V δ} {env' : DbEnv α V' δ} {p p' : DbParams δ} {vs : Dict α V} {vs' : Dict α V'} {ε : δ}
    (hd : SameDomain m vs vs') (hw : DistancesWithin ε m env.metric vs env'.metric vs') (hmargin : RadiusMargin ε m env.metric vs p.eps)
    (heps : p'.eps = p.eps) (henum : env'.enum = env.enum) (hnone : env'.none = env.none) (henough : p'.enough = p.enough)
    (hs : p'.minSamples = p.minSamples) (nb : Option Int) :
    dbCluster env' p' m (some vs') nb = dbCluster env p m (some vs) nb := by
  refine C90_dbscan hd (fun x hx y hy a a' h1 h2 => ?_) henum hnone henough hs nb
  have h3 := abs_le.1 (hw x hx y hy a a' h1 h2)
  have h4 : a' ≤ a + ε := by have := h3.2; rw [sub_le_iff_le_add] at this; rwa [add_comm] at this
  have h5 : a ≤ a' + ε := by have := h3.1; rwa [neg_le_sub_iff_le_add] at this
  have hε : 0 ≤ ε := (abs_nonneg _).trans (hw x hx y hy a a' h1 h2)
  rw [heps]
  rcases hmargin x hx y hy a h1 with h | h
  · exact ⟨fun _ => (le_add_of_nonneg_right hε).trans h, fun _ => h4.trans h⟩
  · have h6 : p.eps < a' := lt_of_add_lt_add_right (lt_of_lt_of_le h h5)
    exact ⟨fun h' => absurd h' (not_le_of_gt h6), fun h' => absurd h' (not_le_of_gt (lt_of_le_of_lt (le_add_of_nonneg_right hε) h))⟩

/-! ### Sampling -/

/-- Without any margin: of the pairs returned as the closest with distances that are off by at most `ε`, none is more than `2 ε` farther
than a pair that is left out. -/
theorem C111_sampling_near {cfg : Sampler} (hm : Reachable m) {nb : Option Int} {clustering : Option (Dict α Int)} {vs : Dict α V}
    {vs' : Dict α V'} {metric : V → V → δ} {metric' : V' → V' → δ} {pick : List (α × α) → Nat → List (α × α)} {r : List (α × α)}
    (hr : cfg.sample m nb clustering (some vs') metric' pick = .ok r) {ε : δ} (hw : DistancesWithin ε m metric vs metric' vs')
    (hdom : SameDomain m vs vs') {p q : α × α} (hp : p ∈ r) (hq : Eligible cfg m clustering q) (hqr : q ∉ r) {d e : δ}
    (hd : distanceOf metric vs p.1 p.2 = some d) (he : distanceOf metric vs q.1 q.2 = some e) :
    (cfg.distance = some .closestNeighbors → d ≤ e + (ε + ε)) ∧ (cfg.distance = some .farthestNeighbors → e ≤ d + (ε + ε)) := by
  have ep : Eligible cfg m clustering p ∨ cfg.distance = none := by
    by_cases hc : cfg.distance = none
    · exact .inr hc
    · left
      obtain ⟨n, -, h0, h1⟩ := sample_ok hm.inv hr
      rcases Nat.eq_zero_or_pos n with rfl | hpos
      · rw [h0 rfl] at hp; cases hp
      · obtain ⟨L, l1, l2, -, -, l5⟩ := h1 hpos
        cases hd : cfg.distance with
        | none => exact absurd hd hc
        | some d =>
          obtain ⟨K, k1, -, k3⟩ := l5 d hd
          obtain ⟨-, -, -, s4, -⟩ := sorted_take (rev := decide (d = .farthestNeighbors)) (K := K) (n := n) (by rw [k1]; exact l1)
          rw [k1, ← k3] at s4
          exact (l2 p).1 (s4.subset hp)
  have key : ∀ {x y : α} {d : δ}, x ∈ m.managed → y ∈ m.managed → distanceOf metric vs x y = some d →
      ∃ d', DistanceIs (some vs') metric' (x, y) d' ∧ d' ≤ d + ε ∧ d ≤ d' + ε := by
    intro x y d hx hy h
    have h0 := h
    unfold distanceOf at h
    have gx := hdom x hx
    have gy := hdom y hy
    cases e1 : dget? vs x with
    | none => rw [e1] at h; simp at h
    | some v =>
      cases e2 : dget? vs y with
      | none => rw [e1, e2] at h; simp at h
      | some w =>
        rw [e1] at gx; rw [e2] at gy
        obtain ⟨v', e3⟩ := Option.isSome_iff_exists.1 (gx.trans rfl)
        obtain ⟨w', e4⟩ := Option.isSome_iff_exists.1 (gy.trans rfl)
        have := abs_le.1 (hw x hx y hy d (metric' v' w') h0 (by unfold distanceOf; rw [e3, e4]))
        refine ⟨_, ⟨vs', v', w', rfl, e3, e4, rfl⟩, ?_, ?_⟩
        · have := this.2; rw [sub_le_iff_le_add] at this; rwa [add_comm] at this
        · have := this.1; rwa [neg_le_sub_iff_le_add] at this
  obtain ⟨e', he1, he2, he3⟩ := key hq.left hq.right he
  constructor
  · intro hc
    rcases ep with ep | ep
    · obtain ⟨d', hd1, hd2, hd3⟩ := key ep.left ep.right hd
      have := (C26_closest_optimal hm hr hc).2.1 p hp q hq hqr d' e' hd1 he1
      calc d ≤ d' + ε := hd3
        _ ≤ e' + ε := by gcongr
        _ ≤ e + ε + ε := by gcongr
        _ = e + (ε + ε) := add_assoc _ _ _
    · rw [ep] at hc; cases hc
  · intro hc
    rcases ep with ep | ep
    · obtain ⟨d', hd1, hd2, hd3⟩ := key ep.left ep.right hd
      have := (C27_farthest_optimal hm hr hc).2.1 p hp q hq hqr d' e' hd1 he1
      calc e ≤ e' + ε := he3
        _ ≤ d' + ε := by gcongr
        _ ≤ d + ε + ε := by gcongr
        _ = d + (ε + ε) := add_assoc _ _ _
    · rw [ep] at hc; cases hc

/-- Distances that are off by at most `ε` give the same pairs in the same order, when the distances of different eligible pairs differ by
more than `2 ε`. -/
theorem C111_sampling (hm : Reachable m) {cfg : Sampler} {vs : Dict α V} {vs' : Dict α V'} {metric : V → V → δ} {metric' : V' → V' → δ}
    {ε : δ} (hdom : SameDomain m vs vs') (hw : DistancesWithin ε m metric vs metric' vs') {clustering : Option (Dict α Int)}
    (hgap : ∀ p q, Eligible cfg m clustering p → Eligible cfg m clustering q → p ≠ q → ∀ d e, distanceOf metric vs p.1 p.2 = some d →
      distanceOf metric vs q.1 q.2 = some e → ε + ε < |e - d|) (nb : Option Int) (pick : List (α × α) → Nat → List (α × α)) :
    cfg.sample m nb clustering (some vs') metric' pick = cfg.sample m nb clustering (some vs) metric pick := by
  unfold Sampler.sample
  cases nb with
  | none => rfl
  | some n =>
    simp only [Option.isNone_some, Option.getD_some, Bool.false_eq_true, and_false, if_false]
    split
    · rfl
    · split
      · rfl
      · split
        · rfl
        · rename_i hcl
          have hcl' : cfg.clusters.isSome = true → clustering.isSome = true := by
            intro h
            by_contra hn
            exact hcl ⟨h, by simpa using hn⟩
          unfold Sampler.select
          cases hL : cfg.possiblePairs m (clustering.getD []) with
          | error e => rfl
          | ok L =>
            obtain ⟨-, l2, -⟩ := possiblePairs_ok hm.inv hcl' hL
            cases hdd : cfg.distance with
            | none => rfl
            | some d =>
              show (distanceTable m vs' metric' >>= selectFrom d n.toNat L) = (distanceTable m vs metric >>= selectFrom d n.toNat L)
              rcases domain_cases (δ := δ) (δ' := δ) hdom with ⟨e, h1, h2⟩ | ⟨hne, val, val', hv, hv'⟩
              · rw [h1, h2]
              · rw [distanceTable_tableOf hv hne, distanceTable_tableOf hv' hne]
                show selectFrom d n.toNat L _ = selectFrom d n.toNat L _
                rw [selectFrom_tableOf fun p hp => ⟨((l2 p).1 hp).left, ((l2 p).1 hp).right⟩,
                  selectFrom_tableOf fun p hp => ⟨((l2 p).1 hp).left, ((l2 p).1 hp).right⟩]
                have dist : ∀ p ∈ L, distanceOf metric vs p.1 p.2 = some (metric (val p.1) (val p.2)) := fun p hp =>
                  distanceOf_val hv metric ((l2 p).1 hp).left ((l2 p).1 hp).right
                have dist' : ∀ p ∈ L, distanceOf metric' vs' p.1 p.2 = some (metric' (val' p.1) (val' p.2)) := fun p hp =>
                  distanceOf_val hv' metric' ((l2 p).1 hp).left ((l2 p).1 hp).right
                have hlt : ∀ p ∈ L, ∀ q ∈ L, metric (val p.1) (val p.2) < metric (val q.1) (val q.2) →
                    metric' (val' p.1) (val' p.2) < metric' (val' q.1) (val' q.2) := by
                  intro p hp q hq hlt
                  have h1 := abs_le.1 (hw p.1 ((l2 p).1 hp).left p.2 ((l2 p).1 hp).right _ _ (dist p hp) (dist' p hp))
                  have h2 := abs_le.1 (hw q.1 ((l2 q).1 hq).left q.2 ((l2 q).1 hq).right _ _ (dist q hq) (dist' q hq))
                  have h3 := hgap p q ((l2 p).1 hp) ((l2 q).1 hq) (by rintro rfl; exact lt_irrefl _ hlt) _ _ (dist p hp) (dist q hq)
                  rw [abs_of_pos (sub_pos.2 hlt), lt_sub_iff_add_lt] at h3
                  have h4 := h1.2
                  have h5 := h2.1
                  rw [sub_le_iff_le_add] at h4
                  rw [neg_le_sub_iff_le_add] at h5
                  have h6 : metric' (val' p.1) (val' p.2) + ε < metric' (val' q.1) (val' q.2) + ε :=
                    calc _ ≤ ε + metric (val p.1) (val p.2) + ε := by gcongr
                      _ = ε + ε + metric (val p.1) (val p.2) := by rw [add_right_comm]
                      _ < _ := h3
                      _ ≤ _ := h5
                  exact lt_of_add_lt_add_right h6
                refine congrArg (fun l => Except.ok (List.take n.toNat l)) (sortedBy_congr (D := fun p : α × α => metric (val p.1) (val p.2))
                  (D' := fun p : α × α => metric' (val' p.1) (val' p.2)) _ fun p hp q hq => ?_)
                constructor
                · intro h
                  by_contra hn
                  exact absurd h (not_le_of_gt (hlt q hq p hp (not_le.1 hn)))
                · intro h
                  rcases lt_or_eq_of_le h with h | h
                  · exact (hlt p hp q hq h).le
                  · by_cases hpq : p = q
                    · rw [hpq]
                    · exfalso
                      have h3 := hgap p q ((l2 p).1 hp) ((l2 q).1 hq) hpq _ _ (dist p hp) (dist q hq)
                      rw [h, sub_self, abs_zero] at h3
                      have hε : 0 ≤ ε := (abs_nonneg _).trans
                        (hw p.1 ((l2 p).1 hp).left p.2 ((l2 p).1 hp).right _ _ (dist p hp) (dist' p hp))
                      exact absurd h3 (not_lt_of_ge (add_nonneg hε hε))

end Group

/-! ### Linkage "ward" in exact arithmetic -/

/-- With linkage "ward" the sum has one term for each pair of IDs of the union, and is divided by the product of the sizes: errors `ε` of
the distances become at most `ε N / 2`. -/
theorem C111_ward {δ : Type} [Field δ] [LinearOrder δ] [IsStrictOrderedRing δ] {env : HierEnv V δ} {env' : HierEnv V' δ}
    (hw : ∀ l i j, env.ward l i j = l.sum / (i * j)) (hw' : ∀ l i j, env'.ward l i j = l.sum / (i * j)) {vs : Dict α V} {vs' : Dict α V'}
    {ε : δ} (h : DistancesWithin ε m env.metric vs env'.metric vs') :
    LinkageWithin (ε * m.managed.length / 2) .ward m env vs env' vs' := by
  intro xs ys hx hy hnd hman d d' hd hd'
  obtain ⟨ds, h1, rfl⟩ := hd
  obtain ⟨ds', h1', rfl⟩ := hd'
  rw [hw, hw']
  have hsum : ∀ {L : List (α × α)} {ds ds' : List δ}, (∀ p ∈ L, p.1 ∈ m.managed ∧ p.2 ∈ m.managed) →
      List.Forall₂ (fun (p : α × α) e => ∃ v w, dget? vs p.1 = some v ∧ dget? vs p.2 = some w ∧ e = env.metric v w) L ds →
      List.Forall₂ (fun (p : α × α) e => ∃ v w, dget? vs' p.1 = some v ∧ dget? vs' p.2 = some w ∧ e = env'.metric v w) L ds' →
      |ds'.sum - ds.sum| ≤ ε * L.length := by
    intro L
    induction L with
    | nil => rintro _ _ - h1 h2; cases h1; cases h2; simp
    | cons p L ih =>
      rintro _ _ hL h1 h2
      cases h1 with
      | cons a1 a2 =>
        cases h2 with
        | cons b1 b2 =>
          rename_i e t e' t'
          have h3 := ih (fun q hq => hL q (List.mem_cons_of_mem _ hq)) a2 b2
          obtain ⟨v, w, f1, f2, f3⟩ := a1
          obtain ⟨v', w', g1, g2, g3⟩ := b1
          have h4 := h p.1 (hL p List.mem_cons_self).1 p.2 (hL p List.mem_cons_self).2 e e'
            (by unfold distanceOf; rw [f1, f2, f3]) (by unfold distanceOf; rw [g1, g2, g3])
          rw [List.sum_cons, List.sum_cons, List.length_cons, show e' + t'.sum - (e + t.sum) = (e' - e) + (t'.sum - t.sum) by ring]
          refine (abs_add_le _ _).trans ((add_le_add h4 h3).trans (le_of_eq ?_))
          push_cast; ring
  have hmem : ∀ {l : List α} {p : α × α}, p ∈ laterPairs l → p.1 ∈ l ∧ p.2 ∈ l := by
    intro l
    induction l with
    | nil => intro p hp; cases hp
    | cons a l ih =>
      intro p hp
      rcases List.mem_append.1 hp with hp | hp
      · obtain ⟨y, hy, rfl⟩ := List.mem_map.1 hp
        exact ⟨List.mem_cons_self, List.mem_cons_of_mem _ hy⟩
      · exact ⟨List.mem_cons_of_mem _ (ih hp).1, List.mem_cons_of_mem _ (ih hp).2⟩
  have hlen : ∀ l : List α, 2 * (laterPairs l).length + l.length = l.length * l.length := by
    intro l
    induction l with
    | nil => rfl
    | cons a l ih =>
      rw [laterPairs, List.length_append, List.length_map, List.length_cons]
      nlinarith
  have h2 := hsum (fun p hp => ⟨hman _ (hmem hp).1, hman _ (hmem hp).2⟩) h1 h1'
  have hp0 : 0 < xs.length := List.length_pos_iff.2 hx
  have hq0 : 0 < ys.length := List.length_pos_iff.2 hy
  have hN : xs.length + ys.length ≤ m.managed.length := by
    rw [← List.length_append]
    exact (hnd.subperm hman).length_le
  have hl := hlen (xs ++ ys)
  rw [List.length_append] at hl
  have hε : 0 ≤ ε := by
    obtain ⟨x, hx'⟩ := List.exists_mem_of_ne_nil _ hx
    obtain ⟨y, hy'⟩ := List.exists_mem_of_ne_nil _ hy
    have hlp : (laterPairs (xs ++ ys)) ≠ [] := by
      intro h0
      rw [h0] at hl
      simp only [List.length_nil] at hl
      nlinarith
    obtain ⟨p, L, hpL⟩ := List.exists_cons_of_ne_nil hlp
    rw [hpL] at h1 h1'
    cases h1 with
    | cons a1 a2 =>
      cases h1' with
      | cons b1 b2 =>
        rename_i e t e' t'
        obtain ⟨v, w, f1, f2, f3⟩ := a1
        obtain ⟨v', w', g1, g2, g3⟩ := b1
        have hp : p ∈ laterPairs (xs ++ ys) := by rw [hpL]; simp
        exact (abs_nonneg _).trans (h p.1 (hman _ (hmem hp).1) p.2 (hman _ (hmem hp).2) e e'
          (by unfold distanceOf; rw [f1, f2, f3]) (by unfold distanceOf; rw [g1, g2, g3]))
  have hpq : (0 : δ) < xs.length * ys.length := by positivity
  rw [← sub_div, abs_div, abs_of_pos hpq, div_le_iff₀ hpq]
  refine h2.trans ?_
  have hk : 2 * (laterPairs (xs ++ ys)).length ≤ m.managed.length * (xs.length * ys.length) := by
    have h3 : xs.length + ys.length ≤ xs.length * ys.length + 1 := by nlinarith
    have h4 : 2 * (laterPairs (xs ++ ys)).length = (xs.length + ys.length) * (xs.length + ys.length - 1) := by
      have : (xs.length + ys.length) * (xs.length + ys.length - 1) + (xs.length + ys.length) = (xs.length + ys.length) * (xs.length + ys.length) := by
        rw [← Nat.mul_succ]; congr 1; omega
      omega
    rw [h4]
    exact Nat.mul_le_mul hN (by omega)
  have hk' : (2 : δ) * (laterPairs (xs ++ ys)).length ≤ m.managed.length * (xs.length * ys.length) := by exact_mod_cast hk
  nlinarith

/-! ### Binary64 and vectors of one coordinate -/

/-- The distances of the package between vectors of one coordinate are off by at most `B / 2^24`, when no coordinate exceeds `B`. -/
theorem C111_float_distances {vs : Dict α ℚ} {B : ℚ} (hB : ∀ x ∈ m.managed, ∀ v, dget? vs x = some v → |v| ≤ B) :
    DistancesWithin (B / 2 ^ 24) m lineEnv.metric vs flDist vs := by
  intro x hx y hy d d' h h'
  unfold distanceOf at h h'
  cases e1 : dget? vs x with
  | none => rw [e1] at h; simp at h
  | some v =>
    cases e2 : dget? vs y with
    | none => rw [e1, e2] at h; simp at h
    | some w =>
      rw [e1, e2] at h h'
      simp only [Option.some.injEq] at h h'
      subst h; subst h'
      have hl : lineEnv.metric v w = |v - w| := by
        show (if v ≤ w then w - v else v - w) = _
        split
        · rw [abs_sub_comm, abs_of_nonneg (by linarith)]
        · rw [abs_of_pos (by linarith)]
      have h1 := C99_error v w
      have h2 : |flDist v w - (|v - w|)| ≤ (|v| + |w|) / 2 ^ 25 := by exact_mod_cast h1
      rw [hl]
      refine h2.trans ?_
      have := hB x hx v e1
      have := hB y hy w e2
      rw [div_le_div_iff₀ (by positivity) (by positivity)]
      nlinarith

/-- Hierarchical clustering ("single" or "complete") of vectors of one coordinate gives in binary64 what it gives in exact arithmetic,
when the distances of different pairs differ by more than `B / 2^23`. -/
theorem C111_float_hierarchical (hm : Reachable m) {o o₁ o' : HObject α ℚ} (hl : o.linkage = .single ∨ o.linkage = .complete)
    (ho : SameTree o o') {vs : Dict α ℚ} {nb : Option Int} {r : Dict α Int} (hr : o.cluster lineEnv m (some vs) nb = (o₁, .ok r)) {B : ℚ}
    (hB : ∀ x ∈ m.managed, ∀ v, dget? vs x = some v → |v| ≤ B) (hgap : GapDistances (B / 2 ^ 23) lineEnv.metric vs m.managed) :
    (o'.cluster flHierEnv m (some vs) nb).2 = .ok r ∧ SameTree o₁ (o'.cluster flHierEnv m (some vs) nb).1 := by
  obtain ⟨vs0, n0, h0, -, -, hv, -⟩ := hier_args hr
  cases h0
  refine C111_hierarchical hm ho hr hv (ε := B / 2 ^ 24) (C111_linkage hl hv hv (C111_float_distances hB)) ?_
  rw [show B / 2 ^ 24 + B / 2 ^ 24 = B / 2 ^ 23 by ring]
  exact C111_gap hl hm hr hgap

/-! ### The margin is needed -/

theorem gap_of_rat {ids : List Nat} {vs : Dict Nat ℚ} {μ : ℚ} (h : ∀ x ∈ ids, ∀ y ∈ ids, ∀ x' ∈ ids, ∀ y' ∈ ids, x ≠ y → x' ≠ y' →
    ¬ ((x = x' ∧ y = y') ∨ (x = y' ∧ y = x')) →
      (distanceOf lineEnv.metric vs x y).getD 0 + μ < (distanceOf lineEnv.metric vs x' y').getD 0 ∨
      (distanceOf lineEnv.metric vs x' y').getD 0 + μ < (distanceOf lineEnv.metric vs x y).getD 0) :
    GapDistances μ lineEnv.metric vs ids := by
  intro x hx y hy x' hx' y' hy' h1 h2 h3 d d' e1 e2
  have := h x hx y hy x' hx' y' hy' h1 h2 h3
  rw [e1, e2] at this
  simp only [Option.getD_some] at this
  rcases this with h | h
  · exact lt_of_lt_of_le (by linarith) (le_abs_self _)
  · rw [abs_sub_comm]; exact lt_of_lt_of_le (by linarith) (le_abs_self _)

theorem within_of_rat {metric metric' : ℚ → ℚ → ℚ} {m : Manager Nat} {vs vs' : Dict Nat ℚ} {ε : ℚ} (h : ∀ x ∈ m.managed, ∀ y ∈ m.managed,
    (distanceOf metric' vs' x y).getD 0 ≤ (distanceOf metric vs x y).getD 0 + ε ∧
    (distanceOf metric vs x y).getD 0 ≤ (distanceOf metric' vs' x y).getD 0 + ε) :
    DistancesWithin ε m metric vs metric' vs' := by
  intro x hx y hy d d' e1 e2
  have := h x hx y hy
  rw [e1, e2] at this
  simp only [Option.getD_some] at this
  exact abs_le.2 ⟨by linarith, by linarith⟩

def marginVectors : Dict Nat ℚ := [(1, 0), (2, 11), (3, 21)]

def marginVectors' : Dict Nat ℚ := [(1, 0), (2, 21 / 2), (3, 21)]

/-- A margin of exactly `2 ε` is not enough: 10 and 11 can both become 10.5, and the tie is then decided by the order of the IDs. -/
theorem C111_margin_needed : ∃ (m : Manager Nat) (o o₁ : HObject Nat ℚ) (vs vs' : Dict Nat ℚ) (ε : ℚ) (r r' : Dict Nat Int), Reachable m ∧
    o.linkage = .single ∧ DistancesWithin ε m lineEnv.metric vs lineEnv.metric vs' ∧
    o.cluster lineEnv m (some vs) (some 2) = (o₁, .ok r) ∧ (∀ μ, μ < ε + ε → MergeMargin μ lineEnv o.linkage m vs o₁.storage) ∧
    (o.cluster lineEnv m (some vs') (some 2)).2 = .ok r' ∧ dget? r 2 = dget? r 3 ∧ dget? r' 2 ≠ dget? r' 3 := by
  have hr : (⟨.single, [], none, []⟩ : HObject Nat ℚ).cluster lineEnv (Manager.init [1, 2, 3]) (some marginVectors) (some 2) =
      (((⟨.single, [], none, []⟩ : HObject Nat ℚ).cluster lineEnv (Manager.init [1, 2, 3]) (some marginVectors) (some 2)).1,
        .ok [(1, 0), (2, 1), (3, 1)]) := Prod.ext_iff.2 ⟨rfl, by decide +kernel⟩
  refine ⟨Manager.init [1, 2, 3], ⟨.single, [], none, []⟩, _, marginVectors, marginVectors', 1 / 2, _, [(1, 0), (2, 0), (3, 1)],
    ⟨_, [], rfl⟩, rfl, within_of_rat (by decide +kernel), hr, fun μ hμ => ?_, by decide +kernel, by decide +kernel, by decide +kernel⟩
  refine C111_gap (.inl rfl) ⟨_, [], rfl⟩ hr (gap_of_rat fun x hx y hy x' hx' y' hy' h1 h2 h3 => ?_)
  have h : ∀ x ∈ (Manager.init [1, 2, 3]).managed, ∀ y ∈ (Manager.init [1, 2, 3]).managed, ∀ x' ∈ (Manager.init [1, 2, 3]).managed,
      ∀ y' ∈ (Manager.init [1, 2, 3]).managed, x ≠ y → x' ≠ y' → ¬ ((x = x' ∧ y = y') ∨ (x = y' ∧ y = x')) →
      (distanceOf lineEnv.metric marginVectors x y).getD 0 + 1 ≤ (distanceOf lineEnv.metric marginVectors x' y').getD 0 ∨
      (distanceOf lineEnv.metric marginVectors x' y').getD 0 + 1 ≤ (distanceOf lineEnv.metric marginVectors x y).getD 0 := by decide +kernel
  have hμ' : μ < 1 := by linarith
  rcases h x hx y hy x' hx' y' hy' h1 h2 h3 with h | h
  · left; linarith
  · right; linarith

/-! ### Concrete cases -/

/-- The vectors 0, 0.3, 1 and 1.9, of which two are rounded to floats. -/
def floatVectors : Dict Nat ℚ := [(1, 0), (2, fl (3 / 10)), (3, 1), (4, fl (19 / 10))]

theorem floatVectors_gap : GapDistances (2 / 2 ^ 23) lineEnv.metric floatVectors (Manager.init [1, 2, 3, 4]).managed :=
  gap_of_rat (by decide +kernel)

theorem floatVectors_bound : ∀ x ∈ (Manager.init [1, 2, 3, 4]).managed, ∀ v, dget? floatVectors x = some v → |v| ≤ 2 := by
  have h : ∀ x ∈ (Manager.init [1, 2, 3, 4]).managed, -2 ≤ (dget? floatVectors x).getD 0 ∧ (dget? floatVectors x).getD 0 ≤ 2 := by
    decide +kernel
  intro x hx v hv
  have := h x hx
  rw [hv] at this
  exact abs_le.2 this

/-- The hypotheses of `C111_float_hierarchical` for these vectors, and what both runs return. -/
example : ((⟨.complete, [], none, []⟩ : HObject Nat ℚ).cluster flHierEnv (Manager.init [1, 2, 3, 4]) (some floatVectors) (some 2)).2 =
    .ok [(1, 0), (2, 0), (3, 1), (4, 1)] :=
  (C111_float_hierarchical (m := Manager.init [1, 2, 3, 4]) (o := ⟨.complete, [], none, []⟩) (o' := ⟨.complete, [], none, []⟩) ⟨_, [], rfl⟩
    (.inr rfl) ⟨rfl, rfl, rfl, rfl⟩ (vs := floatVectors) (nb := some 2) (Prod.ext_iff.2 ⟨rfl, by decide +kernel⟩) floatVectors_bound
    floatVectors_gap).1

/-- The computed distances are not the exact ones. -/
example : flDist (fl (3 / 10)) (fl (19 / 10)) ≠ lineEnv.metric (fl (3 / 10)) (fl (19 / 10)) := by decide +kernel

/-- The hypotheses of `C111_ward` and `C111_near_best` for the vectors of `C111_margin_needed`. -/
example : LinkageWithin ((1 / 2 : ℚ) * (Manager.init [1, 2, 3]).managed.length / 2) .ward (Manager.init [1, 2, 3]) lineEnv marginVectors lineEnv marginVectors' :=
  C111_ward (fun l i j => by show l.sum / ((i * j : Nat) : ℚ) = _; push_cast; rfl)
    (fun l i j => by show l.sum / ((i * j : Nat) : ℚ) = _; push_cast; rfl) (within_of_rat (by decide +kernel))

theorem marginVectors_has {vs : Dict Nat ℚ} (h : ∀ x ∈ (Manager.init [1, 2, 3]).managed, (dget? vs x).isSome = true) :
    HasVectors (Manager.init [1, 2, 3]) vs := fun x hx => Option.isSome_iff_exists.1 (h x hx)

example : LinkageWithin (1 / 2 : ℚ) .single (Manager.init [1, 2, 3]) lineEnv marginVectors lineEnv marginVectors' ∧
    ((⟨.single, [], none, []⟩ : HObject Nat ℚ).cluster lineEnv (Manager.init [1, 2, 3]) (some marginVectors') (some 2)).2 =
      .ok [(1, 0), (2, 0), (3, 1)] :=
  ⟨C111_linkage (.inl rfl) (marginVectors_has (by decide +kernel)) (marginVectors_has (by decide +kernel)) (within_of_rat (by decide +kernel)),
    by decide +kernel⟩

/-- The radius 1.2 is not within 0.1 of a distance of 0, 0.3, 1, 1.9. -/
example : RadiusMargin (1 / 10) (Manager.init [1, 2, 3, 4]) lineEnv.metric floatVectors (6 / 5) := by
  have h : ∀ x ∈ (Manager.init [1, 2, 3, 4]).managed, ∀ y ∈ (Manager.init [1, 2, 3, 4]).managed,
      (distanceOf lineEnv.metric floatVectors x y).getD 0 + 1 / 10 ≤ 6 / 5 ∨
      6 / 5 + 1 / 10 < (distanceOf lineEnv.metric floatVectors x y).getD 0 := by decide +kernel
  intro x hx y hy d hd
  have := h x hx y hy
  rwa [hd] at this

/-- The two closest pairs, computed with the two kinds of distances. -/
example : (⟨none, some .closestNeighbors, true, true⟩ : Sampler).sample (Manager.init [1, 2, 3, 4]) (some 2) none (some floatVectors) flDist
      (fun l k => l.take k) = .ok [(1, 2), (2, 3)] ∧
    DistancesWithin (2 / 2 ^ 24) (Manager.init [1, 2, 3, 4]) lineEnv.metric floatVectors flDist floatVectors :=
  ⟨by
    rw [C111_sampling (m := Manager.init [1, 2, 3, 4]) ⟨_, [], rfl⟩ (vs := floatVectors) (metric := lineEnv.metric) (fun _ _ => rfl)
      (C111_float_distances floatVectors_bound) (fun p q hp hq hpq d e hd he => ?_)]
    · decide +kernel
    · have := floatVectors_gap p.1 hp.left p.2 hp.right q.1 hq.left q.2 hq.right (ne_of_lt hp.ordered) (ne_of_lt hq.ordered) (by
        rintro (⟨h1, h2⟩ | ⟨h1, h2⟩)
        · exact hpq (Prod.ext h1 h2)
        · have := hp.ordered; have := hq.ordered; omega) d e hd he
      refine lt_of_eq_of_lt ?_ this
      norm_num, C111_float_distances floatVectors_bound⟩

end Verif
