import Verif.Props.Hierarchical

/-
C94: cuts of a finished hierarchical clustering (`compute_predicted_clusters` after `cluster`).
-/

namespace Verif

variable {α V δ : Type} [LinearOrder α] [LinearOrder δ]

/-! ### Cuts with more clusters than IDs -/

omit [LinearOrder α] in
theorem hExplore_stopped {by_ : CutBy} {st : Dict Nat (HCluster α V)} {nb1 nb2 : Int} (h12 : nb1 ≤ nb2) :
    ∀ {f1 : Nat} {l l1 : List Nat}, hExplore by_ st nb1 f1 l = .ok l1 → (l1.length : Int) < nb1 → ∀ {f2 : Nat}, f1 ≤ f2 →
      hExplore by_ st nb2 f2 l = .ok l1 := by
  intro f1
  induction f1 with
  | zero =>
    intro l l1 h1 hlt
    unfold hExplore at h1
    split at h1
    · cases h1
    · cases h1; contradiction
  | succ f1 ih =>
    intro l l1 h1 hlt f2 hf
    obtain ⟨f2, rfl⟩ : ∃ k, f2 = k + 1 := ⟨f2 - 1, by omega⟩
    unfold hExplore at h1 ⊢
    by_cases hn : (l.length : Int) < nb1
    · rw [if_pos hn] at h1
      rw [if_pos (by omega)]
      cases hch : hChoice by_ st l with
      | error e => rw [hch] at h1; cases h1
      | ok c =>
        rw [hch] at h1
        simp only [bind, Except.bind] at h1 ⊢
        cases hg : dget st c with
        | error e => rw [hg] at h1; cases h1
        | ok n =>
          rw [hg] at h1
          simp only at h1 ⊢
          by_cases h0 : n.children = []
          · rw [if_pos h0] at h1 ⊢; exact h1
          · rw [if_neg h0] at h1 ⊢
            exact ih h1 hlt (by omega)
    · rw [if_neg hn] at h1
      cases h1; contradiction

theorem hExplore_many (by_ : CutBy) {env : HierEnv V δ} {link : Linkage} {m : Manager α} {vectors : Dict α V} {root : Nat}
    {st : Dict Nat (HCluster α V)} (h : Inv m) (hb : Built env link m vectors root st) {k : Int} (hk : m.managed.length ≤ k) :
    hExplore by_ st k k.toNat [root] = hExplore by_ st m.managed.length m.managed.length [root] := by
  obtain ⟨l1, r1, e1, hE1, -, hR1⟩ := hCut_ok h hb m.managed.length by_
  obtain ⟨l2, r2, e2, hE2, -, hR2⟩ := hCut_ok h hb k by_
  simp only [Int.toNat_natCast] at e1
  rw [e1]
  by_cases hlt : (l1.length : Int) < m.managed.length
  · exact hExplore_stopped hk e1 hlt (by omega)
  · rw [e2]
    have hleaf : ∀ c ∈ l1, ∀ n, dget? st c = some n → n.children = [] := by
      intro c hc n hn
      by_contra hch
      have hlen := hR1.cut.cover.length_eq
      obtain ⟨hc', hlen', -⟩ := hR1.cut.split h hb.tree hc hn hch
      have hlen2 := hc'.cover.length_eq
      have hge : (l1.erase c ++ n.children).length ≤ ((l1.erase c ++ n.children).flatMap (membersOf st)).length := by
        have hne : ∀ d ∈ l1.erase c ++ n.children, 1 ≤ (membersOf st d).length := fun d hd =>
          List.length_pos_iff.2 (hb.tree.ne d (hc'.stored d hd))
        generalize l1.erase c ++ n.children = L at hne
        induction L with
        | nil => simp
        | cons a L ih =>
          rw [List.flatMap_cons, List.length_append, List.length_cons]
          have := ih fun d hd => hne d (by simp [hd])
          have := hne a (by simp)
          omega
      omega
    obtain ⟨f3, e3⟩ := hExplore_compose hk e1 e2
    cases f3 with
    | zero =>
      unfold hExplore at e3
      split at e3
      · cases e3
      · cases e3; rfl
    | succ f3 =>
      by_cases hn : (l1.length : Int) < k
      · by_cases hl : l1 = []
        · subst hl
          have := hR1.cut.cover.length_eq
          obtain ⟨x, hx⟩ := List.exists_mem_of_ne_nil _ (hb.tree.ne root (hb.tree.cur root (by simp)))
          obtain ⟨c, hc, -⟩ := hR1.cut.exists (hb.tree.sub root x hx)
          cases hc
        · obtain ⟨c, hcl, hch, -⟩ := hChoice_ok (by_ := by_) hb.tree.keys hR1.cut.stored hl
          obtain ⟨n, hn'⟩ := hb.tree.keys.exists (hR1.cut.stored c hcl)
          unfold hExplore at e3
          simp only [if_pos hn, hch, bind, Except.bind, dget_of_dget? hn', if_pos (hleaf c hcl n hn')] at e3
          cases e3; rfl
      · unfold hExplore at e3
        rw [if_neg hn] at e3
        cases e3; rfl

/-! ### C94 -/

/-- A later cut by size into `k ≥ 2` clusters is what a new call of `cluster` with `nb_clusters = k` would return, and such a
call would leave the same object. -/
theorem C94_recluster {env : HierEnv V δ} {o o' : HObject α V} {m : Manager α} (h : Reachable m) {vectors : Option (Dict α V)}
    {nb : Option Int} {r : Dict α Int} (hr : o.cluster env m vectors nb = (o', .ok r)) {k : Int} (hk : 2 ≤ k) :
    o.cluster env m vectors (some k) = (o', o'.cut k .size) := by
  obtain ⟨vs, n, rfl, rfl, hn, hv, hne⟩ := hier_args hr
  obtain ⟨table, hT⟩ := distanceTable_total (metric := env.metric) hne hv
  obtain ⟨root, st, e1, hb⟩ := hBuild_ok o.linkage h.inv (pairTable_of_ok hT) hv hne
  have hcall : ∀ j : Int, 2 ≤ j → o.cluster env m (some vs) (some j) =
      (⟨o.linkage, m.managed, some root, st⟩, hCut m.managed st root (min j m.managed.length) .size) := by
    intro j hj
    unfold HObject.cluster
    simp only [if_neg (show ¬ j < 2 by omega), hT, e1]
    rfl
  rw [hcall n hn] at hr
  have ho : o' = ⟨o.linkage, m.managed, some root, st⟩ := (congrArg Prod.fst hr).symm
  subst ho
  rw [hcall k hk]
  refine Prod.ext rfl ?_
  show hCut m.managed st root (min k m.managed.length) .size = hCut m.managed st root k .size
  by_cases hkl : k ≤ m.managed.length
  · rw [min_eq_left hkl]
  · rw [min_eq_right (by omega)]
    unfold hCut
    rw [hExplore_many .size h.inv hb (k := k) (by omega), Int.toNat_natCast]

/-- Every later cut into two or more clusters respects the constraints, by size and by iteration. -/
theorem C94_respects {env : HierEnv V δ} {o o' : HObject α V} {m : Manager α} (h : Reachable m) {vectors : Option (Dict α V)}
    {nb : Option Int} {r : Dict α Int} (hr : o.cluster env m vectors nb = (o', .ok r)) {k : Int} (hk : 2 ≤ k) {by_ : CutBy}
    {r' : Dict α Int} (hcut : o'.cut k by_ = .ok r') : LabelsRespect m r' := by
  obtain ⟨vs, n, root, st, l0, -, -, hn, hne, rfl, hb, -⟩ := hier_ok h hr
  obtain ⟨l, r1, -, hE, e, hR⟩ := hCut_ok h.inv hb k by_
  have : r1 = r' := by
    have h2 : hCut m.managed st root k by_ = .ok r' := hcut
    rw [e] at h2
    cases h2; rfl
  subst this
  have ht := hb.tree
  rw [labelsRespect_iff h.inv]
  refine ⟨fun x y hx hl => ?_, fun x y hl he => ?_⟩
  · obtain ⟨c, hc, hxc⟩ := hR.cut.exists hx
    exact (hR.same x hx y (hl.mem h.inv hx)).2 ⟨c, hc, hxc, ht.closed c x hxc y hl⟩
  · obtain ⟨hx, hy⟩ := hl.mem h.inv
    obtain ⟨c, hc, hxc, hyc⟩ := (hR.same x hx y hy).1 he
    by_cases hcr : c = root
    · subst hcr
      have hl1 : l = [c] := by
        rcases hE.count h.inv hb with h1 | ⟨h1, -⟩
        · exact h1
        · exact absurd hc h1
      subst hl1
      rcases hE.final with hf | ⟨-, d, hd, -, nd, hnd, h0⟩
      · rw [List.length_singleton] at hf
        omega
      · rw [List.mem_singleton] at hd
        subst hd
        have hcomp := (ht.leaf d nd hnd h0).1
        rw [membersOf_eq hnd] at hxc hyc
        exact not_both h.inv (((mem_component_iff h.inv hcomp hxc).2 y).1 hyc) hl
    · exact ht.nocl c hcr x hxc y hyc hl

/-- A later cut into one cluster (or fewer) puts all IDs together, whatever the constraints. -/
theorem C94_one {env : HierEnv V δ} {o o' : HObject α V} {m : Manager α} (h : Reachable m) {vectors : Option (Dict α V)}
    {nb : Option Int} {r : Dict α Int} (hr : o.cluster env m vectors nb = (o', .ok r)) {k : Int} (hk : k ≤ 1) (by_ : CutBy) :
    ∃ r', o'.cut k by_ = .ok r' ∧ (∀ x ∈ m.managed, dget? r' x = some 0) ∧
      (LabelsRespect m r' ↔ ∀ x ∈ m.managed, ∀ y ∈ m.managed, m.getInferred x y ≠ .ok (some .cannotLink)) := by
  obtain ⟨vs, n, root, st, l0, -, -, hn, hne, rfl, hb, -⟩ := hier_ok h hr
  obtain ⟨l, r1, -, hE, e, hR⟩ := hCut_ok h.inv hb k by_
  have hl : l = [root] := by
    cases hE with
    | enough _ => rfl
    | leaf h1 => rfl
    | split h1 => rw [List.length_singleton] at h1; omega
  subst hl
  have h0 : ∀ x ∈ m.managed, dget? r1 x = some 0 := by
    intro x hx
    obtain ⟨d, hd⟩ := dget?_isSome_of_mem (d := r1) (k := x) (by rw [hR.keys]; exact (List.mem_insertionSort _).2 hx)
    have hrn : (dkeys r1).Nodup := by rw [hR.keys]; exact (List.perm_insertionSort _ _).nodup_iff.2 h.inv.d.nodup
    have := (hR.labels d).1 ((mem_dvals hrn).2 ⟨x, hd⟩)
    rw [hd, show d = 0 by simp only [List.length_singleton] at this; omega]
  refine ⟨r1, e, h0, fun hresp x hx y hy hcl => ?_, fun hno => ?_⟩
  · exact (hresp x y).2 hcl (by rw [h0 x hx, h0 y hy])
  · rw [labelsRespect_iff h.inv]
    refine ⟨fun x y hx hl => by rw [h0 x hx, h0 y (hl.mem h.inv hx)], fun x y hl => ?_⟩
    obtain ⟨hx, hy⟩ := hl.mem h.inv
    exact absurd ((inferred_cl_iff h.inv hx hy).2 hl) (hno x hx y hy)

/-- The cluster with a cannot-link between two of its IDs that a cut into one cluster returns. -/
example : hDemoAfter.cut 1 .size = .ok [(1, 0), (2, 0), (3, 0), (5, 0), (7, 0), (9, 0)] ∧
    hDemo.getInferred 3 9 = .ok (some .cannotLink) := by decide +kernel

/-! ### Each theorem applied to a concrete case -/

example := C94_recluster (m := hDemo) ⟨_, _, rfl⟩ hDemo_run (k := 17) (by decide)

example := C94_respects (m := hDemo) ⟨_, _, rfl⟩ hDemo_run (k := 4) (by decide) (by_ := .iteration)
  (r' := [(1, 0), (2, 1), (3, 0), (5, 1), (7, 2), (9, 3)]) (by decide +kernel)

example := C94_one (m := hDemo) ⟨_, _, rfl⟩ hDemo_run (k := -3) (by decide) .iteration

end Verif
