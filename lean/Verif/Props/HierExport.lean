import Verif.Proofs.HierDeep
import Verif.Props.Hierarchical

/-
Property C82: `to_dict` and `add_new_children` of the clusters of a dendrogram. Specification vocabulary:
`Verif/Spec/Hierarchical.lean`, `Verif/Spec/HierExport.lean`.
-/

namespace Verif

variable {α V δ : Type} [LinearOrder α] [LinearOrder δ]

theorem nodup_of_flatten {l : List (List α)} (hne : ∀ c ∈ l, c ≠ []) (h : l.flatten.Nodup) : l.Nodup := by
  rw [List.nodup_flatten] at h
  refine h.2.imp_of_mem ?_
  rintro a b ha - hd rfl
  obtain ⟨x, hx⟩ := List.exists_mem_of_ne_nil _ (hne a ha)
  exact hd hx hx

/-- After a call of `cluster` that returned, `to_dict` of the root returns when as many nested calls are
available as the tree has levels: the tree of all stored clusters, each of them once, with their values, whose leaves
are the components of the constraints. With fewer nested calls it is a `RecursionError`. There are at most as many
levels as components. -/
theorem C82_export {env : HierEnv V δ} {o o' : HObject α V} {m : Manager α} (h : Reachable m)
    {vectors : Option (Dict α V)} {nb : Option Int} {r : Dict α Int}
    (hr : o.cluster env m vectors nb = (o', .ok r)) :
    ∃ root n, o'.root = some root ∧ dget? o'.storage root = some n ∧ n.depth < m.components.length ∧
      (∃ t, (∀ k, n.depth < k → hToDict o'.storage k root = .ok t) ∧ Exports o'.storage root t ∧
        t.ids.Perm (dkeys o'.storage) ∧ t.levels = n.depth + 1 ∧ t.leaves.Perm m.components ∧
        t.leaves.flatten = n.members ∧ n.members.Perm m.managed) ∧
      ∀ k, k ≤ n.depth → hToDict o'.storage k root = .error .recursionError := by
  obtain ⟨vs, nb', root, st, l, -, -, -, -, rfl, hb, -, -⟩ := hier_ok h hr
  have ht := hb.tree
  have hlast := hb.last
  obtain ⟨n, hn⟩ := ht.keys.exists (i := root) (by omega)
  have hD := hb.dendrogram h.inv
  have hdep : n.depth < m.components.length := by
    obtain ⟨j, hj⟩ := (ht.height root n hn).1
    exact hb.path_lt hj (by omega)
  refine ⟨root, n, rfl, hn, hdep, ?_, fun k hk => (ht.toDict root n hn k).2 hk⟩
  obtain ⟨t, e, hE⟩ := (ht.toDict root n hn (n.depth + 1)).1 (by omega)
  have hid := ht.exports_ids root t hE
  have hle := ht.exports_leaves root t hE
  have hmem : membersOf st root = n.members := membersOf_eq hn
  refine ⟨t, ?_, hE, ?_, ht.exports_levels root t hE n hn, ?_, by rw [hle.1, hmem], hmem ▸ hD.root_members.2⟩
  · -- the tree is the same for all `k`
    have uniq : ∀ i t t', Exports st i t → Exports st i t' → t = t' := by
      intro i
      induction i using Nat.strong_induction_on with
      | _ i ih =>
        intro t t' h1 h2
        cases h1 with
        | @node _ n1 ts1 hn1 hts1 =>
          cases h2 with
          | @node _ n2 ts2 hn2 hts2 =>
            have hlt : ∀ c ∈ n1.children, c < i := fun c hc => (ht.child_lt ⟨n1, hn1, hc⟩).1
            obtain rfl : n1 = n2 := Option.some.inj (hn1.symm.trans hn2)
            congr 1
            clear hn1 hn2
            generalize n1.children = cs at hlt hts1 hts2
            induction hts1 generalizing ts2 with
            | nil => cases hts2; rfl
            | @cons c u cs us a1 a2 ih2 =>
              cases hts2 with
              | @cons _ u' _ us' b1 b2 =>
                rw [ih c (hlt c (by simp)) u u' a1 b1, ih2 (fun c hc => hlt c (by simp [hc])) b2]
    intro k hk
    obtain ⟨t', e', hE'⟩ := (ht.toDict root n hn k).1 hk
    rw [uniq root t t' hE hE']
    exact e'
  · refine (List.perm_ext_iff_of_nodup hid.1 hD.nodup).2 fun j => ?_
    rw [hid.2]
    constructor
    · rintro ⟨k, hk⟩
      have := ht.descends_le hk
      exact ht.keys.mem.2 (by omega)
    · intro hj
      exact hD.connected j hj
  · have hin : ∀ xs, xs ∈ t.leaves ↔ xs ∈ m.components := by
      intro xs
      rw [hle.2, ← hD.leaves]
      constructor
      · rintro ⟨k, j, nj, -, h2⟩; exact ⟨j, nj, h2⟩
      · rintro ⟨j, nj, h2, h3⟩
        obtain ⟨k, hk⟩ := hD.connected j (mem_dkeys_of_dget? h2)
        exact ⟨k, j, nj, hk, h2, h3⟩
    refine (List.perm_ext_iff_of_nodup ?_ (components_nodup m)).2 hin
    refine nodup_of_flatten (fun c hc => component_ne_nil h.inv ((hin c).1 hc)) ?_
    rw [hle.1]
    exact ht.nodup root

/-- The dendrogram of the example has 3 levels for 5 components. -/
example : (hDemoObject.cluster hDemoEnv hDemo (some hDemoVectors) (some 2)).2.isOk ∧ hDemo.components.length = 5 ∧
    ((hToDict (hDemoObject.cluster hDemoEnv hDemo (some hDemoVectors) (some 2)).1.storage 3 7).map HTree.ids) =
      .ok [7, 0, 5, 1, 3, 6, 2, 4] ∧
    ((hToDict (hDemoObject.cluster hDemoEnv hDemo (some hDemoVectors) (some 2)).1.storage 2 7).map HTree.ids) =
      .error .recursionError := by
  refine ⟨by decide +kernel, by decide +kernel, by decide +kernel, by decide +kernel⟩

/-- Unconstrained managers: no relation between two IDs. -/
theorem init_unconstrained (ids : List α) : Unconstrained (Manager.init ids) := by
  intro x hx y hy hne
  have h := init_inv ids
  have hml : ¬ MustLinked (Manager.init ids) x y := by
    intro hl
    have : ∀ u w, MustLinked (Manager.init ids) u w → u = w := by
      intro u w hl
      induction hl with
      | refl => rfl
      | tail _ hs ih =>
        rw [addedAs_iff_known h, init_known] at hs
        split at hs
        · rename_i hc; exact ih.trans hc.1
        · cases hs
    exact hne (this x y hl)
  have hcl : ¬ CannotLinked (Manager.init ids) x y := by
    rintro ⟨u, w, -, hs, -⟩
    rw [addedAs_iff_known h, init_known] at hs
    split at hs <;> cases hs
  obtain ⟨o, e, h1, h2⟩ := getInferred_spec h hx hy
  rw [e]
  match o with
  | none => rfl
  | some .mustLink => exact (hml (h1.1 rfl)).elim
  | some .cannotLink => exact (hcl (h2.1 rfl)).elim

/-- The bound on the number of levels is reached, for every number of IDs: on the points `1, 2, 4, …` without
constraints, with single linkage, every merge adds one point, and `to_dict` needs as many nested calls as there are
IDs. -/
theorem C82_deep (env : HierEnv Nat Nat) (he : ∀ v w, env.metric v w = max v w - min v w) {n : Nat} (hn : 2 ≤ n)
    {nb : Int} (hnb : 2 ≤ nb) {o : HObject Nat Nat} (ho : o.linkage = .single) :
    ∃ o' r root, o.cluster env (Manager.init (List.range n)) (some ((List.range n).map fun x => (x, 2 ^ x))) (some nb) =
        (o', .ok r) ∧ o'.root = some root ∧
      (∀ k, n ≤ k → ∃ t, hToDict o'.storage k root = .ok t) ∧
      ∀ k, k < n → hToDict o'.storage k root = .error .recursionError := by
  have hR : Reachable (Manager.init (List.range n)) := Reachable.init _
  have hm : ∀ x, x ∈ (Manager.init (List.range n)).managed ↔ x < n := by
    intro x
    show x ∈ dkeys _ ↔ _
    rw [init_keys, mem_ounion]
    simp
  have hget : ∀ x, x < n → dget? ((List.range n).map fun x => (x, 2 ^ x)) x = some (2 ^ x) := by
    intro x hx
    have : ∀ l : List Nat, x ∈ l → dget? (l.map fun x => (x, 2 ^ x)) x = some (2 ^ x) := by
      intro l
      induction l with
      | nil => intro h; cases h
      | cons a l ih =>
        intro h
        simp only [List.map_cons, dget?]
        by_cases ha : a = x
        · rw [if_pos ha, ha]
        · rw [if_neg ha]
          exact ih ((List.mem_cons.1 h).resolve_left (Ne.symm ha))
    exact this _ (List.mem_range.2 hx)
  have hv : HasVectors (Manager.init (List.range n)) ((List.range n).map fun x => (x, 2 ^ x)) :=
    fun x hx => ⟨_, hget x ((hm x).1 hx)⟩
  have hne : (Manager.init (List.range n)).managed ≠ [] := List.ne_nil_of_mem ((hm 0).2 (by omega))
  obtain ⟨root, st, l, r, e, hb, -⟩ := hier_call (env := env) o hR hv hne hnb
  obtain ⟨root', nd, e1, e2, e3, ⟨t, e4, -⟩, e5⟩ := C82_export hR e
  cases e1
  rw [ho] at hb
  have hd := hb.powers_depth hR.inv (init_unconstrained _) hm hget he hn e2
  have hlen : (Manager.init (List.range n)).managed.length = n := by
    have : (Manager.init (List.range n)).managed.Perm (List.range n) :=
      (List.perm_ext_iff_of_nodup hR.inv.d.nodup List.nodup_range).2 fun x => (hm x).trans List.mem_range.symm
    rw [this.length_eq, List.length_range]
  have hcl := components_le hR.inv
  exact ⟨_, r, root, e, rfl, fun k hk => ⟨t, e4 k (by omega)⟩, fun k hk => e5 k (by omega)⟩

example : ∃ env : HierEnv Nat Nat, ∀ v w, env.metric v w = max v w - min v w :=
  ⟨⟨fun v w => max v w - min v w, fun l => l.sum / l.length, fun l a b => l.sum / (a * b)⟩, fun _ _ => rfl⟩

/-! ### `add_new_children` -/

/-- `add_new_children` on a stored cluster, with stored clusters: it returns exactly when the cluster has or gets a
child; the members are then those of all its children and no longer its own. The other clusters are not changed. -/
theorem C82_add_children {env : HierEnv V δ} {o o' : HObject α V} {m : Manager α} (h : Reachable m)
    {vectors : Dict α V} {nb : Option Int} {r : Dict α Int} (hr : o.cluster env m (some vectors) nb = (o', .ok r))
    {i : Nat} {n : HCluster α V} (hi : dget? o'.storage i = some n) {new : List Nat} (hnew : ∀ c ∈ new, c ∈ dkeys o'.storage)
    (hself : i ∉ new) (it : Nat) :
    ∃ st' res, hAddChildren env vectors o'.storage i new it = (st', res) ∧ (∀ j, j ≠ i → dget? st' j = dget? o'.storage j) ∧
      ∃ n', dget? st' i = some n' ∧ n'.iteration = it ∧
        n'.children = n.children ++ new.filter (fun c => decide (c ∉ n.children)) ∧
        (n'.children = [] → res = .error (.valueError "max") ∧ n'.members = n.members) ∧
        (n'.children ≠ [] → res = .ok () ∧ n'.members = n'.children.flatMap (membersOf o'.storage) ∧
          (∃ c ∈ n'.children, ∃ nc, dget? o'.storage c = some nc ∧ n'.depth = nc.depth + 1) ∧
          ∀ c ∈ n'.children, ∀ nc, dget? o'.storage c = some nc → nc.depth < n'.depth) := by
  obtain ⟨vs, nb', root, st, l, hvs, -, -, -, rfl, hb, -, -⟩ := hier_ok h hr
  cases hvs
  obtain ⟨vs, -, hvs, -, -, hv, -⟩ := hier_args hr
  cases hvs
  have ht := hb.tree
  simp only at hi hnew ⊢
  have hil := ht.keys.lt hi
  -- the children are stored, and none of them is the cluster itself
  have hall : ∀ c ∈ n.children ++ new.filter (fun c => decide (c ∉ n.children)), c ≠ i ∧ c < st.length := by
    intro c hc
    rcases List.mem_append.1 hc with hc | hc
    · have := (ht.child_lt ⟨n, hi, hc⟩).1
      exact ⟨by omega, by omega⟩
    · have hc := (List.mem_filter.1 hc).1
      exact ⟨fun e => hself (e ▸ hc), ht.keys.mem.1 (hnew c hc)⟩
  unfold hAddChildren
  rw [hi]
  simp only
  generalize hcs : n.children ++ new.filter (fun c => decide (c ∉ n.children)) = cs at hall
  generalize hn1 : ({ n with iteration := it, children := cs } : HCluster α V) = n1
  have hget : ∀ c ∈ cs, ∃ nc, (dget (dset st i n1) c : Except PyErr _) = .ok nc ∧ dget? st c = some nc := by
    intro c hc
    obtain ⟨nc, hnc⟩ := ht.keys.exists (hall c hc).2
    refine ⟨nc, dget_of_dget? ?_, hnc⟩
    rw [dget?_dset, if_neg (Ne.symm (hall c hc).1)]
    exact hnc
  obtain ⟨nodes, e1, e2⟩ := mapM_forall₂ hget
  have hn1c : n1.children = cs := by rw [← hn1]
  rw [e1]
  simp only
  cases hmax : (nodes.map fun c => c.depth).max? with
  | none =>
    have hnil : cs = [] := by
      have h1 := List.max?_eq_none_iff.1 hmax
      have h2 := e2.length_eq
      rw [List.map_eq_nil_iff] at h1
      rw [h1] at h2
      exact List.eq_nil_of_length_eq_zero h2
    refine ⟨_, _, rfl, fun j hj => by rw [dget?_dset, if_neg (Ne.symm hj)], n1, by rw [dget?_dset, if_pos rfl], ?_, hn1c, ?_, ?_⟩
    · rw [← hn1]
    · intro _; exact ⟨rfl, by rw [← hn1]⟩
    · intro hne; exact (hne (hn1c.trans hnil)).elim
  | some d =>
    obtain ⟨hd1, hd2⟩ := max?_spec hmax
    have hne : cs ≠ [] := by
      rintro rfl
      cases e2
      cases hd1
    have hmem : (nodes.flatMap fun c => c.members) = cs.flatMap (membersOf st) := by
      clear hmax hd1 hd2 e1 hget hall hn1 hn1c hcs hne
      induction e2 with
      | nil => rfl
      | cons h1 _ ih => rw [List.flatMap_cons, List.flatMap_cons, ih, membersOf_eq h1]
    obtain ⟨v, hv⟩ := hCentroid_ok (env := env) (m := m) (vectors := vectors) (members := cs.flatMap (membersOf st)) hv
      (fun x hx => by
        obtain ⟨c, -, hxc⟩ := List.mem_flatMap.1 hx
        exact ht.sub c x hxc)
      (fun hnil => by
        obtain ⟨c, hc⟩ := List.exists_mem_of_ne_nil _ hne
        obtain ⟨x, hx⟩ := List.exists_mem_of_ne_nil _ (ht.ne c (hall c hc).2)
        have : x ∈ cs.flatMap (membersOf st) := List.mem_flatMap.2 ⟨c, hc, hx⟩
        rw [hnil] at this
        cases this)
    simp only [hmem, hv]
    refine ⟨_, _, rfl, fun j hj => by rw [dget?_dset, if_neg (Ne.symm hj)], _, by rw [dget?_dset, if_pos rfl], rfl, rfl, ?_, ?_⟩
    · intro hnil; exact (hne hnil).elim
    · intro _
      refine ⟨rfl, rfl, ?_, ?_⟩
      · obtain ⟨nc, hnc, rfl⟩ := List.mem_map.1 hd1
        obtain ⟨c, hc, h1⟩ := forall₂_mem_right e2 hnc
        exact ⟨c, hc, nc, h1, rfl⟩
      · intro c hc nc hnc
        obtain ⟨nc', h1, h2⟩ := forall₂_mem_left e2 hc
        rw [hnc] at h2
        cases h2
        have := hd2 nc.depth (List.mem_map_of_mem h1)
        simp only
        omega

/-- Adding the cluster 5 to the leaf 0: the IDs 1 and 3 of the leaf are lost. -/
example : let st := (hDemoObject.cluster hDemoEnv hDemo (some hDemoVectors) (some 2)).1.storage
    membersOf st 0 = [1, 3] ∧ membersOf (hAddChildren hDemoEnv hDemoVectors st 0 [5] 9).1 0 = [2, 5] ∧
    (hAddChildren hDemoEnv hDemoVectors st 0 [] 9).2 = .error (.valueError "max") := by decide +kernel

/-- Adding a stored cluster that is not yet a child always destroys the tree, also when the call fails: the new child
has another parent, or is the root. -/
theorem C82_add_breaks {env env' : HierEnv V δ} {o o' : HObject α V} {m : Manager α} (h : Reachable m)
    {vectors : Option (Dict α V)} {vectors' : Dict α V} {nb : Option Int} {r : Dict α Int}
    (hr : o.cluster env m vectors nb = (o', .ok r)) {root : Nat} (hroot : o'.root = some root)
    {i : Nat} {n : HCluster α V} (hi : dget? o'.storage i = some n) {new : List Nat} {c : Nat} (hc : c ∈ new)
    (hst : c ∈ dkeys o'.storage) (hnot : c ∉ n.children) (it : Nat) :
    Dendrogram m root o'.storage ∧
      ¬ Dendrogram m root (hAddChildren env' vectors' o'.storage i new it).1 := by
  obtain ⟨vs, nb', root', st, l, -, -, -, -, rfl, hb, -, -⟩ := hier_ok h hr
  cases hroot
  have hD := hb.dendrogram h.inv
  refine ⟨hD, fun hD' => ?_⟩
  simp only at hi hst hD'
  -- the clusters after the call
  obtain ⟨n', h1, h2, h3⟩ : ∃ n', dget? (hAddChildren env' vectors' st i new it).1 i = some n' ∧ c ∈ n'.children ∧
      ∀ j, j ≠ i → dget? (hAddChildren env' vectors' st i new it).1 j = dget? st j := by
    have hcm : c ∈ n.children ++ new.filter fun c => decide (c ∉ n.children) :=
      List.mem_append_right _ (List.mem_filter.2 ⟨hc, decide_eq_true hnot⟩)
    have hset : ∀ n1 : HCluster α V, c ∈ n1.children → ∃ n', dget? (dset st i n1) i = some n' ∧ c ∈ n'.children ∧
        ∀ j, j ≠ i → dget? (dset st i n1) j = dget? st j := fun n1 hn1 =>
      ⟨n1, by rw [dget?_dset, if_pos rfl], hn1, fun j hj => by rw [dget?_dset, if_neg (Ne.symm hj)]⟩
    unfold hAddChildren
    rw [hi]
    simp only
    split
    · exact hset _ hcm
    · split
      · exact hset _ hcm
      · split
        · exact hset _ hcm
        · exact hset _ hcm
  have hch : Child (hAddChildren env' vectors' st i new it).1 i c := ⟨n', h1, h2⟩
  have hcr := ((hD'.children i n' h1).2 c h2).2
  -- the other parent
  rcases hb.tree.parent c (hb.tree.keys.mem.1 hst) with h4 | ⟨p, np, hnp, hcp⟩
  · exact hcr (List.mem_singleton.1 h4)
  · have hpi : p ≠ i := by
      rintro rfl
      rw [hi] at hnp
      cases hnp
      exact hnot hcp
    exact hpi (hD'.parent p i c ⟨np, (h3 p hpi).trans hnp, hcp⟩ hch)

example : (hDemoObject.cluster hDemoEnv hDemo (some hDemoVectors) (some 2)).1.root = some 7 ∧
    2 ∈ dkeys (hDemoObject.cluster hDemoEnv hDemo (some hDemoVectors) (some 2)).1.storage ∧
    (dget? (hDemoObject.cluster hDemoEnv hDemo (some hDemoVectors) (some 2)).1.storage 5).map (·.children) = some [1, 3] := by
  decide +kernel

end Verif
