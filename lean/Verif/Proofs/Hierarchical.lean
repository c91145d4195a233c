import Verif.Spec.Hierarchical
import Verif.Proofs.Clustering

/-
Lemmas on the hierarchical clustering: the tree.
-/

set_option linter.unusedSectionVars false

namespace Verif

variable {α V δ : Type} [LinearOrder α] [LinearOrder δ]

/-! ### Storage -/

/-- IDs are given in order. -/
def SeqKeys {ν : Type} (st : Dict Nat ν) : Prop := dkeys st = List.range st.length

theorem SeqKeys.mem {ν : Type} {st : Dict Nat ν} (h : SeqKeys st) {i : Nat} : i ∈ dkeys st ↔ i < st.length := by
  rw [h]; exact List.mem_range

theorem SeqKeys.max {ν : Type} {st : Dict Nat ν} (h : SeqKeys st) :
    (dkeys st).max? = if st.length = 0 then none else some (st.length - 1) := by
  by_cases h0 : st.length = 0
  · rw [if_pos h0, h, h0]; rfl
  · rw [if_neg h0]
    cases hm : (dkeys st).max? with
    | none =>
      have := List.max?_eq_none_iff.1 hm
      rw [h] at this
      simp only [List.range_eq_nil] at this
      exact absurd this h0
    | some a =>
      obtain ⟨h1, h2⟩ := max?_spec hm
      have h3 := h.mem.1 h1
      have h4 := h2 (st.length - 1) (h.mem.2 (by omega))
      congr 1; omega

theorem SeqKeys.dset {ν : Type} {st : Dict Nat ν} (h : SeqKeys st) (v : ν) :
    Verif.dset st st.length v = st ++ [(st.length, v)] ∧ SeqKeys (Verif.dset st st.length v) := by
  have hn : st.length ∉ dkeys st := fun hc => by have := h.mem.1 hc; omega
  have e := dset_of_notMem v hn
  refine ⟨e, ?_⟩
  unfold SeqKeys
  rw [e]
  have h' : dkeys st = List.range st.length := h
  unfold dkeys at h' ⊢
  rw [List.map_append, h', List.length_append]
  simp [List.range_succ]

theorem membersOf_eq {st : Dict Nat (HCluster α V)} {i : Nat} {n : HCluster α V} (h : dget? st i = some n) :
    membersOf st i = n.members := by unfold membersOf; rw [h]

/-- The depth of a stored cluster. -/
def depthOf (st : Dict Nat (HCluster α V)) (i : Nat) : Nat :=
  match dget? st i with
  | some n => n.depth
  | none => 0

theorem depthOf_eq {st : Dict Nat (HCluster α V)} {i : Nat} {n : HCluster α V} (h : dget? st i = some n) :
    depthOf st i = n.depth := by unfold depthOf; rw [h]

theorem SeqKeys.exists {ν : Type} {st : Dict Nat ν} (h : SeqKeys st) {i : Nat} (hi : i < st.length) :
    ∃ n, dget? st i = some n := dget?_isSome_of_mem (h.mem.2 hi)

theorem SeqKeys.lt {ν : Type} {st : Dict Nat ν} (h : SeqKeys st) {i : Nat} {n : ν} (hi : dget? st i = some n) :
    i < st.length := h.mem.1 (mem_dkeys_of_dget? hi)

/-! ### The tree invariant -/

/-- Invariant of the partial tree; `R` is the set of nodes that may contain a cannot-link. -/
structure TreeInv (m : Manager α) (R : Nat → Prop) (current : List Nat) (st : Dict Nat (HCluster α V)) : Prop where
  keys : SeqKeys st
  sorted : current.Pairwise (· < ·)
  cur : ∀ i ∈ current, i < st.length
  cover : (current.flatMap (membersOf st)).Perm m.managed
  leaf : ∀ i n, dget? st i = some n → n.children = [] → n.members ∈ m.components ∧ n.iteration = 0 ∧ n.depth = 0
  inner : ∀ i n, dget? st i = some n → n.children ≠ [] → 2 ≤ n.children.length ∧ (∀ c ∈ n.children, c < i) ∧
    n.children.Nodup ∧ n.members = n.children.flatMap (membersOf st) ∧ 1 ≤ n.iteration ∧
    ∃ d, (n.children.map (depthOf st)).max? = some d ∧ n.depth = d + 1
  leaves : ∀ xs ∈ m.components, ∃ i n, dget? st i = some n ∧ n.children = [] ∧ n.members = xs
  nodup : ∀ i, (membersOf st i).Nodup
  ne : ∀ i, i < st.length → membersOf st i ≠ []
  sub : ∀ i, ∀ x ∈ membersOf st i, x ∈ m.managed
  closed : ∀ i, ∀ x ∈ membersOf st i, ∀ y, MustLinked m x y → y ∈ membersOf st i
  nocl : ∀ i, ¬ R i → ∀ x ∈ membersOf st i, ∀ y ∈ membersOf st i, ¬ CannotLinked m x y
  single : ∀ i j c, Child st i c → Child st j c → i = j
  top : ∀ i c, Child st i c → c ∉ current
  parent : ∀ i, i < st.length → i ∈ current ∨ ∃ j, Child st j i
  count : st.length + current.length ≤ 2 * m.components.length

theorem hCentroid_ok {env : HierEnv V δ} {vectors : Dict α V} {m : Manager α} (hv : HasVectors m vectors)
    {members : List α} (hs : ∀ x ∈ members, x ∈ m.managed) (hne : members ≠ []) :
    ∃ v, hCentroid env vectors members = .ok v := by
  obtain ⟨vs, e⟩ := mapM_total (f := fun x => dget vectors x) (l := members) (fun x hx => by
    obtain ⟨v, hv⟩ := hv x (hs x hx)
    exact ⟨v, dget_of_dget? hv⟩)
  have hvs : vs ≠ [] := by
    rintro rfl
    have := (mapM_ok_iff.1 e).length_eq
    exact hne (List.eq_nil_of_length_eq_zero this)
  refine ⟨env.mean vs, ?_⟩
  unfold hCentroid
  rw [e]
  simp only [bind, Except.bind, if_neg hvs]; rfl

theorem hRemove_fold {current cs : List Nat} (hn : current.Nodup) (hcs : cs.Nodup) (hsub : ∀ c ∈ cs, c ∈ current) :
    cs.foldlM hRemove current = .ok (current.filter fun i => decide (i ∉ cs)) := by
  induction cs generalizing current with
  | nil => simp; rfl
  | cons c cs ih =>
    have hc : c ∈ current := hsub c (by simp)
    rw [List.foldlM_cons]
    have e : hRemove current c = .ok (current.erase c) := by unfold hRemove; rw [if_pos hc]
    rw [e]
    show cs.foldlM hRemove (current.erase c) = _
    rw [ih (hn.erase c) (List.nodup_cons.1 hcs).2 (fun x hx => by
      rw [hn.mem_erase_iff]
      refine ⟨?_, hsub x (by simp [hx])⟩
      rintro rfl; exact (List.nodup_cons.1 hcs).1 hx)]
    congr 1
    rw [hn.erase_eq_filter, List.filter_filter]
    apply List.filter_congr
    intro x _
    by_cases h1 : x = c <;> by_cases h2 : x ∈ cs <;> simp [h1, h2]

theorem perm_filter_append {current cs : List Nat} (hn : current.Nodup) (hcs : cs.Nodup) (hsub : ∀ c ∈ cs, c ∈ current) :
    current.Perm ((current.filter fun i => decide (i ∉ cs)) ++ cs) := by
  apply (List.perm_ext_iff_of_nodup hn _).2
  · intro x
    rw [List.mem_append, List.mem_filter]
    by_cases h : x ∈ cs
    · simp [h, hsub x h]
    · simp [h]
  · rw [List.nodup_append]
    refine ⟨hn.filter _, hcs, ?_⟩
    intro a ha b hb hab
    subst hab
    have := (List.mem_filter.1 ha).2
    simp [hb] at this

/-- Adding a cluster with the next ID does not change the others. -/
theorem dget?_push {ν : Type} {st : Dict Nat ν} (h : SeqKeys st) (v : ν) {i : Nat} (hi : i < st.length) :
    dget? (dset st st.length v) i = dget? st i := by
  rw [dget?_dset, if_neg (by omega)]

theorem membersOf_push {st : Dict Nat (HCluster α V)} (h : SeqKeys st) (n : HCluster α V) {i : Nat} (hi : i < st.length) :
    membersOf (dset st st.length n) i = membersOf st i := by
  unfold membersOf; rw [dget?_push h n hi]

theorem depthOf_push {st : Dict Nat (HCluster α V)} (h : SeqKeys st) (n : HCluster α V) {i : Nat} (hi : i < st.length) :
    depthOf (dset st st.length n) i = depthOf st i := by
  unfold depthOf; rw [dget?_push h n hi]

theorem membersOf_push_self {st : Dict Nat (HCluster α V)} (n : HCluster α V) :
    membersOf (dset st st.length n) st.length = n.members := by
  unfold membersOf; rw [dget?_dset, if_pos rfl]

theorem membersOf_ge {st : Dict Nat (HCluster α V)} (h : SeqKeys st) {i : Nat} (hi : ¬ i < st.length) :
    membersOf st i = [] := by
  unfold membersOf
  rw [dget?_eq_none_iff.2 (fun hc => hi (h.mem.1 hc))]

theorem length_push {ν : Type} {st : Dict Nat ν} (h : SeqKeys st) (v : ν) : (dset st st.length v).length = st.length + 1 := by
  rw [(h.dset v).1]; simp

/-- `forall` over the nodes of a storage with one more cluster. -/
theorem forall_push {ν : Type} {st : Dict Nat ν} (h : SeqKeys st) {v : ν} {P : Nat → ν → Prop}
    (h1 : ∀ i n, dget? st i = some n → P i n) (h2 : P st.length v) :
    ∀ i n, dget? (dset st st.length v) i = some n → P i n := by
  intro i n hi
  rw [dget?_dset] at hi
  split at hi
  · rename_i he
    cases hi; rw [← he]; exact h2
  · exact h1 i n hi

theorem flatMap_membersOf_push {st : Dict Nat (HCluster α V)} (h : SeqKeys st) (n : HCluster α V) {l : List Nat}
    (hl : ∀ i ∈ l, i < st.length) : l.flatMap (membersOf (dset st st.length n)) = l.flatMap (membersOf st) := by
  induction l with
  | nil => rfl
  | cons a l ih =>
    rw [List.flatMap_cons, List.flatMap_cons, membersOf_push h n (hl a (by simp)), ih (fun i hi => hl i (by simp [hi]))]

theorem child_push {st : Dict Nat (HCluster α V)} (h : SeqKeys st) {n : HCluster α V} {i c : Nat} :
    Child (dset st st.length n) i c ↔ Child st i c ∨ (i = st.length ∧ c ∈ n.children) := by
  unfold Child
  rw [dget?_dset]
  split
  · rename_i he
    subst he
    constructor
    · rintro ⟨n', h1, h2⟩; cases h1; exact .inr ⟨rfl, h2⟩
    · rintro (⟨n', h1, -⟩ | ⟨-, h2⟩)
      · have := h.lt h1; omega
      · exact ⟨n, rfl, h2⟩
  · rename_i he
    constructor
    · intro h1; exact .inl h1
    · rintro (h1 | ⟨h1, -⟩)
      · exact h1
      · exact absurd h1.symm he

/-- Merging some of the current clusters. -/
theorem TreeInv.merge {env : HierEnv V δ} {m : Manager α} (h : Inv m) {vectors : Dict α V} (hv : HasVectors m vectors)
    {R R' : Nat → Prop} {s : HState α V δ} (ht : TreeInv m R s.current s.storage) (hit : 1 ≤ s.iteration)
    {cs : List Nat} (hcs : cs.Nodup) (hsub : ∀ c ∈ cs, c ∈ s.current) (h2 : 2 ≤ cs.length)
    (hR : ∀ i, R i → R' i)
    (hcl : R' s.storage.length ∨ ∀ x ∈ cs.flatMap (membersOf s.storage), ∀ y ∈ cs.flatMap (membersOf s.storage),
      ¬ CannotLinked m x y) :
    ∃ n : HCluster α V, hAddMerge env vectors s cs = .ok (s.storage.length,
        { s with current := (s.current.filter fun i => decide (i ∉ cs)) ++ [s.storage.length],
                 storage := dset s.storage s.storage.length n }) ∧
      n.children = cs ∧ n.members = cs.flatMap (membersOf s.storage) ∧
      hCentroid env vectors n.members = .ok n.centroid ∧ n.iteration = s.iteration ∧
      TreeInv m R' ((s.current.filter fun i => decide (i ∉ cs)) ++ [s.storage.length])
        (dset s.storage s.storage.length n) := by
  have hnd : s.current.Nodup := ht.sorted.imp (fun h => Nat.ne_of_lt h)
  have hlt : ∀ c ∈ cs, c < s.storage.length := fun c hc => ht.cur c (hsub c hc)
  have hcne : cs ≠ [] := by rintro rfl; simp at h2
  obtain ⟨c0, hc0⟩ := List.exists_mem_of_ne_nil _ hcne
  have hlen : s.storage.length ≠ 0 := by have := hlt c0 hc0; omega
  -- the children
  obtain ⟨nodes, hnodes, hF⟩ := mapM_dget (d := s.storage) (l := cs) (fun c hc => ht.keys.mem.2 (hlt c hc))
  have hmem : (nodes.flatMap fun n => n.members) = cs.flatMap (membersOf s.storage) := by
    clear hnodes hcs hsub h2 hcl hlt hcne hc0
    induction hF with
    | nil => rfl
    | cons h1 _ ih => rw [List.flatMap_cons, List.flatMap_cons, ih, membersOf_eq h1]
  have hdep : (nodes.map fun n => n.depth) = cs.map (depthOf s.storage) := by
    clear hnodes hcs hsub h2 hcl hlt hcne hc0 hmem
    induction hF with
    | nil => rfl
    | cons h1 _ ih => rw [List.map_cons, List.map_cons, ih, depthOf_eq h1]
  obtain ⟨d, hd⟩ : ∃ d, (cs.map (depthOf s.storage)).max? = some d := by
    cases hm : (cs.map (depthOf s.storage)).max? with
    | none =>
      have := List.max?_eq_none_iff.1 hm
      simp only [List.map_eq_nil_iff] at this
      exact absurd this hcne
    | some d => exact ⟨d, rfl⟩
  -- members of the new cluster
  have hperm := perm_filter_append hnd hcs hsub
  have hcover : (((s.current.filter fun i => decide (i ∉ cs)).flatMap (membersOf s.storage)) ++
      cs.flatMap (membersOf s.storage)).Perm m.managed := by
    rw [← List.flatMap_append]
    exact (hperm.flatMap_right _).symm.trans ht.cover
  have hmnd : (cs.flatMap (membersOf s.storage)).Nodup :=
    (List.nodup_append.1 (hcover.nodup_iff.2 h.d.nodup)).2.1
  have hmsub : ∀ x ∈ cs.flatMap (membersOf s.storage), x ∈ m.managed := by
    intro x hx
    obtain ⟨c, -, hxc⟩ := List.mem_flatMap.1 hx
    exact ht.sub c x hxc
  have hmne : cs.flatMap (membersOf s.storage) ≠ [] := by
    obtain ⟨x, hx⟩ := List.exists_mem_of_ne_nil _ (ht.ne c0 (hlt c0 hc0))
    intro h0
    have : x ∈ cs.flatMap (membersOf s.storage) := List.mem_flatMap.2 ⟨c0, hc0, hx⟩
    rw [h0] at this; cases this
  obtain ⟨v, hvv⟩ := hCentroid_ok (env := env) hv hmsub hmne
  refine ⟨⟨s.iteration, cs, d + 1, cs.flatMap (membersOf s.storage), v⟩, ?_, rfl, rfl, hvv, rfl, ?_⟩
  · unfold hAddMerge
    rw [hRemove_fold hnd hcs hsub]
    have hmax := ht.keys.max
    rw [if_neg hlen] at hmax
    simp only [bind, Except.bind, hmax]
    have he : s.storage.length - 1 + 1 = s.storage.length := by omega
    rw [he]
    unfold hCreate
    rw [hnodes]
    simp only [bind, Except.bind, hmem, hdep, hd, hvv, pure, Except.pure]
  · have hk := ht.keys
    refine ⟨(hk.dset _).2, ?_, ?_, ?_, ?_, ?_, ?_, ?_, ?_, ?_, ?_, ?_, ?_, ?_, ?_, ?_⟩
    · -- sorted
      rw [List.pairwise_append]
      refine ⟨ht.sorted.filter _, by simp, ?_⟩
      intro a ha b hb
      rw [List.mem_singleton] at hb
      subst hb
      exact ht.cur a (List.mem_of_mem_filter ha)
    · -- cur
      intro i hi
      rw [length_push hk]
      rcases List.mem_append.1 hi with hi | hi
      · have := ht.cur i (List.mem_of_mem_filter hi); omega
      · rw [List.mem_singleton] at hi; omega
    · -- cover
      rw [List.flatMap_append, flatMap_membersOf_push hk _ (fun i hi => ht.cur i (List.mem_of_mem_filter hi))]
      rw [List.flatMap_cons, List.flatMap_nil, membersOf_push_self, List.append_nil]
      exact hcover
    · -- leaf
      exact forall_push hk ht.leaf (fun h0 => absurd h0 hcne)
    · -- inner
      refine forall_push hk (P := fun i n => n.children ≠ [] → 2 ≤ n.children.length ∧ (∀ c ∈ n.children, c < i) ∧
        n.children.Nodup ∧ n.members = n.children.flatMap (membersOf _) ∧ 1 ≤ n.iteration ∧
        ∃ d, (n.children.map (depthOf _)).max? = some d ∧ n.depth = d + 1) ?_ ?_
      · intro i n hi hne
        obtain ⟨e1, e2, e3, e4, e5, e6⟩ := ht.inner i n hi hne
        have hil := hk.lt hi
        refine ⟨e1, e2, e3, ?_, e5, ?_⟩
        · rw [flatMap_membersOf_push hk _ (fun c hc => by have := e2 c hc; omega)]; exact e4
        · obtain ⟨d', hd1, hd2⟩ := e6
          refine ⟨d', ?_, hd2⟩
          rw [← hd1]
          congr 1
          apply List.map_congr_left
          intro c hc
          exact depthOf_push hk _ (by have := e2 c hc; omega)
      · intro _
        refine ⟨h2, hlt, hcs, ?_, hit, d, ?_, rfl⟩
        · rw [flatMap_membersOf_push hk _ hlt]
        · rw [← hd]
          congr 1
          apply List.map_congr_left
          intro c hc
          exact depthOf_push hk _ (hlt c hc)
    · -- leaves
      intro xs hxs
      obtain ⟨i, n, e1, e2, e3⟩ := ht.leaves xs hxs
      exact ⟨i, n, by rw [dget?_push hk _ (hk.lt e1)]; exact e1, e2, e3⟩
    · -- nodup
      intro i
      by_cases hi : i < s.storage.length
      · rw [membersOf_push hk _ hi]; exact ht.nodup i
      · by_cases hi2 : i = s.storage.length
        · subst hi2; rw [membersOf_push_self]; exact hmnd
        · rw [membersOf_ge (hk.dset _).2 (by rw [length_push hk]; omega)]; exact List.nodup_nil
    · -- ne
      intro i hi
      rw [length_push hk] at hi
      by_cases hi2 : i < s.storage.length
      · rw [membersOf_push hk _ hi2]; exact ht.ne i hi2
      · have : i = s.storage.length := by omega
        subst this; rw [membersOf_push_self]; exact hmne
    · -- sub
      intro i
      by_cases hi : i < s.storage.length
      · rw [membersOf_push hk _ hi]; exact ht.sub i
      · by_cases hi2 : i = s.storage.length
        · subst hi2; rw [membersOf_push_self]; exact hmsub
        · rw [membersOf_ge (hk.dset _).2 (by rw [length_push hk]; omega)]; simp
    · -- closed
      intro i
      by_cases hi : i < s.storage.length
      · rw [membersOf_push hk _ hi]; exact ht.closed i
      · by_cases hi2 : i = s.storage.length
        · subst hi2
          rw [membersOf_push_self]
          intro x hx y hl
          obtain ⟨c, hc, hxc⟩ := List.mem_flatMap.1 hx
          exact List.mem_flatMap.2 ⟨c, hc, ht.closed c x hxc y hl⟩
        · rw [membersOf_ge (hk.dset _).2 (by rw [length_push hk]; omega)]; simp
    · -- nocl
      intro i hR'
      by_cases hi : i < s.storage.length
      · rw [membersOf_push hk _ hi]; exact ht.nocl i (fun hr => hR' (hR i hr))
      · by_cases hi2 : i = s.storage.length
        · subst hi2
          rw [membersOf_push_self]
          rcases hcl with hcl | hcl
          · exact absurd hcl hR'
          · exact hcl
        · rw [membersOf_ge (hk.dset _).2 (by rw [length_push hk]; omega)]; simp
    · -- single
      intro i j c h1 h2
      rw [child_push hk] at h1 h2
      rcases h1 with h1 | ⟨rfl, h1⟩ <;> rcases h2 with h2 | ⟨rfl, h2⟩
      · exact ht.single i j c h1 h2
      · exact absurd (hsub c h2) (ht.top i c h1)
      · exact absurd (hsub c h1) (ht.top j c h2)
      · rfl
    · -- top
      intro i c h1 hc
      rw [child_push hk] at h1
      rcases List.mem_append.1 hc with hc | hc
      · rcases h1 with h1 | ⟨-, h1⟩
        · exact ht.top i c h1 (List.mem_of_mem_filter hc)
        · have := (List.mem_filter.1 hc).2
          simp only at h1
          simp [h1] at this
      · rw [List.mem_singleton] at hc
        subst hc
        rcases h1 with ⟨n, hn1, hn2⟩ | ⟨-, h1⟩
        · have hne : n.children ≠ [] := fun h0 => by rw [h0] at hn2; cases hn2
          have h3 := (ht.inner i n hn1 hne).2.1 _ hn2
          have h4 := hk.lt hn1
          omega
        · have := hlt _ h1; omega
    · -- parent
      intro i hi
      rw [length_push hk] at hi
      by_cases hi2 : i = s.storage.length
      · left; subst hi2; simp
      · by_cases hic : i ∈ cs
        · right
          exact ⟨s.storage.length, (child_push hk).2 (.inr ⟨rfl, hic⟩)⟩
        · rcases ht.parent i (by omega) with h1 | ⟨j, h1⟩
          · left
            exact List.mem_append.2 (.inl (List.mem_filter.2 ⟨h1, by simp [hic]⟩))
          · right; exact ⟨j, (child_push hk).2 (.inl h1)⟩
    · -- count
      rw [length_push hk, List.length_append]
      have h1 := hperm.length_eq
      rw [List.length_append] at h1
      have h3 := ht.count
      simp only [List.length_singleton]
      omega

/-! ### The initial clusters -/

structure LeafInv (env : HierEnv V δ) (vectors : Dict α V) (P : List (List α)) (s : HState α V δ) : Prop where
  keys : SeqKeys s.storage
  cur : s.current = List.range s.storage.length
  len : s.storage.length = P.length
  flat : (List.range s.storage.length).flatMap (membersOf s.storage) = P.flatten
  get : ∀ i n, dget? s.storage i = some n → n.children = [] ∧ n.iteration = 0 ∧ n.depth = 0 ∧ P[i]? = some n.members
  cent : ∀ i n, dget? s.storage i = some n → hCentroid env vectors n.members = .ok n.centroid
  iter : s.iteration = 0
  dist : s.distances = []

theorem hAddLeaf_fold {env : HierEnv V δ} {m : Manager α} {vectors : Dict α V} (hv : HasVectors m vectors)
    {Q : List (List α)} (hQ : ∀ xs ∈ Q, xs ≠ [] ∧ ∀ x ∈ xs, x ∈ m.managed) {P : List (List α)} {s : HState α V δ}
    (hs : LeafInv env vectors P s) : ∃ s', Q.foldlM (hAddLeaf env vectors) s = .ok s' ∧ LeafInv env vectors (P ++ Q) s' := by
  induction Q generalizing P s with
  | nil => exact ⟨s, rfl, by rw [List.append_nil]; exact hs⟩
  | cons xs Q ih =>
    obtain ⟨hxne, hxs⟩ := hQ xs (by simp)
    obtain ⟨v, hvv⟩ := hCentroid_ok (env := env) hv hxs hxne
    have hid : hNextId s.storage = s.storage.length := by
      unfold hNextId
      rw [hs.keys.max]
      by_cases h0 : s.storage.length = 0
      · rw [if_pos h0, h0]
      · rw [if_neg h0]; show s.storage.length - 1 + 1 = _; omega
    have hstep : hAddLeaf env vectors s xs = .ok { s with
        current := s.current ++ [s.storage.length]
        storage := dset s.storage s.storage.length ⟨s.iteration, [], 0, xs, v⟩ } := by
      unfold hAddLeaf
      simp only [hid, hvv, bind, Except.bind]; rfl
    rw [List.foldlM_cons, hstep]
    have hk := hs.keys
    have hs' : LeafInv env vectors (P ++ [xs]) ({ s with
        current := s.current ++ [s.storage.length]
        storage := dset s.storage s.storage.length ⟨s.iteration, [], 0, xs, v⟩ } : HState α V δ) := by
      refine ⟨(hk.dset _).2, ?_, ?_, ?_, ?_, ?_, hs.iter, hs.dist⟩
      · simp only
        rw [length_push hk, List.range_succ, hs.cur]
      · simp only
        rw [length_push hk, List.length_append, hs.len]; rfl
      · simp only
        rw [length_push hk, List.range_succ, List.flatMap_append,
          flatMap_membersOf_push hk _ (fun i hi => List.mem_range.1 hi), hs.flat, List.flatMap_cons,
          List.flatMap_nil, membersOf_push_self, List.append_nil, List.flatten_append]
        simp
      · refine forall_push hk (P := fun i n => n.children = [] ∧ n.iteration = 0 ∧ n.depth = 0 ∧
          (P ++ [xs])[i]? = some n.members) ?_ ?_
        · intro i n hi
          obtain ⟨e1, e2, e3, e4⟩ := hs.get i n hi
          refine ⟨e1, e2, e3, ?_⟩
          rw [List.getElem?_append_left (by have := hk.lt hi; have := hs.len; omega)]
          exact e4
        · refine ⟨rfl, hs.iter, rfl, ?_⟩
          rw [hs.len]; simp
      · exact forall_push hk hs.cent hvv
    obtain ⟨s', e1, e2⟩ := ih (fun ys hys => hQ ys (by simp [hys])) hs'
    refine ⟨s', e1, ?_⟩
    rw [List.append_assoc] at e2
    exact e2

theorem LeafInv.tree {env : HierEnv V δ} {vectors : Dict α V} {m : Manager α} (h : Inv m) {s : HState α V δ} (hs : LeafInv env vectors m.components s) :
    TreeInv m (fun _ => False) s.current s.storage := by
  have hmem : ∀ i, ∀ x ∈ membersOf s.storage i, ∃ c ∈ m.components, membersOf s.storage i = c := by
    intro i x hx
    by_cases hi : i < s.storage.length
    · obtain ⟨n, hn⟩ := hs.keys.exists hi
      obtain ⟨-, -, -, e⟩ := hs.get i n hn
      rw [membersOf_eq hn]
      exact ⟨_, List.mem_of_getElem? e, rfl⟩
    · rw [membersOf_ge hs.keys hi] at hx; cases hx
  have hch : ∀ i c, ¬ Child s.storage i c := by
    rintro i c ⟨n, hn, hc⟩
    rw [(hs.get i n hn).1] at hc; cases hc
  refine ⟨hs.keys, ?_, ?_, ?_, ?_, ?_, ?_, ?_, ?_, ?_, ?_, ?_, ?_, ?_, ?_, ?_⟩
  · rw [hs.cur]; exact List.pairwise_lt_range
  · intro i hi; rw [hs.cur] at hi; exact List.mem_range.1 hi
  · rw [hs.cur, hs.flat]; exact components_flatten_perm h
  · intro i n hn _
    obtain ⟨-, e2, e3, e4⟩ := hs.get i n hn
    exact ⟨List.mem_of_getElem? e4, e2, e3⟩
  · intro i n hn hne; exact absurd (hs.get i n hn).1 hne
  · intro xs hxs
    obtain ⟨i, hi⟩ := List.getElem?_of_mem hxs
    have hil : i < s.storage.length := by
      rw [hs.len]; exact (List.getElem?_eq_some_iff.1 hi).1
    obtain ⟨n, hn⟩ := hs.keys.exists hil
    obtain ⟨e1, -, -, e4⟩ := hs.get i n hn
    rw [hi] at e4
    exact ⟨i, n, hn, e1, (Option.some.inj e4).symm⟩
  · intro i
    cases hM : membersOf s.storage i with
    | nil => exact List.nodup_nil
    | cons a l =>
      obtain ⟨c, hc, e⟩ := hmem i a (by rw [hM]; simp)
      rw [← hM, e]; exact component_nodup h hc
  · intro i hi
    obtain ⟨n, hn⟩ := hs.keys.exists hi
    obtain ⟨-, -, -, e⟩ := hs.get i n hn
    rw [membersOf_eq hn]
    exact component_ne_nil h (List.mem_of_getElem? e)
  · intro i x hx
    obtain ⟨c, hc, e⟩ := hmem i x hx
    rw [e] at hx
    exact (mem_component_iff h hc hx).1
  · intro i x hx y hl
    obtain ⟨c, hc, e⟩ := hmem i x hx
    rw [e] at hx ⊢
    exact ((mem_component_iff h hc hx).2 y).2 hl
  · intro i _ x hx y hy
    obtain ⟨c, hc, e⟩ := hmem i x hx
    rw [e] at hx hy
    exact not_both h (((mem_component_iff h hc hx).2 y).1 hy)
  · intro i j c h1; exact absurd h1 (hch i c)
  · intro i c h1; exact absurd h1 (hch i c)
  · intro i hi; left; rw [hs.cur]; exact List.mem_range.2 hi
  · rw [hs.cur, List.length_range, hs.len]; omega

theorem leafInv_init (env : HierEnv V δ) (vectors : Dict α V) : LeafInv env vectors [] (⟨[], [], [], 0⟩ : HState α V δ) :=
  ⟨rfl, rfl, rfl, rfl, fun i n h => by simp [dget?] at h, fun i n h => by simp [dget?] at h, rfl, rfl⟩

end Verif
