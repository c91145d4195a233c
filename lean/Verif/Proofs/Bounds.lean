import Verif.Spec.Bounds
import Verif.Proofs.Coloring

/-
`get_min_and_max_number_of_clusters` under the invariant.
-/

set_option linter.unusedSectionVars false

namespace Verif

variable {α : Type} [LinearOrder α]

theorem respects_iff {m : Manager α} (h : Inv m) {f : α → Nat} :
    Respects m f ↔ ∀ x ∈ m.managed, ∀ y ∈ m.managed,
      (MustLinked m x y → f x = f y) ∧ (CannotLinked m x y → f x ≠ f y) := by
  unfold Respects
  constructor
  · intro hr x hx y hy
    have := hr x hx y hy
    rwa [inferred_ml_iff h hx hy, inferred_cl_iff h hx hy] at this
  · intro hr x hx y hy
    rw [inferred_ml_iff h hx hy, inferred_cl_iff h hx hy]
    exact hr x hx y hy

theorem clusterCount_eq_card (ids : List α) (f : α → Nat) :
    clusterCount ids f = (ids.map f).toFinset.card := by
  rw [List.card_toFinset]; rfl

/-- Any assignment respecting must-links uses at most one cluster per component. -/
theorem clusterCount_le {m : Manager α} (h : Inv m) {f : α → Nat} (hf : Respects m f) :
    clusterCount m.managed f ≤ m.components.length := by
  rw [respects_iff h] at hf
  rw [clusterCount_eq_card]
  have : (m.managed.map f).toFinset ⊆ (m.components.map (fun c => (c.head?.map f).getD 0)).toFinset := by
    intro v hv
    rw [List.mem_toFinset, List.mem_map] at hv ⊢
    obtain ⟨x, hx, rfl⟩ := hv
    obtain ⟨c, hc, hxc⟩ := exists_component h hx
    refine ⟨c, hc, ?_⟩
    cases c with
    | nil => simp at hxc
    | cons z c =>
      obtain ⟨hzm, hz⟩ := mem_component_iff h hc (List.mem_cons_self ..)
      simpa using (hf z hzm x hx).1 ((hz x).1 hxc)
  refine le_trans (Finset.card_le_card this) ?_
  refine le_trans (List.toFinset_card_le _) ?_
  simp

/-- If fewer clusters than components are used, one more can be used. -/
theorem clusterCount_succ {m : Manager α} (h : Inv m) {f : α → Nat} (hf : Respects m f)
    (hlt : clusterCount m.managed f < m.components.length) :
    ∃ f', Respects m f' ∧ clusterCount m.managed f' = clusterCount m.managed f + 1 := by
  classical
  have hf' := (respects_iff h).1 hf
  -- two components share a cluster
  obtain ⟨c₁, hc₁, c₂, hc₂, hne, x₁, hx₁, x₂, hx₂, hfx⟩ :
      ∃ c₁ ∈ m.components, ∃ c₂ ∈ m.components, c₁ ≠ c₂ ∧ ∃ x₁ ∈ c₁, ∃ x₂ ∈ c₂, f x₁ = f x₂ := by
    by_contra hcon
    push Not at hcon
    have hnd : (m.components.map (fun c => (c.head?.map f).getD 0)).Nodup := by
      refine List.Nodup.map_on ?_ (components_nodup m)
      intro c hc c' hc' he
      by_contra hne
      have e1 := component_ne_nil h hc
      have e2 := component_ne_nil h hc'
      cases c with
      | nil => exact e1 rfl
      | cons z c =>
        cases c' with
        | nil => exact e2 rfl
        | cons z' c' =>
          exact hcon _ hc _ hc' hne z (by simp) z' (by simp) (by simpa using he)
    have hsub : (m.components.map (fun c => (c.head?.map f).getD 0)).toFinset ⊆ (m.managed.map f).toFinset := by
      intro v hv
      rw [List.mem_toFinset, List.mem_map] at hv ⊢
      obtain ⟨c, hc, rfl⟩ := hv
      have e1 := component_ne_nil h hc
      cases c with
      | nil => exact absurd rfl e1
      | cons z c => exact ⟨z, (mem_component_iff h hc (List.mem_cons_self ..)).1, by simp⟩
    have := Finset.card_le_card hsub
    rw [List.toFinset_card_of_nodup hnd, List.length_map, ← clusterCount_eq_card] at this
    exact absurd hlt (not_lt.2 this)
  have hfresh : ∃ v, v ∉ m.managed.map f := by
    obtain ⟨v, -, hv⟩ := exists_notMem_range (m.managed.map f)
    exact ⟨v, hv⟩
  obtain ⟨v, hv⟩ := hfresh
  have hin : ∀ x ∈ m.managed, ∀ y ∈ m.managed, MustLinked m x y → (x ∈ c₁ ↔ y ∈ c₁) := by
    intro x _ y _ hl
    constructor
    · intro hx; exact ((mem_component_iff h hc₁ hx).2 y).2 hl
    · intro hy; exact ((mem_component_iff h hc₁ hy).2 x).2 (hl.symm h)
  refine ⟨fun x => if x ∈ c₁ then v else f x, (respects_iff h).2 ?_, ?_⟩
  · intro x hx y hy
    have hfxv : f x ≠ v := fun he => hv (he ▸ List.mem_map_of_mem hx)
    have hfyv : f y ≠ v := fun he => hv (he ▸ List.mem_map_of_mem hy)
    constructor
    · intro hl
      show (if x ∈ c₁ then v else f x) = (if y ∈ c₁ then v else f y)
      simp only [hin x hx y hy hl, (hf' x hx y hy).1 hl]
    · intro hl
      show (if x ∈ c₁ then v else f x) ≠ (if y ∈ c₁ then v else f y)
      by_cases hxc : x ∈ c₁
      · by_cases hyc : y ∈ c₁
        · exact absurd hl (fun hl => not_both h (((mem_component_iff h hc₁ hxc).2 y).1 hyc) hl)
        · rw [if_pos hxc, if_neg hyc]; exact fun he => hfyv he.symm
      · by_cases hyc : y ∈ c₁
        · rw [if_neg hxc, if_pos hyc]; exact hfxv
        · rw [if_neg hxc, if_neg hyc]; exact (hf' x hx y hy).2 hl
  · rw [clusterCount_eq_card, clusterCount_eq_card]
    have himg : (m.managed.map (fun x => if x ∈ c₁ then v else f x)).toFinset =
        insert v (m.managed.map f).toFinset := by
      ext w
      rw [List.mem_toFinset, Finset.mem_insert, List.mem_toFinset, List.mem_map, List.mem_map]
      constructor
      · rintro ⟨x, hx, rfl⟩
        by_cases hxc : x ∈ c₁
        · left; simp [hxc]
        · right; exact ⟨x, hx, by simp [hxc]⟩
      · rintro (rfl | ⟨x, hx, rfl⟩)
        · exact ⟨x₁, (mem_component_iff h hc₁ hx₁).1, by simp [hx₁]⟩
        · by_cases hxc : x ∈ c₁
          · refine ⟨x₂, (mem_component_iff h hc₂ hx₂).1, ?_⟩
            have hx₂' : x₂ ∉ c₁ := fun hh => hne (component_unique h hc₁ hc₂ hh hx₂)
            rw [if_neg hx₂', ← hfx]
            exact (hf' x₁ (mem_component_iff h hc₁ hx₁).1 x hx).1 (((mem_component_iff h hc₁ hx₁).2 x).1 hxc)
          · exact ⟨x, hx, by simp [hxc]⟩
    rw [himg, Finset.card_insert_of_notMem]
    rw [List.mem_toFinset]; exact hv

theorem clusterCount_reach {m : Manager α} (h : Inv m) {f : α → Nat} (hf : Respects m f) {k : Nat}
    (h1 : clusterCount m.managed f ≤ k) (h2 : k ≤ m.components.length) :
    ∃ f', Respects m f' ∧ clusterCount m.managed f' = k := by
  induction k with
  | zero => exact ⟨f, hf, Nat.le_zero.1 h1⟩
  | succ k ih =>
    rcases Nat.lt_or_ge (clusterCount m.managed f) (k + 1) with hlt | hge
    · obtain ⟨f', hf1, hf2⟩ := ih (Nat.lt_succ_iff.1 hlt) (Nat.le_of_succ_le h2)
      obtain ⟨f'', hf3, hf4⟩ := clusterCount_succ h hf1 (by omega)
      exact ⟨f'', hf3, by omega⟩
    · exact ⟨f, hf, le_antisymm h1 hge⟩

/-! ### The graph -/

theorem mapM_forall₂ {β γ : Type} {l : List β} {f : β → Except PyErr γ} {P : β → γ → Prop}
    (h : ∀ x ∈ l, ∃ y, f x = .ok y ∧ P x y) :
    ∃ ys, l.mapM f = .ok ys ∧ List.Forall₂ P l ys := by
  induction l with
  | nil => exact ⟨[], rfl, .nil⟩
  | cons a l ih =>
    obtain ⟨y, hy, hp⟩ := h a (by simp)
    obtain ⟨ys, hys, hf⟩ := ih (fun x hx => h x (by simp [hx]))
    refine ⟨y :: ys, ?_, .cons hp hf⟩
    rw [List.mapM_cons, hy, hys]
    rfl

/-- cannot-link list of an ID in the table -/
def clOf (m : Manager α) (x : α) : List α := ((dget? m.trans x).map TEntry.cl).getD []

theorem mem_clOf {m : Manager α} (h : Inv m) {x : α} (hx : x ∈ m.managed) (y : α) :
    y ∈ clOf m x ↔ CannotLinked m x y := by
  obtain ⟨e, he⟩ := h.t.get hx
  rw [clOf, he, cannotLinked_iff h]
  exact h.t.cl x e he y

theorem nodup_clOf {m : Manager α} (h : Inv m) {x : α} (hx : x ∈ m.managed) : (clOf m x).Nodup := by
  obtain ⟨e, he⟩ := h.t.get hx
  rw [clOf, he]
  exact h.t.clNodup x e he

theorem length_clOf_congr {m : Manager α} (h : Inv m) {x y : α} (hx : x ∈ m.managed)
    (hl : MustLinked m x y) : (clOf m x).length = (clOf m y).length := by
  have hy := hl.mem h hx
  refine ((List.perm_ext_iff_of_nodup (nodup_clOf h hx) (nodup_clOf h hy)).2 ?_).length_eq
  intro z
  rw [mem_clOf h hx, mem_clOf h hy]
  exact ⟨fun hc => hc.congr (hl.symm h) (.refl _ _), fun hc => hc.congr hl (.refl _ _)⟩

structure IdsOK (m : Manager α) (ids : List α) : Prop where
  len : ids.length = m.components.length
  mem : ∀ x ∈ ids, x ∈ m.managed
  nodup : ids.Nodup
  uniq : ∀ x ∈ ids, ∀ y ∈ ids, MustLinked m x y → x = y
  rep : ∀ x ∈ m.managed, ∃ r ∈ ids, MustLinked m x r

theorem componentIds_ok {m : Manager α} (h : Inv m) : ∃ ids, m.componentIds = .ok ids ∧ IdsOK m ids := by
  obtain ⟨ids, h1, h2⟩ := mapM_forall₂ (l := m.components)
    (f := fun c => match c with | [] => .error .indexError | x :: _ => .ok x)
    (P := fun c x => c.head? = some x) (by
      intro c hc
      have := component_ne_nil h hc
      cases c with
      | nil => exact absurd rfl this
      | cons x c => exact ⟨x, rfl, rfl⟩)
  refine ⟨ids, h1, ?_⟩
  have hlen := h2.length_eq
  have hids : ids = m.components.filterMap List.head? := by
    clear h1 hlen
    generalize m.components = cs at h2
    induction h2 with
    | nil => rfl
    | cons hp _ ih => rw [List.filterMap_cons, hp, ← ih]
  have hmem : ∀ x, x ∈ ids ↔ ∃ c ∈ m.components, c.head? = some x := by
    intro x; rw [hids, List.mem_filterMap]
  have hxin : ∀ {c : List α} {x}, c.head? = some x → x ∈ c := by
    intro c x hcx
    cases c with
    | nil => cases hcx
    | cons z c => cases hcx; simp
  have huniq : ∀ x ∈ ids, ∀ y ∈ ids, MustLinked m x y → x = y := by
    intro x hx y hy hl
    obtain ⟨c, hc, hcx⟩ := (hmem x).1 hx
    obtain ⟨c', hc', hcy⟩ := (hmem y).1 hy
    have hyc : y ∈ c := ((mem_component_iff h hc (hxin hcx)).2 y).2 hl
    have := component_unique h hc hc' hyc (hxin hcy)
    subst this
    rw [hcx] at hcy
    exact Option.some.inj hcy
  refine ⟨hlen.symm, ?_, ?_, huniq, ?_⟩
  · intro x hx
    obtain ⟨c, hc, hcx⟩ := (hmem x).1 hx
    exact (mem_component_iff h hc (hxin hcx)).1
  · have : m.components.Pairwise (fun c c' => ∀ x, x ∈ c.head? → ∀ y, y ∈ c'.head? → x ≠ y) := by
      refine (components_disjoint h).imp ?_
      rintro c c' hd x hx y hy rfl
      exact hd x (hxin hx) (hxin hy)
    rw [hids]
    unfold List.Nodup
    rw [List.pairwise_filterMap]
    refine this.imp ?_
    intro c c' hcc x hx y hy
    exact hcc x hx y hy
  · intro x hx
    obtain ⟨c, hc, hxc⟩ := exists_component h hx
    have := component_ne_nil h hc
    cases c with
    | nil => exact absurd rfl this
    | cons z c =>
      exact ⟨z, (hmem z).2 ⟨_, hc, rfl⟩, ((mem_component_iff h hc hxc).2 z).1 (by simp)⟩

theorem linkedIds_ok {m : Manager α} (h : Inv m) {ids : List α} (hi : ∀ x ∈ ids, x ∈ m.managed) :
    m.linkedIds ids = .ok (ids.filter fun x => decide (1 < (clOf m x).length)) := by
  unfold Manager.linkedIds
  have : ids.mapM (fun x => do return (x, ← dget m.trans x)) =
      Except.ok (ids.map fun x => (x, (dget? m.trans x).getD ⟨[], []⟩)) := by
    apply mapM_ok
    intro x hx
    obtain ⟨e, he⟩ := h.t.get (hi x hx)
    simp [dget, he, bind, Except.bind, pure, Except.pure]
  rw [this]
  show Except.ok _ = _
  rw [List.filter_map, List.map_map]
  congr 1
  have e1 : ids.filter ((fun p : α × TEntry α => decide (1 < p.2.cl.length)) ∘
      fun x => (x, (dget? m.trans x).getD ⟨[], []⟩)) =
      ids.filter fun x => decide (1 < (clOf m x).length) := by
    apply List.filter_congr
    intro x hx
    obtain ⟨e, he⟩ := h.t.get (hi x hx)
    simp [clOf, he]
  rw [e1]
  exact List.map_id _

theorem mem_linkedEdges {m : Manager α} {linked : List α} {i j : Nat} :
    (i, j) ∈ m.linkedEdges linked ↔
      i < j ∧ ∃ a b, linked[i]? = some a ∧ linked[j]? = some b ∧ b ∈ clOf m a := by
  unfold Manager.linkedEdges
  simp only [List.mem_filterMap, List.mem_flatMap, List.mem_map, Prod.exists, List.mem_zipIdx_iff_getElem?,
    Option.ite_none_right_eq_some, Option.some.injEq, Prod.mk.injEq]
  constructor
  · rintro ⟨a, i', b, j', ⟨a', i'', ha, b', j'', hb, ⟨rfl, rfl⟩, rfl, rfl⟩, ⟨hlt, hcl⟩, rfl, rfl⟩
    exact ⟨hlt, a', b', ha, hb, hcl⟩
  · rintro ⟨hlt, a, b, ha, hb, hcl⟩
    exact ⟨a, i, b, j, ⟨a, i, ha, b, j, hb, ⟨rfl, rfl⟩, rfl, rfl⟩, ⟨hlt, hcl⟩, rfl, rfl⟩

theorem graphAdj_symm (edges : List (Nat × Nat)) (u v : α ⊕ Nat) :
    graphAdj edges u v = graphAdj edges v u := by
  cases u <;> cases v <;> simp [graphAdj, or_comm]

theorem mem_graphNodes_inr {ids : List α} {edges : List (Nat × Nat)} {i : Nat} :
    (Sum.inr i : α ⊕ Nat) ∈ graphNodes ids edges ↔ ∃ j, (i, j) ∈ edges ∨ (j, i) ∈ edges := by
  unfold graphNodes
  simp only [List.mem_append, List.mem_map, reduceCtorEq, and_false, exists_false, false_or, Sum.inr.injEq,
    exists_eq_right, mem_ounion, List.not_mem_nil, List.mem_flatMap, List.mem_cons, or_false, Prod.exists]
  constructor
  · rintro ⟨a, b, he, rfl | rfl⟩
    · exact ⟨b, .inl he⟩
    · exact ⟨a, .inr he⟩
  · rintro ⟨j, he | he⟩
    · exact ⟨i, j, he, .inl rfl⟩
    · exact ⟨j, i, he, .inr rfl⟩

theorem nodup_graphNodes {ids : List α} (hn : ids.Nodup) (edges : List (Nat × Nat)) :
    (graphNodes ids edges).Nodup := by
  unfold graphNodes
  rw [List.nodup_append]
  refine ⟨hn.map Sum.inl_injective, (nodup_ounion List.nodup_nil).map Sum.inr_injective, ?_⟩
  rintro a ha b hb rfl
  obtain ⟨x, -, rfl⟩ := List.mem_map.1 ha
  obtain ⟨y, -, hy⟩ := List.mem_map.1 hb
  cases hy

/-- Result of one greedy colouring of the graph: bounded maximum and a proper colouring of the
positions of the kept components. -/
theorem greedy_run {m : Manager α} {ids linked : List α} (hids : ids ≠ []) (hn : ids.Nodup)
    {order : List (α ⊕ Nat)} (ho : order.Perm (graphNodes ids (m.linkedEdges linked))) :
    ∃ M, pyMax (dvals (greedyColor (graphAdj (m.linkedEdges linked)) order)) = .ok M ∧
      M ≤ linked.length - 1 ∧
      ∃ col : Nat → Nat, (∀ i, col i ≤ M) ∧ ∀ i j, (i, j) ∈ m.linkedEdges linked → col i ≠ col j := by
  set edges := m.linkedEdges linked with hedges
  have hnd : order.Nodup := ho.nodup_iff.2 (nodup_graphNodes hn edges)
  have hg := greedyColor_ok (graphAdj edges) (graphAdj_symm edges) order hnd
  set C := greedyColor (graphAdj edges) order with hC
  have hCk : (dkeys C).Nodup := hg.keys ▸ hnd
  have hne : dvals C ≠ [] := by
    intro hnil
    have h1 : C = [] := by simpa [dvals] using hnil
    have h2 : order = [] := by rw [← hg.keys, h1]; rfl
    rw [h2] at ho
    have := ho.length_eq
    unfold graphNodes at this
    simp at this
    exact hids (List.length_eq_zero_iff.1 (by omega))
  obtain ⟨M, hM1, hM2, hM3⟩ := pyMax_spec hne
  have hget : ∀ u c, dget? C u = some c → c ≤ M := by
    intro u c hu
    exact hM3 c (List.mem_map.2 ⟨(u, c), mem_of_dget? hu, rfl⟩)
  refine ⟨M, hM1, ?_, fun i => (dget? C (Sum.inr i)).getD 0, ?_, ?_⟩
  · obtain ⟨⟨u, c⟩, hm, rfl⟩ := List.mem_map.1 hM2
    have hb := hg.bound u c (dget?_of_mem hCk hm)
    have huo : u ∈ order := by rw [← hg.keys]; exact mem_dkeys_of_mem hm
    refine le_trans hb ?_
    cases u with
    | inl x =>
      have : ((order.filter (· ≠ Sum.inl x)).filter fun v => graphAdj edges (Sum.inl x) v) = [] := by
        rw [List.filter_eq_nil_iff]
        intro v _
        cases v <;> simp [graphAdj]
      rw [this]; simp
    | inr i =>
      have hlt : ∀ {a b : Nat}, (a, b) ∈ edges → a < linked.length ∧ b < linked.length := by
        intro a b hab
        obtain ⟨-, p, q, hp, hq, -⟩ := mem_linkedEdges.1 hab
        exact ⟨(List.getElem?_eq_some_iff.1 hp).1, (List.getElem?_eq_some_iff.1 hq).1⟩
      have hi : i < linked.length := by
        obtain ⟨j, he | he⟩ := mem_graphNodes_inr.1 (ho.mem_iff.1 huo)
        · exact (hlt he).1
        · exact (hlt he).2
      have hsub : ((order.filter (· ≠ Sum.inr i)).filter fun v => graphAdj edges (Sum.inr i) v) ⊆
          ((List.range linked.length).erase i).map (Sum.inr : Nat → α ⊕ Nat) := by
        intro v hv
        simp only [List.mem_filter, decide_eq_true_eq, ne_eq] at hv
        obtain ⟨⟨hvo, hvi⟩, hadj⟩ := hv
        cases v with
        | inl x => simp [graphAdj] at hadj
        | inr j =>
          simp only [graphAdj, decide_eq_true_eq] at hadj
          refine List.mem_map.2 ⟨j, ?_, rfl⟩
          rw [List.nodup_range.mem_erase_iff]
          refine ⟨fun he => hvi (by rw [he]), List.mem_range.2 ?_⟩
          rcases hadj with he | he
          · exact (hlt he).2
          · exact (hlt he).1
      have hnd' : ((order.filter (· ≠ Sum.inr i)).filter fun v => graphAdj edges (Sum.inr i) v).Nodup :=
        (hnd.filter _).filter _
      have := (List.subperm_of_subset hnd' hsub).length_le
      rw [List.length_map, List.length_erase_of_mem (List.mem_range.2 hi), List.length_range] at this
      exact this
  · intro i
    cases hci : dget? C (Sum.inr i) with
    | none => simp [hci]
    | some c => simpa [hci] using hget _ _ hci
  · intro i j hij
    have hio : (Sum.inr i : α ⊕ Nat) ∈ dkeys C := by
      rw [hg.keys]; exact ho.mem_iff.2 (mem_graphNodes_inr.2 ⟨j, .inl hij⟩)
    have hjo : (Sum.inr j : α ⊕ Nat) ∈ dkeys C := by
      rw [hg.keys]; exact ho.mem_iff.2 (mem_graphNodes_inr.2 ⟨i, .inr hij⟩)
    obtain ⟨ci, hci⟩ := dget?_isSome_of_mem hio
    obtain ⟨cj, hcj⟩ := dget?_isSome_of_mem hjo
    simp only [hci, hcj, Option.getD_some]
    have hlt := (mem_linkedEdges.1 hij).1
    refine hg.proper (Sum.inr i) (Sum.inr j) ci cj ?_ ?_ hci hcj
    · intro he; cases he; exact absurd hlt (lt_irrefl _)
    · simp [graphAdj, hij]

/-- A proper colouring of the kept components extends to all IDs with at least two colours. -/
theorem extend_coloring {m : Manager α} (h : Inv m) {ids : List α} (hi : IdsOK m ids) {M : Nat}
    {col : Nat → Nat} (hM : ∀ i, col i ≤ M)
    (hcol : ∀ i j, (i, j) ∈ m.linkedEdges (ids.filter fun x => decide (1 < (clOf m x).length)) →
      col i ≠ col j) :
    ∃ f : α → Nat, Respects m f ∧ ∀ x, f x < max 2 (1 + M) := by
  classical
  set linked := ids.filter fun x => decide (1 < (clOf m x).length) with hlinked
  -- representative of a class
  have hrep : ∀ x, ∃ r, x ∈ m.managed → r ∈ ids ∧ MustLinked m x r := by
    intro x
    by_cases hx : x ∈ m.managed
    · obtain ⟨r, h1, h2⟩ := hi.rep x hx; exact ⟨r, fun _ => ⟨h1, h2⟩⟩
    · exact ⟨x, fun hx' => absurd hx' hx⟩
  choose r hr using hrep
  have hrr : ∀ x ∈ m.managed, ∀ y ∈ m.managed, MustLinked m x y → r x = r y := by
    intro x hx y hy hl
    obtain ⟨h1, h2⟩ := hr x hx
    obtain ⟨h3, h4⟩ := hr y hy
    exact hi.uniq _ h1 _ h3 ((h2.symm h).trans (hl.trans h4))
  let colK : α → Nat := fun x => col (linked.idxOf (r x))
  let F : α → Prop → (α → Prop) → Nat := fun rx kept cl =>
    if kept then col (linked.idxOf rx)
    else if hw : ∃ w, cl w ∧ 1 < (clOf m w).length then
      (if colK (Classical.choose hw) = 0 then 1 else 0)
    else if ∃ w, cl w ∧ rx < r w then 1 else 0
  refine ⟨fun x => F (r x) (1 < (clOf m x).length) (CannotLinked m x), (respects_iff h).2 ?_, ?_⟩
  · intro x hx y hy
    constructor
    · intro hl
      have e1 := hrr x hx y hy hl
      have e2 := length_clOf_congr h hx hl
      have e3 : CannotLinked m x = CannotLinked m y := by
        funext w
        exact propext ⟨fun hc => hc.congr (hl.symm h) (.refl _ _), fun hc => hc.congr hl (.refl _ _)⟩
      simp only [e1, e2, e3]
    · intro hl
      have single : ∀ u ∈ m.managed, ¬ 1 < (clOf m u).length → ∀ w w', CannotLinked m u w →
          CannotLinked m u w' → w = w' := by
        intro u hu hlen w w' hw hw'
        rw [← mem_clOf h hu] at hw hw'
        match hcl : clOf m u, hlen, hw, hw' with
        | [], _, hw, _ => simp at hw
        | [a], _, hw, hw' => simp at hw hw'; rw [hw, hw']
        | a :: b :: l, hlen, _, _ => simp at hlen
      have hl' := hl.symm h
      have mixed : ∀ u ∈ m.managed, ∀ w, CannotLinked m u w → ¬ 1 < (clOf m u).length →
          1 < (clOf m w).length → F (r u) (1 < (clOf m u).length) (CannotLinked m u) ≠
            F (r w) (1 < (clOf m w).length) (CannotLinked m w) := by
        intro u hu w huw hku hkw
        have hex : ∃ w, CannotLinked m u w ∧ 1 < (clOf m w).length := ⟨w, huw, hkw⟩
        have hch : Classical.choose hex = w :=
          single u hu hku _ _ (Classical.choose_spec hex).1 huw
        simp only [F, if_pos hkw, if_neg hku, dif_pos hex, hch]
        show (if colK w = 0 then 1 else 0) ≠ colK w
        split
        · rename_i h0; rw [h0]; simp
        · rename_i h0; exact fun he => h0 he.symm
      show F (r x) (1 < (clOf m x).length) (CannotLinked m x) ≠
        F (r y) (1 < (clOf m y).length) (CannotLinked m y)
      by_cases hkx : 1 < (clOf m x).length
      · by_cases hky : 1 < (clOf m y).length
        · simp only [F, if_pos hkx, if_pos hky]
          obtain ⟨hrx, hlx⟩ := hr x hx
          obtain ⟨hry, hly⟩ := hr y hy
          have hrxl : r x ∈ linked := by
            rw [hlinked, List.mem_filter]
            exact ⟨hrx, by rw [← length_clOf_congr h hx hlx]; simpa using hkx⟩
          have hryl : r y ∈ linked := by
            rw [hlinked, List.mem_filter]
            exact ⟨hry, by rw [← length_clOf_congr h hy hly]; simpa using hky⟩
          have hrc : CannotLinked m (r x) (r y) := hl.congr (hlx.symm h) hly
          have hix := List.getElem?_idxOf hrxl
          have hiy := List.getElem?_idxOf hryl
          rcases Nat.lt_trichotomy (linked.idxOf (r x)) (linked.idxOf (r y)) with hlt | heq | hgt
          · exact hcol _ _ (mem_linkedEdges.2 ⟨hlt, r x, r y, hix, hiy,
              (mem_clOf h (hi.mem _ hrx) _).2 hrc⟩)
          · rw [heq, hiy] at hix
            have : r y = r x := Option.some.inj hix
            rw [this] at hrc
            exact absurd hrc (CannotLinked.irrefl h _)
          · exact fun he => hcol _ _ (mem_linkedEdges.2 ⟨hgt, r y, r x, hiy, hix,
              (mem_clOf h (hi.mem _ hry) _).2 (hrc.symm h)⟩) he.symm
        · exact fun he => mixed y hy x hl' hky hkx he.symm
      · by_cases hky : 1 < (clOf m y).length
        · exact mixed x hx y hl hkx hky
        · have nx : ¬ ∃ w, CannotLinked m x w ∧ 1 < (clOf m w).length := by
            rintro ⟨w, hw, hkw⟩
            exact hky (single x hx hkx _ _ hw hl ▸ hkw)
          have ny : ¬ ∃ w, CannotLinked m y w ∧ 1 < (clOf m w).length := by
            rintro ⟨w, hw, hkw⟩
            exact hkx (single y hy hky _ _ hw hl' ▸ hkw)
          simp only [F, if_neg hkx, if_neg hky, dif_neg nx, dif_neg ny]
          have ex : (∃ w, CannotLinked m x w ∧ r x < r w) ↔ r x < r y :=
            ⟨fun ⟨w, hw, hlt⟩ => single x hx hkx _ _ hw hl ▸ hlt, fun hlt => ⟨y, hl, hlt⟩⟩
          have ey : (∃ w, CannotLinked m y w ∧ r y < r w) ↔ r y < r x :=
            ⟨fun ⟨w, hw, hlt⟩ => single y hy hky _ _ hw hl' ▸ hlt, fun hlt => ⟨x, hl', hlt⟩⟩
          simp only [ex, ey]
          rcases lt_trichotomy (r x) (r y) with hlt | heq | hgt
          · rw [if_pos hlt, if_neg (not_lt.2 hlt.le)]; simp
          · have := (hr x hx).2.trans (heq ▸ ((hr y hy).2.symm h))
            exact absurd hl (fun hl => not_both h this hl)
          · rw [if_pos hgt, if_neg (not_lt.2 hgt.le)]; simp
  · intro x
    show F (r x) (1 < (clOf m x).length) (CannotLinked m x) < _
    simp only [F]
    split
    · have := hM (linked.idxOf (r x)); omega
    · split
      · split <;> omega
      · split <;> omega

theorem minMax_ok {m : Manager α} (h : Inv m) (hne : m.managed ≠ [])
    {orders : List (α ⊕ Nat) → (α ⊕ Nat → α ⊕ Nat → Bool) → Orders α}
    (ho : ∀ nodes adj, (orders nodes adj).Valid nodes) :
    ∃ lo, m.minMax orders = .ok (lo, m.components.length) ∧ 2 ≤ lo ∧
      (2 ≤ m.components.length → lo ≤ m.components.length) ∧
      (m.components.length = 1 → lo = 2) ∧
      ∃ f : α → Nat, Respects m f ∧ ∀ x, f x < lo := by
  obtain ⟨ids, hids, hi⟩ := componentIds_ok h
  have hidne : ids ≠ [] := by
    rintro rfl
    obtain ⟨x, hx⟩ := List.exists_mem_of_ne_nil _ hne
    obtain ⟨r, hr, -⟩ := hi.rep x hx
    simp at hr
  have hlinked := linkedIds_ok h hi.mem
  set linked := ids.filter fun x => decide (1 < (clOf m x).length) with hl
  have hlen : linked.length ≤ m.components.length := by
    rw [← hi.len]; exact List.length_filter_le _ _
  obtain ⟨v1, v2, v3, v4, v5⟩ := ho (graphNodes ids (m.linkedEdges linked)) (graphAdj (m.linkedEdges linked))
  obtain ⟨a, ha, hal, ca, hca, hca'⟩ := greedy_run (m := m) hidne hi.nodup v1
  obtain ⟨b, hb, hbl, cb, hcb, hcb'⟩ := greedy_run (m := m) hidne hi.nodup v2
  obtain ⟨c, hc, hcl, cc, hcc, hcc'⟩ := greedy_run (m := m) hidne hi.nodup v3
  obtain ⟨d, hd, hdl, cd, hcd, hcd'⟩ := greedy_run (m := m) hidne hi.nodup v4
  obtain ⟨e, he, hel, ce, hce, hce'⟩ := greedy_run (m := m) hidne hi.nodup v5
  refine ⟨max 2 (1 + min a (min b (min c (min d e)))), ?_, by omega, by omega, by omega, ?_⟩
  · unfold Manager.minMax
    simp only [bind, Except.bind, hids, hlinked, ha, hb, hc, hd, he]
    rfl
  · have key : ∃ M, M = min a (min b (min c (min d e))) ∧ ∃ col : Nat → Nat, (∀ i, col i ≤ M) ∧
        ∀ i j, (i, j) ∈ m.linkedEdges linked → col i ≠ col j := by
      rcases (show (min a (min b (min c (min d e))) = a ∨ min a (min b (min c (min d e))) = b ∨
        min a (min b (min c (min d e))) = c ∨ min a (min b (min c (min d e))) = d ∨
        min a (min b (min c (min d e))) = e) by omega) with hx | hx | hx | hx | hx
      · exact ⟨a, hx.symm, ca, hca, hca'⟩
      · exact ⟨b, hx.symm, cb, hcb, hcb'⟩
      · exact ⟨c, hx.symm, cc, hcc, hcc'⟩
      · exact ⟨d, hx.symm, cd, hcd, hcd'⟩
      · exact ⟨e, hx.symm, ce, hce, hce'⟩
    obtain ⟨M, rfl, col, h1, h2⟩ := key
    exact extend_coloring h hi h1 h2

end Verif
