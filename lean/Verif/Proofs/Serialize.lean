import Mathlib.Data.List.Sort
import Verif.Model.Serialize
import Verif.Props.Manager

/-
Saving and loading a manager.
-/

set_option linter.unusedSectionVars false

namespace Verif

variable {α : Type} [LinearOrder α]

theorem save_constraints (m : Manager α) :
    m.save.constraints = (edgesOf m.dict).map fun e => ⟨e.1, e.2.1, e.2.2.toStr, 1⟩ := by
  show m.dict.flatMap _ = (m.dict.flatMap _).map _
  rw [List.map_flatMap]
  congr 1
  funext row
  rw [rowEdges, List.map_filterMap]
  congr 1
  funext cell
  cases cell.2 <;> rfl

open Classical in
/-- Invariant of the loading loop: `done` are the edges already replayed. -/
structure LoadInv (m cur : Manager α) (done : Edges α) : Prop where
  reach : Reachable cur
  managed : cur.managed = m.managed
  known : ∀ u w, known cur.dict u w =
    if u = w then (if u ∈ m.managed then some (.mustLink, 1) else none)
    else if ∃ t, (u, w, t) ∈ done ∨ (w, u, t) ∈ done then known m.dict u w else none

open Classical in
theorem load_step {m cur : Manager α} (h : Inv m) {done : Edges α} (hi : LoadInv m cur done)
    {x y : α} {t : CType} (he : (x, y, t) ∈ edgesOf m.dict) :
    ∃ cur', Manager.addConstraint x y t.toStr 1 cur = .ok true cur' ∧
      LoadInv m cur' (done ++ [(x, y, t)]) := by
  have hc := hi.reach.inv
  obtain ⟨hx, hy⟩ := edgesOf_mem_keys h.d _ _ _ he
  have hx' : x ∈ cur.managed := by rw [hi.managed]; exact hx
  have hy' : y ∈ cur.managed := by rw [hi.managed]; exact hy
  have hadd : AddedAs m t x y := (inv_known_iff h).2 (.inl he)
  have hkn : known m.dict x y = some (t, 1) := (addedAs_iff_known h).1 hadd
  -- what the partial manager knows, m knows (off the diagonal)
  have hsub : ∀ s p q, p ≠ q → AddedAs cur s p q → AddedAs m s p q := by
    intro s p q hpq ha
    rw [addedAs_iff_known hc, hi.known, if_neg hpq] at ha
    rw [addedAs_iff_known h]
    split at ha
    · exact ha
    · cases ha
  have irr : ∀ {p q}, AddedAs cur .cannotLink p q → p ≠ q := by
    rintro p q ha rfl
    exact CannotLinked.irrefl hc p ⟨p, p, .refl, ha, .refl⟩
  have hmono : ∀ u w, (MustLinked cur u w → MustLinked m u w) ∧ (CannotLinked cur u w → CannotLinked m u w) :=
    fun u w => ⟨chain_offdiag (hsub _), sep_offdiag (hsub _) (fun p q ha => hsub _ p q (irr ha) ha)⟩
  have key : ∀ cur', Inv cur' → cur'.managed = cur.managed →
      (∀ u w, known cur'.dict u w =
        if (u = x ∧ w = y) ∨ (u = y ∧ w = x) then some (t, 1) else known cur.dict u w) →
      ∀ u w, known cur'.dict u w =
        if u = w then (if u ∈ m.managed then some (.mustLink, 1) else none)
        else if ∃ s, (u, w, s) ∈ done ++ [(x, y, t)] ∨ (w, u, s) ∈ done ++ [(x, y, t)]
          then known m.dict u w else none := by
    intro cur' _ _ hk u w
    rw [hk, hi.known]
    by_cases hp : (u = x ∧ w = y) ∨ (u = y ∧ w = x)
    · rw [if_pos hp]
      by_cases huw : u = w
      · have hxy : x = y := by
          rcases hp with ⟨h1, h2⟩ | ⟨h1, h2⟩
          · rw [← h1, ← h2, huw]
          · rw [← h1, ← h2, huw]
        rw [if_pos huw]
        have hum : u ∈ m.managed := by rcases hp with ⟨h1, -⟩ | ⟨h1, -⟩ <;> rw [h1] <;> assumption
        rw [if_pos hum]
        have : t = .mustLink := by
          cases t with
          | mustLink => rfl
          | cannotLink =>
            exact absurd ⟨x, x, .refl, hxy ▸ hadd, .refl⟩ (CannotLinked.irrefl h x)
        rw [this]
      · rw [if_neg huw, if_pos]
        · rcases hp with ⟨h1, h2⟩ | ⟨h1, h2⟩
          · rw [h1, h2, hkn]
          · rw [h1, h2, known_comm, hkn]
        · rcases hp with ⟨h1, h2⟩ | ⟨h1, h2⟩
          · exact ⟨t, .inl (by simp [h1, h2])⟩
          · exact ⟨t, .inr (by simp [h1, h2])⟩
    · rw [if_neg hp]
      by_cases huw : u = w
      · rw [if_pos huw, if_pos huw]
      · rw [if_neg huw, if_neg huw]
        have : (∃ s, (u, w, s) ∈ done ++ [(x, y, t)] ∨ (w, u, s) ∈ done ++ [(x, y, t)]) ↔
            ∃ s, (u, w, s) ∈ done ∨ (w, u, s) ∈ done := by
          constructor
          · rintro ⟨s, hs⟩
            refine ⟨s, ?_⟩
            simp only [List.mem_append, List.mem_singleton, Prod.mk.injEq] at hs
            rcases hs with (hs | ⟨h1, h2, -⟩) | (hs | ⟨h1, h2, -⟩)
            · exact .inl hs
            · exact absurd (.inl ⟨h1, h2⟩) hp
            · exact .inr hs
            · exact absurd (.inr ⟨h2, h1⟩) hp
          · rintro ⟨s, hs⟩
            exact ⟨s, hs.imp (fun h => by simp [h]) (fun h => by simp [h])⟩
        simp only [this]
  rcases addConstraint_cases (v := 1) hc hx' hy' (parse_eq_some (t := t).2 rfl) with
    ⟨h1, h2⟩ | ⟨t', hne, hinf, -⟩
  · have hreach : ∀ cur', Manager.addConstraint x y t.toStr 1 cur = .ok true cur' → Reachable cur' := by
      intro cur' he
      have := hi.reach.call (.addConstraint x y t.toStr 1)
      simp only [Op.call, he] at this
      exact this
    rcases h2 with ⟨s, hs, ha⟩ | ⟨hs, cur', ha, hi', hm', hk'⟩
    · refine ⟨cur, ha, hi.reach, hi.managed, key cur hc rfl ?_⟩
      -- already known: it is the same constraint
      intro u w
      split
      · rename_i hp
        have hst : s = (t, 1) := by
          have hv := known_val hc.d hs
          obtain ⟨s1, s2⟩ := s
          simp only at hv
          subst hv
          have hadd' : AddedAs cur s1 x y := (addedAs_iff_known hc).2 hs
          have hinf : cur.getInferred x y = .ok (some s1) := by
            cases s1 with
            | mustLink => exact (inferred_ml_iff hc hx' hy').2 (Chain.single hadd')
            | cannotLink => exact (inferred_cl_iff hc hx' hy').2 ⟨x, y, .refl, hadd', .refl⟩
          rcases h1 with h1 | h1 <;> rw [hinf] at h1 <;> simp at h1
          rw [h1]
        rcases hp with ⟨e1, e2⟩ | ⟨e1, e2⟩
        · rw [e1, e2, hs, hst]
        · rw [e1, e2, known_comm, hs, hst]
      · rfl
    · exact ⟨cur', ha, hreach cur' ha, hm'.trans hi.managed, key cur' hi' hm' hk'⟩
  · exfalso
    rcases ctype_other hne with ⟨rfl, rfl⟩ | ⟨rfl, rfl⟩
    · exact not_both h (Chain.single hadd) ((hmono x y).2 ((inferred_cl_iff hc hx' hy').1 hinf))
    · exact not_both h ((hmono x y).1 ((inferred_ml_iff hc hx' hy').1 hinf)) ⟨x, y, .refl, hadd, .refl⟩

theorem load_loop {m : Manager α} (h : Inv m) (l : Edges α) (cur : Manager α) (done : Edges α)
    (hi : LoadInv m cur done) (hl : ∀ e ∈ l, e ∈ edgesOf m.dict) :
    ∃ cur', (l.map fun e => (⟨e.1, e.2.1, e.2.2.toStr, 1⟩ : SavedConstraint α)).foldlM (fun m c =>
      match Manager.addConstraint c.id1 c.id2 c.type 1 m with
      | .ok _ m' => (.ok m' : Except PyErr (Manager α))
      | .error e _ => .error e) cur = .ok cur' ∧ LoadInv m cur' (done ++ l) := by
  induction l generalizing cur done with
  | nil => exact ⟨cur, rfl, by simpa using hi⟩
  | cons e l ih =>
    obtain ⟨x, y, t⟩ := e
    obtain ⟨cur', h1, h2⟩ := load_step h hi (hl (x, y, t) (by simp))
    obtain ⟨cur'', h3, h4⟩ := ih cur' (done ++ [(x, y, t)]) h2 (fun e he => hl e (by simp [he]))
    refine ⟨cur'', ?_, by simpa using h4⟩
    rw [List.map_cons, List.foldlM_cons]
    simp only [h1, bind, Except.bind]
    exact h3

theorem load_save {m : Manager α} (h : Inv m) :
    ∃ m', loadManager m.save = .ok m' ∧ Reachable m' ∧ m'.managed = m.managed ∧
      ∀ u w, known m'.dict u w =
        if u = w then (if u ∈ m.managed then some (.mustLink, 1) else none) else known m.dict u w := by
  have hids : (Manager.init m.managed).managed = m.managed := by
    show dkeys _ = _
    rw [init_keys]
    exact ounion_nil_of_nodup h.d.nodup
  have h0 : LoadInv m (Manager.init m.managed) [] := by
    refine ⟨Reachable.init _, hids, ?_⟩
    intro u w
    rw [init_known]
    by_cases huw : u = w
    · simp [huw]
    · simp [huw]
  obtain ⟨m', h1, h2⟩ := load_loop h (edgesOf m.dict) _ [] h0 (fun e he => he)
  refine ⟨m', ?_, h2.reach, h2.managed, ?_⟩
  · unfold loadManager
    rw [save_constraints]
    exact h1
  · intro u w
    rw [h2.known]
    by_cases huw : u = w
    · rw [if_pos huw, if_pos huw]
    · rw [if_neg huw, if_neg huw]
      split
      · rfl
      · rename_i hno
        cases hk : known m.dict u w with
        | none => rfl
        | some s =>
          exfalso
          apply hno
          have : EdgeRel (edgesOf m.dict) s.1 u w := (edgeRel_edgesOf h.d).2 ⟨s, hk, rfl⟩
          refine ⟨s.1, ?_⟩
          simpa [EdgeRel] using this

/-- The component lists of two managers with the same managed list and the same must-link
classes correspond one to one in order. -/
theorem components_forall₂ {m m' : Manager α} (h : Inv m) (h' : Inv m') (hm : m'.managed = m.managed)
    (hml : ∀ x y, MustLinked m x y ↔ MustLinked m' x y) :
    List.Forall₂ List.Perm m.components m'.components := by
  have key : ∀ {m m' : Manager α}, Inv m → Inv m' → m'.managed = m.managed →
      (∀ x y, MustLinked m x y ↔ MustLinked m' x y) → ∀ c ∈ m.components, ∃ c' ∈ m'.components, c.Perm c' := by
    intro m m' h h' hm hml c hc
    obtain ⟨x, hx⟩ := List.exists_mem_of_ne_nil c (component_ne_nil h hc)
    obtain ⟨hxm, hxc⟩ := mem_component_iff h hc hx
    obtain ⟨c', hc', hx'⟩ := exists_component h' (hm ▸ hxm)
    refine ⟨c', hc', (List.perm_ext_iff_of_nodup (component_nodup h hc) (component_nodup h' hc')).2 ?_⟩
    intro y
    rw [hxc, (mem_component_iff h' hc' hx').2, hml]
  let k : List α → Nat := fun c => m.managed.findIdx (fun x => decide (x ∈ c))
  have hk : ∀ c c' : List α, c.Perm c' → k c = k c' := by
    intro c c' hp
    simp only [k, hp.mem_iff]
  have s1 : (m.components.map k).Pairwise (· < ·) := by
    rw [List.pairwise_map]; exact components_order h
  have s2 : (m'.components.map k).Pairwise (· < ·) := by
    rw [List.pairwise_map]
    have := components_order h'
    rw [hm] at this
    exact this
  have heq : m.components.map k = m'.components.map k := by
    have n1 : (m.components.map k).Nodup := s1.imp (fun h => ne_of_lt h)
    have n2 : (m'.components.map k).Nodup := s2.imp (fun h => ne_of_lt h)
    have hp : (m.components.map k).Perm (m'.components.map k) := by
      refine (List.perm_ext_iff_of_nodup n1 n2).2 ?_
      intro v
      simp only [List.mem_map]
      constructor
      · rintro ⟨c, hc, rfl⟩
        obtain ⟨c', hc', hp⟩ := key h h' hm hml c hc
        exact ⟨c', hc', (hk _ _ hp).symm⟩
      · rintro ⟨c, hc, rfl⟩
        obtain ⟨c', hc', hp⟩ := key h' h hm.symm (fun x y => (hml x y).symm) c hc
        exact ⟨c', hc', (hk _ _ hp).symm⟩
    exact hp.eq_of_pairwise (fun a b _ _ h1 h2 => absurd h1 (lt_asymm h2)) s1 s2
  have f1 : List.Forall₂ (fun a b => k a = k b) m.components m'.components := by
    have : List.Forall₂ Eq (m.components.map k) (m'.components.map k) := by
      rw [heq]; exact List.forall₂_refl _
    rwa [List.forall₂_map_left_iff, List.forall₂_map_right_iff] at this
  have f2 : List.Forall₂ (fun a b => (a ∈ m.components ∧ b ∈ m'.components) ∧ k a = k b)
      m.components m'.components := by
    rw [List.forall₂_iff_zip] at f1 ⊢
    exact ⟨f1.1, fun hab => ⟨⟨(List.of_mem_zip hab).1, (List.of_mem_zip hab).2⟩, f1.2 hab⟩⟩
  refine f2.imp ?_
  rintro c c' ⟨⟨hc, hc'⟩, hkk⟩
  -- both contain the managed ID at that position
  obtain ⟨x, hx⟩ := List.exists_mem_of_ne_nil c (component_ne_nil h hc)
  have hlt : k c < m.managed.length :=
    List.findIdx_lt_length_of_exists ⟨x, (mem_component_iff h hc hx).1, by simpa using hx⟩
  have e1 := List.findIdx_getElem (w := hlt)
  have hlt' : k c' < m.managed.length := hkk ▸ hlt
  have e2 := List.findIdx_getElem (w := hlt')
  simp only [decide_eq_true_eq] at e1 e2
  have e3 : m.managed[k c] = m.managed[k c'] := by simp only [hkk]
  have e4 : m.managed[k c] ∈ c' := e3 ▸ e2
  refine (List.perm_ext_iff_of_nodup (component_nodup h hc) (component_nodup h' hc')).2 ?_
  intro y
  rw [(mem_component_iff h hc e1).2, (mem_component_iff h' hc' e4).2, hml]

end Verif
