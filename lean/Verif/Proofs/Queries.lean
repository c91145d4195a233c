import Mathlib.Data.List.Perm.Subperm
import Mathlib.Data.List.Induction
import Mathlib.Order.Nat
import Mathlib.Data.List.Perm.Lattice
import Verif.Spec.Manager
import Verif.Proofs.Manager

/-
Read-only methods under the invariant.
-/

set_option linter.unusedSectionVars false
set_option linter.unusedSimpArgs false

namespace Verif

variable {α : Type} [LinearOrder α]

theorem inv_known_iff {m : Manager α} (h : Inv m) {x y : α} {t : CType} :
    AddedAs m t x y ↔ EdgeRel (edgesOf m.dict) t x y := by
  rw [edgeRel_edgesOf h.d]
  unfold AddedAs
  by_cases hx : x ∈ dkeys m.dict
  · by_cases hy : y ∈ dkeys m.dict
    · rw [getAdded_eq h.d hx hy]
      constructor
      · rintro ⟨v, hv⟩; exact ⟨(t, v), by simpa using hv, rfl⟩
      · rintro ⟨⟨t', v⟩, hs, rfl⟩; exact ⟨v, by rw [hs]⟩
    · rw [getAdded_err2 hx hy]
      simp only [reduceCtorEq, exists_false, false_iff]
      rintro ⟨s, hs, -⟩
      exact hy (h.t.edge_mem ((edgeRel_edgesOf h.d).2 ⟨s, hs, rfl⟩)).2
  · rw [getAdded_err1 hx]
    simp only [reduceCtorEq, exists_false, false_iff]
    rintro ⟨s, hs, -⟩
    exact hx (h.t.edge_mem ((edgeRel_edgesOf h.d).2 ⟨s, hs, rfl⟩)).1

theorem mustLinked_iff {m : Manager α} (h : Inv m) {x y : α} :
    MustLinked m x y ↔ Chain (EML (edgesOf m.dict)) x y :=
  chain_congr fun _ _ => inv_known_iff h

theorem cannotLinked_iff {m : Manager α} (h : Inv m) {x y : α} :
    CannotLinked m x y ↔ Separated (EML (edgesOf m.dict)) (ECL (edgesOf m.dict)) x y :=
  separated_congr (fun _ _ => inv_known_iff h) (fun _ _ => inv_known_iff h)

theorem AddedAs.symm {m : Manager α} (h : Inv m) {t : CType} (x y : α) (ha : AddedAs m t x y) :
    AddedAs m t y x := by
  rw [inv_known_iff h] at ha ⊢; exact EdgeRel.symm _ _ ha

theorem AddedAs.mem {m : Manager α} (h : Inv m) {t : CType} {x y : α} (ha : AddedAs m t x y) :
    x ∈ m.managed ∧ y ∈ m.managed := by
  rw [inv_known_iff h] at ha; exact h.t.edge_mem ha

theorem MustLinked.refl (m : Manager α) (x : α) : MustLinked m x x := Chain.refl

theorem MustLinked.symm {m : Manager α} (h : Inv m) {x y : α} (hl : MustLinked m x y) :
    MustLinked m y x := Chain.symm (fun x y => AddedAs.symm h x y) hl

theorem MustLinked.trans {m : Manager α} {x y z : α} (h₁ : MustLinked m x y) (h₂ : MustLinked m y z) :
    MustLinked m x z := Chain.trans h₁ h₂

theorem CannotLinked.symm {m : Manager α} (h : Inv m) {x y : α} (hl : CannotLinked m x y) :
    CannotLinked m y x := Separated.symm (fun x y => AddedAs.symm h x y) (fun x y => AddedAs.symm h x y) hl

theorem CannotLinked.mem {m : Manager α} (h : Inv m) {x y : α} (hl : CannotLinked m x y) :
    x ∈ m.managed ∧ y ∈ m.managed := by
  rw [cannotLinked_iff h] at hl; exact h.t.sep_mem hl

theorem MustLinked.mem {m : Manager α} (h : Inv m) {x y : α} (hl : MustLinked m x y)
    (hx : x ∈ m.managed) : y ∈ m.managed := by
  rw [mustLinked_iff h] at hl; exact h.t.chain_mem hl hx

theorem not_both {m : Manager α} (h : Inv m) {x y : α} (h1 : MustLinked m x y)
    (h2 : CannotLinked m x y) : False := by
  rw [cannotLinked_iff h] at h2
  rw [mustLinked_iff h] at h1
  exact h.t.cons x (h2.congr_right (h1.symm EdgeRel.symm))

theorem CannotLinked.irrefl {m : Manager α} (h : Inv m) (x : α) : ¬ CannotLinked m x x :=
  fun hc => not_both h (MustLinked.refl m x) hc

theorem CannotLinked.congr {m : Manager α} {x y x' y' : α} (hl : CannotLinked m x y)
    (hx : MustLinked m x' x) (hy : MustLinked m y y') : CannotLinked m x' y' :=
  Separated.congr_right (Separated.congr_left hl hx) hy

/-- `get_inferred_constraint` is the closure. -/
theorem getInferred_spec {m : Manager α} (h : Inv m) {x y : α} (hx : x ∈ m.managed)
    (hy : y ∈ m.managed) (th : Rat := 1) :
    ∃ r, m.getInferred x y th = .ok r ∧ (r = some .mustLink ↔ MustLinked m x y) ∧
      (r = some .cannotLink ↔ CannotLinked m x y) := by
  obtain ⟨r, h1, h2, h3⟩ := getInferred_eq h.t hx hy th
  exact ⟨r, h1, h2.trans (mustLinked_iff h).symm, h3.trans (cannotLinked_iff h).symm⟩

theorem inferred_ml_iff {m : Manager α} (h : Inv m) {x y : α} (hx : x ∈ m.managed)
    (hy : y ∈ m.managed) (th : Rat := 1) :
    m.getInferred x y th = .ok (some .mustLink) ↔ MustLinked m x y := by
  obtain ⟨r, h1, h2, h3⟩ := getInferred_spec h hx hy th
  rw [h1, ← h2]; simp

theorem inferred_cl_iff {m : Manager α} (h : Inv m) {x y : α} (hx : x ∈ m.managed)
    (hy : y ∈ m.managed) (th : Rat := 1) :
    m.getInferred x y th = .ok (some .cannotLink) ↔ CannotLinked m x y := by
  obtain ⟨r, h1, h2, h3⟩ := getInferred_spec h hx hy th
  rw [h1, ← h3]; simp

theorem inferred_none_iff {m : Manager α} (h : Inv m) {x y : α} (hx : x ∈ m.managed)
    (hy : y ∈ m.managed) (th : Rat := 1) :
    m.getInferred x y th = .ok none ↔ ¬ MustLinked m x y ∧ ¬ CannotLinked m x y := by
  obtain ⟨r, h1, h2, h3⟩ := getInferred_spec h hx hy th
  rw [h1, ← h2, ← h3]
  cases r with
  | none => simp
  | some t => cases t <;> simp

/-! ### Components -/

theorem components_eq (m : Manager α) : m.components = ounion [] (m.trans.map fun p => p.2.ml) := by
  unfold Manager.components ounion
  rw [List.foldl_map]
  congr 1
  funext acc p
  unfold oinsert
  congr

theorem mem_components {m : Manager α} (h : Inv m) {c : List α} :
    c ∈ m.components ↔ ∃ x e, dget? m.trans x = some e ∧ c = e.ml := by
  rw [components_eq, mem_ounion]
  simp only [List.not_mem_nil, List.mem_map, false_or]
  constructor
  · rintro ⟨⟨x, e⟩, hm, rfl⟩
    exact ⟨x, e, dget?_of_mem (h.t.keys ▸ h.t.nodup) hm, rfl⟩
  · rintro ⟨x, e, hg, rfl⟩
    exact ⟨(x, e), mem_of_dget? hg, rfl⟩

theorem components_nodup (m : Manager α) : m.components.Nodup := by
  rw [components_eq]; exact nodup_ounion List.nodup_nil

/-- The component list of an ID. -/
theorem mem_component_iff {m : Manager α} (h : Inv m) {c : List α} (hc : c ∈ m.components) {x : α}
    (hx : x ∈ c) : x ∈ m.managed ∧ ∀ y, y ∈ c ↔ MustLinked m x y := by
  obtain ⟨z, e, hz, rfl⟩ := (mem_components h).1 hc
  have hzx : Chain (EML (edgesOf m.dict)) z x := (h.t.ml z e hz x).1 hx
  refine ⟨h.t.chain_mem hzx (h.t.mem_of_get hz), ?_⟩
  intro y
  rw [h.t.ml z e hz, mustLinked_iff h]
  exact ⟨fun hy => (hzx.symm EdgeRel.symm).trans hy, fun hy => hzx.trans hy⟩

theorem component_nodup {m : Manager α} (h : Inv m) {c : List α} (hc : c ∈ m.components) : c.Nodup := by
  obtain ⟨z, e, hz, rfl⟩ := (mem_components h).1 hc
  exact h.t.mlNodup z e hz

theorem component_ne_nil {m : Manager α} (h : Inv m) {c : List α} (hc : c ∈ m.components) : c ≠ [] := by
  obtain ⟨z, e, hz, rfl⟩ := (mem_components h).1 hc
  intro hnil
  have : z ∈ e.ml := (h.t.ml z e hz z).2 .refl
  rw [hnil] at this
  simp at this

theorem exists_component {m : Manager α} (h : Inv m) {x : α} (hx : x ∈ m.managed) :
    ∃ c ∈ m.components, x ∈ c := by
  obtain ⟨e, he⟩ := h.t.get hx
  exact ⟨e.ml, (mem_components h).2 ⟨x, e, he, rfl⟩, (h.t.ml x e he x).2 .refl⟩

theorem component_unique {m : Manager α} (h : Inv m) {c c' : List α} (hc : c ∈ m.components)
    (hc' : c' ∈ m.components) {x : α} (hx : x ∈ c) (hx' : x ∈ c') : c = c' := by
  obtain ⟨z, e, hz, rfl⟩ := (mem_components h).1 hc
  obtain ⟨z', e', hz', rfl⟩ := (mem_components h).1 hc'
  have hxK : x ∈ dkeys m.dict := h.t.chain_mem ((h.t.ml z e hz x).1 hx) (h.t.mem_of_get hz)
  obtain ⟨ex, hex⟩ := h.t.get hxK
  rw [← h.t.share z x e ex hz hex hx, ← h.t.share z' x e' ex hz' hex hx']

theorem components_disjoint {m : Manager α} (h : Inv m) :
    m.components.Pairwise (fun c c' => ∀ x, x ∈ c → x ∉ c') := by
  refine List.Pairwise.imp_of_mem ?_ (components_nodup m)
  intro c c' hc hc' hne x hx hx'
  exact hne (component_unique h hc hc' hx hx')

theorem flatten_nodup {l : List (List α)} (h1 : ∀ c ∈ l, c.Nodup)
    (h2 : l.Pairwise (fun c c' => ∀ x, x ∈ c → x ∉ c')) : l.flatten.Nodup := by
  rw [List.nodup_flatten]
  refine ⟨h1, h2.imp ?_⟩
  intro c c' h x hx hx'
  exact h x hx hx'

theorem components_flatten_perm {m : Manager α} (h : Inv m) : m.components.flatten.Perm m.managed := by
  apply (List.perm_ext_iff_of_nodup _ h.d.nodup).2
  · intro x
    rw [List.mem_flatten]
    constructor
    · rintro ⟨c, hc, hx⟩
      exact (mem_component_iff h hc hx).1
    · intro hx
      exact exists_component h hx
  · exact flatten_nodup (fun c hc => component_nodup h hc) (components_disjoint h)

/-- First occurrences are in order: general fact on `ounion [] (l.map f)`. -/
theorem ounion_map_findIdx {β γ : Type} [DecidableEq γ] (f : β → γ) (l : List β) :
    (ounion [] (l.map f)).Pairwise
      (fun c c' => l.findIdx (fun x => decide (f x = c)) < l.findIdx (fun x => decide (f x = c'))) := by
  induction l using List.reverseRecOn with
  | nil => simp [ounion]
  | append_singleton l x ih =>
    have e : ounion [] ((l ++ [x]).map f) = oinsert (ounion [] (l.map f)) (f x) := by
      simp [ounion]
    rw [e]
    have hmem : ∀ c, c ∈ ounion [] (l.map f) ↔ ∃ y ∈ l, f y = c := by
      intro c; rw [mem_ounion]; simp
    have hidx : ∀ c, c ∈ ounion [] (l.map f) →
        (l ++ [x]).findIdx (fun x => decide (f x = c)) = l.findIdx (fun x => decide (f x = c)) ∧
        l.findIdx (fun x => decide (f x = c)) < l.length := by
      intro c hc
      obtain ⟨y, hy, hyc⟩ := (hmem c).1 hc
      have hlt : l.findIdx (fun x => decide (f x = c)) < l.length :=
        List.findIdx_lt_length_of_exists ⟨y, hy, by simp [hyc]⟩
      refine ⟨?_, hlt⟩
      rw [List.findIdx_append]
      simp [hlt]
    have ih' : (ounion [] (l.map f)).Pairwise (fun c c' =>
        (l ++ [x]).findIdx (fun x => decide (f x = c)) < (l ++ [x]).findIdx (fun x => decide (f x = c'))) := by
      refine List.Pairwise.imp_of_mem ?_ ih
      intro c c' hc hc' hlt
      rw [(hidx c hc).1, (hidx c' hc').1]; exact hlt
    unfold oinsert
    split
    · exact ih'
    · rename_i hx
      rw [List.pairwise_append]
      refine ⟨ih', by simp, ?_⟩
      intro c hc c' hc'
      simp only [List.mem_singleton] at hc'
      subst hc'
      rw [(hidx c hc).1]
      have hnot : ¬ l.findIdx (fun y => decide (f y = f x)) < l.length := by
        intro hlt
        have := List.findIdx_getElem (w := hlt)
        simp only [decide_eq_true_eq] at this
        exact hx ((hmem _).2 ⟨_, List.getElem_mem hlt, this⟩)
      have hge : l.length ≤ (l ++ [x]).findIdx (fun y => decide (f y = f x)) := by
        rw [List.findIdx_append]
        simp [hnot]
      exact lt_of_lt_of_le (hidx c hc).2 hge

theorem components_order {m : Manager α} (h : Inv m) :
    m.components.Pairwise (fun c c' =>
      m.managed.findIdx (fun x => decide (x ∈ c)) < m.managed.findIdx (fun x => decide (x ∈ c'))) := by
  -- the component of each key, as a function
  have hmap : m.trans.map (fun p => p.2.ml) =
      m.managed.map (fun x => ((dget? m.trans x).map TEntry.ml).getD []) := by
    have hk : m.managed = m.trans.map Prod.fst := h.t.keys.symm
    rw [hk, List.map_map]
    apply List.map_congr_left
    rintro ⟨x, e⟩ hm
    simp [dget?_of_mem (h.t.keys ▸ h.t.nodup) hm]
  rw [components_eq, hmap]
  refine List.Pairwise.imp_of_mem ?_ (ounion_map_findIdx
    (fun x => ((dget? m.trans x).map TEntry.ml).getD []) m.managed)
  have key : ∀ c, c ∈ ounion [] (m.managed.map (fun x => ((dget? m.trans x).map TEntry.ml).getD [])) →
      m.managed.findIdx (fun x => decide (((dget? m.trans x).map TEntry.ml).getD [] = c)) =
      m.managed.findIdx (fun x => decide (x ∈ c)) := by
    intro c hc
    rw [← hmap, ← components_eq] at hc
    have hpred : ∀ x ∈ m.managed, decide (((dget? m.trans x).map TEntry.ml).getD [] = c) = decide (x ∈ c) := by
      intro x hx
      obtain ⟨e, he⟩ := h.t.get hx
      simp only [he, Option.map_some, Option.getD_some, decide_eq_decide]
      have hxe : x ∈ e.ml := (h.t.ml x e he x).2 .refl
      constructor
      · rintro rfl; exact hxe
      · intro hxc
        exact component_unique h ((mem_components h).2 ⟨x, e, he, rfl⟩) hc hxe hxc
    generalize m.managed = l at hpred
    induction l with
    | nil => rfl
    | cons a l ih =>
      rw [List.findIdx_cons, List.findIdx_cons, hpred a (by simp), ih (fun x hx => hpred x (by simp [hx]))]
  intro c c' hc hc' hlt
  rw [key c hc, key c' hc'] at hlt
  exact hlt

/-! ### Completeness -/

theorem complete_iff {m : Manager α} (h : Inv m) :
    m.complete = true ↔ ∀ x ∈ m.managed, ∀ y ∈ m.managed, MustLinked m x y ∨ CannotLinked m x y := by
  have hlen : m.trans.length = m.managed.length := by
    have := congrArg List.length h.t.keys
    simpa [dkeys, Manager.managed] using this
  unfold Manager.complete
  rw [List.all_eq_true]
  have one : ∀ x e, dget? m.trans x = some e →
      (e.ml.length + e.cl.length = m.trans.length ↔
        ∀ y ∈ m.managed, MustLinked m x y ∨ CannotLinked m x y) := by
    intro x e he
    have hml : ∀ y, y ∈ e.ml ↔ MustLinked m x y := fun y => by rw [mustLinked_iff h]; exact h.t.ml x e he y
    have hcl : ∀ y, y ∈ e.cl ↔ CannotLinked m x y := fun y => by rw [cannotLinked_iff h]; exact h.t.cl x e he y
    have hnd : (e.ml ++ e.cl).Nodup := by
      rw [List.nodup_append]
      refine ⟨h.t.mlNodup x e he, h.t.clNodup x e he, ?_⟩
      rintro a ha b hb rfl
      exact not_both h ((hml a).1 ha) ((hcl a).1 hb)
    have hsub : (e.ml ++ e.cl) ⊆ m.managed := by
      intro y hy
      rcases List.mem_append.1 hy with hy | hy
      · exact MustLinked.mem h ((hml y).1 hy) (h.t.mem_of_get he)
      · exact (CannotLinked.mem h ((hcl y).1 hy)).2
    rw [hlen, ← List.length_append]
    constructor
    · intro hl y hy
      have hp := (List.subperm_of_subset hnd hsub).perm_of_length_le (le_of_eq hl.symm)
      have : y ∈ e.ml ++ e.cl := hp.mem_iff.2 hy
      rcases List.mem_append.1 this with hy | hy
      · exact .inl ((hml y).1 hy)
      · exact .inr ((hcl y).1 hy)
    · intro hall
      apply le_antisymm
      · exact (List.subperm_of_subset hnd hsub).length_le
      · refine (List.subperm_of_subset h.d.nodup ?_).length_le
        intro y hy
        rw [List.mem_append, hml, hcl]
        exact hall y hy
  constructor
  · intro hall x hx
    obtain ⟨e, he⟩ := h.t.get hx
    have := hall (x, e) (mem_of_dget? he)
    simp only [decide_eq_true_eq] at this
    exact (one x e he).1 this
  · rintro hall ⟨x, e⟩ hm
    have he := dget?_of_mem (h.t.keys ▸ h.t.nodup) hm
    simp only [decide_eq_true_eq]
    exact (one x e he).2 (hall x (h.t.mem_of_get he))

/-! ### Conflict report -/

theorem parse_ml : CType.parse? "MUST_LINK" = some .mustLink := by decide
theorem parse_cl : CType.parse? "CANNOT_LINK" = some .cannotLink := by decide

theorem parse_eq_some {s : String} {t : CType} : CType.parse? s = some t ↔ s = t.toStr := by
  unfold CType.parse?
  split
  · rename_i h; subst h; cases t <;> simp [CType.toStr]
  · split
    · rename_i h; subst h; cases t <;> simp [CType.toStr]
    · rename_i h1 h2; cases t <;> simp [CType.toStr, h1, h2]

theorem conflictIDs_eq {m : Manager α} {x y : α} {ty : String} {t : CType}
    (hx : x ∈ m.managed) (hy : y ∈ m.managed) (hty : CType.parse? ty = some t) {r : Option CType}
    (hr : m.getInferred x y = .ok r) :
    m.conflictIDs x y ty = .ok (if r.isSome ∧ some t ≠ r then
      some ((m.components.filter fun c => decide (x ∈ c ∨ y ∈ c)).flatten) else none) := by
  have hx' : x ∈ dkeys m.dict := hx
  have hy' : y ∈ dkeys m.dict := hy
  unfold Manager.conflictIDs
  simp only [bind, Except.bind, hx', hy', not_true, if_false, pure, Except.pure, hty, hr]
  split <;> rfl

theorem conflictIDs_err1 {m : Manager α} {x y : α} {ty : String} (hx : x ∉ m.managed) :
    m.conflictIDs x y ty = .error (.valueError "data_ID1") := by
  have hx' : x ∉ dkeys m.dict := hx
  simp [Manager.conflictIDs, hx', bind, Except.bind, throw, throwThe, MonadExceptOf.throw]

theorem conflictIDs_err2 {m : Manager α} {x y : α} {ty : String} (hx : x ∈ m.managed)
    (hy : y ∉ m.managed) : m.conflictIDs x y ty = .error (.valueError "data_ID2") := by
  have hx' : x ∈ dkeys m.dict := hx
  have hy' : y ∉ dkeys m.dict := hy
  simp [Manager.conflictIDs, hx', hy', bind, Except.bind, throw, throwThe, MonadExceptOf.throw, pure,
    Except.pure]

theorem conflictIDs_err3 {m : Manager α} {x y : α} {ty : String} (hx : x ∈ m.managed)
    (hy : y ∈ m.managed) (hty : CType.parse? ty = none) :
    m.conflictIDs x y ty = .error (.valueError "constraint_type") := by
  have hx' : x ∈ dkeys m.dict := hx
  have hy' : y ∈ dkeys m.dict := hy
  simp [Manager.conflictIDs, hx', hy', hty, bind, Except.bind, throw, throwThe, MonadExceptOf.throw, pure,
    Except.pure]

/-- For a function-valued label: satisfiability witness of a consistent manager. -/
theorem exists_component_labels {m : Manager α} (h : Inv m) :
    ∃ f : α → Nat, (∀ x y, MustLinked m x y → f x = f y) ∧
      (∀ x ∈ m.managed, ∀ y ∈ m.managed, f x = f y → MustLinked m x y) ∧
      (∀ x ∈ m.managed, f x < m.managed.length) := by
  classical
  refine ⟨fun x => m.managed.findIdx (fun z => decide (MustLinked m x z)), ?_, ?_, ?_⟩
  · intro x y hxy
    have : (fun z => decide (MustLinked m x z)) = (fun z => decide (MustLinked m y z)) := by
      funext z
      rw [decide_eq_decide]
      exact ⟨fun hz => (hxy.symm h).trans hz, fun hz => hxy.trans hz⟩
    simp only [this]
  · intro x hx y hy he
    have hlt : m.managed.findIdx (fun z => decide (MustLinked m x z)) < m.managed.length :=
      List.findIdx_lt_length_of_exists ⟨x, hx, by simpa using MustLinked.refl m x⟩
    have hlt' : m.managed.findIdx (fun z => decide (MustLinked m y z)) < m.managed.length :=
      List.findIdx_lt_length_of_exists ⟨y, hy, by simpa using MustLinked.refl m y⟩
    have h1 := List.findIdx_getElem (w := hlt)
    have h2 := List.findIdx_getElem (w := hlt')
    simp only [decide_eq_true_eq] at h1 h2
    simp only at he
    simp only [he] at h1
    exact h1.trans (h2.symm h)
  · intro x hx
    exact List.findIdx_lt_length_of_exists ⟨x, hx, by simpa using MustLinked.refl m x⟩

theorem satisfies_chain {m : Manager α} {f : α → Nat} (hf : Satisfies m f) {x y : α}
    (h : MustLinked m x y) : f x = f y := by
  induction h with
  | refl => rfl
  | tail _ he ih => exact ih.trans ((hf _ _).1 he)

theorem satisfies_sep {m : Manager α} {f : α → Nat} (hf : Satisfies m f) {x y : α}
    (h : CannotLinked m x y) : f x ≠ f y := by
  obtain ⟨u, v, h1, h2, h3⟩ := h
  rw [satisfies_chain hf h1, ← satisfies_chain hf h3]
  exact (hf u v).2 h2

end Verif
