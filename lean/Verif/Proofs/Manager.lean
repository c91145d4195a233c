import Mathlib.Order.Basic
import Verif.Proofs.Trans

/-
The invariant of the constraints manager and its preservation by all methods.
-/

set_option linter.unusedSimpArgs false
set_option linter.unusedSectionVars false

namespace Verif

variable {α : Type} [LinearOrder α]

/-- The constraints of one row, in order. -/
def rowEdges (x : α) (row : Dict α (Option Stored)) : Edges α :=
  row.filterMap fun c => c.2.map fun s => (x, c.1, s.1)

/-- All stored constraints, in the order of `_generate_constraints_transitivity`. -/
def edgesOf (d : Dict α (Dict α (Option Stored))) : Edges α :=
  d.flatMap fun r => rowEdges r.1 r.2

/-- Cell `d[x][y]`, `none` if absent or `None`. -/
def cellAt (d : Dict α (Dict α (Option Stored))) (x y : α) : Option Stored :=
  ((dget? d x).bind fun row => dget? row y).join

/-- The constraint stored for the unordered pair. -/
def known (d : Dict α (Dict α (Option Stored))) (x y : α) : Option Stored :=
  if x ≤ y then cellAt d x y else cellAt d y x

theorem known_comm (d : Dict α (Dict α (Option Stored))) (x y : α) : known d x y = known d y x := by
  unfold known
  by_cases h : x ≤ y
  · by_cases h' : y ≤ x
    · have := le_antisymm h h'; subst this; rfl
    · simp [h, h']
  · have h' : y ≤ x := le_of_not_ge h
    simp [h, h']

structure DInv (d : Dict α (Dict α (Option Stored))) : Prop where
  nodup : (dkeys d).Nodup
  rowNodup : ∀ x row, dget? d x = some row → (dkeys row).Nodup
  rowKeys : ∀ x row, dget? d x = some row → ∀ y, y ∈ dkeys row ↔ y ∈ dkeys d ∧ x ≤ y
  val : ∀ x row, dget? d x = some row → ∀ y s, dget? row y = some (some s) → s.2 = 1

theorem cellAt_eq_some {d : Dict α (Dict α (Option Stored))} {x y : α} {s : Stored} :
    cellAt d x y = some s ↔ ∃ row, dget? d x = some row ∧ dget? row y = some (some s) := by
  unfold cellAt
  cases h : dget? d x with
  | none => simp
  | some row =>
    cases h' : dget? row y with
    | none => simp [h']
    | some o => cases o <;> simp [h']

theorem mem_rowEdges {x u v : α} {row : Dict α (Option Stored)} {t : CType}
    (hn : (dkeys row).Nodup) :
    (u, v, t) ∈ rowEdges x row ↔ u = x ∧ ∃ s, dget? row v = some (some s) ∧ s.1 = t := by
  unfold rowEdges
  simp only [List.mem_filterMap, Option.map_eq_some_iff, Prod.mk.injEq]
  constructor
  · rintro ⟨⟨v', o⟩, hm, s, hs, rfl, rfl, rfl⟩
    simp only at hs; subst hs
    exact ⟨rfl, s, dget?_of_mem hn hm, rfl⟩
  · rintro ⟨rfl, s, hs, rfl⟩
    exact ⟨(v, some s), mem_of_dget? hs, s, rfl, rfl, rfl, rfl⟩

theorem mem_edgesOf {d : Dict α (Dict α (Option Stored))} (h : DInv d) {u v : α} {t : CType} :
    (u, v, t) ∈ edgesOf d ↔ ∃ s, cellAt d u v = some s ∧ s.1 = t := by
  unfold edgesOf
  simp only [List.mem_flatMap, cellAt_eq_some]
  constructor
  · rintro ⟨⟨x, row⟩, hm, he⟩
    have hg := dget?_of_mem h.nodup hm
    rw [mem_rowEdges (h.rowNodup x row hg)] at he
    obtain ⟨rfl, s, hs, rfl⟩ := he
    exact ⟨s, ⟨row, hg, hs⟩, rfl⟩
  · rintro ⟨s, ⟨row, hg, hs⟩, rfl⟩
    exact ⟨(u, row), mem_of_dget? hg, (mem_rowEdges (h.rowNodup u row hg)).2 ⟨rfl, s, hs, rfl⟩⟩

theorem cellAt_le {d : Dict α (Dict α (Option Stored))} (h : DInv d) {u v : α} {s : Stored}
    (hc : cellAt d u v = some s) : u ∈ dkeys d ∧ v ∈ dkeys d ∧ u ≤ v := by
  obtain ⟨row, hg, hs⟩ := cellAt_eq_some.1 hc
  have := (h.rowKeys u row hg v).1 (mem_dkeys_of_dget? hs)
  exact ⟨mem_dkeys_of_dget? hg, this⟩

theorem edgeRel_edgesOf {d : Dict α (Dict α (Option Stored))} (h : DInv d) {x y : α} {t : CType} :
    EdgeRel (edgesOf d) t x y ↔ ∃ s, known d x y = some s ∧ s.1 = t := by
  unfold EdgeRel known
  rw [mem_edgesOf h, mem_edgesOf h]
  constructor
  · rintro (⟨s, hs, ht⟩ | ⟨s, hs, ht⟩)
    · have := (cellAt_le h hs).2.2
      exact ⟨s, by simp [this, hs], ht⟩
    · have hle := (cellAt_le h hs).2.2
      refine ⟨s, ?_, ht⟩
      split
      · rename_i h'
        have := le_antisymm h' hle; subst this; exact hs
      · exact hs
  · rintro ⟨s, hs, ht⟩
    split at hs
    · exact .inl ⟨s, hs, ht⟩
    · exact .inr ⟨s, hs, ht⟩

/-- The invariant of the manager. -/
structure Inv (m : Manager α) : Prop where
  d : DInv m.dict
  t : TInv (dkeys m.dict) m.trans (edgesOf m.dict)

theorem known_val {d : Dict α (Dict α (Option Stored))} (h : DInv d) {x y : α} {s : Stored}
    (hk : known d x y = some s) : s.2 = 1 := by
  unfold known at hk
  split at hk
  all_goals
    obtain ⟨row, hg, hs⟩ := cellAt_eq_some.1 hk
    exact h.val _ row hg _ s hs

/-- `get_added_constraint` under the invariant. -/
theorem getAdded_eq {m : Manager α} (h : DInv m.dict) {x y : α} (hx : x ∈ dkeys m.dict)
    (hy : y ∈ dkeys m.dict) : m.getAdded x y = .ok (known m.dict x y) := by
  have key : ∀ u v, u ∈ dkeys m.dict → v ∈ dkeys m.dict → u ≤ v →
      ∃ row, dget? m.dict u = some row ∧ ∃ o, dget? row v = some o ∧ cellAt m.dict u v = o := by
    intro u v hu hv huv
    obtain ⟨row, hg⟩ := dget?_isSome_of_mem hu
    obtain ⟨o, ho⟩ := dget?_isSome_of_mem ((h.rowKeys u row hg v).2 ⟨hv, huv⟩)
    refine ⟨row, hg, o, ho, ?_⟩
    simp [cellAt, hg, ho]
  unfold Manager.getAdded known
  by_cases hxy : x ≤ y
  · obtain ⟨row, hg, o, ho, hc⟩ := key x y hx hy hxy
    simp [hx, hy, hxy, dget, hg, ho, hc, bind, Except.bind, pure, Except.pure]
  · obtain ⟨row, hg, o, ho, hc⟩ := key y x hy hx (le_of_not_ge hxy)
    simp [hx, hy, hxy, dget, hg, ho, hc, bind, Except.bind, pure, Except.pure]

theorem getAdded_err1 {m : Manager α} {x y : α} (hx : x ∉ dkeys m.dict) :
    m.getAdded x y = .error (.valueError "data_ID1") := by
  simp [Manager.getAdded, hx, bind, Except.bind, throw, throwThe, MonadExceptOf.throw]

theorem getAdded_err2 {m : Manager α} {x y : α} (hx : x ∈ dkeys m.dict) (hy : y ∉ dkeys m.dict) :
    m.getAdded x y = .error (.valueError "data_ID2") := by
  simp [Manager.getAdded, hx, hy, bind, Except.bind, throw, throwThe, MonadExceptOf.throw, pure,
    Except.pure]

/-- `get_inferred_constraint` under the invariant. -/
theorem getInferred_eq {K : List α} {m : Manager α} {E : Edges α} (h : TInv K m.trans E) {x y : α}
    (hx : x ∈ K) (hy : y ∈ K) (th : Rat) :
    ∃ r, m.getInferred x y th = .ok r ∧
      (r = some .mustLink ↔ Chain (EML E) x y) ∧
      (r = some .cannotLink ↔ Separated (EML E) (ECL E) x y) := by
  obtain ⟨e, he⟩ := h.get hy
  have hx' : x ∈ dkeys m.trans := h.keys ▸ hx
  have hy' : y ∈ dkeys m.trans := h.keys ▸ hy
  have hml : x ∈ e.ml ↔ Chain (EML E) x y := by
    rw [h.ml y e he]; exact ⟨fun h => h.symm EdgeRel.symm, fun h => h.symm EdgeRel.symm⟩
  have hcl : x ∈ e.cl ↔ Separated (EML E) (ECL E) x y := by
    rw [h.cl y e he]
    exact ⟨fun h => h.symm EdgeRel.symm EdgeRel.symm, fun h => h.symm EdgeRel.symm EdgeRel.symm⟩
  have excl : x ∈ e.ml → ¬ x ∈ e.cl := by
    rw [hml, hcl]
    intro h1 h2
    exact h.cons x (h2.congr_right (h1.symm EdgeRel.symm))
  by_cases c1 : x ∈ e.ml
  · refine ⟨some .mustLink, ?_, by simp [← hml, c1], ?_⟩
    · simp [Manager.getInferred, hx', hy', dget, he, c1, bind, Except.bind, pure, Except.pure]
    · simp [← hcl, excl c1]
  · by_cases c2 : x ∈ e.cl
    · refine ⟨some .cannotLink, ?_, by simp [← hml, c1], by simp [← hcl, c2]⟩
      simp [Manager.getInferred, hx', hy', dget, he, c1, c2, bind, Except.bind, pure, Except.pure]
    · refine ⟨none, ?_, by simp [← hml, c1], by simp [← hcl, c2]⟩
      simp [Manager.getInferred, hx', hy', dget, he, c1, c2, bind, Except.bind, pure, Except.pure]

theorem getInferred_err1 {m : Manager α} {x y : α} {th : Rat} (hx : x ∉ dkeys m.trans) :
    m.getInferred x y th = .error (.valueError "data_ID1") := by
  simp [Manager.getInferred, hx, bind, Except.bind, throw, throwThe, MonadExceptOf.throw]

theorem getInferred_err2 {m : Manager α} {x y : α} {th : Rat} (hx : x ∈ dkeys m.trans)
    (hy : y ∉ dkeys m.trans) :
    m.getInferred x y th = .error (.valueError "data_ID2") := by
  simp [Manager.getInferred, hx, hy, bind, Except.bind, throw, throwThe, MonadExceptOf.throw, pure,
    Except.pure]

/-! ### General change of edge list -/

theorem TInv.congr_closure {K : List α} {T : Dict α (TEntry α)} {E E' : Edges α} (h : TInv K T E)
    (hE : ∀ x y t, (x, y, t) ∈ E' → x ∈ K ∧ y ∈ K)
    (hc : ∀ x y, Chain (EML E) x y ↔ Chain (EML E') x y)
    (hs : ∀ x y, Separated (EML E) (ECL E) x y ↔ Separated (EML E') (ECL E') x y) :
    TInv K T E' where
  keys := h.keys
  nodup := h.nodup
  edges := hE
  mlNodup := h.mlNodup
  clNodup := h.clNodup
  ml x e hx y := by rw [h.ml x e hx y]; exact hc x y
  cl x e hx y := by rw [h.cl x e hx y]; exact hs x y
  share := h.share
  cons x hs' := h.cons x ((hs x x).2 hs')

/-- If off-diagonal must-link edges agree, chains agree. -/
theorem chain_offdiag {em em' : α → α → Prop} (h : ∀ x y, x ≠ y → em x y → em' x y) {x y : α}
    (hc : Chain em x y) : Chain em' x y := by
  induction hc with
  | refl => exact .refl
  | @tail z w _ he ih =>
    by_cases hzw : z = w
    · subst hzw; exact ih
    · exact ih.trans (.single (h z w hzw he))

theorem sep_offdiag {em em' ec ec' : α → α → Prop} (h : ∀ x y, x ≠ y → em x y → em' x y)
    (h' : ∀ x y, ec x y → ec' x y) {x y : α}
    (hc : Separated em ec x y) : Separated em' ec' x y := by
  obtain ⟨u, v, h1, h2, h3⟩ := hc
  exact ⟨u, v, chain_offdiag h h1, h' _ _ h2, chain_offdiag h h3⟩

theorem TInv.congr_offdiag {K : List α} {T : Dict α (TEntry α)} {E E' : Edges α} (h : TInv K T E)
    (hE : ∀ x y t, (x, y, t) ∈ E' → x ∈ K ∧ y ∈ K)
    (hm : ∀ x y, x ≠ y → (EML E x y ↔ EML E' x y))
    (hc : ∀ x y, ECL E x y ↔ ECL E' x y) : TInv K T E' :=
  h.congr_closure hE
    (fun _ _ => ⟨chain_offdiag fun x y hn => (hm x y hn).1, chain_offdiag fun x y hn => (hm x y hn).2⟩)
    (fun _ _ => ⟨sep_offdiag (fun x y hn => (hm x y hn).1) fun x y => (hc x y).1,
      sep_offdiag (fun x y hn => (hm x y hn).2) fun x y => (hc x y).2⟩)

/-! ### Constructor -/

theorem init_dict_get (ids : List α) (x : α) :
    dget? (Manager.init ids).dict x = if x ∈ ids then
      some (dofList ((ids.filter fun y => decide (x ≤ y)).map fun y =>
        (y, if x = y then some (CType.mustLink, (1 : Rat)) else none))) else none := by
  unfold Manager.init
  simp only
  exact dget?_dofList_map ids (fun x => dofList ((ids.filter fun y => decide (x ≤ y)).map fun y =>
        (y, if x = y then some (CType.mustLink, (1 : Rat)) else none))) x

theorem init_keys (ids : List α) : dkeys (Manager.init ids).dict = ounion [] ids := by
  unfold Manager.init
  simp only
  exact dkeys_dofList_map ids _

theorem init_dinv (ids : List α) : DInv (Manager.init ids).dict := by
  have key : ∀ x row, dget? (Manager.init ids).dict x = some row → x ∈ ids ∧
      row = dofList ((ids.filter fun y => decide (x ≤ y)).map fun y =>
        (y, if x = y then some (CType.mustLink, (1 : Rat)) else none)) := by
    intro x row h
    rw [init_dict_get] at h
    split at h
    · exact ⟨by assumption, by simpa using h.symm⟩
    · simp at h
  refine ⟨?_, ?_, ?_, ?_⟩
  · rw [init_keys]; exact nodup_ounion List.nodup_nil
  · intro x row h
    rw [(key x row h).2]; exact nodup_dkeys_dofList _
  · intro x row h y
    rw [(key x row h).2, init_keys]
    rw [mem_dkeys_dofList_map _ (fun y => if x = y then some (CType.mustLink, (1 : Rat)) else none)]
    simp [mem_ounion]
  · intro x row h y s hs
    rw [(key x row h).2] at hs
    rw [dget?_dofList_map _ (fun y => if x = y then some (CType.mustLink, (1 : Rat)) else none)] at hs
    split at hs
    · simp only [Option.some.injEq] at hs
      split at hs
      · simp only [Option.some.injEq] at hs; simp [← hs]
      · simp at hs
    · simp at hs

theorem init_known (ids : List α) (x y : α) :
    known (Manager.init ids).dict x y = if x = y ∧ x ∈ ids then some (.mustLink, 1) else none := by
  have key : ∀ u v, cellAt (Manager.init ids).dict u v =
      if u = v ∧ u ∈ ids then some (.mustLink, 1) else none := by
    intro u v
    unfold cellAt
    rw [init_dict_get]
    by_cases hu : u ∈ ids
    · simp only [hu, if_true, Option.bind_some, and_true]
      rw [dget?_dofList_map _ (fun y => if u = y then some (CType.mustLink, (1 : Rat)) else none)]
      by_cases huv : u = v
      · subst huv; simp [hu]
      · simp only [huv, if_false]
        split <;> rfl
    · simp [hu]
  unfold known
  rw [key, key]
  by_cases h : x = y
  · subst h; simp
  · simp [h, Ne.symm h]

theorem init_inv (ids : List α) : Inv (Manager.init ids) := by
  have hd := init_dinv ids
  refine ⟨hd, ?_⟩
  have ht := TInv.fresh ids
  rw [← init_keys ids] at ht
  refine TInv.congr_offdiag (E := []) ht ?_ ?_ ?_
  · intro x y t hm
    obtain ⟨s, hs, -⟩ := (mem_edgesOf hd).1 hm
    exact ⟨(cellAt_le hd hs).1, (cellAt_le hd hs).2.1⟩
  · intro x y hn
    rw [EML, EML, edgeRel_edgesOf hd, init_known]
    simp [EdgeRel, hn]
  · intro x y
    rw [ECL, ECL, edgeRel_edgesOf hd, init_known]
    simp only [EdgeRel, List.not_mem_nil, or_self, false_iff, not_exists, not_and]
    intro s hs
    split at hs
    · simp at hs; simp [← hs]
    · simp at hs

/-! ### Regeneration -/

theorem onTrans_ok {β : Type} {act : EStateM PyErr (Dict α (TEntry α)) β} {m : Manager α} {b : β}
    {T : Dict α (TEntry α)} (h : act m.trans = .ok b T) :
    onTrans act m = .ok b { m with trans := T } := by
  simp [onTrans, h]

/-- Consistency of an edge list. -/
def Consistent (E : Edges α) : Prop := ∀ x, ¬ Separated (EML E) (ECL E) x x

omit [LinearOrder α] in
theorem EdgeRel.mono {E E' : Edges α} (h : ∀ e ∈ E, e ∈ E') {t : CType} (x y : α)
    (he : EdgeRel E t x y) : EdgeRel E' t x y :=
  he.elim (fun h' => .inl (h _ h')) (fun h' => .inr (h _ h'))

omit [LinearOrder α] in
theorem Consistent.mono {E E' : Edges α} (h : ∀ e ∈ E, e ∈ E') (hc : Consistent E') : Consistent E :=
  fun x hx => hc x (hx.mono (EdgeRel.mono h) (EdgeRel.mono h))

def regenCell (x : α) (cell : α × Option Stored) : MgrM α PUnit :=
  match cell.2 with
  | none => pure ()
  | some c => do let _ ← onTrans (addTrans x cell.1 c.1)

theorem regen_row {K : List α} {Efull : Edges α} (hE : ∀ x y t, (x, y, t) ∈ Efull → x ∈ K ∧ y ∈ K)
    (hcons : Consistent Efull) (x : α) (row : Dict α (Option Stored)) (m : Manager α) (E : Edges α)
    (hT : TInv K m.trans E) (hsub : ∀ e ∈ E ++ rowEdges x row, e ∈ Efull) :
    ∃ T', row.forM (regenCell x) m = .ok ⟨⟩ { m with trans := T' } ∧ TInv K T' (E ++ rowEdges x row) := by
  induction row generalizing m E with
  | nil => exact ⟨m.trans, rfl, by simpa [rowEdges] using hT⟩
  | cons c row ih =>
    obtain ⟨y, o⟩ := c
    cases o with
    | none =>
      have e1 : rowEdges x ((y, none) :: row) = rowEdges x row := by simp [rowEdges]
      rw [e1] at hsub ⊢
      obtain ⟨T', h1, h2⟩ := ih m E hT hsub
      refine ⟨T', ?_, h2⟩
      refine Eq.trans (forM_cons_ok ?_) h1
      rfl
    | some s =>
      have e1 : rowEdges x ((y, some s) :: row) = (x, y, s.1) :: rowEdges x row := by simp [rowEdges]
      rw [e1] at hsub ⊢
      have hmem : (x, y, s.1) ∈ Efull := hsub _ (by simp)
      obtain ⟨T₁, hr, hT₁⟩ := addTrans_inv hT (hE _ _ _ hmem).1 (hE _ _ _ hmem).2
        (Consistent.mono (E := E ++ [(x, y, s.1)]) (E' := Efull)
          (fun e he => hsub e (by simp at he ⊢; tauto)) hcons)
      obtain ⟨T', h1, h2⟩ := ih { m with trans := T₁ } (E ++ [(x, y, s.1)]) hT₁
        (fun e he => hsub e (by simp at he ⊢; tauto))
      refine ⟨T', ?_, by simpa using h2⟩
      refine Eq.trans (forM_cons_ok ?_) h1
      simp [regenCell, bind, EStateM.bind, onTrans_ok hr, pure, EStateM.pure]

theorem regen_rows {K : List α} {Efull : Edges α} (hE : ∀ x y t, (x, y, t) ∈ Efull → x ∈ K ∧ y ∈ K)
    (hcons : Consistent Efull) (rows : Dict α (Dict α (Option Stored))) (m : Manager α) (E : Edges α)
    (hT : TInv K m.trans E) (hsub : ∀ e ∈ E ++ edgesOf rows, e ∈ Efull) :
    ∃ T', rows.forM (fun r => r.2.forM (regenCell r.1)) m = .ok ⟨⟩ { m with trans := T' } ∧
      TInv K T' (E ++ edgesOf rows) := by
  induction rows generalizing m E with
  | nil => exact ⟨m.trans, rfl, by simpa [edgesOf] using hT⟩
  | cons r rows ih =>
    have e1 : edgesOf (r :: rows) = rowEdges r.1 r.2 ++ edgesOf rows := by simp [edgesOf]
    rw [e1] at hsub ⊢
    obtain ⟨T₁, h1, hT₁⟩ := regen_row hE hcons r.1 r.2 m E hT
      (fun e he => hsub e (by simp at he ⊢; tauto))
    obtain ⟨T', h2, hT'⟩ := ih { m with trans := T₁ } (E ++ rowEdges r.1 r.2) hT₁
      (fun e he => hsub e (by simp at he ⊢; tauto))
    refine ⟨T', ?_, by simpa using hT'⟩
    refine Eq.trans (forM_cons_ok ?_) h2
    exact h1

theorem edgesOf_mem_keys {d : Dict α (Dict α (Option Stored))} (hd : DInv d) (x y : α) (t : CType)
    (h : (x, y, t) ∈ edgesOf d) : x ∈ dkeys d ∧ y ∈ dkeys d := by
  obtain ⟨s, hs, -⟩ := (mem_edgesOf hd).1 h
  exact ⟨(cellAt_le hd hs).1, (cellAt_le hd hs).2.1⟩

/-- `_generate_constraints_transitivity` rebuilds the closure. -/
theorem regenerate_ok {m : Manager α} (hd : DInv m.dict) (hcons : Consistent (edgesOf m.dict)) :
    ∃ T', Manager.regenerate m = .ok ⟨⟩ { m with trans := T' } ∧
      TInv (dkeys m.dict) T' (edgesOf m.dict) := by
  have ht := TInv.fresh (dkeys m.dict)
  rw [ounion_nil_of_nodup hd.nodup] at ht
  obtain ⟨T', h1, h2⟩ := regen_rows (edgesOf_mem_keys hd) hcons m.dict
    { m with trans := dofList ((dkeys m.dict).map fun x => (x, TEntry.fresh x)) } [] ht (by simp)
  exact ⟨T', h1, by simpa using h2⟩

/-! ### Deleting a constraint -/

theorem setCell_ok {m : Manager α} (hd : DInv m.dict) {x y : α} (hx : x ∈ dkeys m.dict)
    (hy : y ∈ dkeys m.dict) (hxy : x ≤ y) (v : Option Stored) (hv : ∀ s, v = some s → s.2 = 1) :
    ∃ d', setCell x y v m = .ok () { m with dict := d' } ∧ DInv d' ∧ dkeys d' = dkeys m.dict ∧
      ∀ u w, known d' u w = if (u = x ∧ w = y) ∨ (u = y ∧ w = x) then v else known m.dict u w := by
  obtain ⟨row, hrow⟩ := dget?_isSome_of_mem hx
  have hyr : y ∈ dkeys row := (hd.rowKeys x row hrow y).2 ⟨hy, hxy⟩
  set d' := dset m.dict x (dset row y v) with hd'
  have hk : dkeys d' = dkeys m.dict := by rw [hd', dkeys_dset_of_mem _ hx]
  have hget : ∀ u, dget? d' u = if x = u then some (dset row y v) else dget? m.dict u := by
    intro u; rw [hd', dget?_dset]
  refine ⟨d', by simp [setCell, hrow, hd'], ⟨?_, ?_, ?_, ?_⟩, hk, ?_⟩
  · rw [hk]; exact hd.nodup
  · intro u r hu
    rw [hget] at hu
    split at hu
    · simp at hu; rw [← hu]; exact nodup_dkeys_dset _ _ (hd.rowNodup x row hrow)
    · exact hd.rowNodup u r hu
  · intro u r hu w
    rw [hget] at hu
    rw [hk]
    split at hu
    · rename_i e; subst e
      simp at hu; rw [← hu, dkeys_dset_of_mem _ hyr]
      exact hd.rowKeys x row hrow w
    · exact hd.rowKeys u r hu w
  · intro u r hu w s hs
    rw [hget] at hu
    split at hu
    · simp at hu; rw [← hu, dget?_dset] at hs
      split at hs
      · simp at hs; exact hv s hs
      · exact hd.val x row hrow w s hs
    · exact hd.val u r hu w s hs
  · have cell : ∀ u w, cellAt d' u w = if u = x ∧ w = y then v else cellAt m.dict u w := by
      intro u w
      unfold cellAt
      rw [hget]
      by_cases hu : x = u
      · subst hu
        simp only [if_true, Option.bind_some, dget?_dset, hrow, true_and]
        by_cases hw : y = w
        · subst hw; simp
        · simp [hw, Ne.symm hw]
      · simp [hu, Ne.symm hu]
    intro u w
    unfold known
    rw [cell, cell]
    by_cases huw : u ≤ w
    · simp only [huw, if_true]
      by_cases c : u = x ∧ w = y
      · simp [c]
      · by_cases c' : u = y ∧ w = x
        · obtain ⟨rfl, rfl⟩ := c'
          have := le_antisymm huw hxy
          subst this; simp
        · simp [c, c']
    · simp only [huw, if_false]
      have huw' : ¬ (u = x ∧ w = y) := by rintro ⟨rfl, rfl⟩; exact huw hxy
      simp [huw', and_comm]

/-- `min`/`max` version used by both add and delete. -/
theorem setCell_pair_ok {m : Manager α} (hd : DInv m.dict) {x y : α} (hx : x ∈ dkeys m.dict)
    (hy : y ∈ dkeys m.dict) (v : Option Stored) (hv : ∀ s, v = some s → s.2 = 1) :
    ∃ d', (if x ≤ y then setCell x y v else setCell y x v : MgrM α Unit) m = .ok () { m with dict := d' } ∧
      DInv d' ∧ dkeys d' = dkeys m.dict ∧
      ∀ u w, known d' u w = if (u = x ∧ w = y) ∨ (u = y ∧ w = x) then v else known m.dict u w := by
  by_cases h : x ≤ y
  · simp only [h, if_true]
    exact setCell_ok hd hx hy h v hv
  · simp only [h, if_false]
    obtain ⟨d', h1, h2, h3, h4⟩ := setCell_ok hd hy hx (le_of_not_ge h) v hv
    refine ⟨d', h1, h2, h3, ?_⟩
    intro u w; rw [h4]
    congr 1
    exact propext or_comm

theorem deleteConstraint_ok {m : Manager α} (h : Inv m) {x y : α} (hx : x ∈ dkeys m.dict)
    (hy : y ∈ dkeys m.dict) :
    ∃ m', Manager.deleteConstraint x y m = .ok true m' ∧ Inv m' ∧ dkeys m'.dict = dkeys m.dict ∧
      ∀ u w, known m'.dict u w =
        if (u = x ∧ w = y) ∨ (u = y ∧ w = x) then none else known m.dict u w := by
  obtain ⟨d', h1, hd', hk, hkn⟩ := setCell_pair_ok h.d hx hy none (by simp)
  have hcons : Consistent (edgesOf d') := by
    intro z hz
    refine h.t.cons z (hz.mono ?_ ?_)
    all_goals
      intro u w
      simp only [EML, ECL]
      rw [edgeRel_edgesOf hd', edgeRel_edgesOf h.d, hkn]
      split
      · simp
      · exact id
  obtain ⟨T', h2, hT'⟩ := regenerate_ok (m := { m with dict := d' }) hd' hcons
  refine ⟨{ dict := d', trans := T' }, ?_, ⟨hd', hT'⟩, hk, hkn⟩
  have hx' : ¬ x ∉ dkeys m.dict := not_not.2 hx
  have hy' : ¬ y ∉ dkeys m.dict := not_not.2 hy
  unfold Manager.deleteConstraint
  by_cases hxy : x ≤ y
  · simp only [hxy, if_true] at h1
    simp [bind, EStateM.bind, get, getThe, MonadStateOf.get, EStateM.get, hx, hy, pure, EStateM.pure,
      hxy, h1, h2]
  · simp only [hxy, if_false] at h1
    simp [bind, EStateM.bind, get, getThe, MonadStateOf.get, EStateM.get, hx, hy, pure, EStateM.pure,
      hxy, h1, h2]

/-! ### Adding a constraint -/

/-- Accepted call: nothing stored yet and no contradiction. -/
theorem addConstraint_new {m : Manager α} (h : Inv m) {x y : α} {ty : String} {t : CType} {v : Rat}
    (hx : x ∈ dkeys m.dict) (hy : y ∈ dkeys m.dict) (hty : CType.parse? ty = some t)
    (hinf : m.getInferred x y = .ok none ∨ m.getInferred x y = .ok (some t))
    (hadd : known m.dict x y = none) :
    ∃ m', Manager.addConstraint x y ty v m = .ok true m' ∧ Inv m' ∧ dkeys m'.dict = dkeys m.dict ∧
      ∀ u w, known m'.dict u w =
        if (u = x ∧ w = y) ∨ (u = y ∧ w = x) then some (t, 1) else known m.dict u w := by
  obtain ⟨d', h1, hd', hk, hkn⟩ := setCell_pair_ok h.d hx hy (some (t, 1)) (by rintro s ⟨⟩; rfl)
  have hedge : ∀ t' u w, EdgeRel (edgesOf m.dict ++ [(x, y, t)]) t' u w ↔ EdgeRel (edgesOf d') t' u w := by
    intro t' u w
    rw [edgeRel_snoc, edgeRel_edgesOf hd', edgeRel_edgesOf h.d, hkn]
    by_cases c : (u = x ∧ w = y) ∨ (u = y ∧ w = x)
    · have hnone : known m.dict u w = none := by
        rcases c with ⟨rfl, rfl⟩ | ⟨rfl, rfl⟩
        · exact hadd
        · rw [known_comm]; exact hadd
      simp [c, hnone, eq_comm, and_comm]
    · simp [c]
  obtain ⟨r, hr, hr1, hr2⟩ := getInferred_eq h.t hx hy 1
  have key : ∃ T', addTrans x y t m.trans = .ok true T' ∧
      TInv (dkeys m.dict) T' (edgesOf m.dict ++ [(x, y, t)]) := by
    have hr' : r = none ∨ r = some t := by
      rcases hinf with h' | h' <;> rw [hr] at h' <;> simp at h' <;> simp [h']
    cases t with
    | mustLink =>
      apply addTrans_ml h.t hx hy
      rw [← hr2]
      rcases hr' with rfl | rfl <;> simp
    | cannotLink =>
      apply addTrans_cl h.t hx hy
      rw [← hr1]
      rcases hr' with rfl | rfl <;> simp
  obtain ⟨T', hT, hTI⟩ := key
  have hTI' : TInv (dkeys d') T' (edgesOf d') := by
    rw [hk]; exact hTI.congr hedge
  refine ⟨{ dict := d', trans := T' }, ?_, ⟨hd', hTI'⟩, hk, hkn⟩
  have hgi : m.getInferred x y = .ok r := hr
  have hnc : ¬ (r.isSome = true ∧ r ≠ some t) := by
    rintro ⟨h1, h2⟩
    rcases hinf with h' | h' <;> rw [hgi] at h' <;> simp at h' <;> simp [h'] at h1 h2
  have hon : onTrans (addTrans x y t) { m with dict := d' } = .ok true { dict := d', trans := T' } :=
    onTrans_ok hT
  have hga : m.getAdded x y = .ok none := by rw [getAdded_eq h.d hx hy, hadd]
  unfold Manager.addConstraint
  by_cases hxy : x ≤ y
  · simp only [hxy, if_true] at h1
    simp [bind, EStateM.bind, get, getThe, MonadStateOf.get, EStateM.get, hx, hy, pure, EStateM.pure,
      hxy, h1, hty, liftGet, hgi, hnc, hga, hon]
  · simp only [hxy, if_false] at h1
    simp [bind, EStateM.bind, get, getThe, MonadStateOf.get, EStateM.get, hx, hy, pure, EStateM.pure,
      hxy, h1, hty, liftGet, hgi, hnc, hga, hon]

/-- Already stored: nothing changes. -/
theorem addConstraint_known {m : Manager α} (h : Inv m) {x y : α} {ty : String} {t : CType} {v : Rat}
    (hx : x ∈ dkeys m.dict) (hy : y ∈ dkeys m.dict) (hty : CType.parse? ty = some t)
    (hinf : m.getInferred x y = .ok none ∨ m.getInferred x y = .ok (some t)) {s : Stored}
    (hadd : known m.dict x y = some s) :
    Manager.addConstraint x y ty v m = .ok true m := by
  obtain ⟨r, hr, hr1, hr2⟩ := getInferred_eq h.t hx hy 1
  have hgi : m.getInferred x y = .ok r := hr
  have hnc : ¬ (r.isSome = true ∧ r ≠ some t) := by
    rintro ⟨h1, h2⟩
    rcases hinf with h' | h' <;> rw [hgi] at h' <;> simp at h' <;> simp [h'] at h1 h2
  have hga : m.getAdded x y = .ok (some s) := by rw [getAdded_eq h.d hx hy, hadd]
  unfold Manager.addConstraint
  simp [bind, EStateM.bind, get, getThe, MonadStateOf.get, EStateM.get, hx, hy, pure, EStateM.pure,
      hty, liftGet, hgi, hnc, hga]

/-- Conflict: raises and changes nothing. -/
theorem addConstraint_conflict {m : Manager α} {x y : α} {ty : String} {t t' : CType} {v : Rat}
    (hx : x ∈ dkeys m.dict) (hy : y ∈ dkeys m.dict) (hty : CType.parse? ty = some t)
    (hinf : m.getInferred x y = .ok (some t')) (hne : t' ≠ t) :
    Manager.addConstraint x y ty v m = .error (.valueError "conflict") m := by
  have hgi : m.getInferred x y = .ok (some t') := hinf
  unfold Manager.addConstraint
  simp [bind, EStateM.bind, get, getThe, MonadStateOf.get, EStateM.get, hx, hy, pure, EStateM.pure,
      hty, liftGet, hgi, hne, throw, throwThe, MonadExceptOf.throw, EStateM.throw]

theorem addConstraint_err1 {m : Manager α} {x y : α} {ty : String} {v : Rat} (hx : x ∉ dkeys m.dict) :
    Manager.addConstraint x y ty v m = .error (.valueError "data_ID1") m := by
  unfold Manager.addConstraint
  simp [bind, EStateM.bind, get, getThe, MonadStateOf.get, EStateM.get, hx, pure, EStateM.pure,
      throw, throwThe, MonadExceptOf.throw, EStateM.throw]

theorem addConstraint_err2 {m : Manager α} {x y : α} {ty : String} {v : Rat} (hx : x ∈ dkeys m.dict)
    (hy : y ∉ dkeys m.dict) :
    Manager.addConstraint x y ty v m = .error (.valueError "data_ID2") m := by
  unfold Manager.addConstraint
  simp [bind, EStateM.bind, get, getThe, MonadStateOf.get, EStateM.get, hx, hy, pure, EStateM.pure,
      throw, throwThe, MonadExceptOf.throw, EStateM.throw]

theorem addConstraint_err3 {m : Manager α} {x y : α} {ty : String} {v : Rat} (hx : x ∈ dkeys m.dict)
    (hy : y ∈ dkeys m.dict) (hty : CType.parse? ty = none) :
    Manager.addConstraint x y ty v m = .error (.valueError "constraint_type") m := by
  unfold Manager.addConstraint
  simp [bind, EStateM.bind, get, getThe, MonadStateOf.get, EStateM.get, hx, hy, hty, pure, EStateM.pure,
      throw, throwThe, MonadExceptOf.throw, EStateM.throw]

theorem deleteConstraint_err1 {m : Manager α} {x y : α} (hx : x ∉ dkeys m.dict) :
    Manager.deleteConstraint x y m = .error (.valueError "data_ID1") m := by
  unfold Manager.deleteConstraint
  simp [bind, EStateM.bind, get, getThe, MonadStateOf.get, EStateM.get, hx, pure, EStateM.pure,
      throw, throwThe, MonadExceptOf.throw, EStateM.throw]

theorem deleteConstraint_err2 {m : Manager α} {x y : α} (hx : x ∈ dkeys m.dict)
    (hy : y ∉ dkeys m.dict) :
    Manager.deleteConstraint x y m = .error (.valueError "data_ID2") m := by
  unfold Manager.deleteConstraint
  simp [bind, EStateM.bind, get, getThe, MonadStateOf.get, EStateM.get, hx, hy, pure, EStateM.pure,
      throw, throwThe, MonadExceptOf.throw, EStateM.throw]

/-! ### Deleting an ID -/

theorem deleteDataID_err {m : Manager α} {x : α} (hx : x ∉ dkeys m.dict) :
    Manager.deleteDataID x m = .error (.valueError "data_ID") m := by
  unfold Manager.deleteDataID
  simp [bind, EStateM.bind, get, getThe, MonadStateOf.get, EStateM.get, hx, pure, EStateM.pure,
      throw, throwThe, MonadExceptOf.throw, EStateM.throw]

theorem deleteDataID_ok {m : Manager α} (h : Inv m) {x : α} (hx : x ∈ dkeys m.dict) :
    ∃ m', Manager.deleteDataID x m = .ok true m' ∧ Inv m' ∧
      dkeys m'.dict = (dkeys m.dict).filter (· ≠ x) ∧
      ∀ u w, known m'.dict u w = if u = x ∨ w = x then none else known m.dict u w := by
  set d' := (dpop m.dict x).map (fun row => (row.1, dpop row.2 x)) with hd'
  have hk : dkeys d' = (dkeys m.dict).filter (· ≠ x) := by
    rw [hd', dkeys_map_snd (dpop m.dict x) (fun row => dpop row.2 x), dkeys_dpop]
  have hget : ∀ u, dget? d' u = if u = x then none else (dget? m.dict u).map (fun r => dpop r x) := by
    intro u
    rw [hd', dget?_map_snd (dpop m.dict x) (fun row => dpop row x), dget?_dpop]
    split <;> rfl
  have hrow : ∀ u r, dget? d' u = some r → u ≠ x ∧ ∃ r₀, dget? m.dict u = some r₀ ∧ r = dpop r₀ x := by
    intro u r hu
    rw [hget] at hu
    split at hu
    · simp at hu
    · rename_i hne
      obtain ⟨r₀, h1, h2⟩ := Option.map_eq_some_iff.1 hu
      exact ⟨hne, r₀, h1, h2.symm⟩
  have hD : DInv d' := by
    refine ⟨?_, ?_, ?_, ?_⟩
    · rw [hk]; exact h.d.nodup.filter _
    · intro u r hu
      obtain ⟨-, r₀, h1, rfl⟩ := hrow u r hu
      exact nodup_dkeys_dpop _ (h.d.rowNodup u r₀ h1)
    · intro u r hu y
      obtain ⟨-, r₀, h1, rfl⟩ := hrow u r hu
      rw [mem_dkeys_dpop, h.d.rowKeys u r₀ h1, hk, List.mem_filter]
      simp only [decide_eq_true_eq]
      tauto
    · intro u r hu y s hs
      obtain ⟨-, r₀, h1, rfl⟩ := hrow u r hu
      rw [dget?_dpop] at hs
      split at hs
      · simp at hs
      · exact h.d.val u r₀ h1 y s hs
  have hcell : ∀ u w, cellAt d' u w = if u = x ∨ w = x then none else cellAt m.dict u w := by
    intro u w
    unfold cellAt
    rw [hget]
    by_cases hu : u = x
    · simp [hu]
    · simp only [hu, if_false, false_or]
      cases hr : dget? m.dict u with
      | none => simp
      | some r =>
        simp only [Option.map_some, Option.bind_some, dget?_dpop]
        split <;> rfl
  have hkn : ∀ u w, known d' u w = if u = x ∨ w = x then none else known m.dict u w := by
    intro u w
    unfold known
    rw [hcell, hcell]
    by_cases huw : u ≤ w
    · simp only [huw, if_true]
    · simp only [huw, if_false]
      simp only [or_comm]
  have hcons : Consistent (edgesOf d') := by
    intro z hz
    refine h.t.cons z (hz.mono ?_ ?_)
    all_goals
      intro u w
      simp only [EML, ECL]
      rw [edgeRel_edgesOf hD, edgeRel_edgesOf h.d, hkn]
      split
      · simp
      · exact id
  obtain ⟨T', h2, hT'⟩ := regenerate_ok (m := { m with dict := d' }) hD hcons
  refine ⟨{ dict := d', trans := T' }, ?_, ⟨hD, hT'⟩, hk, hkn⟩
  unfold Manager.deleteDataID
  simp [bind, EStateM.bind, get, getThe, MonadStateOf.get, EStateM.get, hx, pure, EStateM.pure,
    modify, modifyGet, MonadStateOf.modifyGet, EStateM.modifyGet]
  rw [← hd', h2]

/-! ### Adding an ID -/

theorem addDataID_err {m : Manager α} {x : α} (hx : x ∈ dkeys m.dict) :
    Manager.addDataID x m = .error (.valueError "data_ID") m := by
  unfold Manager.addDataID
  simp [bind, EStateM.bind, get, getThe, MonadStateOf.get, EStateM.get, hx, pure, EStateM.pure,
      throw, throwThe, MonadExceptOf.throw, EStateM.throw]

/-- State of the dictionary in the middle of the loop of `add_data_ID`: `done` are the keys
already visited. -/
structure AddMid (d₀ : Dict α (Dict α (Option Stored))) (x : α) (done : List α)
    (d : Dict α (Dict α (Option Stored))) : Prop where
  keys : dkeys d = dkeys d₀ ++ [x]
  rowX : ∃ r, dget? d x = some r ∧ (dkeys r).Nodup ∧
    ∀ y, dget? r y = if y ∈ done ∧ x ≤ y then (if x = y then some (some (.mustLink, 1)) else some none)
      else none
  rowO : ∀ u r₀, dget? d₀ u = some r₀ → ∃ r, dget? d u = some r ∧ (dkeys r).Nodup ∧
    ∀ y, dget? r y = if y = x ∧ u ∈ done ∧ u < x then some none else dget? r₀ y

theorem addIdStep_mid {d₀ : Dict α (Dict α (Option Stored))} {x : α}
    (hx : x ∉ dkeys d₀) {done : List α} {m : Manager α} (h : AddMid d₀ x done m.dict) {z : α}
    (hz : z ∈ dkeys d₀ ++ [x]) (hzd : z ∉ done) :
    ∃ d', addIdStep x z m = .ok () { m with dict := d' } ∧ AddMid d₀ x (done ++ [z]) d' := by
  obtain ⟨rx, hrx, hrxn, hrxg⟩ := h.rowX
  have hxk : x ∈ dkeys m.dict := mem_dkeys_of_dget? hrx
  have oldx : ∀ u r₀, dget? d₀ u = some r₀ → u ≠ x := by
    rintro u r₀ hu rfl; exact hx (mem_dkeys_of_dget? hu)
  rcases lt_trichotomy x z with hlt | heq | hgt
  · -- x < z
    refine ⟨dset m.dict x (dset rx z none), ?_, ?_, ?_, ?_⟩
    · simp [addIdStep, hlt.ne, hlt, hrx]
    · rw [dkeys_dset_of_mem _ hxk, h.keys]
    · refine ⟨dset rx z none, by simp [dget?_dset], nodup_dkeys_dset _ _ hrxn, ?_⟩
      intro y
      rw [dget?_dset, hrxg]
      by_cases hy : z = y
      · subst hy; simp [hlt.le, hlt.ne]
      · simp [hy, Ne.symm hy]
    · intro u r₀ hu
      obtain ⟨r, hr, hrn, hrg⟩ := h.rowO u r₀ hu
      have hux := oldx u r₀ hu
      refine ⟨r, by simp [dget?_dset, Ne.symm hux, hr], hrn, ?_⟩
      intro y
      rw [hrg]
      by_cases huz : u = z
      · subst huz; simp [hzd, not_lt_of_gt hlt]
      · simp [huz]
  · -- x = z
    subst heq
    refine ⟨dset m.dict x (dset rx x (some (.mustLink, 1))), ?_, ?_, ?_, ?_⟩
    · simp [addIdStep, hrx]
    · rw [dkeys_dset_of_mem _ hxk, h.keys]
    · refine ⟨dset rx x (some (.mustLink, 1)), by simp [dget?_dset], nodup_dkeys_dset _ _ hrxn, ?_⟩
      intro y
      rw [dget?_dset, hrxg]
      by_cases hy : x = y
      · subst hy; simp
      · simp [hy, Ne.symm hy]
    · intro u r₀ hu
      obtain ⟨r, hr, hrn, hrg⟩ := h.rowO u r₀ hu
      have hux := oldx u r₀ hu
      refine ⟨r, by simp [dget?_dset, Ne.symm hux, hr], hrn, ?_⟩
      intro y
      rw [hrg]
      simp [hux]
  · -- z < x
    have hz0 : z ∈ dkeys d₀ := by
      rcases List.mem_append.1 hz with hz | hz
      · exact hz
      · simp at hz; exact absurd hz hgt.ne
    obtain ⟨rz₀, hrz₀⟩ := dget?_isSome_of_mem hz0
    obtain ⟨rz, hrz, hrzn, hrzg⟩ := h.rowO z rz₀ hrz₀
    refine ⟨dset m.dict z (dset rz x none), ?_, ?_, ?_, ?_⟩
    · simp [addIdStep, hgt.ne', not_lt_of_gt hgt, hrz]
    · rw [dkeys_dset_of_mem _ (mem_dkeys_of_dget? hrz), h.keys]
    · refine ⟨rx, by simp [dget?_dset, hgt.ne, hrx], hrxn, ?_⟩
      intro y
      rw [hrxg]
      by_cases hy : y = z
      · subst hy; simp [hzd, not_le_of_gt hgt]
      · simp [hy]
    · intro u r₀ hu
      by_cases huz : z = u
      · subst huz
        have : r₀ = rz₀ := by rw [hu] at hrz₀; simpa using hrz₀
        subst this
        refine ⟨dset rz x none, by simp [dget?_dset], nodup_dkeys_dset _ _ hrzn, ?_⟩
        intro y
        rw [dget?_dset, hrzg]
        by_cases hy : x = y
        · subst hy; simp [hgt]
        · simp [hy, Ne.symm hy]
      · obtain ⟨r, hr, hrn, hrg⟩ := h.rowO u r₀ hu
        refine ⟨r, by simp [dget?_dset, huz, hr], hrn, ?_⟩
        intro y
        rw [hrg]
        simp [Ne.symm huz]

theorem addIdLoop {d₀ : Dict α (Dict α (Option Stored))} {x : α}
    (hx : x ∉ dkeys d₀) (l : List α) (done : List α) (m : Manager α) (h : AddMid d₀ x done m.dict)
    (hl : ∀ z ∈ l, z ∈ dkeys d₀ ++ [x]) (hn : (done ++ l).Nodup) :
    ∃ d', l.forM (fun other => addIdStep x other) m = .ok ⟨⟩ { m with dict := d' } ∧
      AddMid d₀ x (done ++ l) d' := by
  induction l generalizing done m with
  | nil => exact ⟨m.dict, rfl, by simpa using h⟩
  | cons z l ih =>
    have hzd : z ∉ done := by
      intro hz
      rw [List.nodup_append] at hn
      exact hn.2.2 z hz z (by simp) rfl
    obtain ⟨d₁, h1, h1'⟩ := addIdStep_mid hx h (hl z (by simp)) hzd
    obtain ⟨d', h2, h2'⟩ := ih (done ++ [z]) { m with dict := d₁ } h1'
      (fun w hw => hl w (by simp [hw])) (by simpa using hn)
    refine ⟨d', ?_, by simpa using h2'⟩
    refine Eq.trans (forM_cons_ok ?_) h2
    exact h1

theorem addDataID_ok {m : Manager α} (h : Inv m) {x : α} (hx : x ∉ dkeys m.dict) :
    ∃ m', Manager.addDataID x m = .ok true m' ∧ Inv m' ∧ dkeys m'.dict = dkeys m.dict ++ [x] ∧
      m'.trans = m.trans ++ [(x, TEntry.fresh x)] ∧
      ∀ u w, known m'.dict u w = if u = x ∧ w = x then some (.mustLink, 1) else known m.dict u w := by
  have hmid : AddMid m.dict x [] (dset m.dict x []) := by
    refine ⟨by simp [dkeys_dset, hx], ⟨[], by simp [dget?_dset], by simp, by simp [dget?]⟩, ?_⟩
    intro u r₀ hu
    have hux : u ≠ x := by rintro rfl; exact hx (mem_dkeys_of_dget? hu)
    exact ⟨r₀, by simp [dget?_dset, Ne.symm hux, hu], h.d.rowNodup u r₀ hu, by simp⟩
  have hkn : (dkeys m.dict ++ [x]).Nodup := by
    rw [List.nodup_append]
    exact ⟨h.d.nodup, by simp, by simp; exact fun a ha e => hx (e ▸ ha)⟩
  obtain ⟨d', h1, hm'⟩ := addIdLoop hx (dkeys m.dict ++ [x]) []
    { m with dict := dset m.dict x [] } hmid (fun z hz => hz) (by simpa using hkn)
  rw [List.nil_append] at hm'
  obtain ⟨rx, hrx, hrxn, hrxg⟩ := hm'.rowX
  -- rows of the new dictionary
  have hD : DInv d' := by
    have split : ∀ u r, dget? d' u = some r → (u = x ∧ r = rx) ∨
        (u ≠ x ∧ ∃ r₀, dget? m.dict u = some r₀ ∧ (dkeys r).Nodup ∧
          ∀ y, dget? r y = if y = x ∧ u ∈ dkeys m.dict ++ [x] ∧ u < x then some none else dget? r₀ y) := by
      intro u r hu
      by_cases hux : u = x
      · subst hux
        rw [hrx] at hu
        exact .inl ⟨rfl, by simpa using hu.symm⟩
      · have huk : u ∈ dkeys m.dict := by
          have := mem_dkeys_of_dget? hu
          rw [hm'.keys] at this
          simpa [hux] using this
        obtain ⟨r₀, hr₀⟩ := dget?_isSome_of_mem huk
        obtain ⟨r', hr', hn', hg'⟩ := hm'.rowO u r₀ hr₀
        rw [hu] at hr'
        obtain rfl : r = r' := by simpa using hr'
        exact .inr ⟨hux, r₀, hr₀, hn', hg'⟩
    refine ⟨by rw [hm'.keys]; exact hkn, ?_, ?_, ?_⟩
    · intro u r hu
      rcases split u r hu with ⟨rfl, rfl⟩ | ⟨-, r₀, -, hn', -⟩
      · exact hrxn
      · exact hn'
    · intro u r hu y
      rw [hm'.keys, ← exists_dget?_iff]
      rcases split u r hu with ⟨rfl, rfl⟩ | ⟨hux, r₀, hr₀, -, hg'⟩
      · rw [hrxg]
        by_cases c : y ∈ dkeys m.dict ++ [u] ∧ u ≤ y
        · rw [if_pos c]
          constructor
          · intro _; exact c
          · intro _; split <;> simp
        · rw [if_neg c]
          exact ⟨by rintro ⟨v, ⟨⟩⟩, fun c' => absurd c' c⟩
      · rw [hg']
        have huk : u ∈ dkeys m.dict := mem_dkeys_of_dget? hr₀
        by_cases c : y = x
        · subst c
          by_cases c2 : u < y
          · simp [c2, huk, c2.le]
          · have : ¬ u ≤ y := fun hle => c2 (lt_of_le_of_ne hle hux)
            simp only [c2, and_false, if_false, this, iff_false]
            rw [exists_dget?_iff, h.d.rowKeys u r₀ hr₀]
            simp [this]
        · simp only [c, false_and, if_false, exists_dget?_iff, h.d.rowKeys u r₀ hr₀, List.mem_append,
            List.mem_singleton, or_false]
    · intro u r hu y s hs
      rcases split u r hu with ⟨rfl, rfl⟩ | ⟨hux, r₀, hr₀, -, hg'⟩
      · rw [hrxg] at hs
        split at hs
        · split at hs
          · simp at hs; simp [← hs]
          · simp at hs
        · simp at hs
      · rw [hg'] at hs
        split at hs
        · simp at hs
        · exact h.d.val u r₀ hr₀ y s hs
  have hcell : ∀ u w, cellAt d' u w = if u = x ∧ w = x then some (.mustLink, 1) else cellAt m.dict u w := by
    intro u w
    unfold cellAt
    by_cases hux : u = x
    · subst hux
      rw [hrx, dget?_eq_none_iff.2 hx]
      simp only [Option.bind_some, hrxg, true_and, Option.bind_none, Option.join_none]
      by_cases hw : u = w
      · subst hw; simp
      · simp only [hw, Ne.symm hw, if_false]
        split <;> simp
    · simp only [hux, false_and, if_false]
      cases hr₀ : dget? m.dict u with
      | none =>
        have : dget? d' u = none := by
          rw [dget?_eq_none_iff, hm'.keys]
          rw [dget?_eq_none_iff] at hr₀
          simp [hr₀, hux]
        simp [this]
      | some r₀ =>
        obtain ⟨r, hr, -, hg⟩ := hm'.rowO u r₀ hr₀
        rw [hr]
        simp only [Option.bind_some, hg]
        split
        · rename_i c
          obtain ⟨rfl, -, -⟩ := c
          have : dget? r₀ w = none := by
            rw [dget?_eq_none_iff, h.d.rowKeys u r₀ hr₀]
            simp [hx]
          simp [this]
        · rfl
  have hknown : ∀ u w, known d' u w = if u = x ∧ w = x then some (.mustLink, 1) else known m.dict u w := by
    intro u w
    unfold known
    rw [hcell, hcell]
    by_cases huw : u ≤ w
    · simp only [huw, if_true]
    · simp only [huw, if_false]
      simp only [and_comm]
  have hxt : x ∉ dkeys m.trans := by rw [h.t.keys]; exact hx
  have hTset : dset m.trans x (TEntry.fresh x) = m.trans ++ [(x, TEntry.fresh x)] := dset_of_notMem _ hxt
  -- closure
  have noEdge : ∀ t y, ¬ EdgeRel (edgesOf m.dict) t x y := by
    intro t y he
    exact hx (h.t.edge_mem he).1
  have chx : ∀ y, Chain (EML (edgesOf m.dict)) x y ↔ y = x := by
    intro y
    constructor
    · intro hc
      induction hc with
      | refl => rfl
      | tail _ he ih => subst ih; exact absurd he (noEdge _ _)
    · rintro rfl; exact .refl
  have spx : ∀ y, ¬ Separated (EML (edgesOf m.dict)) (ECL (edgesOf m.dict)) x y :=
    fun y hs => hx (h.t.sep_mem hs).1
  have hT1 : TInv (dkeys m.dict ++ [x]) (dset m.trans x (TEntry.fresh x)) (edgesOf m.dict) := by
    have G : ∀ u e, dget? (dset m.trans x (TEntry.fresh x)) u = some e →
        (u = x ∧ e = TEntry.fresh x) ∨ (u ≠ x ∧ dget? m.trans u = some e) := by
      intro u e hu
      rw [dget?_dset] at hu
      split at hu
      · rename_i e'; subst e'; exact .inl ⟨rfl, by simpa using hu.symm⟩
      · rename_i e'; exact .inr ⟨Ne.symm e', hu⟩
    refine ⟨?_, hkn, ?_, ?_, ?_, ?_, ?_, ?_, h.t.cons⟩
    · rw [dkeys_dset, h.t.keys]; simp [hx]
    · intro u w t hm
      have := h.t.edges u w t hm
      simp [this]
    · intro u e hu
      rcases G u e hu with ⟨rfl, rfl⟩ | ⟨-, hu⟩
      · simp [TEntry.fresh]
      · exact h.t.mlNodup u e hu
    · intro u e hu
      rcases G u e hu with ⟨rfl, rfl⟩ | ⟨-, hu⟩
      · simp [TEntry.fresh]
      · exact h.t.clNodup u e hu
    · intro u e hu y
      rcases G u e hu with ⟨rfl, rfl⟩ | ⟨-, hu⟩
      · simp [TEntry.fresh, chx]
      · exact h.t.ml u e hu y
    · intro u e hu y
      rcases G u e hu with ⟨rfl, rfl⟩ | ⟨-, hu⟩
      · simp [TEntry.fresh, spx]
      · exact h.t.cl u e hu y
    · intro u w eu ew hu hw hm
      rcases G u eu hu with ⟨rfl, rfl⟩ | ⟨hux, hu'⟩
      · simp [TEntry.fresh] at hm; subst hm
        rcases G _ ew hw with ⟨-, rfl⟩ | ⟨hc, -⟩
        · rfl
        · exact absurd rfl hc
      · rcases G w ew hw with ⟨rfl, rfl⟩ | ⟨hwx, hw'⟩
        · rw [h.t.ml u eu hu'] at hm
          exact absurd (h.t.chain_mem hm (h.t.mem_of_get hu')) hx
        · exact h.t.share u w eu ew hu' hw' hm
  have hT2 : TInv (dkeys d') (dset m.trans x (TEntry.fresh x)) (edgesOf d') := by
    rw [hm'.keys]
    refine hT1.congr_offdiag ?_ ?_ ?_
    · intro u w t hm
      have := edgesOf_mem_keys hD u w t hm
      rwa [hm'.keys] at this
    · intro u w hne
      rw [EML, EML, edgeRel_edgesOf hD, edgeRel_edgesOf h.d, hknown]
      have : ¬ (u = x ∧ w = x) := by rintro ⟨rfl, rfl⟩; exact hne rfl
      simp [this]
    · intro u w
      rw [ECL, ECL, edgeRel_edgesOf hD, edgeRel_edgesOf h.d, hknown]
      by_cases c : u = x ∧ w = x
      · obtain ⟨hu, hw⟩ := c
        rw [hu, hw]
        have : known m.dict x x = none := by
          cases hk : known m.dict x x with
          | none => rfl
          | some s =>
            exact absurd ((edgeRel_edgesOf h.d).2 ⟨s, hk, rfl⟩) (noEdge s.1 x)
        simp [this]
      · simp [c]
  refine ⟨{ dict := d', trans := dset m.trans x (TEntry.fresh x) }, ?_, ⟨hD, hT2⟩, hm'.keys, hTset, hknown⟩
  have hkeys : dkeys (dset m.dict x []) = dkeys m.dict ++ [x] := by simp [dkeys_dset, hx]
  unfold Manager.addDataID
  simp only [bind, EStateM.bind, get, getThe, MonadStateOf.get, EStateM.get, hx, if_false, pure, EStateM.pure,
    modify, modifyGet, MonadStateOf.modifyGet, EStateM.modifyGet, hkeys]
  rw [h1]

/-! ### Reachable managers -/

theorem parse_cases (ty : String) : CType.parse? ty = none ∨ ∃ t, CType.parse? ty = some t := by
  cases CType.parse? ty <;> simp

/-- What one API call does to a manager satisfying the invariant: the invariant survives, and
if the call raises the manager is untouched. -/
theorem call_inv {m : Manager α} (h : Inv m) (op : Op α) :
    Inv (resState (op.call m)) ∧ (∀ e m', op.call m = .error e m' → m' = m) := by
  cases op with
  | addDataID x =>
    by_cases hx : x ∈ dkeys m.dict
    · simp only [Op.call]
      rw [addDataID_err hx]
      exact ⟨h, by rintro e m' ⟨⟩; rfl⟩
    · obtain ⟨m', h1, h2, -⟩ := addDataID_ok h hx
      simp only [Op.call]
      rw [h1]
      exact ⟨h2, by rintro e m' ⟨⟩⟩
  | deleteDataID x =>
    by_cases hx : x ∈ dkeys m.dict
    · obtain ⟨m', h1, h2, -⟩ := deleteDataID_ok h hx
      simp only [Op.call]
      rw [h1]
      exact ⟨h2, by rintro e m' ⟨⟩⟩
    · simp only [Op.call]
      rw [deleteDataID_err hx]
      exact ⟨h, by rintro e m' ⟨⟩; rfl⟩
  | addConstraint x y ty v =>
    simp only [Op.call]
    by_cases hx : x ∈ dkeys m.dict
    · by_cases hy : y ∈ dkeys m.dict
      · rcases parse_cases ty with hty | ⟨t, hty⟩
        · rw [addConstraint_err3 hx hy hty]
          exact ⟨h, by rintro e m' ⟨⟩; rfl⟩
        · obtain ⟨r, hr, -, -⟩ := getInferred_eq h.t hx hy 1
          by_cases hc : r = none ∨ r = some t
          · have hinf : m.getInferred x y = .ok none ∨ m.getInferred x y = .ok (some t) := by
              rcases hc with rfl | rfl
              · exact .inl hr
              · exact .inr hr
            cases hk : known m.dict x y with
            | none =>
              obtain ⟨m', h1, h2, -⟩ := addConstraint_new (v := v) h hx hy hty hinf hk
              rw [h1]
              exact ⟨h2, by rintro e m' ⟨⟩⟩
            | some s =>
              rw [addConstraint_known h hx hy hty hinf hk]
              exact ⟨h, by rintro e m' ⟨⟩⟩
          · cases r with
            | none => simp at hc
            | some t' =>
              rw [addConstraint_conflict hx hy hty hr (by simpa using hc)]
              exact ⟨h, by rintro e m' ⟨⟩; rfl⟩
      · rw [addConstraint_err2 hx hy]
        exact ⟨h, by rintro e m' ⟨⟩; rfl⟩
    · rw [addConstraint_err1 hx]
      exact ⟨h, by rintro e m' ⟨⟩; rfl⟩
  | deleteConstraint x y =>
    simp only [Op.call]
    by_cases hx : x ∈ dkeys m.dict
    · by_cases hy : y ∈ dkeys m.dict
      · obtain ⟨m', h1, h2, -⟩ := deleteConstraint_ok h hx hy
        rw [h1]
        exact ⟨h2, by rintro e m' ⟨⟩⟩
      · rw [deleteConstraint_err2 hx hy]
        exact ⟨h, by rintro e m' ⟨⟩; rfl⟩
    · rw [deleteConstraint_err1 hx]
      exact ⟨h, by rintro e m' ⟨⟩; rfl⟩

theorem runOps_inv {m : Manager α} (h : Inv m) (ops : List (Op α)) : Inv (runOps m ops) := by
  induction ops generalizing m with
  | nil => exact h
  | cons op ops ih => exact ih (call_inv h op).1

theorem Reachable.inv {m : Manager α} (h : Reachable m) : Inv m := by
  obtain ⟨ids, ops, rfl⟩ := h
  exact runOps_inv (init_inv ids) ops

theorem runOps_append (m : Manager α) (l₁ l₂ : List (Op α)) :
    runOps m (l₁ ++ l₂) = runOps (runOps m l₁) l₂ := by
  induction l₁ generalizing m with
  | nil => rfl
  | cons op l₁ ih => exact ih _

theorem Reachable.init (ids : List α) : Reachable (Manager.init ids) := ⟨ids, [], rfl⟩

theorem Reachable.call {m : Manager α} (h : Reachable m) (op : Op α) :
    Reachable (resState (op.call m)) := by
  obtain ⟨ids, ops, rfl⟩ := h
  exact ⟨ids, ops ++ [op], by rw [runOps_append]; rfl⟩

end Verif
