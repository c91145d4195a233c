import Verif.Proofs.Heap

/-
The manager with objects behaves as the manager with values: simulation of the methods.
-/

namespace Verif

section
variable {α : Type} [LinearOrder α]

/-- The objects of `h` have the content `m`; no two IDs have the same row object. -/
structure RelM (h : HeapManager α) (m : Manager α) : Prop where
  keys : dkeys h.dict = dkeys m.dict
  nodup : (dkeys m.dict).Nodup
  row : ∀ x a, dget? h.dict x = some a → ∃ r, dget? m.dict x = some r ∧ h.rows[a]? = some r
  inj : ∀ x y a, dget? h.dict x = some a → dget? h.dict y = some a → x = y
  rowNodup : ∀ x r, dget? m.dict x = some r → (dkeys r).Nodup
  trans : RelT h.trans m.trans

/-- The set objects of `h` are still there, unchanged, in `h'`. -/
def KeptM (h h' : HeapManager α) : Prop := SetsKept h.trans h'.trans

theorem KeptM.refl (h : HeapManager α) : KeptM h h := SetsKept.refl _

theorem KeptM.trans (a b c : HeapManager α) (h : KeptM a b) (h' : KeptM b c) : KeptM a c := SetsKept.trans _ _ _ h h'

/-- A new entry object for `x`. -/
theorem RelT.addEntry {t : THeap α} {T : Dict α (TEntry α)} (h : RelT t T) (x : α) :
    RelT { sets := t.sets ++ [[x]] ++ [[]], entries := t.entries ++ [(t.sets.length, t.sets.length + 1)],
           table := dset t.table x t.entries.length } (dset T x (TEntry.fresh x)) := by
  have hlt : ∀ y e, dget? t.table y = some e → e < t.entries.length := fun y e hy => by
    obtain ⟨E, _, p, hp, _⟩ := h.entry y e hy
    exact (List.getElem?_eq_some_iff.mp hp).1
  refine ⟨?_, nodup_dkeys_dset x _ h.nodup, fun y e hy => ?_, fun y z e hy hz => ?_⟩
  · show dkeys (dset t.table x _) = _
    rw [dkeys_dset, dkeys_dset, h.keys]
  · change dget? (dset t.table x t.entries.length) y = some e at hy
    rw [dget?_dset] at hy ⊢
    by_cases hxy : x = y
    · subst hxy
      simp only [if_true, Option.some.injEq] at hy
      subst hy
      refine ⟨TEntry.fresh x, by simp, (t.sets.length, t.sets.length + 1), by simp, ?_, ?_⟩ <;>
        simp [IsSet, TEntry.fresh]
    · have hyx : ¬ y = x := fun e => hxy e.symm
      simp only [hxy, hyx, if_false] at hy ⊢
      obtain ⟨E, hE, p, hp, h1, h2⟩ := h.entry y e hy
      have hk : SetsKept t ⟨t.sets ++ [[x]] ++ [[]], t.entries ++ [(t.sets.length, t.sets.length + 1)],
          dset t.table x t.entries.length⟩ := by
        show t.sets <+: t.sets ++ [[x]] ++ [[]]
        rw [List.append_assoc]; exact List.prefix_append _ _
      refine ⟨E, hE, p, ?_, h1.kept hk, h2.kept hk⟩
      show (t.entries ++ _)[e]? = _
      rw [List.getElem?_append_left (hlt y e hy), hp]
  · change dget? (dset t.table x t.entries.length) y = some e at hy
    change dget? (dset t.table x t.entries.length) z = some e at hz
    rw [dget?_dset] at hy hz
    split at hy <;> split at hz
    · simp_all
    · rw [Option.some.injEq] at hy; have := hlt z e hz; omega
    · rw [Option.some.injEq] at hz; have := hlt y e hy; omega
    · exact h.inj y z e hy hz

/-- Building a new table. -/
theorem freshTable_spec (ids : List α) {t : THeap α} {d : Dict α Nat} {T : Dict α (TEntry α)}
    (h : RelT { t with table := d } T) :
    ∃ d' t', (ids.foldlM (fun d x => do
        let ml ← newSet [x]
        let cl ← newSet []
        return dset d x (← newEntry ml cl)) d : THeapM α (Dict α Nat)) t = .ok d' t' ∧
      RelT { t' with table := d' } (ids.foldl (fun T x => dset T x (TEntry.fresh x)) T) ∧ SetsKept t t' := by
  induction ids generalizing t d T with
  | nil => exact ⟨d, t, rfl, h, SetsKept.refl t⟩
  | cons x ids ih =>
    have h' := h.addEntry x
    obtain ⟨d', t', e, r, k⟩ := ih (t := ⟨t.sets ++ [[x]] ++ [[]], t.entries ++ [(t.sets.length, t.sets.length + 1)], t.table⟩)
      (d := dset d x t.entries.length) h'
    refine ⟨d', t', ?_, r, SetsKept.trans _ _ _ ?_ k⟩
    · rw [List.foldlM_cons]
      refine (stepOk (b := dset d x t.entries.length) ?_ _).trans e
      rw [stepOk (p := newSet [x]) rfl, stepOk (p := newSet []) rfl]
      simp only [List.length_append, List.length_singleton]
      rfl
    · show t.sets <+: t.sets ++ [[x]] ++ [[]]
      rw [List.append_assoc]; exact List.prefix_append _ _

theorem dofList_fresh (ids : List α) :
    dofList (ids.map fun x => (x, TEntry.fresh x)) = ids.foldl (fun T x => dset T x (TEntry.fresh x)) [] := by
  unfold dofList; rw [List.foldl_map]

theorem relT_empty (t : THeap α) : RelT { t with table := [] } ([] : Dict α (TEntry α)) :=
  ⟨rfl, List.nodup_nil, fun _ _ h => by simp [dget?] at h, fun _ _ _ h => by simp [dget?] at h⟩

/-- The action of lines 110-116 and 590-596. -/
theorem resetTable_spec (ids : List α) (t : THeap α) :
    ∃ t', (do let d ← freshTable ids
              modify fun t => { t with table := d } : THeapM α Unit) t = .ok () t' ∧
      RelT t' (dofList (ids.map fun x => (x, TEntry.fresh x))) ∧ SetsKept t t' := by
  obtain ⟨d, t', e, r, k⟩ := freshTable_spec ids (relT_empty t)
  refine ⟨{ t' with table := d }, ?_, ?_, k⟩
  · exact (stepOk e _)
  · rw [dofList_fresh]; exact r

/-! ### Rows -/

theorem RelM.get {h : HeapManager α} {m : Manager α} (r : RelM h m) (x : α) :
    (dget? h.dict x = none ∧ dget? m.dict x = none) ∨
    ∃ a w, dget? h.dict x = some a ∧ dget? m.dict x = some w ∧ h.rows[a]? = some w := by
  cases hx : dget? h.dict x with
  | none =>
    left
    rw [dget?_eq_none_iff] at hx ⊢
    exact ⟨rfl, by rwa [← r.keys]⟩
  | some a =>
    obtain ⟨w, h1, h2⟩ := r.row x a hx
    exact Or.inr ⟨a, w, rfl, h1, h2⟩

theorem heapRow_some {h : HeapManager α} {x : α} {a : Nat} {w : Dict α (Option Stored)} (h1 : dget? h.dict x = some a)
    (h2 : h.rows[a]? = some w) : heapRow x h = .ok (a, w) h := by
  unfold heapRow; rw [h1]; simp only; rw [h2]

theorem heapRow_none {h : HeapManager α} {x : α} (h1 : dget? h.dict x = none) : heapRow x h = .error .keyError h := by
  unfold heapRow; rw [h1]

/-- Changing the row object of `x` changes the row of `x` and no other. -/
theorem RelM.setRow {h : HeapManager α} {m : Manager α} (r : RelM h m) {x : α} {a : Nat} (hx : dget? h.dict x = some a)
    {w : Dict α (Option Stored)} (hw : (dkeys w).Nodup) :
    RelM { h with rows := h.rows.set a w } { m with dict := dset m.dict x w } := by
  have hmem : x ∈ dkeys m.dict := r.keys ▸ mem_dkeys_of_dget? hx
  refine ⟨?_, nodup_dkeys_dset x w r.nodup, fun y b hy => ?_, r.inj, fun y v hy => ?_, r.trans⟩
  · show dkeys h.dict = dkeys (dset m.dict x w)
    rw [dkeys_dset_of_mem w hmem, r.keys]
  · change dget? h.dict y = some b at hy
    show ∃ v, dget? (dset m.dict x w) y = some v ∧ (h.rows.set a w)[b]? = some v
    rw [dget?_dset]
    obtain ⟨v, h1, h2⟩ := r.row y b hy
    by_cases hxy : x = y
    · subst hxy
      rw [hx, Option.some.injEq] at hy
      subst hy
      exact ⟨w, by simp, List.getElem?_set_self (List.getElem?_eq_some_iff.mp h2).1⟩
    · refine ⟨v, by simp [hxy, h1], ?_⟩
      rw [List.getElem?_set_ne (fun hab => hxy (r.inj x y a hx (by rw [hab]; exact hy))), h2]
  · change dget? (dset m.dict x w) y = some v at hy
    rw [dget?_dset] at hy
    split at hy
    · rw [Option.some.injEq] at hy; exact hy ▸ hw
    · exact r.rowNodup y v hy

theorem sim_assignCell {h : HeapManager α} {m : Manager α} (r : RelM h m) (x y : α) (v : Option Stored) :
    Sim RelM KeptM h m (assignCell x y v) (setCell x y v) (fun _ _ _ => True) := by
  rcases r.get x with ⟨h1, h2⟩ | ⟨a, w, h1, h2, h3⟩
  · exact Sim.err (e := .keyError) (by unfold assignCell; exact stepErr (heapRow_none h1) _) (by unfold setCell; rw [h2]) r
      (KeptM.refl h)
  · refine Sim.ok (b := ()) (c := ()) (s' := { h with rows := h.rows.set a (dset w y v) }) ?_
      (by unfold setCell; rw [h2]) (r.setRow h1 (nodup_dkeys_dset y v (r.rowNodup x w h2))) (KeptM.refl h) trivial
    unfold assignCell
    rw [stepOk (heapRow_some h1 h3)]
    rfl

/-! ### The transitivity table inside the manager -/

/-- As `RelM`, with the constraints dictionary left alone. -/
def RelF (D : Dict α Nat) (W : List (Dict α (Option Stored))) (M : Dict α (Dict α (Option Stored)))
    (h : HeapManager α) (m : Manager α) : Prop := RelM h m ∧ h.dict = D ∧ h.rows = W ∧ m.dict = M

theorem Sim.weaken {σ τ β γ : Type} {I I' : σ → τ → Prop} {X : σ → σ → Prop} {s : σ} {t : τ} {p : EStateM PyErr σ β}
    {q : EStateM PyErr τ γ} {R : σ → β → γ → Prop} (h : Sim I X s t p q R) (hI : ∀ s t, I s t → I' s t) :
    Sim I' X s t p q R := by
  unfold Sim at h ⊢
  revert h
  cases p s <;> cases q t <;> simp only <;> intro k
  · exact ⟨hI _ _ k.1, k.2⟩
  · exact k
  · exact k
  · exact ⟨k.1, hI _ _ k.2.1, k.2.2⟩

theorem RelM.withTrans {h : HeapManager α} {m : Manager α} (r : RelM h m) {t : THeap α} {T : Dict α (TEntry α)}
    (k : RelT t T) : RelM { h with trans := t } { m with trans := T } :=
  ⟨r.keys, r.nodup, r.row, r.inj, r.rowNodup, k⟩

theorem sim_onTrans {β γ : Type} {D : Dict α Nat} {W : List (Dict α (Option Stored))}
    {M : Dict α (Dict α (Option Stored))} {h : HeapManager α} {m : Manager α} (r : RelF D W M h m) {p : THeapM α β}
    {q : EStateM PyErr (Dict α (TEntry α)) γ} {R : THeap α → β → γ → Prop} (k : Sim RelT SetsKept h.trans m.trans p q R) :
    Sim (RelF D W M) KeptM h m (onTransH p) (onTrans q) (fun h b c => R h.trans b c) := by
  unfold Sim at k ⊢
  unfold onTransH onTrans
  revert k
  cases p h.trans <;> cases q m.trans <;> simp only <;> intro k
  · exact ⟨⟨r.1.withTrans k.1, r.2⟩, k.2.1, k.2.2⟩
  · exact k
  · exact k
  · exact ⟨k.1, ⟨r.1.withTrans k.2.1, r.2⟩, k.2.2⟩

/-- `_generate_constraints_transitivity`. -/
theorem sim_regenerate {h : HeapManager α} {m : Manager α} (r : RelM h m) :
    Sim RelM KeptM h m HeapManager.regenerate Manager.regenerate (fun _ _ _ => True) := by
  refine Sim.weaken (I := RelF h.dict h.rows m.dict) ?_ (fun _ _ k => k.1)
  unfold HeapManager.regenerate Manager.regenerate
  refine Sim.left KeptM.trans (p := get) (b := h) (s' := h) rfl (KeptM.refl h) ?_
  obtain ⟨t', e, rt, kt⟩ := resetTable_spec (dkeys h.dict) h.trans
  have e' : onTransH (do let d ← freshTable (dkeys h.dict)
                         modify fun t => { t with table := d }) h = .ok () { h with trans := t' } := by
    unfold onTransH; rw [e]
  have rt' : RelF h.dict h.rows m.dict { h with trans := t' }
      { m with trans := dofList ((dkeys m.dict).map fun x => (x, TEntry.fresh x)) } := by
    refine ⟨r.withTrans ?_, rfl, rfl, rfl⟩
    rw [← r.keys]; exact rt
  refine Sim.step KeptM.trans _ { m with trans := dofList ((dkeys m.dict).map fun x => (x, TEntry.fresh x)) } () () e' rfl kt ?_
  generalize { h with trans := t' } = h1 at rt' ⊢
  generalize ({ m with trans := dofList ((dkeys m.dict).map fun x => (x, TEntry.fresh x)) } : Manager α) = m1 at rt' ⊢
  rename' rt' => r1
  have hg : (get : MgrM α (Manager α)) m1 = .ok m1 m1 := rfl
  have hstep : ∀ {p : HeapM α PUnit}, Sim (RelF h.dict h.rows m.dict) KeptM h1 m1 p (m1.dict.forM fun row => row.2.forM fun cell =>
      match cell.2 with
      | none => pure ()
      | some c => do let _ ← onTrans (addTrans row.1 cell.1 c.1)) (fun _ _ _ => True) →
      Sim (RelF h.dict h.rows m.dict) KeptM h1 m1 p (get >>= fun m1 : Manager α => m1.dict.forM fun row => row.2.forM fun cell =>
      match cell.2 with
      | none => pure ()
      | some c => do let _ ← onTrans (addTrans row.1 cell.1 c.1)) (fun _ _ _ => True) := by
    intro p k
    unfold Sim at k ⊢
    rw [stepOk hg]
    exact k
  refine hstep ?_
  have hkeys : dkeys h.dict = m1.dict.map Prod.fst := by rw [r1.2.2.2, r.keys]; rfl
  rw [hkeys]
  refine Sim.forM KeptM.refl KeptM.trans (P := fun x row => row ∈ m1.dict ∧ row.1 = x) ?_ r1 ?_
  · rw [List.forall₂_map_left_iff, List.forall₂_same]
    exact fun p hp => ⟨hp, rfl⟩
  rintro x row h2 m2 ⟨hrow, rfl⟩ r2 k2
  have hget : dget? m2.dict row.1 = some row.2 := by
    rw [r2.2.2.2, ← r1.2.2.2]
    exact dget?_of_mem r1.1.nodup hrow
  have hread : ∀ h' m', RelF h.dict h.rows m.dict h' m' → ∃ a, heapRow row.1 h' = .ok (a, row.2) h' := by
    intro h' m' r'
    rcases r'.1.get row.1 with ⟨_, e2⟩ | ⟨a, w, e1, e2, e3⟩
    · rw [r'.2.2.2, ← r2.2.2.2, hget] at e2; cases e2
    · rw [r'.2.2.2, ← r2.2.2.2, hget, Option.some.injEq] at e2
      subst e2
      exact ⟨a, heapRow_some e1 e3⟩
  obtain ⟨a, ha⟩ := hread h2 m2 r2
  refine Sim.left KeptM.trans ha (KeptM.refl _) ?_
  refine Sim.forM KeptM.refl KeptM.trans (l := row.2.map Prod.fst) (P := fun y cell => cell ∈ row.2 ∧ cell.1 = y) ?_ r2 ?_
  · rw [List.forall₂_map_left_iff, List.forall₂_same]
    exact fun p hp => ⟨hp, rfl⟩
  rintro y cell h3 m3 ⟨hcell, rfl⟩ r3 k3
  obtain ⟨b, hb⟩ := hread h3 m3 r3
  refine Sim.left KeptM.trans hb (KeptM.refl _) ?_
  have hc : dget? row.2 cell.1 = some cell.2 := dget?_of_mem (r2.1.rowNodup _ _ hget) hcell
  simp only [hc]
  cases cell.2 with
  | none => exact Sim.pure KeptM.refl r3 trivial
  | some c =>
    refine Sim.bind KeptM.trans (sim_onTrans r3 (sim_addTrans r3.1.trans _ _ _)) fun _ _ _ _ r4 _ _ => ?_
    exact Sim.pure KeptM.refl r4 trivial

/-! ### Queries -/

/-- A query: a result or an exception, and the object unchanged. -/
def asIs {σ β : Type} (r : Except PyErr β) (s : σ) : EStateM.Result PyErr σ β :=
  match r with
  | .ok b => .ok b s
  | .error e => .error e s

theorem Sim.query {β : Type} {I : HeapManager α → Manager α → Prop} {h : HeapManager α} {m : Manager α} (r : I h m)
    {p : HeapM α β} {f : Manager α → Except PyErr β} (e : p h = asIs (f m) h) :
    Sim I KeptM h m p (liftGet f) (fun _ b c => b = c) := by
  unfold Sim liftGet
  rw [e]
  unfold asIs
  cases f m with
  | ok b => exact ⟨r, KeptM.refl h, rfl⟩
  | error e => exact ⟨rfl, r, KeptM.refl h⟩

theorem heap_getAdded {h : HeapManager α} {m : Manager α} (r : RelM h m) (x y : α) :
    HeapManager.getAdded x y h = asIs (m.getAdded x y) h := by
  unfold HeapManager.getAdded Manager.getAdded
  rw [stepOk (p := get) (b := h) (s' := h) rfl]
  by_cases hx : x ∈ dkeys m.dict
  swap
  · simp only [r.keys, hx, not_false_eq_true, if_true]
    rfl
  simp only [r.keys, hx, not_true_eq_false, if_false]
  rw [stepOk (p := get) (b := h) (s' := h) rfl]
  by_cases hy : y ∈ dkeys m.dict
  swap
  · simp only [r.keys, hy, not_false_eq_true, if_true]
    rfl
  simp only [r.keys, hy, not_true_eq_false, if_false]
  have key : ∀ u v : α, u ∈ dkeys m.dict →
      (do let p ← heapRow u
          match dget? p.2 v with
          | none => throw .keyError
          | some c => return c : HeapM α (Option Stored)) h = asIs (do dget (← dget m.dict u) v) h := by
    intro u v hu
    rcases r.get u with ⟨_, e2⟩ | ⟨a, w, e1, e2, e3⟩
    · rw [dget?_eq_none_iff] at e2; exact (e2 hu).elim
    · rw [stepOk (heapRow_some e1 e3), dget_of_dget? e2]
      show _ = asIs (dget w v) h
      unfold dget
      cases dget? w v <;> rfl
  split
  · exact key x y hx
  · exact key y x hy

theorem heap_getInferred {h : HeapManager α} {m : Manager α} (r : RelM h m) (x y : α) :
    HeapManager.getInferred x y h = asIs (m.getInferred x y) h := by
  unfold HeapManager.getInferred Manager.getInferred onTransH
  rw [stepOk (p := get) (b := h.trans) (s' := h.trans) rfl]
  by_cases hx : x ∈ dkeys m.trans
  swap
  · simp only [r.trans.keys, hx, not_false_eq_true, if_true]
    rfl
  simp only [r.trans.keys, hx, not_true_eq_false, if_false]
  rw [stepOk (p := get) (b := h.trans) (s' := h.trans) rfl]
  by_cases hy : y ∈ dkeys m.trans
  swap
  · simp only [r.trans.keys, hy, not_false_eq_true, if_true]
    rfl
  simp only [r.trans.keys, hy, not_true_eq_false, if_false]
  obtain ⟨e, he⟩ := dget?_isSome_of_mem (d := h.trans.table) (k := y) (by rw [r.trans.keys]; exact hy)
  obtain ⟨E, hE, p, hp, h1, h2⟩ := r.trans.entry y e he
  have hm : heapML y h.trans = .ok p.1 h.trans := by unfold heapML; rw [he]; simp only; rw [hp]
  have hc : heapCL y h.trans = .ok p.2 h.trans := by unfold heapCL; rw [he]; simp only; rw [hp]
  rw [stepOk hm, stepOk (setAt_of h1), dget_of_dget? hE]
  show _ = asIs (if x ∈ E.ml then _ else _) h
  by_cases k1 : x ∈ E.ml
  · simp only [k1, if_true]; rfl
  simp only [k1, if_false]
  rw [stepOk hc, stepOk (setAt_of h2)]
  by_cases k2 : x ∈ E.cl
  · simp only [k2, if_true]; rfl
  · simp only [k2, if_false]; rfl

theorem setsOf {t : THeap α} {T : Dict α (TEntry α)} (r : RelT t T) {q : α × TEntry α} (hq : q ∈ T) :
    ∃ a b, heapML q.1 t = .ok a t ∧ heapCL q.1 t = .ok b t ∧ setAt a t = .ok q.2.ml t ∧ setAt b t = .ok q.2.cl t := by
  have hT := dget?_of_mem (k := q.1) (v := q.2) r.nodup hq
  obtain ⟨e, he⟩ := dget?_isSome_of_mem (d := t.table) (k := q.1) (by rw [r.keys]; exact mem_dkeys_of_dget? hT)
  obtain ⟨E, hE, p, hp, h1, h2⟩ := r.entry q.1 e he
  rw [hT, Option.some.injEq] at hE
  subst hE
  refine ⟨p.1, p.2, ?_, ?_, setAt_of h1, setAt_of h2⟩
  · unfold heapML; rw [he]; simp only; rw [hp]
  · unfold heapCL; rw [he]; simp only; rw [hp]

theorem heap_components {h : HeapManager α} {m : Manager α} (r : RelM h m) :
    HeapManager.components h = .ok m.components h := by
  have key : ∀ (l : List (α × TEntry α)) (acc : List (List α)), (∀ q ∈ l, q ∈ m.trans) →
      ((l.map Prod.fst).foldlM (fun acc x => do
        let c ← setAt (← heapML x)
        return if c ∈ acc then acc else acc ++ [c]) acc : THeapM α (List (List α))) h.trans =
      .ok (l.foldl (fun acc p => if p.2.ml ∈ acc then acc else acc ++ [p.2.ml]) acc) h.trans := by
    intro l
    induction l with
    | nil => intro acc _; rfl
    | cons q l ih =>
      intro acc hl
      obtain ⟨a, b, h1, _, h3, _⟩ := setsOf r.trans (hl q (by simp))
      rw [List.map_cons, List.foldlM_cons]
      refine (stepOk (b := if q.2.ml ∈ acc then acc else acc ++ [q.2.ml]) ?_ _).trans (ih _ fun q hq => hl q (by simp [hq]))
      rw [stepOk h1, stepOk h3]
      rfl
  unfold HeapManager.components onTransH
  rw [stepOk (p := get) (b := h.trans) (s' := h.trans) rfl]
  rw [r.trans.keys]
  have := key m.trans [] (fun _ h => h)
  unfold dkeys
  rw [this]
  rfl

theorem heap_complete {h : HeapManager α} {m : Manager α} (r : RelM h m) :
    HeapManager.complete h = .ok m.complete h := by
  have key : ∀ (n : Nat) (l : List (α × TEntry α)) (ok : Bool), (∀ q ∈ l, q ∈ m.trans) →
      ((l.map Prod.fst).foldlM (fun ok x => do
        if ok then
          let ml ← setAt (← heapML x)
          let cl ← setAt (← heapCL x)
          return decide (ml.length + cl.length = n)
        else return false) ok : THeapM α Bool) h.trans =
      .ok (ok && l.all fun p => decide (p.2.ml.length + p.2.cl.length = n)) h.trans := by
    intro n l
    induction l with
    | nil => intro ok _; simp; rfl
    | cons q l ih =>
      intro ok hl
      obtain ⟨a, b, h1, h2, h3, h4⟩ := setsOf r.trans (hl q (by simp))
      rw [List.map_cons, List.foldlM_cons]
      have hi := ih (ok && decide (q.2.ml.length + q.2.cl.length = n)) fun q hq => hl q (by simp [hq])
      rw [Bool.and_assoc] at hi
      refine (stepOk (b := ok && decide (q.2.ml.length + q.2.cl.length = n)) ?_ _).trans hi
      cases ok with
      | false => rfl
      | true =>
        simp only [if_true]
        rw [stepOk h1, stepOk h3, stepOk h2, stepOk h4]
        rfl
  unfold HeapManager.complete onTransH
  rw [stepOk (p := get) (b := h.trans) (s' := h.trans) rfl]
  rw [stepOk (p := get) (b := h.trans) (s' := h.trans) rfl]
  have hlen : h.trans.table.length = m.trans.length := by
    have := congrArg List.length r.trans.keys
    simpa [dkeys] using this
  rw [r.trans.keys, hlen]
  have := key m.trans.length m.trans true (fun _ h => h)
  unfold dkeys
  rw [this]
  rfl

/-! ### Methods -/

theorem Sim.get2 {σ τ β γ : Type} {I : σ → τ → Prop} {X : σ → σ → Prop} {s : σ} {t : τ} {f : σ → EStateM PyErr σ β}
    {g : τ → EStateM PyErr τ γ} {R : σ → β → γ → Prop} (h : Sim I X s t (f s) (g t) R) :
    Sim I X s t (get >>= f) (get >>= g) R := by
  unfold Sim at h ⊢
  rw [stepOk (p := get) (b := s) (s' := s) rfl, stepOk (p := get) (b := t) (s' := t) rfl]
  exact h

theorem Sim.weakenF {β γ : Type} {D : Dict α Nat} {W : List (Dict α (Option Stored))}
    {M : Dict α (Dict α (Option Stored))} {h : HeapManager α} {m : Manager α} {p : HeapM α β} {q : MgrM α γ}
    {R : HeapManager α → β → γ → Prop} (k : Sim (RelF D W M) KeptM h m p q R) : Sim RelM KeptM h m p q R :=
  k.weaken fun _ _ k => k.1

theorem sim_addConstraint {h : HeapManager α} {m : Manager α} (r : RelM h m) (x y : α) (ty : String) (v : Rat) :
    Sim RelM KeptM h m (HeapManager.addConstraint x y ty v) (Manager.addConstraint x y ty v) (fun _ b c => b = c) := by
  unfold HeapManager.addConstraint Manager.addConstraint
  refine Sim.get2 ?_
  by_cases hx : x ∈ dkeys m.dict
  swap
  · simp only [r.keys, hx, not_false_eq_true, if_true]
    exact Sim.err (e := .valueError "data_ID1") rfl rfl r (KeptM.refl _)
  simp only [r.keys, hx, not_true_eq_false, if_false]
  refine Sim.get2 ?_
  by_cases hy : y ∈ dkeys m.dict
  swap
  · simp only [r.keys, hy, not_false_eq_true, if_true]
    exact Sim.err (e := .valueError "data_ID2") rfl rfl r (KeptM.refl _)
  simp only [r.keys, hy, not_true_eq_false, if_false]
  cases CType.parse? ty with
  | none => exact Sim.err (e := .valueError "constraint_type") rfl rfl r (KeptM.refl _)
  | some t =>
    refine Sim.bind KeptM.trans (Sim.query r (heap_getInferred r x y)) fun inf _ h1 m1 r1 k1 e1 => ?_
    subst e1
    by_cases hc : inf.isSome ∧ inf ≠ some t
    · rw [if_pos hc, if_pos hc]
      exact Sim.err (e := .valueError "conflict") rfl rfl r1 (KeptM.refl _)
    rw [if_neg hc, if_neg hc]
    refine Sim.bind KeptM.trans (Sim.query r1 (heap_getAdded r1 x y)) fun ad _ h2 m2 r2 k2 e2 => ?_
    subst e2
    by_cases ha : ad.isSome
    · simp only [ha, if_true]
      exact Sim.pure KeptM.refl r2 rfl
    simp only [ha]
    have fin : ∀ h3 m3, RelM h3 m3 → Sim RelM KeptM h3 m3
        (do let _ ← onTransH (addTransH x y t); return true : HeapM α Bool)
        (do let _ ← onTrans (addTrans x y t); return true : MgrM α Bool) (fun _ b c => b = c) := by
      intro h3 m3 r3
      refine Sim.bind KeptM.trans (Sim.weakenF (sim_onTrans ⟨r3, rfl, rfl, rfl⟩ (sim_addTrans r3.trans x y t)))
        fun _ _ _ _ r4 _ _ => ?_
      exact Sim.pure KeptM.refl r4 rfl
    by_cases hxy : x ≤ y
    · simp only [hxy, if_true]
      exact Sim.bind KeptM.trans (sim_assignCell r2 x y _) fun _ _ h3 m3 r3 _ _ => fin h3 m3 r3
    · simp only [hxy, if_false]
      exact Sim.bind KeptM.trans (sim_assignCell r2 y x _) fun _ _ h3 m3 r3 _ _ => fin h3 m3 r3

theorem sim_deleteConstraint {h : HeapManager α} {m : Manager α} (r : RelM h m) (x y : α) :
    Sim RelM KeptM h m (HeapManager.deleteConstraint x y) (Manager.deleteConstraint x y) (fun _ b c => b = c) := by
  unfold HeapManager.deleteConstraint Manager.deleteConstraint
  refine Sim.get2 ?_
  by_cases hx : x ∈ dkeys m.dict
  swap
  · simp only [r.keys, hx, not_false_eq_true, if_true]
    exact Sim.err (e := .valueError "data_ID1") rfl rfl r (KeptM.refl _)
  simp only [r.keys, hx, not_true_eq_false, if_false]
  refine Sim.get2 ?_
  by_cases hy : y ∈ dkeys m.dict
  swap
  · simp only [r.keys, hy, not_false_eq_true, if_true]
    exact Sim.err (e := .valueError "data_ID2") rfl rfl r (KeptM.refl _)
  simp only [r.keys, hy, not_true_eq_false, if_false]
  have fin : ∀ h3 m3, RelM h3 m3 → Sim RelM KeptM h3 m3 (do HeapManager.regenerate; return true : HeapM α Bool)
      (do Manager.regenerate; return true : MgrM α Bool) (fun _ b c => b = c) := fun h3 m3 r3 =>
    Sim.bind KeptM.trans (sim_regenerate r3) fun _ _ _ _ r4 _ _ => Sim.pure KeptM.refl r4 rfl
  by_cases hxy : x ≤ y
  · simp only [hxy, if_true]
    exact Sim.bind KeptM.trans (sim_assignCell r x y _) fun _ _ h3 m3 r3 _ _ => fin h3 m3 r3
  · simp only [hxy, if_false]
    exact Sim.bind KeptM.trans (sim_assignCell r y x _) fun _ _ h3 m3 r3 _ _ => fin h3 m3 r3

/-- A new, empty row object for `x`. -/
theorem RelM.addRow {h : HeapManager α} {m : Manager α} (r : RelM h m) (x : α) {w : Dict α (Option Stored)}
    (hw : (dkeys w).Nodup) :
    RelM { h with rows := h.rows ++ [w], dict := dset h.dict x h.rows.length } { m with dict := dset m.dict x w } := by
  have hlt : ∀ y a, dget? h.dict y = some a → a < h.rows.length := fun y a hy => by
    obtain ⟨v, _, hv⟩ := r.row y a hy
    exact (List.getElem?_eq_some_iff.mp hv).1
  refine ⟨?_, nodup_dkeys_dset x _ r.nodup, fun y a hy => ?_, fun y z a hy hz => ?_, fun y v hy => ?_, r.trans⟩
  · show dkeys (dset h.dict x _) = dkeys (dset m.dict x _)
    rw [dkeys_dset, dkeys_dset, r.keys]
  · change dget? (dset h.dict x h.rows.length) y = some a at hy
    show ∃ v, dget? (dset m.dict x w) y = some v ∧ (h.rows ++ [w])[a]? = some v
    rw [dget?_dset] at hy ⊢
    split at hy
    · rename_i hxy
      rw [Option.some.injEq] at hy
      subst hy
      exact ⟨w, by simp [hxy], by simp⟩
    · rename_i hxy
      obtain ⟨v, h1, h2⟩ := r.row y a hy
      exact ⟨v, by simp [hxy, h1], by rw [List.getElem?_append_left (hlt y a hy), h2]⟩
  · change dget? (dset h.dict x h.rows.length) y = some a at hy
    change dget? (dset h.dict x h.rows.length) z = some a at hz
    rw [dget?_dset] at hy hz
    split at hy <;> split at hz
    · simp_all
    · rw [Option.some.injEq] at hy; have := hlt z a hz; omega
    · rw [Option.some.injEq] at hz; have := hlt y a hy; omega
    · exact r.inj y z a hy hz
  · change dget? (dset m.dict x w) y = some v at hy
    rw [dget?_dset] at hy
    split at hy
    · rw [Option.some.injEq] at hy; exact hy ▸ hw
    · exact r.rowNodup y v hy

/-- Lines 156-159. -/
theorem newEntry_step (h : HeapManager α) (x : α) :
    (onTransH (do
      let ml ← newSet [x]
      let cl ← newSet []
      let e ← newEntry ml cl
      modify fun t => { t with table := dset t.table x e }) : HeapM α Unit) h =
    .ok () { h with trans := { sets := h.trans.sets ++ [[x]] ++ [[]],
                               entries := h.trans.entries ++ [(h.trans.sets.length, h.trans.sets.length + 1)],
                               table := dset h.trans.table x h.trans.entries.length } } := by
  unfold onTransH
  rw [stepOk (p := newSet [x]) rfl, stepOk (p := newSet []) rfl, stepOk (p := newEntry _ _) rfl]
  simp only [List.length_append, List.length_singleton]
  rfl

theorem sim_addDataID {h : HeapManager α} {m : Manager α} (r : RelM h m) (x : α) :
    Sim RelM KeptM h m (HeapManager.addDataID x) (Manager.addDataID x) (fun _ b c => b = c) := by
  unfold HeapManager.addDataID Manager.addDataID
  refine Sim.get2 ?_
  by_cases hx : x ∈ dkeys m.dict
  · simp only [r.keys, hx, if_true]
    exact Sim.err (e := .valueError "data_ID") rfl rfl r (KeptM.refl _)
  simp only [r.keys, hx, if_false]
  refine Sim.left KeptM.trans (p := newRow []) (b := h.rows.length) (s' := { h with rows := h.rows ++ [[]] }) rfl
    (KeptM.refl h) ?_
  have r1 := r.addRow x (w := []) List.nodup_nil
  refine Sim.step KeptM.trans { h with rows := h.rows ++ [[]], dict := dset h.dict x h.rows.length }
    { m with dict := dset m.dict x [] } () () rfl rfl (SetsKept.refl _) ?_
  refine Sim.get2 ?_
  rw [r1.keys]
  refine Sim.bind KeptM.trans (R := fun _ _ _ => True)
    (Sim.forM KeptM.refl KeptM.trans (P := fun a b => a = b) (List.forall₂_same.mpr fun _ _ => rfl) r1 ?_)
    fun _ _ h2 m2 r2 k2 _ => ?_
  · rintro z _ h2 m2 rfl r2 k2
    by_cases h1 : x = z
    · have e : addIdStep x z = setCell x x (some (.mustLink, 1)) := by
        funext m; unfold addIdStep setCell; rw [if_pos h1]
      rw [e, if_pos h1]
      exact sim_assignCell r2 _ _ _
    · rw [if_neg h1]
      by_cases h2 : x < z
      · have e : addIdStep x z = setCell x z none := by
          funext m; unfold addIdStep setCell; rw [if_neg h1, if_pos h2]
        rw [e, if_pos h2]
        exact sim_assignCell r2 _ _ _
      · have e : addIdStep x z = setCell z x none := by
          funext m; unfold addIdStep setCell; rw [if_neg h1, if_neg h2]
        rw [e, if_neg h2]
        exact sim_assignCell r2 _ _ _
  · have r3 := r2.withTrans (r2.trans.addEntry x)
    refine Sim.step KeptM.trans _ { m2 with trans := dset m2.trans x (TEntry.fresh x) } () () (newEntry_step h2 x) rfl ?_
      (Sim.pure KeptM.refl r3 rfl)
    show h2.trans.sets <+: h2.trans.sets ++ [[x]] ++ [[]]
    rw [List.append_assoc]; exact List.prefix_append _ _

/-- The loop of lines 192-193. -/
theorem popLoop_spec (x : α) {l : List α} (hl : l.Nodup) {h : HeapManager α} {m : Manager α} (r : RelM h m)
    (hm : ∀ y ∈ l, y ∈ dkeys m.dict) :
    ∃ h', (l.forM fun other => do
        let (a, r) ← heapRow other
        writeRow a (dpop r x) : HeapM α PUnit) h = .ok () h' ∧ h'.trans = h.trans ∧
      RelM h' { m with dict := m.dict.map fun row => (row.1, if row.1 ∈ l then dpop row.2 x else row.2) } := by
  induction l generalizing h m with
  | nil => exact ⟨h, rfl, rfl, by simpa using r⟩
  | cons z l ih =>
    obtain ⟨hz, hl'⟩ := List.nodup_cons.mp hl
    rcases r.get z with ⟨_, e2⟩ | ⟨a, w, e1, e2, e3⟩
    · rw [dget?_eq_none_iff] at e2; exact (e2 (hm z (by simp))).elim
    have hzm : z ∈ dkeys m.dict := hm z (by simp)
    have r1 := r.setRow e1 (nodup_dkeys_dpop x (r.rowNodup z w e2))
    obtain ⟨h', k1, k2, k3⟩ := ih hl' r1 fun y hy => by
      show y ∈ dkeys (dset m.dict z _)
      rw [dkeys_dset_of_mem _ hzm]; exact hm y (by simp [hy])
    refine ⟨h', ?_, k2, ?_⟩
    · refine (stepOk (b := ()) (s' := { h with rows := h.rows.set a (dpop w x) }) ?_ _).trans k1
      exact stepOk (heapRow_some e1 e3) _
    · have e : (dset m.dict z (dpop w x)).map (fun row => (row.1, if row.1 ∈ l then dpop row.2 x else row.2)) =
          m.dict.map fun row => (row.1, if row.1 ∈ z :: l then dpop row.2 x else row.2) := by
        rw [dset_of_mem _ r.nodup hzm, List.map_map]
        refine List.map_congr_left fun row hrow => ?_
        by_cases hr : row.1 = z
        · have : row.2 = w := by
            have := dget?_of_mem (k := row.1) (v := row.2) r.nodup hrow
            rw [hr, e2, Option.some.injEq] at this; exact this.symm
          simp [hr, hz, this]
        · simp [hr]
      rw [← e]
      exact k3

theorem sim_deleteDataID {h : HeapManager α} {m : Manager α} (r : RelM h m) (x : α) :
    Sim RelM KeptM h m (HeapManager.deleteDataID x) (Manager.deleteDataID x) (fun _ b c => b = c) := by
  unfold HeapManager.deleteDataID Manager.deleteDataID
  refine Sim.get2 ?_
  by_cases hx : x ∈ dkeys m.dict
  swap
  · simp only [r.keys, hx, not_false_eq_true, if_true]
    exact Sim.err (e := .valueError "data_ID") rfl rfl r (KeptM.refl _)
  simp only [r.keys, hx, not_true_eq_false, if_false]
  have r1 : RelM { h with dict := dpop h.dict x } { m with dict := dpop m.dict x } := by
    refine ⟨?_, nodup_dkeys_dpop x r.nodup, fun y a hy => ?_, fun y z a hy hz => ?_, fun y w hy => ?_, r.trans⟩
    · show dkeys (dpop h.dict x) = dkeys (dpop m.dict x)
      rw [dkeys_dpop, dkeys_dpop, r.keys]
    · change dget? (dpop h.dict x) y = some a at hy
      show ∃ v, dget? (dpop m.dict x) y = some v ∧ _
      rw [dget?_dpop] at hy ⊢
      split at hy
      · cases hy
      · rename_i hne
        obtain ⟨v, h1, h2⟩ := r.row y a hy
        exact ⟨v, by simp [hne, h1], h2⟩
    · change dget? (dpop h.dict x) y = some a at hy
      change dget? (dpop h.dict x) z = some a at hz
      rw [dget?_dpop] at hy hz
      split at hy
      · cases hy
      · split at hz
        · cases hz
        · exact r.inj y z a hy hz
    · change dget? (dpop m.dict x) y = some w at hy
      rw [dget?_dpop] at hy
      split at hy
      · cases hy
      · exact r.rowNodup y w hy
  refine Sim.step KeptM.trans { h with dict := dpop h.dict x } { m with dict := dpop m.dict x } () () rfl rfl
    (SetsKept.refl _) ?_
  generalize { h with dict := dpop h.dict x } = h2 at r1 ⊢
  generalize ({ m with dict := dpop m.dict x } : Manager α) = m2 at r1 ⊢
  rename' r1 => r2
  refine Sim.left KeptM.trans (p := get) (b := h2) (s' := h2) rfl (KeptM.refl _) ?_
  obtain ⟨h', e1, e2, e3⟩ := popLoop_spec x (l := dkeys h2.dict) (by rw [r2.keys]; exact r2.nodup) r2
    (fun y hy => by rw [← r2.keys]; exact hy)
  have e4 : m2.dict.map (fun row => (row.1, if row.1 ∈ dkeys h2.dict then dpop row.2 x else row.2)) =
      m2.dict.map fun row => (row.1, dpop row.2 x) := by
    refine List.map_congr_left fun row hrow => ?_
    have : row.1 ∈ dkeys h2.dict := by rw [r2.keys]; exact mem_dkeys_of_mem (v := row.2) hrow
    simp [this]
  rw [e4] at e3
  refine Sim.step KeptM.trans h' { m2 with dict := m2.dict.map fun row => (row.1, dpop row.2 x) } () () e1 rfl
    (by show SetsKept _ _; rw [e2]; exact SetsKept.refl _) ?_
  exact Sim.bind KeptM.trans (sim_regenerate e3) fun _ _ _ _ r4 _ _ => Sim.pure KeptM.refl r4 rfl

theorem sim_call {h : HeapManager α} {m : Manager α} (r : RelM h m) (op : Op α) :
    Sim RelM KeptM h m op.callH op.call (fun _ b c => b = c) := by
  cases op with
  | addDataID x => exact sim_addDataID r x
  | deleteDataID x => exact sim_deleteDataID r x
  | addConstraint x y ty v => exact sim_addConstraint r x y ty v
  | deleteConstraint x y => exact sim_deleteConstraint r x y

theorem heap_call {h : HeapManager α} {m : Manager α} (r : RelM h m) (op : Op α) :
    RelM (resState (op.callH h)) (resState (op.call m)) ∧ KeptM h (resState (op.callH h)) ∧
      resVal (op.callH h) = resVal (op.call m) := by
  have k := sim_call r op
  unfold Sim at k
  revert k
  cases op.callH h <;> cases op.call m <;> simp only <;> intro k
  · exact ⟨k.1, k.2.1, congrArg _ k.2.2⟩
  · exact k.elim
  · exact k.elim
  · exact ⟨k.2.1, k.2.2, congrArg _ k.1⟩

theorem heap_runOps {h : HeapManager α} {m : Manager α} (r : RelM h m) (ops : List (Op α)) :
    RelM (runOpsH h ops) (runOps m ops) ∧ KeptM h (runOpsH h ops) := by
  induction ops generalizing h m with
  | nil => exact ⟨r, KeptM.refl h⟩
  | cons op ops ih =>
    obtain ⟨h1, h2, _⟩ := heap_call r op
    obtain ⟨h3, h4⟩ := ih h1
    exact ⟨h3, KeptM.trans _ _ _ h2 h4⟩

/-! ### Construction -/

theorem initRows_spec (ids l : List α) (f : α → Dict α (Option Stored)) (hf : ∀ x, (dkeys (f x)).Nodup)
    {h : HeapManager α} {d : Dict α Nat} {m : Manager α} (r : RelM { h with dict := d } m) :
    ∃ d' h', (l.foldlM (fun (d : Dict α Nat) x => do return dset d x (← newRow (f x))) d : HeapM α (Dict α Nat)) h = .ok d' h' ∧
      h'.trans = h.trans ∧ RelM { h' with dict := d' } { m with dict := l.foldl (fun d x => dset d x (f x)) m.dict } := by
  induction l generalizing h d m with
  | nil => exact ⟨d, h, rfl, rfl, r⟩
  | cons x l ih =>
    have r1 := r.addRow x (hf x)
    obtain ⟨d', h', e, k, r'⟩ := ih (h := { h with rows := h.rows ++ [f x] }) (d := dset d x h.rows.length) r1
    refine ⟨d', h', ?_, k, r'⟩
    rw [List.foldlM_cons]
    refine (stepOk (b := dset d x h.rows.length) (s' := { h with rows := h.rows ++ [f x] }) ?_ _).trans e
    rfl

theorem heap_init (ids : List α) : ∃ h, HeapManager.init ids = .ok () h ∧ RelM h (Manager.init ids) := by
  have r0 : RelM (⟨[], [], [], [], []⟩ : HeapManager α) ⟨[], []⟩ :=
    ⟨rfl, List.nodup_nil, fun _ _ h => by simp [dget?] at h, fun _ _ _ h => by simp [dget?] at h,
      fun _ _ h => by simp [dget?] at h, relT_empty ⟨[], [], []⟩⟩
  obtain ⟨d, h', e1, e2, r1⟩ := initRows_spec ids ids (fun x => dofList ((ids.filter fun y => decide (x ≤ y)).map fun y =>
        (y, if x = y then some (CType.mustLink, (1 : Rat)) else none))) (fun x => nodup_dkeys_dofList _)
        (h := ⟨[], [], [], [], []⟩) (d := []) r0
  obtain ⟨t', e3, r3, _⟩ := resetTable_spec ids h'.trans
  refine ⟨⟨h'.rows, d, t'⟩, ?_, ?_⟩
  · unfold HeapManager.init
    rw [stepOk e1]
    refine (stepOk (b := ()) (s' := { h' with dict := d }) ?_ _).trans ?_
    · rfl
    · unfold onTransH
      simp only
      rw [e3]
  · have := r1.withTrans r3
    have e : (Manager.init ids : Manager α) = ⟨ids.foldl (fun d x => dset d x (dofList ((ids.filter fun y => decide (x ≤ y)).map fun y =>
        (y, if x = y then some (CType.mustLink, (1 : Rat)) else none)))) [], dofList (ids.map fun x => (x, TEntry.fresh x))⟩ := by
      unfold Manager.init
      congr 1
      unfold dofList
      rw [List.foldl_map]
    rw [e]
    exact this

end

end Verif
