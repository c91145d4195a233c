import Verif.Py.DictLemmas
import Verif.Proofs.Closure

/-
The transitivity table: `_add_constraint_transitivity` keeps it equal to the closure.
-/

namespace Verif

variable {α : Type} [LinearOrder α]

/-- An edge list: constraints in the order in which they were inserted. -/
abbrev Edges (α : Type) := List (α × α × CType)

/-- The symmetric relation of the edges of type `t`. -/
def EdgeRel (E : Edges α) (t : CType) (x y : α) : Prop := (x, y, t) ∈ E ∨ (y, x, t) ∈ E

abbrev EML (E : Edges α) : α → α → Prop := EdgeRel E .mustLink
abbrev ECL (E : Edges α) : α → α → Prop := EdgeRel E .cannotLink

omit [LinearOrder α] in
theorem EdgeRel.symm {E : Edges α} {t : CType} (x y : α) (h : EdgeRel E t x y) : EdgeRel E t y x :=
  h.elim .inr .inl

omit [LinearOrder α] in
theorem edgeRel_snoc (E : Edges α) (a b : α) (t t' : CType) (x y : α) :
    EdgeRel (E ++ [(a, b, t)]) t' x y ↔
      EdgeRel E t' x y ∨ (t' = t ∧ ((x = a ∧ y = b) ∨ (x = b ∧ y = a))) := by
  simp only [EdgeRel, List.mem_append, List.mem_singleton, Prod.mk.injEq]
  tauto

/-- The table `T` over the keys `K` is the closure of the consistent edge list `E`. -/
structure TInv (K : List α) (T : Dict α (TEntry α)) (E : Edges α) : Prop where
  keys : dkeys T = K
  nodup : K.Nodup
  edges : ∀ x y t, (x, y, t) ∈ E → x ∈ K ∧ y ∈ K
  mlNodup : ∀ x e, dget? T x = some e → e.ml.Nodup
  clNodup : ∀ x e, dget? T x = some e → e.cl.Nodup
  ml : ∀ x e, dget? T x = some e → ∀ y, y ∈ e.ml ↔ Chain (EML E) x y
  cl : ∀ x e, dget? T x = some e → ∀ y, y ∈ e.cl ↔ Separated (EML E) (ECL E) x y
  share : ∀ x y ex ey, dget? T x = some ex → dget? T y = some ey → y ∈ ex.ml → ey.ml = ex.ml
  cons : ∀ x, ¬ Separated (EML E) (ECL E) x x

namespace TInv

variable {K : List α} {T : Dict α (TEntry α)} {E : Edges α}

theorem edge_mem (h : TInv K T E) {t : CType} {x y : α} (he : EdgeRel E t x y) : x ∈ K ∧ y ∈ K := by
  rcases he with he | he
  · exact h.edges _ _ _ he
  · exact (h.edges _ _ _ he).symm

theorem chain_mem (h : TInv K T E) {x y : α} (hc : Chain (EML E) x y) (hx : x ∈ K) : y ∈ K := by
  induction hc with
  | refl => exact hx
  | tail _ he _ => exact (h.edge_mem he).2

theorem sep_mem (h : TInv K T E) {x y : α} (hc : Separated (EML E) (ECL E) x y) : x ∈ K ∧ y ∈ K := by
  obtain ⟨u, v, h1, h2, h3⟩ := hc
  exact ⟨h.chain_mem (h1.symm EdgeRel.symm) (h.edge_mem h2).1, h.chain_mem h3 (h.edge_mem h2).2⟩

theorem get (h : TInv K T E) {x : α} (hx : x ∈ K) : ∃ e, dget? T x = some e :=
  dget?_isSome_of_mem (h.keys ▸ hx)

theorem mem_of_get (h : TInv K T E) {x : α} {e : TEntry α} (hx : dget? T x = some e) : x ∈ K :=
  h.keys ▸ mem_dkeys_of_dget? hx

/-- The invariant depends only on the set of edges. -/
theorem congr (h : TInv K T E) {E' : Edges α} (he : ∀ t x y, EdgeRel E t x y ↔ EdgeRel E' t x y) :
    TInv K T E' where
  keys := h.keys
  nodup := h.nodup
  edges x y t hm := h.edge_mem ((he t x y).2 (.inl hm))
  mlNodup := h.mlNodup
  clNodup := h.clNodup
  ml x e hx y := by rw [h.ml x e hx y]; exact chain_congr (he _)
  cl x e hx y := by rw [h.cl x e hx y]; exact separated_congr (he _) (he _)
  share := h.share
  cons x hs := h.cons x ((separated_congr (he _) (he _)).2 hs)

end TInv

/-- Fresh table: no edges. -/
theorem TInv.fresh (l : List α) :
    TInv (ounion [] l) (dofList (l.map fun x => (x, TEntry.fresh x))) [] := by
  have hem : ∀ {x y : α}, ¬ EML ([] : Edges α) x y := by simp [EdgeRel]
  have hch : ∀ {x y : α}, Chain (EML ([] : Edges α)) x y ↔ y = x := by
    intro x y
    constructor
    · intro h
      induction h with
      | refl => rfl
      | tail _ h _ => exact absurd h hem
    · rintro rfl; exact .refl
  have hsep : ∀ {x y : α}, ¬ Separated (EML ([] : Edges α)) (ECL []) x y := by
    rintro x y ⟨u, v, -, h, -⟩; simp [EdgeRel] at h
  have hget : ∀ x e, dget? (dofList (l.map fun x => (x, TEntry.fresh x))) x = some e → e = TEntry.fresh x := by
    intro x e h
    rw [dget?_dofList_map] at h
    split at h
    · simpa using h.symm
    · simp at h
  refine ⟨dkeys_dofList_map _ _, nodup_ounion List.nodup_nil, by simp, ?_, ?_, ?_, ?_, ?_, fun x h => hsep h⟩
  · intro x e h; simp [hget x e h, TEntry.fresh]
  · intro x e h; simp [hget x e h, TEntry.fresh]
  · intro x e h y; simp [hget x e h, TEntry.fresh, hch]
  · intro x e h y; simp [hget x e h, TEntry.fresh, hsep]
  · intro x y ex ey hx hy hm
    have h1 := hget x ex hx
    have h2 := hget y ey hy
    subst h1 h2
    simp [TEntry.fresh] at hm ⊢
    exact hm

/-! ### Effect of the loops -/

theorem forM_cons_ok {ε σ β : Type} {f : β → EStateM ε σ PUnit} {z : β} {l : List β} {s s' : σ}
    (h : f z s = .ok ⟨⟩ s') : (z :: l).forM f s = l.forM f s' := by
  have : (z :: l).forM f = (f z >>= fun _ => l.forM f) := rfl
  rw [this]
  simp only [bind, EStateM.bind, h]

theorem forM_setBoth (a b : List α) (l : List α) (T : Dict α (TEntry α)) (hl : ∀ z ∈ l, z ∈ dkeys T) :
    ∃ T', (l.forM (fun z => do setML z a; setCL z b) : EStateM PyErr (Dict α (TEntry α)) PUnit) T = .ok ⟨⟩ T' ∧
      dkeys T' = dkeys T ∧
      ∀ w, dget? T' w = if w ∈ l then some { ml := a, cl := b } else dget? T w := by
  induction l generalizing T with
  | nil => exact ⟨T, rfl, rfl, by simp⟩
  | cons z l ih =>
    obtain ⟨e, he⟩ := dget?_isSome_of_mem (hl z (by simp))
    have hz : z ∈ dkeys T := hl z (by simp)
    set T₁ := dset (dset T z { e with ml := a }) z { ml := a, cl := b } with hT₁
    have hk : dkeys T₁ = dkeys T := by
      rw [hT₁, dkeys_dset_of_mem _ (by rw [dkeys_dset_of_mem _ hz]; exact hz), dkeys_dset_of_mem _ hz]
    have hstep : (do setML z a; setCL z b : EStateM PyErr (Dict α (TEntry α)) Unit) T = .ok () T₁ := by
      simp [bind, EStateM.bind, setML, setCL, he, dget?_dset, hT₁]
    obtain ⟨T', h1, h2, h3⟩ := ih T₁ (fun w hw => hk ▸ hl w (by simp [hw]))
    refine ⟨T', ?_, h2.trans hk, ?_⟩
    · refine Eq.trans (forM_cons_ok ?_) h1
      exact hstep
    · intro w
      rw [h3 w]
      by_cases hw : w ∈ l
      · simp [hw]
      · simp only [hw, if_false, List.mem_cons, or_false, hT₁, dget?_dset]
        by_cases hzw : z = w
        · simp [hzw]
        · simp [hzw, Ne.symm hzw]

theorem forM_setCL (b : List α) (l : List α) (T : Dict α (TEntry α)) (hl : ∀ z ∈ l, z ∈ dkeys T) :
    ∃ T', (l.forM (fun z => setCL z b) : EStateM PyErr (Dict α (TEntry α)) PUnit) T = .ok ⟨⟩ T' ∧
      dkeys T' = dkeys T ∧
      ∀ w, dget? T' w = if w ∈ l then (dget? T w).map (fun e => { e with cl := b }) else dget? T w := by
  induction l generalizing T with
  | nil => exact ⟨T, rfl, rfl, by simp⟩
  | cons z l ih =>
    obtain ⟨e, he⟩ := dget?_isSome_of_mem (hl z (by simp))
    have hz : z ∈ dkeys T := hl z (by simp)
    set T₁ := dset T z { e with cl := b } with hT₁
    have hk : dkeys T₁ = dkeys T := by rw [hT₁, dkeys_dset_of_mem _ hz]
    have hstep : setCL z b T = .ok () T₁ := by simp [setCL, he, hT₁]
    obtain ⟨T', h1, h2, h3⟩ := ih T₁ (fun w hw => hk ▸ hl w (by simp [hw]))
    refine ⟨T', ?_, h2.trans hk, ?_⟩
    · refine Eq.trans (forM_cons_ok ?_) h1
      exact hstep
    · intro w
      rw [h3 w]
      by_cases hzw : z = w
      · subst hzw
        by_cases hw : z ∈ l <;> simp [hw, hT₁, dget?_dset, he]
      · by_cases hw : w ∈ l <;> simp [hw, hT₁, dget?_dset, hzw, Ne.symm hzw]

theorem forM_growCL (b : List α) (l : List α) (T : Dict α (TEntry α)) (hl : ∀ z ∈ l, z ∈ dkeys T)
    (hn : l.Nodup) :
    ∃ T', (l.forM (fun z => do setCL z (ounion (← readT z).cl b)) :
        EStateM PyErr (Dict α (TEntry α)) PUnit) T = .ok ⟨⟩ T' ∧
      dkeys T' = dkeys T ∧
      ∀ w, dget? T' w =
        if w ∈ l then (dget? T w).map (fun e => { e with cl := ounion e.cl b }) else dget? T w := by
  induction l generalizing T with
  | nil => exact ⟨T, rfl, rfl, by simp⟩
  | cons z l ih =>
    obtain ⟨e, he⟩ := dget?_isSome_of_mem (hl z (by simp))
    have hz : z ∈ dkeys T := hl z (by simp)
    rw [List.nodup_cons] at hn
    set T₁ := dset T z { e with cl := ounion e.cl b } with hT₁
    have hk : dkeys T₁ = dkeys T := by rw [hT₁, dkeys_dset_of_mem _ hz]
    have hstep : (do setCL z (ounion (← readT z).cl b) : EStateM PyErr (Dict α (TEntry α)) Unit) T
        = .ok () T₁ := by simp [bind, EStateM.bind, readT, setCL, he, hT₁]
    obtain ⟨T', h1, h2, h3⟩ := ih T₁ (fun w hw => hk ▸ hl w (by simp [hw])) hn.2
    refine ⟨T', ?_, h2.trans hk, ?_⟩
    · refine Eq.trans (forM_cons_ok ?_) h1
      exact hstep
    · intro w
      rw [h3 w]
      by_cases hzw : z = w
      · subst hzw
        simp [hn.1, hT₁, dget?_dset, he]
      · by_cases hw : w ∈ l <;> simp [hw, hT₁, dget?_dset, hzw, Ne.symm hzw]

/-! ### The main invariant of `_add_constraint_transitivity` -/

theorem addTrans_ml {K : List α} {T : Dict α (TEntry α)} {E : Edges α} (h : TInv K T E) {a b : α}
    (ha : a ∈ K) (hb : b ∈ K) (hab : ¬ Separated (EML E) (ECL E) a b) :
    ∃ T', addTrans a b .mustLink T = .ok true T' ∧ TInv K T' (E ++ [(a, b, .mustLink)]) := by
  obtain ⟨ea, hea⟩ := h.get ha
  obtain ⟨eb, heb⟩ := h.get hb
  have sy : ∀ {x y}, Chain (EML E) x y → Chain (EML E) y x := fun h => h.symm EdgeRel.symm
  have ssy : ∀ {x y}, Separated (EML E) (ECL E) x y → Separated (EML E) (ECL E) y x :=
    fun h => h.symm EdgeRel.symm EdgeRel.symm
  have hba : ¬ Separated (EML E) (ECL E) b a := fun h => hab (ssy h)
  set nM := ounion ea.ml eb.ml with hnM
  set nC := ounion ea.cl eb.cl with hnC
  have mM : ∀ y, y ∈ nM ↔ Chain (EML E) a y ∨ Chain (EML E) b y := by
    intro y; rw [hnM, mem_ounion, h.ml a ea hea, h.ml b eb heb]
  have mC : ∀ y, y ∈ nC ↔ Separated (EML E) (ECL E) a y ∨ Separated (EML E) (ECL E) b y := by
    intro y; rw [hnC, mem_ounion, h.cl a ea hea, h.cl b eb heb]
  have ndM : nM.Nodup := nodup_ounion (h.mlNodup a ea hea)
  have ndC : nC.Nodup := nodup_ounion (h.clNodup a ea hea)
  have subM : ∀ y ∈ nM, y ∈ K := by
    intro y hy
    rcases (mM y).1 hy with hy | hy
    · exact h.chain_mem hy ha
    · exact h.chain_mem hy hb
  have subC : ∀ y ∈ nC, y ∈ K := by
    intro y hy
    rcases (mC y).1 hy with hy | hy <;> exact (h.sep_mem hy).2
  have disj : ∀ y ∈ nC, y ∉ nM := by
    intro y hy hy'
    rcases (mC y).1 hy with hy | hy <;> rcases (mM y).1 hy' with hy' | hy'
    · exact h.cons a (hy.congr_right (sy hy'))
    · exact hab (hy.congr_right (sy hy'))
    · exact hba (hy.congr_right (sy hy'))
    · exact h.cons b (hy.congr_right (sy hy'))
  obtain ⟨T₁, r1, k1, g1⟩ := forM_setBoth nM nC nM T (fun z hz => h.keys ▸ subM z hz)
  obtain ⟨T₂, r2, k2, g2⟩ := forM_growCL nM nC T₁ (fun z hz => k1 ▸ h.keys ▸ subC z hz) ndC
  refine ⟨T₂, ?_, ?_⟩
  · simp only [bind] at r1 r2
    simp only [addTrans, bind, EStateM.bind, readT, hea, heb, ← hnM, ← hnC, r1, r2]
    rfl
  -- look-ups in the new table
  have G : ∀ w e, dget? T₂ w = some e → ∃ e₀, dget? T w = some e₀ ∧
      e = if w ∈ nM then { ml := nM, cl := nC }
        else if w ∈ nC then { ml := e₀.ml, cl := ounion e₀.cl nM } else e₀ := by
    intro w e hw
    have hwK : w ∈ K := by
      have := mem_dkeys_of_dget? hw
      rwa [k2, k1, h.keys] at this
    obtain ⟨e₀, he₀⟩ := h.get hwK
    refine ⟨e₀, he₀, ?_⟩
    rw [g2, g1, he₀] at hw
    by_cases c1 : w ∈ nM
    · have c2 : w ∉ nC := fun c2 => disj w c2 c1
      simp [c1, c2] at hw; simp [c1, hw]
    · by_cases c2 : w ∈ nC
      · simp [c1, c2] at hw; simp [c1, c2, ← hw]
      · simp [c1, c2] at hw; simp [c1, c2, hw]
  have he : ∀ x y, EML (E ++ [(a, b, .mustLink)]) x y ↔
      EML E x y ∨ (x = a ∧ y = b) ∨ (x = b ∧ y = a) := by
    intro x y; simp [edgeRel_snoc]
  have hec : ∀ x y, ECL (E ++ [(a, b, .mustLink)]) x y ↔ ECL E x y := by
    intro x y; simp [edgeRel_snoc]
  have CH : ∀ x y, Chain (EML (E ++ [(a, b, .mustLink)])) x y ↔
      Chain (EML E) x y ∨ (Chain (EML E) x a ∧ Chain (EML E) b y) ∨
        (Chain (EML E) x b ∧ Chain (EML E) a y) := fun x y => chain_add he
  have SE : ∀ x y, Separated (EML (E ++ [(a, b, .mustLink)])) (ECL (E ++ [(a, b, .mustLink)])) x y ↔
      Separated (EML E) (ECL E) x y ∨ (x ∈ nM ∧ y ∈ nC) ∨ (y ∈ nM ∧ x ∈ nC) := by
    intro x y
    rw [separated_congr (fun _ _ => Iff.rfl) hec,
      separated_add_ml EdgeRel.symm EdgeRel.symm he h.cons hab]
    simp only [mM, mC]
  constructor
  · rw [k2, k1, h.keys]
  · exact h.nodup
  · intro x y t hm
    simp only [List.mem_append, List.mem_singleton, Prod.mk.injEq] at hm
    rcases hm with hm | ⟨rfl, rfl, rfl⟩
    · exact h.edges _ _ _ hm
    · exact ⟨ha, hb⟩
  · intro x e hx
    obtain ⟨e₀, h0, rfl⟩ := G x e hx
    split
    · exact ndM
    · split <;> exact h.mlNodup x e₀ h0
  · intro x e hx
    obtain ⟨e₀, h0, rfl⟩ := G x e hx
    split
    · exact ndC
    · split
      · exact nodup_ounion (h.clNodup x e₀ h0)
      · exact h.clNodup x e₀ h0
  · intro x e hx y
    obtain ⟨e₀, h0, rfl⟩ := G x e hx
    rw [CH]
    by_cases c1 : x ∈ nM
    · simp only [c1, if_true, mM]
      rcases (mM x).1 c1 with c | c
      · constructor
        · rintro (h' | h')
          · exact .inl ((sy c).trans h')
          · exact .inr (.inl ⟨sy c, h'⟩)
        · rintro (h' | ⟨h1, h2⟩ | ⟨h1, h2⟩)
          · exact .inl (c.trans h')
          · exact .inr h2
          · exact .inl h2
      · constructor
        · rintro (h' | h')
          · exact .inr (.inr ⟨sy c, h'⟩)
          · exact .inl ((sy c).trans h')
        · rintro (h' | ⟨h1, h2⟩ | ⟨h1, h2⟩)
          · exact .inr (c.trans h')
          · exact .inr h2
          · exact .inl h2
    · have hxa : ¬ Chain (EML E) x a := fun h' => c1 ((mM x).2 (.inl (sy h')))
      have hxb : ¬ Chain (EML E) x b := fun h' => c1 ((mM x).2 (.inr (sy h')))
      have : (if x ∈ nM then ({ ml := nM, cl := nC } : TEntry α)
        else if x ∈ nC then { ml := e₀.ml, cl := ounion e₀.cl nM } else e₀).ml = e₀.ml := by
        simp only [c1, if_false]; split <;> rfl
      rw [this, h.ml x e₀ h0]
      tauto
  · intro x e hx y
    obtain ⟨e₀, h0, rfl⟩ := G x e hx
    rw [SE]
    by_cases c1 : x ∈ nM
    · simp only [c1, if_true, true_and]
      constructor
      · exact fun h' => .inr (.inl h')
      · rintro (h' | h' | ⟨-, h'⟩)
        · rw [mC]
          rcases (mM x).1 c1 with c | c
          · exact .inl (h'.congr_left c)
          · exact .inr (h'.congr_left c)
        · exact h'
        · exact absurd c1 (disj x h')
    · by_cases c2 : x ∈ nC
      · simp only [c1, c2, if_true, if_false, mem_ounion, h.cl x e₀ h0, false_and, and_true, false_or]
      · simp only [c1, c2, if_false, h.cl x e₀ h0, false_and, and_false, or_false]
  · intro x y ex ey hx hy hm
    obtain ⟨ex₀, hx0, rfl⟩ := G x ex hx
    obtain ⟨ey₀, hy0, rfl⟩ := G y ey hy
    have key : ∀ w e₀, dget? T w = some e₀ → (if w ∈ nM then ({ ml := nM, cl := nC } : TEntry α)
        else if w ∈ nC then { ml := e₀.ml, cl := ounion e₀.cl nM } else e₀).ml =
        if w ∈ nM then nM else e₀.ml := by
      intro w e₀ _; split
      · rfl
      · split <;> rfl
    rw [key x ex₀ hx0] at hm ⊢
    rw [key y ey₀ hy0]
    by_cases c1 : x ∈ nM
    · simp only [c1, if_true] at hm ⊢
      simp [hm]
    · simp only [c1, if_false] at hm ⊢
      have c2 : y ∉ nM := by
        intro c2
        apply c1
        rw [h.ml x ex₀ hx0] at hm
        rw [mM] at c2 ⊢
        rcases c2 with c2 | c2
        · exact .inl (c2.trans (sy hm))
        · exact .inr (c2.trans (sy hm))
      simp only [c2, if_false]
      exact h.share x y ex₀ ey₀ hx0 hy0 hm
  · intro x hx
    rcases (SE x x).1 hx with h' | ⟨h1, h2⟩ | ⟨h1, h2⟩
    · exact h.cons x h'
    · exact disj x h2 h1
    · exact disj x h2 h1

theorem addTrans_cl {K : List α} {T : Dict α (TEntry α)} {E : Edges α} (h : TInv K T E) {a b : α}
    (ha : a ∈ K) (hb : b ∈ K) (hab : ¬ Chain (EML E) a b) :
    ∃ T', addTrans a b .cannotLink T = .ok true T' ∧ TInv K T' (E ++ [(a, b, .cannotLink)]) := by
  obtain ⟨ea, hea⟩ := h.get ha
  obtain ⟨eb, heb⟩ := h.get hb
  have sy : ∀ {x y}, Chain (EML E) x y → Chain (EML E) y x := fun h => h.symm EdgeRel.symm
  have hba : ¬ Chain (EML E) b a := fun h => hab (sy h)
  set nA := ounion ea.cl eb.ml with hnA
  set nB := ounion eb.cl ea.ml with hnB
  have mA : ∀ y, y ∈ nA ↔ Separated (EML E) (ECL E) a y ∨ Chain (EML E) b y := by
    intro y; rw [hnA, mem_ounion, h.cl a ea hea, h.ml b eb heb]
  have mB : ∀ y, y ∈ nB ↔ Separated (EML E) (ECL E) b y ∨ Chain (EML E) a y := by
    intro y; rw [hnB, mem_ounion, h.cl b eb heb, h.ml a ea hea]
  have la : ∀ y, y ∈ ea.ml ↔ Chain (EML E) a y := h.ml a ea hea
  have lb : ∀ y, y ∈ eb.ml ↔ Chain (EML E) b y := h.ml b eb heb
  have disj : ∀ y, y ∈ ea.ml → y ∉ eb.ml := by
    intro y h1 h2
    rw [la] at h1; rw [lb] at h2
    exact hab (h1.trans (sy h2))
  obtain ⟨T₁, r1, k1, g1⟩ := forM_setCL nA ea.ml T
    (fun z hz => h.keys ▸ h.chain_mem ((la z).1 hz) ha)
  have heb1 : dget? T₁ b = some eb := by
    rw [g1, heb]; split
    · rename_i hb'; exact absurd ((la b).1 hb') hab
    · rfl
  obtain ⟨T₂, r2, k2, g2⟩ := forM_setCL nB eb.ml T₁
    (fun z hz => k1 ▸ h.keys ▸ h.chain_mem ((lb z).1 hz) hb)
  refine ⟨T₂, ?_, ?_⟩
  · simp only [addTrans, bind, EStateM.bind, readT, hea, heb, ← hnA, ← hnB, r1, r2, heb1]
    rfl
  have G : ∀ w e, dget? T₂ w = some e → ∃ e₀, dget? T w = some e₀ ∧ e.ml = e₀.ml ∧
      e.cl = if w ∈ ea.ml then nA else if w ∈ eb.ml then nB else e₀.cl := by
    intro w e hw
    have hwK : w ∈ K := by
      have := mem_dkeys_of_dget? hw
      rwa [k2, k1, h.keys] at this
    obtain ⟨e₀, he₀⟩ := h.get hwK
    refine ⟨e₀, he₀, ?_⟩
    rw [g2, g1, he₀] at hw
    by_cases c1 : w ∈ ea.ml
    · have c2 : w ∉ eb.ml := disj w c1
      simp [c1, c2] at hw; simp [c1, ← hw]
    · by_cases c2 : w ∈ eb.ml
      · simp [c1, c2] at hw; simp [c1, c2, ← hw]
      · simp [c1, c2] at hw; simp [c1, c2, hw]
  have hem : ∀ x y, EML (E ++ [(a, b, .cannotLink)]) x y ↔ EML E x y := by
    intro x y; simp [edgeRel_snoc]
  have he : ∀ x y, ECL (E ++ [(a, b, .cannotLink)]) x y ↔
      ECL E x y ∨ (x = a ∧ y = b) ∨ (x = b ∧ y = a) := by
    intro x y; simp [edgeRel_snoc]
  have CH : ∀ x y, Chain (EML (E ++ [(a, b, .cannotLink)])) x y ↔ Chain (EML E) x y :=
    fun x y => chain_congr hem
  have SE : ∀ x y, Separated (EML (E ++ [(a, b, .cannotLink)])) (ECL (E ++ [(a, b, .cannotLink)])) x y ↔
      Separated (EML E) (ECL E) x y ∨ (Chain (EML E) x a ∧ Chain (EML E) b y) ∨
        (Chain (EML E) x b ∧ Chain (EML E) a y) := by
    intro x y
    rw [separated_congr hem (fun _ _ => Iff.rfl)]
    exact separated_add_cl he
  constructor
  · rw [k2, k1, h.keys]
  · exact h.nodup
  · intro x y t hm
    simp only [List.mem_append, List.mem_singleton, Prod.mk.injEq] at hm
    rcases hm with hm | ⟨rfl, rfl, rfl⟩
    · exact h.edges _ _ _ hm
    · exact ⟨ha, hb⟩
  · intro x e hx
    obtain ⟨e₀, h0, h1, -⟩ := G x e hx
    rw [h1]; exact h.mlNodup x e₀ h0
  · intro x e hx
    obtain ⟨e₀, h0, -, h2⟩ := G x e hx
    rw [h2]
    split
    · exact nodup_ounion (h.clNodup a ea hea)
    · split
      · exact nodup_ounion (h.clNodup b eb heb)
      · exact h.clNodup x e₀ h0
  · intro x e hx y
    obtain ⟨e₀, h0, h1, -⟩ := G x e hx
    rw [h1, CH]; exact h.ml x e₀ h0 y
  · intro x e hx y
    obtain ⟨e₀, h0, -, h2⟩ := G x e hx
    rw [h2, SE]
    by_cases c1 : x ∈ ea.ml
    · have c1' := (la x).1 c1
      have nb : ¬ Chain (EML E) x b := fun h' => hab (c1'.trans h')
      simp only [c1, if_true, mA]
      constructor
      · rintro (h' | h')
        · exact .inl (h'.congr_left (sy c1'))
        · exact .inr (.inl ⟨sy c1', h'⟩)
      · rintro (h' | ⟨-, h'⟩ | ⟨h', -⟩)
        · exact .inl (h'.congr_left c1')
        · exact .inr h'
        · exact absurd h' nb
    · have na : ¬ Chain (EML E) x a := fun h' => c1 ((la x).2 (sy h'))
      by_cases c2 : x ∈ eb.ml
      · have c2' := (lb x).1 c2
        simp only [c1, c2, if_true, if_false, mB]
        constructor
        · rintro (h' | h')
          · exact .inl (h'.congr_left (sy c2'))
          · exact .inr (.inr ⟨sy c2', h'⟩)
        · rintro (h' | ⟨h', -⟩ | ⟨-, h'⟩)
          · exact .inl (h'.congr_left c2')
          · exact absurd h' na
          · exact .inr h'
      · have nb : ¬ Chain (EML E) x b := fun h' => c2 ((lb x).2 (sy h'))
        simp only [c1, c2, if_false, h.cl x e₀ h0]
        tauto
  · intro x y ex ey hx hy hm
    obtain ⟨ex₀, hx0, h1, -⟩ := G x ex hx
    obtain ⟨ey₀, hy0, h2, -⟩ := G y ey hy
    rw [h1] at hm ⊢; rw [h2]
    exact h.share x y ex₀ ey₀ hx0 hy0 hm
  · intro x hx
    rcases (SE x x).1 hx with h' | ⟨h1, h2⟩ | ⟨h1, h2⟩
    · exact h.cons x h'
    · exact hba (h2.trans h1)
    · exact hab (h2.trans h1)

/-- `_add_constraint_transitivity` for both types: if the new edge keeps the edge set
consistent, the table stays the closure. -/
theorem addTrans_inv {K : List α} {T : Dict α (TEntry α)} {E : Edges α} (h : TInv K T E) {a b : α}
    {t : CType} (ha : a ∈ K) (hb : b ∈ K)
    (hcons : ∀ x, ¬ Separated (EML (E ++ [(a, b, t)])) (ECL (E ++ [(a, b, t)])) x x) :
    ∃ T', addTrans a b t T = .ok true T' ∧ TInv K T' (E ++ [(a, b, t)]) := by
  have mono : ∀ t' x y, EdgeRel E t' x y → EdgeRel (E ++ [(a, b, t)]) t' x y :=
    fun t' x y h' => (edgeRel_snoc _ _ _ _ _ _ _).2 (.inl h')
  have new : EdgeRel (E ++ [(a, b, t)]) t a b := (edgeRel_snoc _ _ _ _ _ _ _).2 (by simp)
  cases t with
  | mustLink =>
    apply addTrans_ml h ha hb
    intro hs
    have := hs.mono (mono .mustLink) (mono .cannotLink)
    exact hcons a (this.congr_right (.single (new.symm)))
  | cannotLink =>
    apply addTrans_cl h ha hb
    intro hs
    have : Separated (EML (E ++ [(a, b, .cannotLink)])) (ECL (E ++ [(a, b, .cannotLink)])) a b :=
      ⟨a, b, .refl, new, .refl⟩
    exact hcons a (this.congr_right ((hs.mono (mono .mustLink)).symm EdgeRel.symm))

end Verif
