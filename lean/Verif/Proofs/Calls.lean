import Verif.Proofs.Queries

/-
Effect of each call, phrased with the API getters.
-/

set_option linter.unusedSectionVars false

namespace Verif

variable {α : Type} [LinearOrder α]

theorem getAdded_inv {m : Manager α} (h : Inv m) (x y : α) :
    m.getAdded x y = if x ∉ m.managed then .error (.valueError "data_ID1")
      else if y ∉ m.managed then .error (.valueError "data_ID2") else .ok (known m.dict x y) := by
  by_cases hx : x ∈ m.managed
  · by_cases hy : y ∈ m.managed
    · rw [getAdded_eq h.d hx hy]; simp [hx, hy]
    · rw [getAdded_err2 hx hy]; simp [hx, hy]
  · rw [getAdded_err1 hx]; simp [hx]

theorem known_mem {m : Manager α} (h : Inv m) {x y : α} {s : Stored} (hk : known m.dict x y = some s) :
    x ∈ m.managed ∧ y ∈ m.managed :=
  h.t.edge_mem ((edgeRel_edgesOf h.d).2 ⟨s, hk, rfl⟩)

theorem addedAs_iff_known {m : Manager α} (h : Inv m) {x y : α} {t : CType} :
    AddedAs m t x y ↔ known m.dict x y = some (t, 1) := by
  rw [inv_known_iff h, edgeRel_edgesOf h.d]
  constructor
  · rintro ⟨⟨t', v⟩, hs, rfl⟩
    have := known_val h.d hs
    simp only at this
    rw [hs, this]
  · intro hk; exact ⟨_, hk, rfl⟩

theorem known_none_iff {m : Manager α} (h : Inv m) {x y : α} :
    known m.dict x y = none ↔ ∀ t, ¬ AddedAs m t x y := by
  constructor
  · intro hk t ha
    rw [addedAs_iff_known h, hk] at ha
    simp at ha
  · intro hall
    cases hk : known m.dict x y with
    | none => rfl
    | some s =>
      exact absurd ((addedAs_iff_known h (t := s.1)).2 (by rw [hk, ← known_val h.d hk])) (hall s.1)

theorem octype_ext {r r' : Option CType} (h1 : r = some .mustLink ↔ r' = some .mustLink)
    (h2 : r = some .cannotLink ↔ r' = some .cannotLink) : r = r' := by
  cases r with
  | none =>
    cases r' with
    | none => rfl
    | some t => cases t <;> simp_all
  | some t =>
    cases t with
    | mustLink => exact (h1.1 rfl).symm
    | cannotLink => exact (h2.1 rfl).symm

theorem getInferred_congr {m m' : Manager α} (h : Inv m) (h' : Inv m') {x y : α}
    (hx : x ∈ m.managed ↔ x ∈ m'.managed) (hy : y ∈ m.managed ↔ y ∈ m'.managed)
    (h1 : MustLinked m x y ↔ MustLinked m' x y) (h2 : CannotLinked m x y ↔ CannotLinked m' x y)
    (th : Rat := 1) : m.getInferred x y th = m'.getInferred x y th := by
  by_cases hxm : x ∈ m.managed
  · by_cases hym : y ∈ m.managed
    · obtain ⟨r, hr, hr1, hr2⟩ := getInferred_spec h hxm hym th
      obtain ⟨r', hr', hr1', hr2'⟩ := getInferred_spec h' (hx.1 hxm) (hy.1 hym) th
      rw [hr, hr', octype_ext (hr1.trans (h1.trans hr1'.symm)) (hr2.trans (h2.trans hr2'.symm))]
    · rw [getInferred_err2 (by rw [h.t.keys]; exact hxm) (by rw [h.t.keys]; exact hym),
        getInferred_err2 (by rw [h'.t.keys]; exact hx.1 hxm) (by rw [h'.t.keys]; exact fun hc => hym (hy.2 hc))]
  · rw [getInferred_err1 (by rw [h.t.keys]; exact hxm),
        getInferred_err1 (by rw [h'.t.keys]; exact fun hc => hxm (hx.2 hc))]

/-- Equal type of stored constraint. -/
def relOf (m : Manager α) (x y : α) : Option CType := (known m.dict x y).map (·.1)

theorem relOf_eq {m : Manager α} (h : Inv m) {x y : α} {t : CType} :
    relOf m x y = some t ↔ AddedAs m t x y := by
  rw [addedAs_iff_known h, relOf, Option.map_eq_some_iff]
  constructor
  · rintro ⟨⟨t', v⟩, hs, rfl⟩
    have := known_val h.d hs
    simp only at this
    rw [hs, this]
  · intro hk; exact ⟨_, hk, rfl⟩

theorem relOf_none {m : Manager α} {x y : α} : relOf m x y = none ↔ known m.dict x y = none := by
  simp [relOf]

/-- The manager shows exactly the content of the store. -/
structure Refines (m : Manager α) (s : Store α) : Prop where
  inv : Inv m
  ids : m.managed = s.ids
  rel : ∀ x y, relOf m x y = s.rel x y

theorem Refines.ml {m : Manager α} {s : Store α} (h : Refines m s) (x y : α) :
    MustLinked m x y ↔ s.ML x y :=
  chain_congr fun u v => by rw [← relOf_eq h.inv, h.rel]

theorem Refines.cl {m : Manager α} {s : Store α} (h : Refines m s) (x y : α) :
    CannotLinked m x y ↔ s.CL x y :=
  separated_congr (fun u v => by rw [← relOf_eq h.inv, h.rel]) (fun u v => by rw [← relOf_eq h.inv, h.rel])

theorem foldl_addNew (ids acc : List α) : ids.foldl addNew acc = ounion acc ids := by
  unfold ounion
  congr 1

theorem Refines.init (ids : List α) : Refines (Manager.init ids) (Store.init ids) where
  inv := init_inv ids
  ids := by
    show dkeys _ = _
    rw [init_keys, Store.init, foldl_addNew]
  rel x y := by
    rw [relOf, init_known]
    simp only [Store.init]
    split <;> rfl

theorem relOf_annotate {m m' : Manager α} {s : Store α} (hrel : ∀ x y, relOf m x y = s.rel x y)
    {x y : α} {o : Option Stored}
    (hk : ∀ u w, known m'.dict u w =
        if (u = x ∧ w = y) ∨ (u = y ∧ w = x) then o else known m.dict u w) (u w : α) :
    relOf m' u w = (s.annotate x y (o.map (·.1))).rel u w := by
  simp only [relOf, hk, Store.annotate]
  by_cases hc : (u = x ∧ w = y) ∨ (u = y ∧ w = x)
  · rw [if_pos hc, if_pos hc]
  · rw [if_neg hc, if_neg hc]; exact hrel u w

/-- Which result `add_constraint` gives. -/
theorem addConstraint_cases {m : Manager α} (h : Inv m) {x y : α} {ty : String} {t : CType} {v : Rat}
    (hx : x ∈ m.managed) (hy : y ∈ m.managed) (hty : CType.parse? ty = some t) :
    ((m.getInferred x y = .ok none ∨ m.getInferred x y = .ok (some t)) ∧
      ((∃ s, known m.dict x y = some s ∧ Manager.addConstraint x y ty v m = .ok true m) ∨
       (known m.dict x y = none ∧
        ∃ m', Manager.addConstraint x y ty v m = .ok true m' ∧ Inv m' ∧ m'.managed = m.managed ∧
          ∀ u w, known m'.dict u w =
            if (u = x ∧ w = y) ∨ (u = y ∧ w = x) then some (t, 1) else known m.dict u w))) ∨
    (∃ t', t' ≠ t ∧ m.getInferred x y = .ok (some t') ∧
      Manager.addConstraint x y ty v m = .error (.valueError "conflict") m) := by
  obtain ⟨r, hr, -, -⟩ := getInferred_eq h.t hx hy 1
  have hr' : m.getInferred x y = .ok r := hr
  have main : (m.getInferred x y = .ok none ∨ m.getInferred x y = .ok (some t)) →
      ((∃ s, known m.dict x y = some s ∧ Manager.addConstraint x y ty v m = .ok true m) ∨
       (known m.dict x y = none ∧
        ∃ m', Manager.addConstraint x y ty v m = .ok true m' ∧ Inv m' ∧ m'.managed = m.managed ∧
          ∀ u w, known m'.dict u w =
            if (u = x ∧ w = y) ∨ (u = y ∧ w = x) then some (t, 1) else known m.dict u w)) := by
    intro hinf
    cases hk : known m.dict x y with
    | some s => exact .inl ⟨s, rfl, addConstraint_known h hx hy hty hinf hk⟩
    | none =>
      obtain ⟨m', h1, h2, h3, h4⟩ := addConstraint_new (v := v) h hx hy hty hinf hk
      exact .inr ⟨rfl, m', h1, h2, h3, h4⟩
  cases r with
  | none => exact .inl ⟨.inl hr', main (.inl hr')⟩
  | some t' =>
    by_cases ht : t' = t
    · subst ht; exact .inl ⟨.inr hr', main (.inr hr')⟩
    · exact .inr ⟨t', ht, hr', addConstraint_conflict hx hy hty hr' ht⟩

theorem ctype_other {t t' : CType} (h : t' ≠ t) :
    (t = .mustLink ∧ t' = .cannotLink) ∨ (t = .cannotLink ∧ t' = .mustLink) := by
  cases t <;> cases t' <;> simp_all

theorem Refines.contradicts {m : Manager α} {s : Store α} (hr : Refines m s) {x y : α} {t : CType}
    (hx : x ∈ m.managed) (hy : y ∈ m.managed) :
    s.Contradicts x y t ↔ ∃ t', t' ≠ t ∧ m.getInferred x y = .ok (some t') := by
  cases t with
  | mustLink =>
    show s.CL x y ↔ _
    rw [← hr.cl, ← inferred_cl_iff hr.inv hx hy]
    constructor
    · intro h; exact ⟨_, by simp, h⟩
    · rintro ⟨t', h1, h2⟩; cases t' <;> simp_all
  | cannotLink =>
    show s.ML x y ↔ _
    rw [← hr.ml, ← inferred_ml_iff hr.inv hx hy]
    constructor
    · intro h; exact ⟨_, by simp, h⟩
    · rintro ⟨t', h1, h2⟩; cases t' <;> simp_all

theorem Refines.addConstraint {m : Manager α} {s : Store α} (hr : Refines m s) {x y : α} {ty : String}
    {t : CType} {v : Rat} (hx : x ∈ m.managed) (hy : y ∈ m.managed) (hty : CType.parse? ty = some t) :
    (s.Contradicts x y t ∧ Manager.addConstraint x y ty v m = .error (.valueError "conflict") m) ∨
    (¬ s.Contradicts x y t ∧ ∃ m', Manager.addConstraint x y ty v m = .ok true m' ∧
      Refines m' (open Classical in if s.rel x y = none then s.annotate x y (some t) else s)) := by
  rw [hr.contradicts hx hy]
  rcases addConstraint_cases (v := v) hr.inv hx hy hty with ⟨h1, h2⟩ | ⟨t', h1, h2, h3⟩
  · right
    refine ⟨?_, ?_⟩
    · rintro ⟨t', hne, h'⟩
      rcases h1 with h1 | h1 <;> rw [h1] at h' <;> simp at h'
      exact hne h'.symm
    · rcases h2 with ⟨st, hk, hc⟩ | ⟨hk, m', hc, hi, hm, hkn⟩
      · refine ⟨m, hc, ?_⟩
        have : s.rel x y ≠ none := by rw [← hr.rel, Ne, relOf_none, hk]; simp
        rw [if_neg this]; exact hr
      · refine ⟨m', hc, ?_⟩
        have : s.rel x y = none := by rw [← hr.rel, relOf_none, hk]
        rw [if_pos this]
        exact ⟨hi, hm.trans hr.ids, relOf_annotate hr.rel hkn⟩
  · exact .inl ⟨⟨t', h1, h2⟩, h3⟩

/-- Managers with the same content (order aside) take the same decisions. -/
theorem decisions_congr {m₁ m₂ : Manager α} (h₁ : Inv m₁) (h₂ : Inv m₂)
    (hids : ∀ x, x ∈ m₁.managed ↔ x ∈ m₂.managed)
    (hinf : ∀ x y, m₁.getInferred x y = m₂.getInferred x y) (x y : α) (ty : String) (v : Rat) :
    resVal (Manager.addConstraint x y ty v m₁) = resVal (Manager.addConstraint x y ty v m₂) := by
  by_cases hx : x ∈ m₁.managed
  swap
  · rw [addConstraint_err1 hx, addConstraint_err1 (fun hc => hx ((hids x).2 hc))]; rfl
  by_cases hy : y ∈ m₁.managed
  swap
  · rw [addConstraint_err2 hx hy, addConstraint_err2 ((hids x).1 hx) (fun hc => hy ((hids y).2 hc))]; rfl
  have hx2 := (hids x).1 hx
  have hy2 := (hids y).1 hy
  rcases parse_cases ty with hty | ⟨t, hty⟩
  · rw [addConstraint_err3 hx hy hty, addConstraint_err3 hx2 hy2 hty]; rfl
  have acc : ∀ {m : Manager α}, ((∃ s, known m.dict x y = some s ∧ Manager.addConstraint x y ty v m = .ok true m) ∨
       (known m.dict x y = none ∧
        ∃ m', Manager.addConstraint x y ty v m = .ok true m' ∧ Inv m' ∧ m'.managed = m.managed ∧
          ∀ u w, known m'.dict u w =
            if (u = x ∧ w = y) ∨ (u = y ∧ w = x) then some (t, 1) else known m.dict u w)) →
      resVal (Manager.addConstraint x y ty v m) = .ok true := by
    rintro m (⟨s, -, hc⟩ | ⟨-, m', hc, -⟩) <;> rw [hc] <;> rfl
  rcases addConstraint_cases (v := v) h₁ hx hy hty with ⟨h1, h2⟩ | ⟨t', h1, h2, h3⟩
  · rcases addConstraint_cases (v := v) h₂ hx2 hy2 hty with ⟨g1, g2⟩ | ⟨t'', g1, g2, g3⟩
    · rw [acc h2, acc g2]
    · rw [← hinf] at g2
      rcases h1 with h1 | h1 <;> rw [h1] at g2 <;> simp at g2
      exact absurd g2.symm g1
  · rcases addConstraint_cases (v := v) h₂ hx2 hy2 hty with ⟨g1, g2⟩ | ⟨t'', g1, g2, g3⟩
    · rw [hinf] at h2
      rcases g1 with g1 | g1 <;> rw [g1] at h2 <;> simp at h2
      exact absurd h2.symm h1
    · rw [h3, g3]; rfl

/-- One call on the manager and on the abstract store: same result, still related. -/
theorem Refines.step {m : Manager α} {s : Store α} (hr : Refines m s) (op : Op α) :
    resVal (op.call m) = (s.step op).1 ∧ Refines (resState (op.call m)) (s.step op).2 := by
  have hids : ∀ z, z ∈ s.ids ↔ z ∈ m.managed := fun z => by rw [hr.ids]
  cases op with
  | addDataID x =>
    simp only [Op.call, Store.step, hids]
    by_cases hx : x ∈ m.managed
    · rw [if_pos hx, addDataID_err hx]; exact ⟨rfl, hr⟩
    · obtain ⟨m', h1, h2, h3, -, h5⟩ := addDataID_ok hr.inv hx
      rw [if_neg hx, h1]
      refine ⟨rfl, h2, ?_, ?_⟩
      · show dkeys m'.dict = _
        rw [h3, ← hr.ids]; rfl
      · intro u w
        show relOf m' u w = _
        simp only [relOf, h5]
        by_cases hc : u = x ∧ w = x
        · rw [if_pos hc, if_pos hc]; rfl
        · rw [if_neg hc, if_neg hc]; exact hr.rel u w
  | deleteDataID x =>
    simp only [Op.call, Store.step, hids]
    by_cases hx : x ∈ m.managed
    · obtain ⟨m', h1, h2, h3, h4⟩ := deleteDataID_ok hr.inv hx
      rw [if_neg (not_not.2 hx), h1]
      refine ⟨rfl, h2, ?_, ?_⟩
      · show dkeys m'.dict = _
        rw [h3, ← hr.ids]; rfl
      · intro u w
        show relOf m' u w = _
        simp only [relOf, h4]
        by_cases hc : u = x ∨ w = x
        · rw [if_pos hc, if_pos hc]; rfl
        · rw [if_neg hc, if_neg hc]; exact hr.rel u w
    · rw [if_pos hx, deleteDataID_err hx]; exact ⟨rfl, hr⟩
  | addConstraint x y ty v =>
    simp only [Op.call, Store.step, hids]
    by_cases hx : x ∈ m.managed
    · by_cases hy : y ∈ m.managed
      · rw [if_neg (not_not.2 hx), if_neg (not_not.2 hy)]
        by_cases h1 : ty = "MUST_LINK"
        · rw [if_pos h1]
          rcases hr.addConstraint (v := v) hx hy (parse_eq_some (t := .mustLink).2 h1) with
            ⟨hc, he⟩ | ⟨hc, m', he, hr'⟩
          · rw [if_pos hc, he]; exact ⟨rfl, hr⟩
          · rw [if_neg hc, he]; exact ⟨rfl, hr'⟩
        · rw [if_neg h1]
          by_cases h2 : ty = "CANNOT_LINK"
          · rw [if_pos h2]
            rcases hr.addConstraint (v := v) hx hy (parse_eq_some (t := .cannotLink).2 h2) with
              ⟨hc, he⟩ | ⟨hc, m', he, hr'⟩
            · rw [if_pos hc, he]; exact ⟨rfl, hr⟩
            · rw [if_neg hc, he]; exact ⟨rfl, hr'⟩
          · rw [if_neg h2, addConstraint_err3 hx hy (by simp [CType.parse?, h1, h2])]
            exact ⟨rfl, hr⟩
      · rw [if_neg (not_not.2 hx), if_pos hy, addConstraint_err2 hx hy]; exact ⟨rfl, hr⟩
    · rw [if_pos hx, addConstraint_err1 hx]; exact ⟨rfl, hr⟩
  | deleteConstraint x y =>
    simp only [Op.call, Store.step, hids]
    by_cases hx : x ∈ m.managed
    · by_cases hy : y ∈ m.managed
      · rw [if_neg (not_not.2 hx), if_neg (not_not.2 hy)]
        obtain ⟨m', h1, h2, h3, h4⟩ := deleteConstraint_ok hr.inv hx hy
        rw [h1]
        exact ⟨rfl, h2, h3.trans hr.ids, relOf_annotate (o := none) hr.rel h4⟩
      · rw [if_neg (not_not.2 hx), if_pos hy, deleteConstraint_err2 hx hy]; exact ⟨rfl, hr⟩
    · rw [if_pos hx, deleteConstraint_err1 hx]; exact ⟨rfl, hr⟩

theorem Refines.run {m : Manager α} {s : Store α} (hr : Refines m s) (ops : List (Op α)) :
    runResults m ops = (s.run ops).1 ∧ Refines (runOps m ops) (s.run ops).2 := by
  induction ops generalizing m s with
  | nil => exact ⟨rfl, hr⟩
  | cons op ops ih =>
    obtain ⟨h1, h2⟩ := hr.step op
    obtain ⟨h3, h4⟩ := ih h2
    refine ⟨?_, h4⟩
    simp only [runResults, Store.run]
    rw [h1, h3]

end Verif
