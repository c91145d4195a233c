import Verif.Proofs.Session
import Verif.Props.Json
import Verif.Spec.Document

/-
Property C100: which files `load_constraints_manager_from_json` accepts, and what they mean.
-/

namespace Verif

/-! ### One entry -/

theorem getKey_iff {v w : JVal} {key : String} : v.getKey key = .ok w ↔ HasField v key w := by
  have hl : ∀ (l : List (PyStr × JVal)) (k : PyStr), dget? l k = l.lookup k := by
    intro l k
    induction l with
    | nil => rfl
    | cons p l ih =>
      obtain ⟨k', x⟩ := p
      rw [dget?, List.lookup_cons, ih]
      by_cases h : k' = k
      · subst h; simp
      · rw [if_neg h]
        have : (k == k') = false := by simpa using fun e => h e.symm
        rw [this]
  unfold HasField
  cases v with
  | obj l =>
    simp only [JVal.getKey, dget, hl, JVal.obj.injEq]
    constructor
    · intro h
      split at h
      · rename_i x hx
        cases h
        exact ⟨l, rfl, hx⟩
      · cases h
    · rintro ⟨l', rfl, h⟩
      rw [h]
  | _ => simp [JVal.getKey]

theorem HasField.inj {v w w' : JVal} {key : String} (h : HasField v key w) (h' : HasField v key w') : w = w' := by
  rw [← getKey_iff] at h h'
  rw [h] at h'
  cases h'; rfl

theorem iter_iff {v : JVal} {l : List JVal} : v.iter = .ok l ↔ ItemsOf v l := by
  constructor
  · intro h
    cases v with
    | arr l' => cases h; exact .arr _
    | str s => cases h; exact .str _
    | obj l' => cases h; exact .obj _
    | _ => cases h
  · intro h
    cases h <;> rfl

theorem ItemsOf.inj {v : JVal} {l l' : List JVal} (h : ItemsOf v l) (h' : ItemsOf v l') : l = l' := by
  rw [← iter_iff] at h h'
  rw [h] at h'
  cases h'; rfl

theorem lit_toStr_inj {t t' : CType} (h : lit t.toStr = lit t'.toStr) : t = t' := by
  revert h; cases t <;> cases t' <;> decide

theorem EntryOf.inj {v : JVal} {c c' : PyStr × PyStr × CType} (h : EntryOf v c) (h' : EntryOf v c') : c = c' := by
  obtain ⟨x, y, t⟩ := c
  obtain ⟨x', y', t'⟩ := c'
  obtain ⟨h1, h2, h3⟩ := h
  obtain ⟨h1', h2', h3'⟩ := h'
  have e1 := h1.inj h1'
  have e2 := h2.inj h2'
  have e3 := h3.inj h3'
  simp only [JVal.str.injEq] at e1 e2 e3
  rw [e1, e2, lit_toStr_inj e3]

theorem entries_inj {es : List JVal} {cs cs' : List (PyStr × PyStr × CType)} (h : List.Forall₂ EntryOf es cs)
    (h' : List.Forall₂ EntryOf es cs') : cs = cs' := by
  induction h generalizing cs' with
  | nil => cases h'; rfl
  | cons h1 h2 ih =>
    cases h' with
    | cons g1 g2 => rw [h1.inj g1, ih g2]

theorem Document.inj {v : JVal} {ids ids' : List PyStr} {cs cs' : List (PyStr × PyStr × CType)}
    (h : Document v ids cs) (h' : Document v ids' cs') : ids = ids' ∧ cs = cs' := by
  obtain ⟨a, b, es, h1, h2, h3, h4, h5⟩ := h
  obtain ⟨a', b', es', g1, g2, g3, g4, g5⟩ := h'
  cases h1.inj g1
  cases h3.inj g3
  cases h4.inj g4
  refine ⟨?_, entries_inj h5 g5⟩
  have := h2.inj g2
  exact List.map_injective_iff.2 (fun _ _ e => by simpa using e) this

theorem typeText_eq {s : PyStr} {t : CType} (h : typeText s = t.toStr) : s = lit t.toStr := by
  unfold typeText at h
  split at h
  · rename_i e; cases t
    · exact e
    · exact absurd h (by decide)
  · split at h
    · rename_i e; cases t
      · exact absurd h (by decide)
      · exact e
    · cases t <;> exact absurd h (by decide)

/-- An entry is accepted iff it lists a constraint that `add_constraint` accepts. -/
theorem addEntry_ok {m m' : Manager PyStr} (hm : Reachable m) {v : JVal} :
    addEntry m v = .ok m' ↔ ∃ c, EntryOf v c ∧ c.1 ∈ m.managed ∧ c.2.1 ∈ m.managed ∧
      Manager.addConstraint c.1 c.2.1 c.2.2.toStr 1 m = .ok true m' := by
  constructor
  · intro h
    unfold addEntry at h
    cases h1 : v.getKey "data_ID1" with
    | error e => rw [h1] at h; cases h
    | ok v1 =>
    cases h2 : v.getKey "data_ID2" with
    | error e => rw [h1, h2] at h; cases h
    | ok v2 =>
    cases h3 : v.getKey "constraint_type" with
    | error e => rw [h1, h2, h3] at h; cases h
    | ok v3 =>
    rw [h1, h2, h3] at h
    simp only [bind, Except.bind] at h
    have key : ∀ {w : JVal} {name : String} {x : PyStr}, w.asManaged name m = .ok x → w = .str x ∧ x ∈ m.managed := by
      intro w name x hw
      cases w with
      | str s =>
        simp only [JVal.asManaged] at hw
        split at hw
        · cases hw; exact ⟨rfl, by assumption⟩
        · cases hw
      | _ => cases hw
    cases k1 : v1.asManaged "data_ID1" m with
    | error e => rw [k1] at h; cases h
    | ok x =>
    cases k2 : v2.asManaged "data_ID2" m with
    | error e => rw [k1, k2] at h; cases h
    | ok y =>
    cases k3 : v3.asType with
    | error e => rw [k1, k2, k3] at h; cases h
    | ok ty =>
    rw [k1, k2, k3] at h
    simp only at h
    obtain ⟨rfl, hx⟩ := key k1
    obtain ⟨rfl, hy⟩ := key k2
    cases hc : Manager.addConstraint x y ty 1 m with
    | error e s => rw [hc] at h; cases h
    | ok r s =>
    rw [hc] at h
    cases h
    obtain ⟨rfl, ⟨t, rfl, -⟩, -⟩ := C06_add_constraint_frame hm hc
    have e3 : v3 = .str (lit t.toStr) := by
      cases v3 with
      | str s => simp only [JVal.asType, Except.ok.injEq] at k3; rw [typeText_eq k3]
      | _ => cases k3
    subst e3
    exact ⟨(x, y, t), ⟨getKey_iff.1 h1, getKey_iff.1 h2, getKey_iff.1 h3⟩, hx, hy, hc⟩
  · rintro ⟨⟨x, y, t⟩, ⟨h1, h2, h3⟩, hx, hy, hc⟩
    unfold addEntry
    rw [getKey_iff.2 h1, getKey_iff.2 h2, getKey_iff.2 h3]
    have e : typeText (lit t.toStr) = t.toStr := by cases t <;> decide
    simp only [bind, Except.bind, JVal.asManaged, if_pos hx, if_pos hy, JVal.asType, e]
    rw [hc]

/-! ### All entries -/

theorem listedAs_cons {α : Type} {c : α × α × CType} {cs : List (α × α × CType)} {t : CType} {x y : α} :
    ListedAs (c :: cs) t x y ↔ ListedAs [c] t x y ∨ ListedAs cs t x y := by
  simp only [ListedAs, List.mem_cons, List.not_mem_nil, or_false]
  exact or_or_or_comm

/-- What one accepted constraint adds. -/
theorem addedAs_add {α : Type} [LinearOrder α] {m m' : Manager α} (hm : Reachable m) {a b : α} {t : CType}
    (hc : Manager.addConstraint a b t.toStr 1 m = .ok true m') (s : CType) (x y : α) :
    AddedAs m' s x y ↔ AddedAs m s x y ∨ ListedAs [(a, b, t)] s x y := by
  obtain ⟨-, ⟨t', ht, g1, g2⟩, hman, hfr, hno⟩ := C06_add_constraint_frame hm hc
  have : t' = t := by revert ht; cases t <;> cases t' <;> decide
  subst this
  simp only [ListedAs, List.mem_singleton, Prod.mk.injEq]
  by_cases hp : (x = a ∧ y = b) ∨ (x = b ∧ y = a)
  · have hg : m'.getAdded x y = .ok (some (t', 1)) := by
      rcases hp with ⟨rfl, rfl⟩ | ⟨rfl, rfl⟩
      · exact g1
      · exact g2
    constructor
    · rintro ⟨w, hw⟩
      rw [hg] at hw
      cases hw
      right
      rcases hp with ⟨rfl, rfl⟩ | ⟨rfl, rfl⟩
      · exact .inl ⟨rfl, rfl, rfl⟩
      · exact .inr ⟨rfl, rfl, rfl⟩
    · rintro (⟨w, hw⟩ | hl)
      · by_cases hn : m.getAdded a b = .ok none
        · have : m.getAdded x y = .ok none := by
            rcases hp with ⟨rfl, rfl⟩ | ⟨rfl, rfl⟩
            · exact hn
            · have := AddedAs.symm hm.inv (t := s) x y ⟨w, hw⟩
              obtain ⟨w', hw'⟩ := this
              rw [hn] at hw'
              cases hw'
          rw [this] at hw
          cases hw
        · rw [hno hn]; exact ⟨w, hw⟩
      · have : s = t' := by rcases hl with ⟨-, -, h⟩ | ⟨-, -, h⟩ <;> exact h
        subst this
        exact ⟨1, hg⟩
  · have hn : ¬ ((x = a ∧ y = b ∧ s = t') ∨ (y = a ∧ x = b ∧ s = t')) := by
      rintro (⟨h1, h2, -⟩ | ⟨h1, h2, -⟩)
      · exact hp (.inl ⟨h1, h2⟩)
      · exact hp (.inr ⟨h2, h1⟩)
    unfold AddedAs
    rw [hfr x y (fun h => hp (.inl h)) (fun h => hp (.inr h))]
    exact ⟨.inl, fun h => h.resolve_right hn⟩

theorem reachable_add {α : Type} [LinearOrder α] {m m' : Manager α} (hm : Reachable m) {a b : α} {ty : String} {r : Bool}
    (hc : Manager.addConstraint a b ty 1 m = .ok r m') : Reachable m' := by
  have := hm.call (.addConstraint a b ty 1)
  have e : resState ((Op.addConstraint a b ty 1).call m) = m' := by
    show resState (Manager.addConstraint a b ty 1 m) = m'
    rw [hc]; rfl
  rwa [e] at this

theorem entries_ok {es : List JVal} {m m' : Manager PyStr} (hm : Reachable m) (h : es.foldlM addEntry m = .ok m') :
    ∃ cs, List.Forall₂ EntryOf es cs ∧ IDsListed m.managed cs ∧ Reachable m' ∧ m'.managed = m.managed ∧
      ∀ t x y, AddedAs m' t x y ↔ AddedAs m t x y ∨ ListedAs cs t x y := by
  induction es generalizing m with
  | nil =>
    cases h
    exact ⟨[], .nil, by simp [IDsListed], hm, rfl, by simp [ListedAs]⟩
  | cons v es ih =>
    rw [List.foldlM_cons] at h
    cases h1 : addEntry m v with
    | error e => rw [h1] at h; cases h
    | ok m₁ =>
    rw [h1] at h
    obtain ⟨c, hc, hx, hy, ha⟩ := (addEntry_ok hm).1 h1
    obtain ⟨-, -, hman, -⟩ := C06_add_constraint_frame hm ha
    obtain ⟨cs, k1, k2, k3, k4, k5⟩ := ih (reachable_add hm ha) h
    refine ⟨c :: cs, .cons hc k1, ?_, k3, k4.trans hman, ?_⟩
    · intro d hd
      rcases List.mem_cons.1 hd with rfl | hd
      · exact ⟨hx, hy⟩
      · rw [← hman]; exact k2 d hd
    · intro t x y
      rw [k5, addedAs_add hm ha, listedAs_cons (c := c) (cs := cs), or_assoc]

theorem satisfies_add {α : Type} {m m' : Manager α} [LinearOrder α] {cs : List (α × α × CType)}
    (h : ∀ t x y, AddedAs m' t x y ↔ AddedAs m t x y ∨ ListedAs cs t x y) (f : α → Nat) :
    Satisfies m' f ↔ Satisfies m f ∧ ∀ c ∈ cs, Agrees f c.1 c.2.1 c.2.2 := by
  constructor
  · intro hs
    refine ⟨fun x y => ⟨fun ha => (hs x y).1 ((h _ _ _).2 (.inl ha)), fun ha => (hs x y).2 ((h _ _ _).2 (.inl ha))⟩, ?_⟩
    rintro ⟨x, y, t⟩ hc
    have ha : AddedAs m' t x y := (h _ _ _).2 (.inr (.inl hc))
    cases t
    · exact (hs x y).1 ha
    · exact (hs x y).2 ha
  · rintro ⟨hs, hc⟩ x y
    constructor
    · intro ha
      rcases (h _ _ _).1 ha with ha | ha | ha
      · exact (hs x y).1 ha
      · exact hc _ ha
      · exact (hc _ ha).symm
    · intro ha
      rcases (h _ _ _).1 ha with ha | ha | ha
      · exact (hs x y).2 ha
      · exact hc _ ha
      · exact fun e => (hc _ ha) e.symm

theorem entries_accept {es : List JVal} {cs : List (PyStr × PyStr × CType)} (hes : List.Forall₂ EntryOf es cs)
    {m : Manager PyStr} (hm : Reachable m) (hcl : IDsListed m.managed cs) {f : PyStr → Nat} (hs : Satisfies m f)
    (hf : ∀ c ∈ cs, Agrees f c.1 c.2.1 c.2.2) : ∃ m', es.foldlM addEntry m = .ok m' := by
  induction hes generalizing m with
  | nil => exact ⟨m, rfl⟩
  | @cons v c es cs h1 h2 ih =>
    obtain ⟨hx, hy⟩ := hcl c (by simp)
    obtain ⟨m₁, ha⟩ := (C04_refuses_exactly_unsatisfiable hm hx hy c.2.2 1).2.2 ⟨f, hs, hf c (by simp)⟩
    obtain ⟨-, -, hman, -⟩ := C06_add_constraint_frame hm ha
    have hs₁ : Satisfies m₁ f := (satisfies_add (addedAs_add hm ha) f).2 ⟨hs, by
      intro d hd
      rw [List.mem_singleton] at hd
      subst hd
      exact hf c (by simp)⟩
    obtain ⟨m', hm'⟩ := ih (reachable_add hm ha) (by rw [hman]; exact fun d hd => hcl d (by simp [hd])) hs₁
      (fun d hd => hf d (by simp [hd]))
    refine ⟨m', ?_⟩
    rw [List.foldlM_cons, (addEntry_ok hm).2 ⟨c, h1, hx, hy, ha⟩]
    exact hm'

theorem mapM_asStr_iff {l : List JVal} {ids : List PyStr} : l.mapM JVal.asStr = .ok ids ↔ l = ids.map .str := by
  constructor
  · intro h
    induction l generalizing ids with
    | nil => cases h; rfl
    | cons v l ih =>
      rw [List.mapM_cons] at h
      cases v with
      | str s =>
        cases h1 : l.mapM JVal.asStr with
        | error e => rw [h1] at h; cases h
        | ok r => rw [h1] at h; cases h; rw [ih h1]; rfl
      | _ => cases h
  · rintro rfl; exact mapM_asStr ids

/-- The text is read in three steps. -/
theorem loadText_ok {text : PyStr} {m : Manager PyStr} : loadText text = .ok m ↔
    ∃ v a b ids es, decode text = some v ∧ HasField v "list_of_managed_data_IDs" a ∧ ItemsOf a (ids.map .str) ∧
      HasField v "list_of_added_constraints" b ∧ ItemsOf b es ∧ es.foldlM addEntry (Manager.init ids) = .ok m := by
  constructor
  · intro h
    unfold loadText at h
    cases hd : decode text with
    | none => rw [hd] at h; cases h
    | some v =>
    rw [hd] at h
    simp only [bind, Except.bind] at h
    cases h1 : v.getKey "list_of_managed_data_IDs" with
    | error e => rw [h1] at h; cases h
    | ok a =>
    rw [h1] at h; simp only at h
    cases h2 : a.iter with
    | error e => rw [h2] at h; cases h
    | ok l =>
    rw [h2] at h; simp only at h
    cases h3 : l.mapM JVal.asStr with
    | error e => rw [h3] at h; cases h
    | ok ids =>
    rw [h3] at h; simp only at h
    cases h4 : v.getKey "list_of_added_constraints" with
    | error e => rw [h4] at h; cases h
    | ok b =>
    rw [h4] at h; simp only at h
    cases h5 : b.iter with
    | error e => rw [h5] at h; cases h
    | ok es =>
    rw [h5] at h; simp only at h
    rw [mapM_asStr_iff] at h3
    subst h3
    exact ⟨v, a, b, ids, es, rfl, getKey_iff.1 h1, iter_iff.1 h2, getKey_iff.1 h4, iter_iff.1 h5, h⟩
  · rintro ⟨v, a, b, ids, es, hd, h1, h2, h4, h5, h⟩
    unfold loadText
    simp only [hd, bind, Except.bind, getKey_iff.2 h1, iter_iff.2 h2, mapM_asStr, getKey_iff.2 h4, iter_iff.2 h5]
    exact h

theorem init_managed (ids : List PyStr) : (Manager.init ids).managed = ids.foldl addNew [] :=
  (C02_managed_list ids []).1

theorem mem_init_managed {ids : List PyStr} {x : PyStr} : x ∈ (Manager.init ids).managed ↔ x ∈ ids := by
  rw [init_managed]
  have : ∀ (l acc : List PyStr), x ∈ l.foldl addNew acc ↔ x ∈ acc ∨ x ∈ l := by
    intro l
    induction l with
    | nil => simp
    | cons z l ih =>
      intro acc
      rw [List.foldl_cons, ih]
      unfold addNew
      split
      · rename_i hz
        constructor
        · rintro (h | h)
          · exact .inl h
          · exact .inr (by simp [h])
        · rintro (h | h)
          · exact .inl h
          · rcases List.mem_cons.1 h with rfl | h
            · exact .inl hz
            · exact .inr h
      · simp [or_assoc]
  simpa using this ids []

/-! ### C100 -/

/-- C100. A text is accepted exactly if it decodes to an object with a list of IDs and a list of
constraints, whose constraints are of the two known types, concern listed IDs only and can be
satisfied together by some assignment of clusters. -/
theorem C100_accepted (text : PyStr) :
    (∃ m, loadText text = .ok m) ↔
      ∃ v ids cs, decode text = some v ∧ Document v ids cs ∧ IDsListed ids cs ∧ JointlySatisfiable cs := by
  constructor
  · rintro ⟨m, h⟩
    obtain ⟨v, a, b, ids, es, hd, h1, h2, h3, h4, h5⟩ := loadText_ok.1 h
    obtain ⟨cs, k1, k2, k3, -, k5⟩ := entries_ok (Reachable.init ids) h5
    refine ⟨v, ids, cs, hd, ⟨a, b, es, h1, h2, h3, h4, k1⟩, ?_, ?_⟩
    · intro c hc
      have := k2 c hc
      rwa [mem_init_managed, mem_init_managed] at this
    · obtain ⟨f, hf⟩ := (C03_never_contradictory k3).1
      exact ⟨f, ((satisfies_add k5 f).1 hf).2⟩
  · rintro ⟨v, ids, cs, hd, ⟨a, b, es, h1, h2, h3, h4, h5⟩, hcl, f, hf⟩
    obtain ⟨m, hm⟩ := entries_accept h5 (Reachable.init ids)
      (by intro c hc; rw [mem_init_managed, mem_init_managed]; exact hcl c hc) (init_satisfies ids f) hf
    exact ⟨m, loadText_ok.2 ⟨v, a, b, ids, es, hd, h1, h2, h3, h4, hm⟩⟩

/-- C100. What an accepted text means: the manager holds the listed IDs in order of first
occurrence, exactly the listed constraints (whatever their order, direction and multiplicity)
besides the self-constraints, and infers exactly the closure of the listed constraints. -/
theorem C100_meaning {text : PyStr} {m : Manager PyStr} (h : loadText text = .ok m) {v : JVal} {ids : List PyStr}
    {cs : List (PyStr × PyStr × CType)} (hd : decode text = some v) (hdoc : Document v ids cs) :
    Reachable m ∧ m.managed = ids.foldl addNew [] ∧
    (∀ x y, x ≠ y → ∀ s, m.getAdded x y = .ok (some s) ↔ s.2 = 1 ∧ ListedAs cs s.1 x y) ∧
    (∀ x ∈ ids, m.getAdded x x = .ok (some (.mustLink, 1))) ∧
    (∀ x ∈ ids, ∀ y ∈ ids,
      (m.getInferred x y = .ok (some .mustLink) ↔ Chain (ListedAs cs .mustLink) x y) ∧
      (m.getInferred x y = .ok (some .cannotLink) ↔
        Separated (ListedAs cs .mustLink) (ListedAs cs .cannotLink) x y)) := by
  obtain ⟨v', a, b, ids', es, hd', h1, h2, h3, h4, h5⟩ := loadText_ok.1 h
  rw [hd] at hd'
  cases hd'
  obtain ⟨cs', k1, k2, k3, k4, k5⟩ := entries_ok (Reachable.init ids') h5
  obtain ⟨rfl, rfl⟩ := hdoc.inj ⟨a, b, es, h1, h2, h3, h4, k1⟩
  have hi := init_inv ids
  have hinit : ∀ t x y, AddedAs (Manager.init ids) t x y ↔ x = y ∧ x ∈ ids ∧ t = .mustLink := by
    intro t x y
    rw [addedAs_iff_known hi, init_known]
    split
    · rename_i hc
      constructor
      · intro e
        refine ⟨hc.1, hc.2, ?_⟩
        simpa using e.symm
      · rintro ⟨-, -, rfl⟩; rfl
    · rename_i hc
      constructor
      · intro e; simp at e
      · rintro ⟨e1, e2, -⟩; exact absurd ⟨e1, e2⟩ hc
  have hml : ∀ x y, MustLinked m x y ↔ Chain (ListedAs cs .mustLink) x y := by
    intro x y
    refine ⟨chain_offdiag fun p q hn ha => ?_, chain_offdiag fun p q hn ha => (k5 _ _ _).2 (.inr ha)⟩
    rcases (k5 _ _ _).1 ha with ha | ha
    · exact absurd ((hinit _ _ _).1 ha).1 hn
    · exact ha
  have hcl : ∀ x y, AddedAs m .cannotLink x y ↔ ListedAs cs .cannotLink x y := by
    intro x y
    rw [k5, hinit]
    constructor
    · rintro (⟨-, -, e⟩ | ha)
      · cases e
      · exact ha
    · exact .inr
  refine ⟨k3, k4.trans (init_managed ids), ?_, ?_, ?_⟩
  · rintro x y hxy ⟨t, w⟩
    constructor
    · intro ha
      refine ⟨?_, ?_⟩
      · exact (C22_values_are_one k3 x y).1 _ _ ha
      · rcases (k5 t x y).1 ⟨w, ha⟩ with ha | ha
        · exact absurd ((hinit _ _ _).1 ha).1 hxy
        · exact ha
    · rintro ⟨rfl, hl⟩
      obtain ⟨w', hw'⟩ := (k5 t x y).2 (.inr hl)
      rw [hw', (C22_values_are_one k3 x y).1 _ _ hw']
  · intro x hx
    obtain ⟨w', hw'⟩ := (k5 .mustLink x x).2 (.inl ((hinit _ _ _).2 ⟨rfl, hx, rfl⟩))
    rw [hw', (C22_values_are_one k3 x x).1 _ _ hw']
  · intro x hx y hy
    have hman : ∀ z ∈ ids, z ∈ m.managed := fun z hz => by rw [k4]; exact mem_init_managed.2 hz
    obtain ⟨c1, c2, -⟩ := C01_inferred_is_closure k3 (hman x hx) (hman y hy) 1
    refine ⟨c1.trans (hml x y), c2.trans ?_⟩
    unfold CannotLinked Separated
    constructor
    · rintro ⟨p, q, e1, e2, e3⟩
      exact ⟨p, q, (hml _ _).1 e1, (hcl _ _).1 e2, (hml _ _).1 e3⟩
    · rintro ⟨p, q, e1, e2, e3⟩
      exact ⟨p, q, (hml _ _).2 e1, (hcl _ _).2 e2, (hml _ _).2 e3⟩

/-- C100. Only what the document lists matters: two documents that list the same IDs and the same
constraints, in any order, direction and multiplicity, are both accepted or both refused, and give
managers with the same answers. -/
theorem C100_only_contents {text text' : PyStr} {v v' : JVal} {ids ids' : List PyStr}
    {cs cs' : List (PyStr × PyStr × CType)} (hd : decode text = some v) (hd' : decode text' = some v')
    (hdoc : Document v ids cs) (hdoc' : Document v' ids' cs') (hids : ∀ x, x ∈ ids ↔ x ∈ ids')
    (hcs : ∀ t x y, ListedAs cs t x y ↔ ListedAs cs' t x y) :
    ((∃ m, loadText text = .ok m) ↔ ∃ m, loadText text' = .ok m) ∧
    ∀ m m', loadText text = .ok m → loadText text' = .ok m' →
      (∀ x, x ∈ m.managed ↔ x ∈ m'.managed) ∧ (∀ x y, m.getAdded x y = m'.getAdded x y) ∧
      (∀ x y, m.getInferred x y = m'.getInferred x y) ∧ m.complete = m'.complete := by
  have half : ∀ {ids ids' : List PyStr} {cs cs' : List (PyStr × PyStr × CType)} {text text' : PyStr} {v v' : JVal},
      decode text = some v → decode text' = some v' → Document v ids cs → Document v' ids' cs' →
      (∀ x, x ∈ ids ↔ x ∈ ids') → (∀ t x y, ListedAs cs t x y ↔ ListedAs cs' t x y) →
      (∃ m, loadText text = .ok m) → ∃ m, loadText text' = .ok m := by
    intro ids ids' cs cs' text text' v v' hd hd' hdoc hdoc' hids hcs h
    rw [C100_accepted] at h ⊢
    obtain ⟨w, i, c, g1, g2, g3, f, g4⟩ := h
    rw [hd] at g1
    cases g1
    obtain ⟨rfl, rfl⟩ := hdoc.inj g2
    have key : ∀ {t x y}, (x, y, t) ∈ cs' → (x, y, t) ∈ cs ∨ (y, x, t) ∈ cs := fun h => (hcs _ _ _).2 (.inl h)
    refine ⟨v', ids', cs', hd', hdoc', ?_, f, ?_⟩
    · rintro ⟨x, y, t⟩ hc
      rcases key hc with hc | hc
      · exact ⟨(hids _).1 (g3 _ hc).1, (hids _).1 (g3 _ hc).2⟩
      · exact ⟨(hids _).1 (g3 _ hc).2, (hids _).1 (g3 _ hc).1⟩
    · rintro ⟨x, y, t⟩ hc
      rcases key hc with hc | hc
      · exact g4 _ hc
      · have := g4 _ hc
        cases t
        · exact this.symm
        · exact fun e => this e.symm
  refine ⟨⟨half hd hd' hdoc hdoc' hids hcs, half hd' hd hdoc' hdoc (fun x => (hids x).symm)
    (fun t x y => (hcs t x y).symm)⟩, ?_⟩
  intro m m' h h'
  obtain ⟨r1, a1, b1, c1, -⟩ := C100_meaning h hd hdoc
  obtain ⟨r2, a2, b2, c2, -⟩ := C100_meaning h' hd' hdoc'
  have hman : ∀ x, x ∈ m.managed ↔ x ∈ m'.managed := by
    intro x
    rw [a1, a2, ← init_managed, ← init_managed, mem_init_managed, mem_init_managed, hids]
  have hmem : ∀ x, x ∈ m.managed ↔ x ∈ ids := fun x => by rw [a1, ← init_managed, mem_init_managed]
  have hne : ∀ x y, x ≠ y → m.getAdded x y = m'.getAdded x y := by
    intro x y hxy
    by_cases hx : x ∈ m.managed
    · by_cases hy : y ∈ m.managed
      · obtain ⟨r, hr⟩ := ((C21_only_documented_exceptions r1).2.2.2.2.1 x y).2.2 hx hy
        obtain ⟨r', hr'⟩ := ((C21_only_documented_exceptions r2).2.2.2.2.1 x y).2.2 ((hman x).1 hx) ((hman y).1 hy)
        cases r with
        | some s => rw [hr]; exact ((b2 x y hxy s).2 ⟨((b1 x y hxy s).1 hr).1, (hcs _ _ _).1 ((b1 x y hxy s).1 hr).2⟩).symm
        | none =>
          cases r' with
          | none => rw [hr, hr']
          | some s =>
            have := (b1 x y hxy s).2 ⟨((b2 x y hxy s).1 hr').1, (hcs _ _ _).2 ((b2 x y hxy s).1 hr').2⟩
            rw [this] at hr
            cases hr
      · rw [((C21_only_documented_exceptions r1).2.2.2.2.1 x y).2.1 hx hy,
          ((C21_only_documented_exceptions r2).2.2.2.2.1 x y).2.1 ((hman x).1 hx) (fun h => hy ((hman y).2 h))]
    · rw [((C21_only_documented_exceptions r1).2.2.2.2.1 x y).1 hx,
          ((C21_only_documented_exceptions r2).2.2.2.2.1 x y).1 (fun h => hx ((hman x).2 h))]
  obtain ⟨d1, -, -, d4, -⟩ := C19_order_independence r1 r2 hman hne
  refine ⟨hman, ?_, d1, d4⟩
  intro x y
  by_cases hxy : x = y
  · subst hxy
    by_cases hx : x ∈ m.managed
    · rw [c1 x ((hmem x).1 hx), c2 x ((hids x).1 ((hmem x).1 hx))]
    · rw [((C21_only_documented_exceptions r1).2.2.2.2.1 x x).1 hx,
          ((C21_only_documented_exceptions r2).2.2.2.2.1 x x).1 (fun h => hx ((hman x).2 h))]
  · exact hne x y hxy

theorem addEntry_error {m : Manager PyStr} (hm : Reachable m) {v : JVal} {e : PyErr} (h : addEntry m v = .error e) :
    e = .keyError ∨ e = .typeError ∨ ∃ tag, e = .valueError tag := by
  have hkey : ∀ {w : JVal} {key : String} {e : PyErr}, w.getKey key = .error e → e = .keyError ∨ e = .typeError := by
    intro w key e hw
    cases w with
    | obj l =>
      simp only [JVal.getKey, dget] at hw
      split at hw
      · cases hw
      · cases hw; exact .inl rfl
    | _ => cases hw; exact .inr rfl
  have hman : ∀ {w : JVal} {name : String} {e : PyErr}, w.asManaged name m = .error e →
      e = .typeError ∨ ∃ tag, e = .valueError tag := by
    intro w name e hw
    cases w with
    | str s =>
      simp only [JVal.asManaged] at hw
      split at hw
      · cases hw
      · cases hw; exact .inr ⟨_, rfl⟩
    | arr l => cases hw; exact .inl rfl
    | obj l => cases hw; exact .inl rfl
    | _ => cases hw; exact .inr ⟨_, rfl⟩
  unfold addEntry at h
  cases h1 : v.getKey "data_ID1" with
  | error e' => rw [h1] at h; cases h; rcases hkey h1 with h | h <;> simp [h]
  | ok v1 =>
  cases h2 : v.getKey "data_ID2" with
  | error e' => rw [h1, h2] at h; cases h; rcases hkey h2 with h | h <;> simp [h]
  | ok v2 =>
  cases h3 : v.getKey "constraint_type" with
  | error e' => rw [h1, h2, h3] at h; cases h; rcases hkey h3 with h | h <;> simp [h]
  | ok v3 =>
  rw [h1, h2, h3] at h
  simp only [bind, Except.bind] at h
  cases k1 : v1.asManaged "data_ID1" m with
  | error e' => rw [k1] at h; cases h; exact .inr (hman k1)
  | ok x =>
  cases k2 : v2.asManaged "data_ID2" m with
  | error e' => rw [k1, k2] at h; cases h; exact .inr (hman k2)
  | ok y =>
  cases k3 : v3.asType with
  | error e' =>
    rw [k1, k2, k3] at h; cases h
    cases v3 with
    | str s => cases k3
    | arr l => cases k3; simp
    | obj l => cases k3; simp
    | _ => cases k3; simp
  | ok ty =>
  rw [k1, k2, k3] at h
  simp only at h
  cases hc : Manager.addConstraint x y ty 1 m with
  | ok r s => rw [hc] at h; cases h
  | error e' s =>
    rw [hc] at h
    cases h
    have := (C21_only_documented_exceptions hm).2.2.2.1 x y ty 1
    rw [hc] at this
    simp only [resVal] at this
    split at this
    · cases this; simp
    · split at this
      · cases this; simp
      · split at this
        · cases this; simp
        · split at this
          · cases this; simp
          · cases this

/-- C100. A refused text raises `ValueError` (of which `JSONDecodeError` is a subclass), `KeyError`
or `TypeError`, nothing else. -/
theorem C100_errors {text : PyStr} {e : PyErr} (h : loadText text = .error e) :
    e = .keyError ∨ e = .typeError ∨ ∃ tag, e = .valueError tag := by
  have hkey : ∀ {w : JVal} {key : String} {e : PyErr}, w.getKey key = .error e → e = .keyError ∨ e = .typeError := by
    intro w key e hw
    cases w with
    | obj l =>
      simp only [JVal.getKey, dget] at hw
      split at hw
      · cases hw
      · cases hw; exact .inl rfl
    | _ => cases hw; exact .inr rfl
  have hiter : ∀ {w : JVal} {e : PyErr}, w.iter = .error e → e = .typeError := by
    intro w e hw
    cases w <;> cases hw <;> rfl
  have hstr : ∀ {l : List JVal} {e : PyErr}, l.mapM JVal.asStr = .error e → e = .typeError := by
    intro l
    induction l with
    | nil => intro e hw; cases hw
    | cons w l ih =>
      intro e hw
      rw [List.mapM_cons] at hw
      cases w with
      | str s =>
        cases h1 : l.mapM JVal.asStr with
        | error e' => rw [h1] at hw; cases hw; exact ih h1
        | ok r => rw [h1] at hw; cases hw
      | _ => cases hw; rfl
  have hfold : ∀ {es : List JVal} {m : Manager PyStr} {e : PyErr}, Reachable m → es.foldlM addEntry m = .error e →
      e = .keyError ∨ e = .typeError ∨ ∃ tag, e = .valueError tag := by
    intro es
    induction es with
    | nil => intro m e _ hw; cases hw
    | cons w es ih =>
      intro m e hm hw
      rw [List.foldlM_cons] at hw
      cases h1 : addEntry m w with
      | error e' => rw [h1] at hw; cases hw; exact addEntry_error hm h1
      | ok m₁ =>
        rw [h1] at hw
        obtain ⟨c, -, -, -, ha⟩ := (addEntry_ok hm).1 h1
        exact ih (reachable_add hm ha) hw
  unfold loadText at h
  cases hd : decode text with
  | none => rw [hd] at h; cases h; simp
  | some v =>
  rw [hd] at h
  simp only [bind, Except.bind] at h
  cases h1 : v.getKey "list_of_managed_data_IDs" with
  | error e' => rw [h1] at h; cases h; rcases hkey h1 with h | h <;> simp [h]
  | ok a =>
  rw [h1] at h; simp only at h
  cases h2 : a.iter with
  | error e' => rw [h2] at h; cases h; simp [hiter h2]
  | ok l =>
  rw [h2] at h; simp only at h
  cases h3 : l.mapM JVal.asStr with
  | error e' => rw [h3] at h; cases h; simp [hstr h3]
  | ok ids =>
  rw [h3] at h; simp only at h
  cases h4 : v.getKey "list_of_added_constraints" with
  | error e' => rw [h4] at h; cases h; rcases hkey h4 with h | h <;> simp [h]
  | ok b =>
  rw [h4] at h; simp only at h
  cases h5 : b.iter with
  | error e' => rw [h5] at h; cases h; simp [hiter h5]
  | ok es =>
  rw [h5] at h; simp only at h
  exact hfold (Reachable.init ids) h

/-- C100. A well-formed document whose constraints contradict each other is refused with the
conflict error of `add_constraint`; nothing is dropped silently. -/
theorem C100_contradiction {text : PyStr} {v : JVal} {ids : List PyStr} {cs : List (PyStr × PyStr × CType)}
    (hd : decode text = some v) (hdoc : Document v ids cs) (hcl : IDsListed ids cs) (hno : ¬ JointlySatisfiable cs) :
    loadText text = .error (.valueError "conflict") := by
  obtain ⟨a, b, es, h1, h2, h3, h4, h5⟩ := id hdoc
  have key : ∀ {es : List JVal} {cs : List (PyStr × PyStr × CType)}, List.Forall₂ EntryOf es cs →
      ∀ m : Manager PyStr, Reachable m → IDsListed m.managed cs →
      (∃ m', es.foldlM addEntry m = .ok m') ∨ es.foldlM addEntry m = .error (.valueError "conflict") := by
    intro es cs hes
    induction hes with
    | nil => exact fun m _ _ => .inl ⟨m, rfl⟩
    | @cons w c es cs g1 g2 ih =>
      intro m hm hc
      obtain ⟨hx, hy⟩ := hc c (by simp)
      obtain ⟨q1, q2⟩ := C04_refuses_exactly_unsatisfiable hm hx hy c.2.2 1
      by_cases hf : ∃ f : PyStr → Nat, Satisfies m f ∧ Agrees f c.1 c.2.1 c.2.2
      · obtain ⟨m₁, ha⟩ := q2.2 hf
        obtain ⟨-, -, hman, -⟩ := C06_add_constraint_frame hm ha
        rw [List.foldlM_cons, (addEntry_ok hm).2 ⟨c, g1, hx, hy, ha⟩]
        exact ih m₁ (reachable_add hm ha) (by rw [hman]; exact fun d hd => hc d (by simp [hd]))
      · obtain ⟨m₁, ha⟩ := q1.2 hf
        right
        rw [List.foldlM_cons]
        have : addEntry m w = .error (.valueError "conflict") := by
          obtain ⟨k1, k2, k3⟩ := g1
          unfold addEntry
          rw [getKey_iff.2 k1, getKey_iff.2 k2, getKey_iff.2 k3]
          have e : typeText (lit c.2.2.toStr) = c.2.2.toStr := by cases c.2.2 <;> decide
          simp only [bind, Except.bind, JVal.asManaged, if_pos hx, if_pos hy, JVal.asType, e]
          rw [ha]
        rw [this]
        rfl
  have hrun : loadText text = es.foldlM addEntry (Manager.init ids) := by
    unfold loadText
    simp only [hd, bind, Except.bind, getKey_iff.2 h1, iter_iff.2 h2, mapM_asStr, getKey_iff.2 h3, iter_iff.2 h4]
  rcases key h5 (Manager.init ids) (Reachable.init ids)
    (by intro c hc; rw [mem_init_managed, mem_init_managed]; exact hcl c hc) with ⟨m, hm⟩ | h
  · exfalso
    obtain ⟨w, i, c, g1, g2, g3, g4⟩ := (C100_accepted text).1 ⟨m, hrun.trans hm⟩
    rw [hd] at g1
    cases g1
    obtain ⟨-, rfl⟩ := hdoc.inj g2
    exact hno g4
  · rw [hrun, h]

/-! ### Concrete files -/

def entryText (x y t : String) : String :=
  "{\"data_ID1\":\"" ++ x ++ "\", \"data_ID2\":\"" ++ y ++ "\", \"constraint_type\":\"" ++ t ++ "\"}"

/-- A hand-written file, not in the layout of `to_json`. -/
def demoText (ids constraints : String) : PyStr :=
  lit ("{\"list_of_managed_data_IDs\": [" ++ ids ++ "], \"list_of_added_constraints\":[" ++ constraints ++ "]}")

def demoText1 : PyStr := demoText "\"b\",\"a\",\"c\",\"a\""
  (entryText "a" "b" "MUST_LINK" ++ "," ++ entryText "b" "c" "CANNOT_LINK" ++ "," ++ entryText "b" "a" "MUST_LINK")

def demoText2 : PyStr := demoText "\"c\",\"b\",\"a\"" (entryText "c" "b" "CANNOT_LINK" ++ "," ++ entryText "a" "b" "MUST_LINK")

def demoText3 : PyStr := demoText "\"a\",\"b\",\"c\""
  (entryText "a" "b" "MUST_LINK" ++ "," ++ entryText "b" "c" "CANNOT_LINK" ++ "," ++ entryText "c" "a" "MUST_LINK")

def entryVal (x y t : String) : JVal :=
  .obj [(lit "data_ID1", .str (lit x)), (lit "data_ID2", .str (lit y)), (lit "constraint_type", .str (lit t))]

def demoVal (ids : List String) (cs : List (String × String × CType)) : JVal :=
  .obj [(lit "list_of_managed_data_IDs", .arr (ids.map fun x => .str (lit x))),
    (lit "list_of_added_constraints", .arr (cs.map fun c => entryVal c.1 c.2.1 c.2.2.toStr))]

theorem demoVal_document (ids : List String) (cs : List (String × String × CType)) :
    Document (demoVal ids cs) (ids.map lit) (cs.map fun c => (lit c.1, lit c.2.1, c.2.2)) := by
  refine ⟨_, _, _, ⟨_, rfl, rfl⟩, ?_, ⟨_, rfl, rfl⟩, .arr _, ?_⟩
  · rw [List.map_map]; exact .arr _
  · induction cs with
    | nil => exact .nil
    | cons c cs ih => exact .cons ⟨⟨_, rfl, rfl⟩, ⟨_, rfl, rfl⟩, ⟨_, rfl, rfl⟩⟩ ih

mutual
/-- Comparison of two decoded values, to check the demo files by evaluation. -/
def JVal.same : JVal → JVal → Bool
  | .null, .null => true
  | .bool b, .bool b' => b == b'
  | .num t, .num t' => t == t'
  | .str s, .str s' => s == s'
  | .arr l, .arr l' => JVal.sameItems l l'
  | .obj l, .obj l' => JVal.samePairs l l'
  | _, _ => false
def JVal.sameItems : List JVal → List JVal → Bool
  | [], [] => true
  | v :: l, v' :: l' => v.same v' && JVal.sameItems l l'
  | _, _ => false
def JVal.samePairs : List (PyStr × JVal) → List (PyStr × JVal) → Bool
  | [], [] => true
  | (k, v) :: l, (k', v') :: l' => k == k' && v.same v' && JVal.samePairs l l'
  | _, _ => false
end

mutual
theorem JVal.eq_of_same : ∀ v v' : JVal, v.same v' = true → v = v'
  | .null, v', h => by cases v' <;> simp_all [JVal.same]
  | .bool b, v', h => by cases v' <;> simp_all [JVal.same]
  | .num b, v', h => by cases v' <;> simp_all [JVal.same]
  | .str b, v', h => by cases v' <;> simp_all [JVal.same]
  | .arr l, v', h => by
    cases v' with
    | arr l' => rw [JVal.eq_of_sameItems l l' (by simpa [JVal.same] using h)]
    | _ => simp [JVal.same] at h
  | .obj l, v', h => by
    cases v' with
    | obj l' => rw [JVal.eq_of_samePairs l l' (by simpa [JVal.same] using h)]
    | _ => simp [JVal.same] at h
theorem JVal.eq_of_sameItems : ∀ l l' : List JVal, JVal.sameItems l l' = true → l = l'
  | [], l', h => by cases l' <;> simp_all [JVal.sameItems]
  | v :: l, l', h => by
    cases l' with
    | nil => simp [JVal.sameItems] at h
    | cons v' l' =>
      simp only [JVal.sameItems, Bool.and_eq_true] at h
      rw [JVal.eq_of_same v v' h.1, JVal.eq_of_sameItems l l' h.2]
theorem JVal.eq_of_samePairs : ∀ l l' : List (PyStr × JVal), JVal.samePairs l l' = true → l = l'
  | [], l', h => by cases l' <;> simp_all [JVal.samePairs]
  | (k, v) :: l, l', h => by
    cases l' with
    | nil => simp [JVal.samePairs] at h
    | cons p l' =>
      obtain ⟨k', v'⟩ := p
      simp only [JVal.samePairs, Bool.and_eq_true, beq_iff_eq] at h
      rw [h.1.1, JVal.eq_of_same v v' h.1.2, JVal.eq_of_samePairs l l' h.2]
end

theorem decode_demo {s : PyStr} {v : JVal} (h : (match decode s with | some w => w.same v | none => false) = true) :
    decode s = some v := by
  cases hd : decode s with
  | none => rw [hd] at h; cases h
  | some w => rw [hd] at h; rw [JVal.eq_of_same w v h]

theorem demoText1_decode : decode demoText1 = some (demoVal ["b", "a", "c", "a"]
    [("a", "b", .mustLink), ("b", "c", .cannotLink), ("b", "a", .mustLink)]) := decode_demo (by decide +kernel)

theorem demoText2_decode : decode demoText2 = some (demoVal ["c", "b", "a"]
    [("c", "b", .cannotLink), ("a", "b", .mustLink)]) := decode_demo (by decide +kernel)

theorem demoText3_decode : decode demoText3 = some (demoVal ["a", "b", "c"]
    [("a", "b", .mustLink), ("b", "c", .cannotLink), ("c", "a", .mustLink)]) := decode_demo (by decide +kernel)

theorem demoText1_accepted : ∃ m, loadText demoText1 = .ok m :=
  (C100_accepted demoText1).2 ⟨_, _, _, demoText1_decode, demoVal_document _ _, by unfold IDsListed; decide,
    fun x => if x = lit "c" then 1 else 0, by
      intro c hc
      simp only [List.map_cons, List.map_nil, List.mem_cons, List.not_mem_nil, or_false] at hc
      rcases hc with rfl | rfl | rfl
      · show (if lit "a" = lit "c" then 1 else 0) = (if lit "b" = lit "c" then 1 else 0); decide
      · show (if lit "b" = lit "c" then 1 else 0) ≠ (if lit "c" = lit "c" then 1 else 0); decide
      · show (if lit "b" = lit "c" then 1 else 0) = (if lit "a" = lit "c" then 1 else 0); decide⟩

example : ∃ m, loadText demoText1 = .ok m ∧ m.managed = [lit "b", lit "a", lit "c"] ∧
    m.getInferred (lit "a") (lit "c") = .ok (some .cannotLink) := by
  obtain ⟨m, hm⟩ := demoText1_accepted
  obtain ⟨-, h1, -, -, h2⟩ := C100_meaning hm demoText1_decode (demoVal_document _ _)
  refine ⟨m, hm, h1.trans (by decide), (h2 _ (by decide) _ (by decide)).2.2 ⟨lit "b", lit "c", ?_, ?_, .refl⟩⟩
  · exact .single (.inl (by decide))
  · exact .inl (by decide)

/-- The second file lists the same IDs and constraints in another order. -/
example : (∃ m, loadText demoText1 = .ok m) ↔ ∃ m, loadText demoText2 = .ok m := by
  refine (C100_only_contents demoText1_decode demoText2_decode (demoVal_document _ _) (demoVal_document _ _) ?_ ?_).1
  · intro x
    simp only [List.map_cons, List.map_nil, List.mem_cons, List.not_mem_nil, or_false]
    generalize lit "a" = a, lit "b" = b, lit "c" = c
    constructor
    · rintro (h | h | h | h) <;> simp [h]
    · rintro (h | h | h) <;> simp [h]
  · intro t x y
    simp only [ListedAs, List.map_cons, List.map_nil, List.mem_cons, List.not_mem_nil, or_false, Prod.mk.injEq]
    generalize lit "a" = a, lit "b" = b, lit "c" = c
    constructor
    · rintro ((⟨rfl, rfl, rfl⟩ | ⟨rfl, rfl, rfl⟩ | ⟨rfl, rfl, rfl⟩) | (⟨rfl, rfl, rfl⟩ | ⟨rfl, rfl, rfl⟩ | ⟨rfl, rfl, rfl⟩)) <;> simp
    · rintro ((⟨rfl, rfl, rfl⟩ | ⟨rfl, rfl, rfl⟩) | (⟨rfl, rfl, rfl⟩ | ⟨rfl, rfl, rfl⟩)) <;> simp

/-- The third file contradicts itself. -/
example : loadText demoText3 = .error (.valueError "conflict") := by
  refine C100_contradiction demoText3_decode (demoVal_document _ _) (by unfold IDsListed; decide) ?_
  rintro ⟨f, hf⟩
  have h1 : f (lit "a") = f (lit "b") := hf (lit "a", lit "b", .mustLink) (by decide)
  have h2 : f (lit "b") ≠ f (lit "c") := hf (lit "b", lit "c", .cannotLink) (by decide)
  have h3 : f (lit "c") = f (lit "a") := hf (lit "c", lit "a", .mustLink) (by decide)
  exact h2 (h1.symm.trans h3.symm)

def loadError (s : PyStr) : Option PyErr :=
  match loadText s with
  | .ok _ => none
  | .error e => some e

/-- Refused files: no JSON, a list instead of an object, a missing key, an unknown type, an unknown
ID, a number as ID, a list as ID, an entry that is no object. The first entry is checked before the
second one is read. -/
example : loadError (lit "MUST_LINK") = some (.valueError "JSONDecodeError") ∧
    loadError (lit "[]") = some .typeError ∧
    loadError (lit "{\"list_of_managed_data_IDs\": []}") = some .keyError ∧
    loadError (demoText "\"a\",\"b\"" (entryText "a" "b" "must_link")) = some (.valueError "constraint_type") ∧
    loadError (demoText "\"a\",\"b\"" (entryText "a" "d" "MUST_LINK")) = some (.valueError "data_ID2") ∧
    loadError (demoText "\"a\"" "{\"data_ID1\":1, \"data_ID2\":2, \"constraint_type\":3}") = some (.valueError "data_ID1") ∧
    loadError (demoText "\"a\"" "{\"data_ID1\":[], \"data_ID2\":2, \"constraint_type\":3}") = some .typeError ∧
    loadError (demoText "\"a\"" "\"a\"") = some .typeError ∧
    loadError (demoText "\"a\"" (entryText "a" "d" "MUST_LINK" ++ ", 1")) = some (.valueError "data_ID2") := by
  decide +kernel

/-- A string instead of the list of IDs is taken as the list of its characters, and an empty object
as an empty list of constraints. -/
example : loadError (lit "{\"list_of_managed_data_IDs\": \"abc\", \"list_of_added_constraints\":{}}") = none := by
  decide +kernel

/-- The text written for accented characters. -/
example : escape 0xe9 = lit "\\u00e9" ∧ escape 0x1F600 = lit "\\ud83d\\ude00" ∧ escape 10 = lit "\\n" ∧
    escape 0x7f = lit "\\u007f" := by decide +kernel

end Verif
