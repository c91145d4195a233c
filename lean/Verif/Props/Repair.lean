import Verif.Spec.Repair
import Verif.Props.Manager

/-
Property C92: how a conflict can be repaired.
-/

set_option linter.unusedSectionVars false

namespace Verif

variable {α : Type} [LinearOrder α]

theorem DeletedPair.symm {D : List (α × α)} {x y : α} (h : DeletedPair D x y) : DeletedPair D y x := Or.symm h

/-- Deleting constraints between managed IDs always works and removes exactly the listed annotations. -/
theorem after_deletions {m : Manager α} (hm : Reachable m) (D : List (α × α)) (hD : ∀ p ∈ D, p.1 ∈ m.managed ∧ p.2 ∈ m.managed) :
    (∀ r ∈ runResults m (deletions D), r = .ok true) ∧ Reachable (runOps m (deletions D)) ∧
    (runOps m (deletions D)).managed = m.managed ∧
    ∀ t x y, AddedAs (runOps m (deletions D)) t x y ↔ AddedAs m t x y ∧ ¬ DeletedPair D x y := by
  induction D generalizing m with
  | nil => exact ⟨by simp [deletions, runResults], hm, rfl, by simp [deletions, runOps, DeletedPair]⟩
  | cons p D ih =>
    obtain ⟨ha, hb⟩ := hD p (List.mem_cons_self ..)
    obtain ⟨m', h1, h2, h3, h4, h5, -⟩ := C07_delete_constraint_exact hm ha hb
    have hm' : Reachable m' := by
      have := hm.call (.deleteConstraint p.1 p.2)
      simpa only [Op.call, h1, resState] using this
    obtain ⟨i1, i2, i3, i4⟩ := ih hm' (fun q hq => by rw [h4]; exact hD q (List.mem_cons_of_mem _ hq))
    have hrun : runOps m (deletions (p :: D)) = runOps m' (deletions D) := by
      simp only [deletions, List.map_cons, runOps, Op.call, h1, resState]
    refine ⟨?_, by rw [hrun]; exact i2, by rw [hrun, i3, h4], ?_⟩
    · intro r hr
      simp only [deletions, List.map_cons, runResults, Op.call, h1, resState, resVal, List.mem_cons] at hr
      rcases hr with rfl | hr
      · simp
      · exact i1 r hr
    · intro t x y
      rw [hrun, i4]
      have hl : DeletedPair (p :: D) x y ↔ ((x = p.1 ∧ y = p.2) ∨ (x = p.2 ∧ y = p.1)) ∨ DeletedPair D x y := by
        unfold DeletedPair
        simp only [List.mem_cons, Prod.ext_iff]
        constructor
        · rintro ((h | h) | (h | h))
          · exact .inl (.inl h)
          · exact .inr (.inl h)
          · exact .inl (.inr ⟨h.2, h.1⟩)
          · exact .inr (.inr h)
        · rintro ((h | h) | (h | h))
          · exact .inl (.inl h)
          · exact .inr (.inl ⟨h.2, h.1⟩)
          · exact .inl (.inr h)
          · exact .inr (.inr h)
      rw [hl]
      have ha' : AddedAs m' t x y ↔ AddedAs m t x y ∧ ¬ ((x = p.1 ∧ y = p.2) ∨ (x = p.2 ∧ y = p.1)) := by
        by_cases c1 : x = p.1 ∧ y = p.2
        · obtain ⟨rfl, rfl⟩ := c1
          simp [AddedAs, h2]
        · by_cases c2 : x = p.2 ∧ y = p.1
          · obtain ⟨rfl, rfl⟩ := c2
            simp [AddedAs, h3]
          · unfold AddedAs
            rw [h5 x y c1 c2]
            simp [c1, c2]
      rw [ha']
      exact ⟨fun hc => ⟨hc.1.1, fun hd => hd.elim hc.1.2 hc.2⟩,
        fun hc => ⟨⟨hc.1, fun hd => hc.2 (.inl hd)⟩, fun hd => hc.2 (.inr hd)⟩⟩

/-- Whether `add_constraint` is refused, by the closure of the added constraints. -/
theorem refused_iff {m : Manager α} (hm : Reachable m) {x y : α} (hx : x ∈ m.managed) (hy : y ∈ m.managed) (t : CType) (v : Rat) :
    (Manager.addConstraint x y t.toStr v m = .error (.valueError "conflict") m ↔
      EntailsOpposite m x y t) ∧
    ((∃ m', Manager.addConstraint x y t.toStr v m = .ok true m') ↔
      ¬ EntailsOpposite m x y t) := by
  have h := hm.inv
  have key : (∃ t', t' ≠ t ∧ m.getInferred x y = .ok (some t')) ↔
      EntailsOpposite m x y t := by
    cases t with
    | mustLink =>
      show _ ↔ CannotLinked m x y
      rw [← inferred_cl_iff h hx hy]
      constructor
      · rintro ⟨t', h1, h2⟩
        cases t' with
        | mustLink => exact absurd rfl h1
        | cannotLink => exact h2
      · intro h1; exact ⟨_, by simp, h1⟩
    | cannotLink =>
      show _ ↔ MustLinked m x y
      rw [← inferred_ml_iff h hx hy]
      constructor
      · rintro ⟨t', h1, h2⟩
        cases t' with
        | cannotLink => exact absurd rfl h1
        | mustLink => exact h2
      · intro h1; exact ⟨_, by simp, h1⟩
  rw [← key]
  rcases addConstraint_cases (v := v) h hx hy (parse_eq_some (t := t).2 rfl) with ⟨h1, h2⟩ | ⟨t', h1, h2, h3⟩
  · have hno : ¬ ∃ t', t' ≠ t ∧ m.getInferred x y = .ok (some t') := by
      rintro ⟨t', h3, h4⟩
      rw [h4] at h1
      rcases h1 with h1 | h1
      · cases h1
      · cases h1; exact h3 rfl
    have hok : ∃ m', Manager.addConstraint x y t.toStr v m = .ok true m' := by
      rcases h2 with ⟨s, hk, hc⟩ | ⟨hk, m', hc, -⟩
      · exact ⟨m, hc⟩
      · exact ⟨m', hc⟩
    refine ⟨⟨fun he => ?_, fun he => absurd he hno⟩, fun _ => hno, fun _ => hok⟩
    obtain ⟨m', hm'⟩ := hok
    rw [hm'] at he; cases he
  · refine ⟨⟨fun _ => ⟨t', h1, h2⟩, fun _ => h3⟩, ?_, fun hn => absurd ⟨t', h1, h2⟩ hn⟩
    rintro ⟨m', hm'⟩
    rw [h3] at hm'; cases hm'

/-! ### C92 -/

/-- C92. After deleting some annotations a constraint is accepted iff the remaining annotations do not entail the opposite. -/
theorem C92_exact {m : Manager α} (hm : Reachable m) (D : List (α × α)) (hD : ∀ p ∈ D, p.1 ∈ m.managed ∧ p.2 ∈ m.managed)
    {x y : α} (hx : x ∈ m.managed) (hy : y ∈ m.managed) (v : Rat) :
    ((∃ m', Manager.addConstraint x y "CANNOT_LINK" v (runOps m (deletions D)) = .ok true m') ↔
      ¬ Chain (fun u w => AddedAs m .mustLink u w ∧ ¬ DeletedPair D u w) x y) ∧
    ((∃ m', Manager.addConstraint x y "MUST_LINK" v (runOps m (deletions D)) = .ok true m') ↔
      ¬ Separated (fun u w => AddedAs m .mustLink u w ∧ ¬ DeletedPair D u w) (fun u w => AddedAs m .cannotLink u w ∧ ¬ DeletedPair D u w) x y) := by
  obtain ⟨-, h2, h3, h4⟩ := after_deletions hm D hD
  rw [← h3] at hx hy
  have e1 : AddedAs (runOps m (deletions D)) .mustLink = fun u w => AddedAs m .mustLink u w ∧ ¬ DeletedPair D u w := by
    funext u w; exact propext (h4 _ _ _)
  have e2 : AddedAs (runOps m (deletions D)) .cannotLink = fun u w => AddedAs m .cannotLink u w ∧ ¬ DeletedPair D u w := by
    funext u w; exact propext (h4 _ _ _)
  constructor
  · rw [← e1]; exact (refused_iff h2 hx hy .cannotLink v).2
  · rw [← e1, ← e2]; exact (refused_iff h2 hx hy .mustLink v).2

/-- Members of the report, in terms of the closure. -/
theorem mem_report {m : Manager α} (hm : Reachable m) {x y : α} (hx : x ∈ m.managed) (hy : y ∈ m.managed) {t : CType} {l : List α}
    (hl : m.conflictIDs x y t.toStr = .ok (some l)) :
    EntailsOpposite m x y t ∧
      ∀ z, z ∈ l ↔ MustLinked m z x ∨ MustLinked m z y := by
  have h := hm.inv
  rcases C17_conflict_report hm hx hy t 1 with ⟨h1, -⟩ | ⟨l', h1, h2, -, h4⟩
  · rw [h1] at hl; cases hl
  · rw [h1] at hl
    cases hl
    refine ⟨(refused_iff hm hx hy t 1).1.1 h2, fun z => ?_⟩
    rw [h4]
    constructor
    · rintro ⟨hz, hc⟩
      exact hc.imp (inferred_ml_iff h hz hx).1 (inferred_ml_iff h hz hy).1
    · intro hc
      have hz : z ∈ m.managed := by
        rcases hc with hc | hc
        · exact (hc.symm h).mem h hx
        · exact (hc.symm h).mem h hy
      exact ⟨hz, hc.imp (inferred_ml_iff h hz hx).2 (inferred_ml_iff h hz hy).2⟩

theorem optionType_ext {r r' : Option CType} (h1 : r' = some .mustLink ↔ r = some .mustLink)
    (h2 : r' = some .cannotLink ↔ r = some .cannotLink) : r' = r := by
  rcases r with - | ⟨- | -⟩ <;> rcases r' with - | ⟨- | -⟩ <;> simp at h1 h2 ⊢

theorem Chain.fixed {em : α → α → Prop} {x y : α} (h : Chain em x y) (hx : ∀ w, em x w → w = x) : y = x := by
  induction h with
  | refl => rfl
  | tail _ h2 ih => subst ih; exact hx _ h2

/-- C92. It is enough to delete all annotations between reported IDs: then the constraint is accepted. The report is a list of
two different IDs at least; nothing changes between IDs that are not reported. -/
theorem C92_enough {m : Manager α} (hm : Reachable m) {x y : α} (hx : x ∈ m.managed) (hy : y ∈ m.managed) (hxy : x ≠ y) (t : CType)
    {l : List α} (hl : m.conflictIDs x y t.toStr = .ok (some l)) (D : List (α × α)) (hD : ∀ p ∈ D, p.1 ∈ l ∧ p.2 ∈ l)
    (hall : ∀ u ∈ l, ∀ w ∈ l, u ≠ w → m.getAdded u w ≠ .ok none → DeletedPair D u w) (v : Rat) :
    (∀ r ∈ runResults m (deletions D), r = .ok true) ∧
    ∃ m', Manager.addConstraint x y t.toStr v (runOps m (deletions D)) = .ok true m' ∧ m'.managed = m.managed ∧
      ∀ z ∈ m.managed, ∀ w ∈ m.managed, z ∉ l → w ∉ l → m'.getInferred z w = m.getInferred z w := by
  have h := hm.inv
  obtain ⟨-, hmem⟩ := mem_report hm hx hy hl
  have hman : ∀ z ∈ l, z ∈ m.managed := by
    intro z hz
    rcases (hmem z).1 hz with hc | hc
    · exact (hc.symm h).mem h hx
    · exact (hc.symm h).mem h hy
  have hxl : x ∈ l := (hmem x).2 (.inl (MustLinked.refl m x))
  have hyl : y ∈ l := (hmem y).2 (.inr (MustLinked.refl m y))
  have hclosed : ∀ u ∈ l, ∀ w, MustLinked m u w → w ∈ l := by
    intro u hu w huw
    exact (hmem w).2 (((hmem u).1 hu).imp (fun hc => (huw.symm h).trans hc) (fun hc => (huw.symm h).trans hc))
  obtain ⟨h1, h2, h3, h4⟩ := after_deletions hm D fun p hp => ⟨hman _ (hD p hp).1, hman _ (hD p hp).2⟩
  refine ⟨h1, ?_⟩
  generalize hm2 : runOps m (deletions D) = m2 at h2 h3 h4
  have hx2 : x ∈ m2.managed := by rw [h3]; exact hx
  have hy2 : y ∈ m2.managed := by rw [h3]; exact hy
  -- nothing is left between reported IDs
  have hgone : ∀ t u w, u ∈ l → w ∈ l → AddedAs m2 t u w → w = u := by
    intro t u w hu hw ha
    obtain ⟨⟨r, hr⟩, hn⟩ := (h4 t u w).1 ha
    by_contra hne
    exact hn (hall u hu w hw (fun h => hne h.symm) (by rw [hr]; simp))
  have hstay : ∀ u ∈ l, ∀ w, MustLinked m2 u w → w = u := by
    intro u hu w hc
    refine Chain.fixed hc fun w' hw' => hgone _ u w' hu ?_ hw'
    exact hclosed u hu w' (Chain.single ((h4 _ _ _).1 hw').1)
  have hno : ¬ EntailsOpposite m2 x y t := by
    cases t with
    | cannotLink => exact fun hc => hxy (hstay x hxl y hc).symm
    | mustLink =>
      rintro ⟨u, w, c1, c2, c3⟩
      have e1 := hstay x hxl u c1
      have e2 := hstay y hyl w (MustLinked.symm h2.inv c3)
      subst e1 e2
      exact hxy (hgone _ u w hxl hyl c2).symm
  obtain ⟨m', hm'⟩ := (refused_iff h2 hx2 hy2 t v).2.2 hno
  obtain ⟨-, ⟨t2, ht2, ha1, ha2⟩, hman', hframe, -⟩ := C06_add_constraint_frame h2 hm'
  have hr' : Reachable m' := by
    have := h2.call (.addConstraint x y t.toStr v)
    simpa only [Op.call, hm', resState] using this
  refine ⟨m', hm', hman'.trans h3, ?_⟩
  -- steps from IDs outside the report
  have hout : ∀ s u w, u ∉ l → (AddedAs m' s u w ↔ AddedAs m s u w) := by
    intro s u w hu
    have e : m'.getAdded u w = m2.getAdded u w :=
      hframe u w (fun hc => hu (hc.1 ▸ hxl)) (fun hc => hu (hc.1 ▸ hyl))
    have e' : AddedAs m' s u w ↔ AddedAs m2 s u w := by unfold AddedAs; rw [e]
    rw [e', h4, and_iff_left]
    rintro (hc | hc)
    · exact hu (hD _ hc).1
    · exact hu (hD _ hc).2
  have hoff : ∀ u, u ∉ l → ∀ w, MustLinked m u w → w ∉ l := fun u hu w hc hw => hu (hclosed w hw u (hc.symm h))
  have hml : ∀ z, z ∉ l → ∀ w, MustLinked m' z w ↔ MustLinked m z w := by
    intro z hz w
    constructor
    · intro hc
      have : ∀ w, Chain (AddedAs m' .mustLink) z w → MustLinked m z w := by
        intro w hc
        induction hc with
        | refl => exact MustLinked.refl m z
        | tail _ c2 ih => exact ih.trans (Chain.single ((hout _ _ _ (hoff z hz _ ih)).1 c2))
      exact this w hc
    · intro hc
      have : ∀ w, Chain (AddedAs m .mustLink) z w → MustLinked m' z w := by
        intro w hc
        induction hc with
        | refl => exact MustLinked.refl m' z
        | tail c1 c2 ih => exact ih.trans (Chain.single ((hout _ _ _ (hoff z hz _ c1)).2 c2))
      exact this w hc
  intro z hz w hw hzl hwl
  have hz' : z ∈ m'.managed := by rw [hman', h3]; exact hz
  have hw' : w ∈ m'.managed := by rw [hman', h3]; exact hw
  obtain ⟨r, e1, e2, e3⟩ := getInferred_spec h hz hw
  obtain ⟨r', e1', e2', e3'⟩ := getInferred_spec hr'.inv hz' hw'
  rw [e1, e1']
  have hcl : CannotLinked m' z w ↔ CannotLinked m z w := by
    constructor
    · rintro ⟨u, s, c1, c2, c3⟩
      have c1' := (hml z hzl u).1 c1
      exact ⟨u, s, c1', (hout _ _ _ (hoff z hzl u c1')).1 c2,
        MustLinked.symm h ((hml w hwl s).1 (MustLinked.symm hr'.inv c3))⟩
    · rintro ⟨u, s, c1, c2, c3⟩
      exact ⟨u, s, (hml z hzl u).2 c1, (hout _ _ _ (hoff z hzl u c1)).2 c2,
        MustLinked.symm hr'.inv ((hml w hwl s).2 (MustLinked.symm h c3))⟩
  rw [hml z hzl w] at e2'
  rw [hcl] at e3'
  have f2 : r' = some .mustLink ↔ r = some .mustLink := e2'.trans e2.symm
  have f3 : r' = some .cannotLink ↔ r = some .cannotLink := e3'.trans e3.symm
  rw [optionType_ext f2 f3]

/-- C92. Deletions that leave alone all pairs of reported IDs never help: the constraint is refused again, with the same report. -/
theorem C92_needed {m : Manager α} (hm : Reachable m) {x y : α} (hx : x ∈ m.managed) (hy : y ∈ m.managed) (t : CType)
    {l : List α} (hl : m.conflictIDs x y t.toStr = .ok (some l)) (D : List (α × α))
    (hD : ∀ p ∈ D, p.1 ∈ m.managed ∧ p.2 ∈ m.managed) (hout : ∀ p ∈ D, p.1 ∈ l → p.2 ∈ l → p.1 = p.2) (v : Rat) :
    Manager.addConstraint x y t.toStr v (runOps m (deletions D)) = .error (.valueError "conflict") (runOps m (deletions D)) ∧
    ∃ l', (runOps m (deletions D)).conflictIDs x y t.toStr = .ok (some l') ∧ l'.Nodup ∧ ∀ z, z ∈ l' ↔ z ∈ l := by
  have h := hm.inv
  obtain ⟨hopp, hmem⟩ := mem_report hm hx hy hl
  obtain ⟨-, h2, h3, h4⟩ := after_deletions hm D hD
  generalize hm2 : runOps m (deletions D) = m2 at h2 h3 h4
  have hx2 : x ∈ m2.managed := by rw [h3]; exact hx
  have hy2 : y ∈ m2.managed := by rw [h3]; exact hy
  have hclosed : ∀ u ∈ l, ∀ w, MustLinked m u w → w ∈ l := by
    intro u hu w huw
    exact (hmem w).2 (((hmem u).1 hu).imp (fun hc => (huw.symm h).trans hc) (fun hc => (huw.symm h).trans hc))
  have hkeep : ∀ s u w, u ∈ l → w ∈ l → u ≠ w → AddedAs m s u w → AddedAs m2 s u w := by
    intro s u w hu hw hne ha
    refine (h4 s u w).2 ⟨ha, ?_⟩
    rintro (hc | hc)
    · exact hne (hout _ hc hu hw)
    · exact hne (hout _ hc hw hu).symm
  have hml : ∀ u ∈ l, ∀ w, MustLinked m u w → MustLinked m2 u w := by
    intro u hu w hc
    have : ∀ w, Chain (AddedAs m .mustLink) u w → MustLinked m2 u w := by
      intro w hc
      induction hc with
      | refl => exact MustLinked.refl m2 u
      | @tail b c c1 c2 ih =>
        by_cases hbc : b = c
        · exact hbc ▸ ih
        · exact ih.trans (Chain.single (hkeep _ _ _ (hclosed u hu b c1) (hclosed u hu c (MustLinked.trans c1 (Chain.single c2))) hbc c2))
    exact this w hc
  have hxl : x ∈ l := (hmem x).2 (.inl (MustLinked.refl m x))
  have hyl : y ∈ l := (hmem y).2 (.inr (MustLinked.refl m y))
  have hml' : ∀ u w, MustLinked m2 u w → MustLinked m u w := fun u w hc => Chain.mono (fun a b ha => ((h4 _ a b).1 ha).1) hc
  have hopp2 : EntailsOpposite m2 x y t := by
    cases t with
    | cannotLink => exact hml x hxl y hopp
    | mustLink =>
      obtain ⟨u, w, c1, c2, c3⟩ := hopp
      have hu := hclosed x hxl u c1
      have hw := hclosed y hyl w (MustLinked.symm h c3)
      refine ⟨u, w, hml x hxl u c1, hkeep _ u w hu hw ?_ c2, hml w hw y c3⟩
      rintro rfl
      exact CannotLinked.irrefl h u ⟨u, u, Chain.refl, c2, Chain.refl⟩
  have herr := (refused_iff h2 hx2 hy2 t v).1.2 hopp2
  refine ⟨herr, ?_⟩
  rcases C17_conflict_report h2 hx2 hy2 t v with ⟨-, m', e⟩ | ⟨l', e1, -, e3, -⟩
  · rw [herr] at e; cases e
  · refine ⟨l', e1, e3, fun z => ?_⟩
    rw [(mem_report h2 hx2 hy2 e1).2, hmem]
    constructor
    · exact fun hc => hc.imp (hml' _ _) (hml' _ _)
    · rintro (hc | hc)
      · exact .inl (hml z ((hmem z).2 (.inl hc)) x hc)
      · exact .inr (hml z ((hmem z).2 (.inr hc)) y hc)

/-- C92. An ID can never be separated from itself, whatever is deleted. -/
theorem C92_self {m : Manager α} (hm : Reachable m) (D : List (α × α)) (hD : ∀ p ∈ D, p.1 ∈ m.managed ∧ p.2 ∈ m.managed)
    {x : α} (hx : x ∈ m.managed) (v : Rat) :
    Manager.addConstraint x x "CANNOT_LINK" v (runOps m (deletions D)) =
      .error (.valueError "conflict") (runOps m (deletions D)) := by
  obtain ⟨-, h2, h3, -⟩ := after_deletions hm D hD
  rw [← h3] at hx
  exact (refused_iff h2 hx hx .cannotLink v).1.2 (MustLinked.refl _ _)

/-- C92. Undo: a new constraint that is accepted and then deleted leaves no trace in any answer. -/
theorem C92_undo {m m' : Manager α} (hm : Reachable m) {x y : α} {ty : String} {v : Rat} (hnew : m.getAdded x y = .ok none)
    (hadd : Manager.addConstraint x y ty v m = .ok true m') :
    ∃ m'', Manager.deleteConstraint x y m' = .ok true m'' ∧ m''.managed = m.managed ∧
      (∀ u w, m''.getAdded u w = m.getAdded u w) ∧ (∀ u w, m''.getInferred u w = m.getInferred u w) ∧
      (∀ c ∈ m''.components, ∃ c' ∈ m.components, c.Perm c') ∧ m''.components.length = m.components.length ∧
      m''.complete = m.complete := by
  have hx : x ∈ m.managed := by
    by_contra hx
    rw [getAdded_err1 hx] at hnew; cases hnew
  have hy : y ∈ m.managed := by
    by_contra hy
    rw [getAdded_err2 hx hy] at hnew; cases hnew
  obtain ⟨-, -, hman, hframe, -⟩ := C06_add_constraint_frame hm hadd
  have hm' : Reachable m' := by
    have := hm.call (.addConstraint x y ty v)
    simpa only [Op.call, hadd, resState] using this
  obtain ⟨m'', h1, h2, h3, h4, h5, -⟩ := C07_delete_constraint_exact hm' (hman ▸ hx) (hman ▸ hy)
  have hm'' : Reachable m'' := by
    have := hm'.call (.deleteConstraint x y)
    simpa only [Op.call, h1, resState] using this
  have hall : ∀ u w, m''.getAdded u w = m.getAdded u w := by
    intro u w
    by_cases c1 : u = x ∧ w = y
    · obtain ⟨rfl, rfl⟩ := c1
      rw [h2, hnew]
    · by_cases c2 : u = y ∧ w = x
      · obtain ⟨rfl, rfl⟩ := c2
        rw [h3, ← (C10_getters_symmetric hm hx hy 1).1, hnew]
      · rw [h5 u w c1 c2, hframe u w c1 c2]
  obtain ⟨e1, e2, e3, e4, -⟩ := C19_order_independence hm'' hm (fun u => by rw [h4, hman]) fun u w _ => hall u w
  exact ⟨m'', h1, h4.trans hman, hall, e1, e2, e3, e4⟩

/-- Two chains 1 - 2 - 3 and 4 - 5 separated by (3, 4), and a pair 6, 7 apart: 1 and 5 cannot be must-linked; the report is
the five IDs; deleting (3, 4) or (4, 5) helps, deleting (6, 7) does not. -/
def repairDemo : Manager Nat := runOps (Manager.init [1, 2, 3, 4, 5, 6, 7])
  [.addConstraint 1 2 "MUST_LINK" 1, .addConstraint 2 3 "MUST_LINK" 1, .addConstraint 4 5 "MUST_LINK" 1,
   .addConstraint 3 4 "CANNOT_LINK" 1, .addConstraint 6 7 "CANNOT_LINK" 1]

example : Reachable repairDemo ∧ repairDemo.conflictIDs 1 5 "MUST_LINK" = .ok (some [1, 2, 3, 4, 5]) ∧
    (∀ u ∈ [1, 2, 3, 4, 5], ∀ w ∈ [1, 2, 3, 4, 5], u ≠ w → repairDemo.getAdded u w ≠ .ok none →
      (u, w) ∈ [(1, 2), (2, 3), (3, 4), (4, 5)] ∨ (w, u) ∈ [(1, 2), (2, 3), (3, 4), (4, 5)]) ∧
    (∀ p ∈ [(6, 7), (1, 6)], p.1 ∈ [1, 2, 3, 4, 5] → p.2 ∈ [1, 2, 3, 4, 5] → p.1 = p.2) ∧
    repairDemo.getInferred 6 7 = .ok (some .cannotLink) ∧
    resVal (Manager.addConstraint 1 5 "MUST_LINK" 1 (runOps repairDemo (deletions [(5, 4)]))) = .ok true ∧
    resVal (Manager.addConstraint 1 5 "MUST_LINK" 1 (runOps repairDemo (deletions [(6, 7), (1, 6)]))) = .error (.valueError "conflict") ∧
    repairDemo.getAdded 6 1 = .ok none ∧ resVal (Manager.addConstraint 6 1 "MUST_LINK" 1 repairDemo) = .ok true :=
  ⟨⟨_, _, rfl⟩, by decide +kernel, by decide +kernel, by decide +kernel, by decide +kernel, by decide +kernel, by decide +kernel,
    by decide +kernel, by decide +kernel⟩

/-! ### Each theorem applied to a concrete case -/

example := C92_exact (m := repairDemo) ⟨_, _, rfl⟩ [(5, 4)] (by decide +kernel) (x := 1) (y := 5) (by decide +kernel) (by decide +kernel) 1

example := C92_enough (m := repairDemo) ⟨_, _, rfl⟩ (x := 1) (y := 5) (by decide +kernel) (by decide +kernel) (by decide) .mustLink
  (l := [1, 2, 3, 4, 5]) (by decide +kernel) [(1, 2), (2, 3), (3, 4), (4, 5)] (by decide) (by unfold DeletedPair; decide +kernel) 1

example := C92_needed (m := repairDemo) ⟨_, _, rfl⟩ (x := 1) (y := 5) (by decide +kernel) (by decide +kernel) .mustLink
  (l := [1, 2, 3, 4, 5]) (by decide +kernel) [(6, 7), (1, 6)] (by decide +kernel) (by decide) 1

example := C92_self (m := repairDemo) ⟨_, _, rfl⟩ [(1, 2)] (by decide +kernel) (x := 1) (by decide +kernel) 1

example := C92_undo (m := repairDemo) ⟨_, _, rfl⟩ (x := 6) (y := 1) (ty := "MUST_LINK") (v := 1) (by decide +kernel) rfl

end Verif
