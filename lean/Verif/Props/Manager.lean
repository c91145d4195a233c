import Verif.Proofs.Calls

/-
Properties C01–C13, C17, C19–C22: the constraints manager.

`Reachable m`: some initial list of IDs and some finite history of API calls (calls that raise
included) produce `m`. IDs are any linearly ordered type. `AddedAs`, `MustLinked`,
`CannotLinked`, `Satisfies`, `Agrees` are defined in `Verif/Spec/Manager.lean` from the getter
`get_added_constraint` only.
-/

set_option linter.unusedSectionVars false

namespace Verif

variable {α : Type} [LinearOrder α]

/-- Demo manager used in the non-vacuity examples: four IDs (one given twice), two must-links,
one cannot-link, one refused constraint, one deleted ID, one late ID. -/
def demoOps : List (Op Nat) :=
  [.addConstraint 1 2 "MUST_LINK" 1, .addConstraint 3 2 "CANNOT_LINK" (1/2),
   .addConstraint 1 3 "MUST_LINK" 1, .addDataID 9, .addConstraint 9 4 "MUST_LINK" 1,
   .deleteDataID 4, .deleteConstraint 9 1, .addConstraint 1 7 "MUST_LINK" 1]

def demo : Manager Nat := runOps (Manager.init [3, 1, 2, 3, 4]) demoOps

theorem demo_reachable : Reachable demo := ⟨_, _, rfl⟩

/-! ### Refinement: the manager implements the abstract store -/

/-- The modelled manager and the abstract store (`Verif/Spec/Manager.lean`) give, for every
history, the same results call by call (returned values and exceptions), and then the same
managed list, the same added constraints and the inferences defined by the closure. -/
theorem manager_refines_store (ids : List α) (ops : List (Op α)) :
    runResults (Manager.init ids) ops = ((Store.init ids).run ops).1 ∧
    (runOps (Manager.init ids) ops).managed = ((Store.init ids).run ops).2.ids ∧
    ∀ x ∈ ((Store.init ids).run ops).2.ids, ∀ y ∈ ((Store.init ids).run ops).2.ids,
      (runOps (Manager.init ids) ops).getAdded x y =
        .ok ((((Store.init ids).run ops).2.rel x y).map fun t => (t, 1)) ∧
      ((runOps (Manager.init ids) ops).getInferred x y = .ok (some .mustLink) ↔
        ((Store.init ids).run ops).2.ML x y) ∧
      ((runOps (Manager.init ids) ops).getInferred x y = .ok (some .cannotLink) ↔
        ((Store.init ids).run ops).2.CL x y) := by
  obtain ⟨h1, h2⟩ := (Refines.init ids).run ops
  refine ⟨h1, h2.ids, ?_⟩
  intro x hx y hy
  rw [← h2.ids] at hx hy
  refine ⟨?_, ?_, ?_⟩
  · rw [getAdded_eq h2.inv.d hx hy, ← h2.rel x y, relOf]
    cases hk : known (runOps (Manager.init ids) ops).dict x y with
    | none => rfl
    | some s =>
      obtain ⟨t, v⟩ := s
      have := known_val h2.inv.d hk
      simp only at this
      simp [this]
  · rw [inferred_ml_iff h2.inv hx hy, h2.ml]
  · rw [inferred_cl_iff h2.inv hx hy, h2.cl]

/-- The demo history really exercises success, refusal and every kind of call. -/
example : runResults (Manager.init [3, 1, 2, 3, 4]) demoOps =
    [.ok true, .ok true, .error (.valueError "conflict"), .ok true, .ok true, .ok true, .ok true,
     .error (.valueError "data_ID2")] := by decide

/-! ### C01 -/

/-- C01. Inference is exactly the transitive closure of the added constraints. -/
theorem C01_inferred_is_closure {m : Manager α} (hm : Reachable m) {x y : α}
    (hx : x ∈ m.managed) (hy : y ∈ m.managed) (threshold : Rat) :
    (m.getInferred x y threshold = .ok (some .mustLink) ↔ MustLinked m x y) ∧
    (m.getInferred x y threshold = .ok (some .cannotLink) ↔ CannotLinked m x y) ∧
    (m.getInferred x y threshold = .ok none ↔ ¬ MustLinked m x y ∧ ¬ CannotLinked m x y) :=
  ⟨inferred_ml_iff hm.inv hx hy threshold, inferred_cl_iff hm.inv hx hy threshold,
    inferred_none_iff hm.inv hx hy threshold⟩

example : Reachable demo ∧ 1 ∈ demo.managed ∧ 3 ∈ demo.managed ∧
    demo.getInferred 1 3 = .ok (some .cannotLink) ∧ demo.getAdded 1 3 = .ok none :=
  ⟨demo_reachable, by decide, by decide, by decide, by decide⟩

/-! ### C02 -/

/-- C02. The managed list is the one the history describes: `idsAfter` appends each ID newly
added and removes each ID deleted (rejected additions and deletions change nothing). -/
theorem C02_managed_list (ids : List α) (ops : List (Op α)) :
    (runOps (Manager.init ids) ops).managed = ops.foldl idsAfter (ids.foldl addNew []) ∧
    (runOps (Manager.init ids) ops).managed.Nodup := by
  obtain ⟨-, h2⟩ := (Refines.init ids).run ops
  refine ⟨?_, h2.inv.d.nodup⟩
  rw [h2.ids]
  have key : ∀ (ops : List (Op α)) (s : Store α), (s.run ops).2.ids = ops.foldl idsAfter s.ids := by
    intro ops
    induction ops with
    | nil => intro s; rfl
    | cons op ops ih =>
      intro s
      simp only [Store.run, List.foldl_cons]
      rw [ih]
      congr 1
      cases op with
      | addDataID x =>
        simp only [Store.step, idsAfter, addNew]
        split <;> rfl
      | deleteDataID x =>
        simp only [Store.step, idsAfter]
        split
        · rename_i hx
          simp only
          symm
          rw [List.filter_eq_self]
          intro a ha
          simp only [ne_eq, decide_eq_true_eq]
          rintro rfl
          exact hx ha
        · rfl
      | addConstraint x y ty v =>
        simp only [Store.step, idsAfter]
        repeat' split
        all_goals rfl
      | deleteConstraint x y =>
        simp only [Store.step, idsAfter]
        repeat' split
        all_goals rfl
  rw [key]
  rfl

example : demo.managed = [3, 1, 2, 9] := by decide

/-! ### C03 -/

/-- C03. After any history some assignment of clusters satisfies every added constraint, and
no pair is both must-linked and cannot-linked. -/
theorem C03_never_contradictory {m : Manager α} (hm : Reachable m) :
    (∃ f : α → Nat, Satisfies m f) ∧ (∀ x y, ¬ (MustLinked m x y ∧ CannotLinked m x y)) := by
  have h := hm.inv
  refine ⟨?_, fun x y ⟨h1, h2⟩ => not_both h h1 h2⟩
  obtain ⟨f, hf1, hf2, -⟩ := exists_component_labels h
  refine ⟨f, fun x y => ⟨fun ha => hf1 x y (Chain.single ha), fun ha he => ?_⟩⟩
  obtain ⟨hx, hy⟩ := AddedAs.mem h ha
  exact not_both h (hf2 x hx y hy he) ⟨x, y, .refl, ha, .refl⟩

example : ∃ m : Manager Nat, Reachable m ∧ AddedAs m .mustLink 1 2 ∧ AddedAs m .cannotLink 2 3 :=
  ⟨demo, demo_reachable, ⟨1, by decide⟩, ⟨1, by decide⟩⟩

/-! ### C04 -/

/-- C04. For managed IDs and a valid type, `add_constraint` raises the conflict error iff no
assignment satisfies the added constraints together with the new one; otherwise it returns True. -/
theorem C04_refuses_exactly_unsatisfiable {m : Manager α} (hm : Reachable m) {x y : α}
    (hx : x ∈ m.managed) (hy : y ∈ m.managed) (t : CType) (v : Rat) :
    ((∃ m', Manager.addConstraint x y t.toStr v m = .error (.valueError "conflict") m') ↔
      ¬ ∃ f : α → Nat, Satisfies m f ∧ Agrees f x y t) ∧
    ((∃ m', Manager.addConstraint x y t.toStr v m = .ok true m') ↔
      ∃ f : α → Nat, Satisfies m f ∧ Agrees f x y t) := by
  have h := hm.inv
  rcases addConstraint_cases (v := v) h hx hy (parse_eq_some (t := t).2 rfl) with ⟨h1, h2⟩ | ⟨t', h1, h2, h3⟩
  · -- accepted: build an assignment
    have hacc : ∃ m', Manager.addConstraint x y t.toStr v m = .ok true m' := by
      rcases h2 with ⟨s, hk, hc⟩ | ⟨hk, m', hc, -⟩
      · exact ⟨m, hc⟩
      · exact ⟨m', hc⟩
    have hsat : ∃ f : α → Nat, Satisfies m f ∧ Agrees f x y t := by
      obtain ⟨f, hf1, hf2, hf3⟩ := exists_component_labels h
      have hno : ∀ t', t' ≠ t → m.getInferred x y ≠ .ok (some t') := by
        intro t' hne he
        rcases h1 with h1 | h1 <;> rw [h1] at he <;> simp at he
        exact hne he.symm
      have fsep : ∀ u w, AddedAs m .cannotLink u w → f u ≠ f w := fun u w ha he => by
        obtain ⟨hu, hw⟩ := AddedAs.mem h ha
        exact not_both h (hf2 u hu w hw he) ⟨u, w, .refl, ha, .refl⟩
      cases t with
      | cannotLink =>
        refine ⟨f, fun u w => ⟨fun ha => hf1 u w (Chain.single ha), fsep u w⟩, ?_⟩
        intro he
        exact hno .mustLink (by simp) ((inferred_ml_iff h hx hy).2 (hf2 x hx y hy he))
      | mustLink =>
        -- merge the class of y into the class of x
        refine ⟨fun u => if f u = f y then f x else f u, fun u w => ⟨fun ha => ?_, fun ha => ?_⟩, ?_⟩
        · show (if f u = f y then f x else f u) = (if f w = f y then f x else f w)
          rw [hf1 u w (Chain.single ha)]
        · obtain ⟨hu, hw⟩ := AddedAs.mem h ha
          have hne := fsep u w ha
          have hcl := hno .cannotLink (by simp)
          rw [Ne, inferred_cl_iff h hx hy] at hcl
          show (if f u = f y then f x else f u) ≠ (if f w = f y then f x else f w)
          by_cases hu' : f u = f y
          · by_cases hw' : f w = f y
            · exact absurd (hu'.trans hw'.symm) hne
            · rw [if_pos hu', if_neg hw']
              intro he
              apply hcl
              exact ⟨w, u, hf2 x hx w hw he, AddedAs.symm h _ _ ha, hf2 u hu y hy hu'⟩
          · by_cases hw' : f w = f y
            · rw [if_neg hu', if_pos hw']
              intro he
              apply hcl
              exact ⟨u, w, hf2 x hx u hu he.symm, ha, hf2 w hw y hy hw'⟩
            · rw [if_neg hu', if_neg hw']; exact hne
        · show (if f x = f y then f x else f x) = (if f y = f y then f x else f y)
          simp
    refine ⟨⟨fun ⟨m', he⟩ => ?_, fun hn => absurd hsat hn⟩, ⟨fun _ => hsat, fun _ => hacc⟩⟩
    obtain ⟨m'', ha⟩ := hacc
    rw [ha] at he; cases he
  · have hun : ¬ ∃ f : α → Nat, Satisfies m f ∧ Agrees f x y t := by
      rintro ⟨f, hf, hag⟩
      rcases ctype_other h1 with ⟨rfl, rfl⟩ | ⟨rfl, rfl⟩
      · exact satisfies_sep hf ((inferred_cl_iff h hx hy).1 h2) hag
      · exact hag (satisfies_chain hf ((inferred_ml_iff h hx hy).1 h2))
    refine ⟨⟨fun _ => hun, fun _ => ⟨m, h3⟩⟩, ⟨fun ⟨m', he⟩ => ?_, fun hs => absurd hs hun⟩⟩
    rw [h3] at he; cases he

/-- Both outcomes occur on the demo manager. -/
example : 1 ∈ demo.managed ∧ 3 ∈ demo.managed ∧ 9 ∈ demo.managed ∧
    resVal (Manager.addConstraint 1 3 "MUST_LINK" 1 demo) = .error (.valueError "conflict") ∧
    resVal (Manager.addConstraint 1 9 "MUST_LINK" 1 demo) = .ok true := by decide

/-! ### C05 -/

/-- C05. A call that raises leaves the manager exactly as it was. -/
theorem C05_raising_call_changes_nothing {m : Manager α} (hm : Reachable m) (op : Op α) {e : PyErr}
    {m' : Manager α} (he : op.call m = .error e m') : m' = m :=
  (call_inv hm.inv op).2 e m' he

example : resVal ((Op.addConstraint 1 3 "MUST_LINK" 1).call demo) = .error (.valueError "conflict") ∧
    resVal ((Op.addDataID 1).call demo) = .error (.valueError "data_ID") ∧
    resVal ((Op.deleteDataID 7).call demo) = .error (.valueError "data_ID") ∧
    resVal ((Op.deleteConstraint 7 1).call demo) = .error (.valueError "data_ID1") := by decide

/-! ### C06 -/

/-- C06. A successful `add_constraint(a, b, t)` records `(t, 1.0)` for the pair in both
directions, leaves the managed list and every other pair alone, returns True, and is a no-op
if the pair already had a constraint. -/
theorem C06_add_constraint_frame {m m' : Manager α} (hm : Reachable m) {a b : α} {ty : String}
    {v : Rat} {r : Bool} (hc : Manager.addConstraint a b ty v m = .ok r m') :
    r = true ∧
    (∃ t : CType, ty = t.toStr ∧ m'.getAdded a b = .ok (some (t, 1)) ∧
      m'.getAdded b a = .ok (some (t, 1))) ∧
    m'.managed = m.managed ∧
    (∀ u w, ¬ (u = a ∧ w = b) → ¬ (u = b ∧ w = a) → m'.getAdded u w = m.getAdded u w) ∧
    (m.getAdded a b ≠ .ok none → m' = m) := by
  have h := hm.inv
  by_cases ha : a ∈ m.managed
  swap
  · rw [addConstraint_err1 ha] at hc; cases hc
  by_cases hb : b ∈ m.managed
  swap
  · rw [addConstraint_err2 ha hb] at hc; cases hc
  rcases parse_cases ty with hty | ⟨t, hty⟩
  · rw [addConstraint_err3 ha hb hty] at hc; cases hc
  rcases addConstraint_cases (v := v) h ha hb hty with ⟨h1, h2⟩ | ⟨t', h1, h2, h3⟩
  swap
  · rw [h3] at hc; cases hc
  rcases h2 with ⟨s, hk, hc'⟩ | ⟨hk, m'', hc', hi, hm', hkn⟩
  · rw [hc'] at hc
    cases hc
    refine ⟨rfl, ⟨t, parse_eq_some.1 hty, ?_⟩, rfl, fun _ _ _ _ => rfl, fun _ => rfl⟩
    have hst : s = (t, 1) := by
      obtain ⟨t', w⟩ := s
      have hv := known_val h.d hk
      simp only at hv
      have hadd : AddedAs m t' a b := (addedAs_iff_known h).2 (by rw [hk, hv])
      have hinf : m.getInferred a b = .ok (some t') := by
        cases t' with
        | mustLink => exact (inferred_ml_iff h ha hb).2 (Chain.single hadd)
        | cannotLink => exact (inferred_cl_iff h ha hb).2 ⟨a, b, .refl, hadd, .refl⟩
      rcases h1 with h1 | h1 <;> rw [hinf] at h1 <;> simp at h1
      rw [h1, hv]
    rw [getAdded_eq h.d ha hb, getAdded_eq h.d hb ha, known_comm m.dict b a, hk, hst]
    exact ⟨rfl, rfl⟩
  · rw [hc'] at hc
    cases hc
    have ha' : a ∈ m'.managed := hm' ▸ ha
    have hb' : b ∈ m'.managed := hm' ▸ hb
    refine ⟨rfl, ⟨t, parse_eq_some.1 hty, ?_, ?_⟩, hm', ?_, ?_⟩
    · rw [getAdded_eq hi.d ha' hb', hkn]; simp
    · rw [getAdded_eq hi.d hb' ha', hkn]; simp
    · intro u w h1 h2
      have hk' : known m'.dict u w = known m.dict u w := by
        rw [hkn, if_neg]
        rintro (h | h)
        exacts [h1 h, h2 h]
      rw [getAdded_inv hi, getAdded_inv h, hm', hk']
    · intro hne
      rw [getAdded_eq h.d ha hb, hk] at hne
      exact absurd rfl hne

example : resVal (Manager.addConstraint 9 1 "CANNOT_LINK" 0 demo) = .ok true ∧
    demo.getAdded 1 9 = .ok none := by decide

/-! ### C07 -/

/-- C07. `delete_constraint(a, b)` on managed IDs returns True, forgets the pair's constraint in
both directions and nothing else, and repeating it changes no added constraint. -/
theorem C07_delete_constraint_exact {m : Manager α} (hm : Reachable m) {a b : α}
    (ha : a ∈ m.managed) (hb : b ∈ m.managed) :
    ∃ m', Manager.deleteConstraint a b m = .ok true m' ∧
      m'.getAdded a b = .ok none ∧ m'.getAdded b a = .ok none ∧ m'.managed = m.managed ∧
      (∀ u w, ¬ (u = a ∧ w = b) → ¬ (u = b ∧ w = a) → m'.getAdded u w = m.getAdded u w) ∧
      ∃ m'', Manager.deleteConstraint a b m' = .ok true m'' ∧
        ∀ u w, m''.getAdded u w = m'.getAdded u w := by
  obtain ⟨m', h1, h2, h3, h4⟩ := deleteConstraint_ok hm.inv ha hb
  have hmm : m'.managed = m.managed := h3
  have ha' : a ∈ m'.managed := hmm ▸ ha
  have hb' : b ∈ m'.managed := hmm ▸ hb
  refine ⟨m', h1, ?_, ?_, hmm, ?_, ?_⟩
  · rw [getAdded_eq h2.d ha' hb', h4]; simp
  · rw [getAdded_eq h2.d hb' ha', h4]; simp
  · intro u w hu hw
    have hk' : known m'.dict u w = known m.dict u w := by
      rw [h4, if_neg]
      rintro (h | h)
      exacts [hu h, hw h]
    rw [getAdded_inv h2, getAdded_inv hm.inv, hmm, hk']
  · obtain ⟨m'', g1, g2, g3, g4⟩ := deleteConstraint_ok h2 ha' hb'
    refine ⟨m'', g1, fun u w => ?_⟩
    have hmm2 : m''.managed = m'.managed := g3
    have hk' : known m''.dict u w = known m'.dict u w := by
      rw [g4]
      by_cases hc : (u = a ∧ w = b) ∨ (u = b ∧ w = a)
      · rw [if_pos hc, h4, if_pos hc]
      · rw [if_neg hc]
    rw [getAdded_inv g2, getAdded_inv h2, hmm2, hk']

example : 2 ∈ demo.managed ∧ 1 ∈ demo.managed ∧ demo.getAdded 2 1 = .ok (some (.mustLink, 1)) := by decide

/-! ### C08 -/

/-- C08. `delete_data_ID(x)`: `x` disappears, added constraints of the others stay, and what is
inferred afterwards is the closure of the added constraints that do not involve `x`. -/
theorem C08_delete_data_ID {m : Manager α} (hm : Reachable m) {x : α} (hx : x ∈ m.managed) :
    ∃ m', Manager.deleteDataID x m = .ok true m' ∧
      m'.managed = m.managed.filter (· ≠ x) ∧
      (∀ u w, u ≠ x → w ≠ x → m'.getAdded u w = m.getAdded u w) ∧
      (∀ u ∈ m.managed, ∀ w ∈ m.managed, u ≠ x → w ≠ x →
        (m'.getInferred u w = .ok (some .mustLink) ↔
          Chain (fun p q => p ≠ x ∧ q ≠ x ∧ AddedAs m .mustLink p q) u w) ∧
        (m'.getInferred u w = .ok (some .cannotLink) ↔
          Separated (fun p q => p ≠ x ∧ q ≠ x ∧ AddedAs m .mustLink p q)
            (fun p q => p ≠ x ∧ q ≠ x ∧ AddedAs m .cannotLink p q) u w)) ∧
      (∀ w, m'.getAdded x w = .error (.valueError "data_ID1")) := by
  obtain ⟨m', h1, h2, h3, h4⟩ := deleteDataID_ok hm.inv hx
  have hmm : m'.managed = m.managed.filter (· ≠ x) := h3
  have hmem : ∀ u, u ∈ m'.managed ↔ u ∈ m.managed ∧ u ≠ x := by
    intro u; rw [hmm]; simp
  have hadd : ∀ t p q, AddedAs m' t p q ↔ p ≠ x ∧ q ≠ x ∧ AddedAs m t p q := by
    intro t p q
    rw [addedAs_iff_known h2, addedAs_iff_known hm.inv, h4]
    by_cases hc : p = x ∨ q = x
    · rw [if_pos hc]
      constructor
      · intro h; cases h
      · rintro ⟨h1, h2, -⟩; rcases hc with hc | hc
        · exact absurd hc h1
        · exact absurd hc h2
    · rw [if_neg hc]
      push Not at hc
      exact ⟨fun h => ⟨hc.1, hc.2, h⟩, fun h => h.2.2⟩
  refine ⟨m', h1, hmm, ?_, ?_, ?_⟩
  · intro u w hu hw
    have hk' : known m'.dict u w = known m.dict u w := by
      rw [h4, if_neg]
      rintro (h | h)
      exacts [hu h, hw h]
    rw [getAdded_inv h2, getAdded_inv hm.inv, hk']
    simp [hmem, hu, hw]
  · intro u hu w hw hux hwx
    have hu' := (hmem u).2 ⟨hu, hux⟩
    have hw' := (hmem w).2 ⟨hw, hwx⟩
    refine ⟨(inferred_ml_iff h2 hu' hw').trans (chain_congr (hadd _)),
      (inferred_cl_iff h2 hu' hw').trans (separated_congr (hadd _) (hadd _))⟩
  · intro w
    exact getAdded_err1 (fun hxm => ((hmem x).1 hxm).2 rfl)

example : 2 ∈ demo.managed ∧ demo.getInferred 1 3 = .ok (some .cannotLink) ∧
    (resState (Manager.deleteDataID 2 demo)).getInferred 1 3 = .ok none := by decide

/-! ### C09 -/

/-- C09. `add_data_ID(x)` raises iff `x` is managed; otherwise it returns True and adds `x` last,
must-linked to itself only and unrelated to the others, whose constraints do not change. -/
theorem C09_add_data_ID {m : Manager α} (hm : Reachable m) (x : α) :
    (x ∈ m.managed → Manager.addDataID x m = .error (.valueError "data_ID") m) ∧
    (x ∉ m.managed → ∃ m', Manager.addDataID x m = .ok true m' ∧
      m'.managed = m.managed ++ [x] ∧
      m'.getAdded x x = .ok (some (.mustLink, 1)) ∧
      m'.getInferred x x = .ok (some .mustLink) ∧
      (∀ u ∈ m.managed, m'.getAdded x u = .ok none ∧ m'.getInferred x u = .ok none) ∧
      (∀ u ∈ m.managed, ∀ w ∈ m.managed, m'.getAdded u w = m.getAdded u w ∧
        m'.getInferred u w = m.getInferred u w)) := by
  refine ⟨addDataID_err, fun hx => ?_⟩
  have h := hm.inv
  obtain ⟨m', h1, h2, h3, -, h5⟩ := addDataID_ok h hx
  have hmm : m'.managed = m.managed ++ [x] := h3
  have hx' : x ∈ m'.managed := by rw [hmm]; simp
  have hu' : ∀ u ∈ m.managed, u ∈ m'.managed := by intro u hu; rw [hmm]; simp [hu]
  have hadd : ∀ t u w, AddedAs m' t u w ↔ AddedAs m t u w ∨ (t = .mustLink ∧ u = x ∧ w = x) := by
    intro t u w
    rw [addedAs_iff_known h2, addedAs_iff_known h, h5]
    by_cases hc : u = x ∧ w = x
    · rw [if_pos hc]
      constructor
      · intro he
        cases he
        exact .inr ⟨rfl, hc⟩
      · rintro (hk | ⟨rfl, -⟩)
        · exact absurd (hc.1 ▸ (known_mem h hk).1) hx
        · rfl
    · rw [if_neg hc]
      exact ⟨.inl, fun h => h.elim id (fun h => absurd h.2 hc)⟩
  -- new edges only on the diagonal of x
  have hch : ∀ u w, MustLinked m' u w ↔ MustLinked m u w := fun u w =>
    ⟨chain_offdiag fun p q hn ha => ((hadd _ _ _).1 ha).elim id
        (fun h => absurd (h.2.1.trans h.2.2.symm) hn),
     chain_offdiag fun p q _ ha => (hadd _ _ _).2 (.inl ha)⟩
  have hse : ∀ u w, CannotLinked m' u w ↔ CannotLinked m u w := fun u w =>
    ⟨sep_offdiag (fun p q hn ha => ((hadd _ _ _).1 ha).elim id
        (fun h => absurd (h.2.1.trans h.2.2.symm) hn))
        (fun p q ha => ((hadd _ _ _).1 ha).elim id (fun h => by cases h.1)),
     sep_offdiag (fun p q _ ha => (hadd _ _ _).2 (.inl ha)) (fun p q ha => (hadd _ _ _).2 (.inl ha))⟩
  have hne : ∀ u ∈ m.managed, u ≠ x := by rintro u hu rfl; exact hx hu
  refine ⟨m', h1, hmm, ?_, ?_, ?_, ?_⟩
  · rw [getAdded_eq h2.d hx' hx', h5]; simp
  · exact (inferred_ml_iff h2 hx' hx').2 (MustLinked.refl _ _)
  · intro u hu
    constructor
    · rw [getAdded_eq h2.d hx' (hu' u hu), h5, if_neg (fun hc => hne u hu hc.2)]
      cases hk : known m.dict x u with
      | none => rfl
      | some s => exact absurd (known_mem h hk).1 hx
    · refine (inferred_none_iff h2 hx' (hu' u hu)).2 ⟨?_, ?_⟩
      · intro hl
        exact hx (MustLinked.mem h (((hch x u).1 hl).symm h) hu)
      · intro hl
        exact hx (CannotLinked.mem h ((hse x u).1 hl)).1
  · intro u hu w hw
    constructor
    · rw [getAdded_eq h2.d (hu' u hu) (hu' w hw), getAdded_eq h.d hu hw, h5,
        if_neg (fun hc => hne u hu hc.1)]
    · exact getInferred_congr h2 h (iff_of_true (hu' u hu) hu) (iff_of_true (hu' w hw) hw)
        (hch u w) (hse u w)

example : 5 ∉ demo.managed ∧ 1 ∈ demo.managed ∧
    resVal (Manager.addDataID 5 demo) = .ok true := by decide

/-! ### C10 -/

/-- C10. Both getters are symmetric. -/
theorem C10_getters_symmetric {m : Manager α} (hm : Reachable m) {x y : α} (hx : x ∈ m.managed)
    (hy : y ∈ m.managed) (threshold : Rat) :
    m.getAdded x y = m.getAdded y x ∧ m.getInferred x y threshold = m.getInferred y x threshold := by
  have h := hm.inv
  constructor
  · rw [getAdded_eq h.d hx hy, getAdded_eq h.d hy hx, known_comm]
  · obtain ⟨r, hr, hr1, hr2⟩ := getInferred_spec h hx hy threshold
    obtain ⟨r', hr', hr1', hr2'⟩ := getInferred_spec h hy hx threshold
    rw [hr, hr']
    rw [octype_ext (hr1.trans (Iff.trans ⟨fun hl => hl.symm h, fun hl => hl.symm h⟩ hr1'.symm))
      (hr2.trans (Iff.trans ⟨fun hl => hl.symm h, fun hl => hl.symm h⟩ hr2'.symm))]

example : demo.getAdded 3 2 = .ok (some (.cannotLink, 1)) ∧ 3 ∈ demo.managed ∧ 2 ∈ demo.managed := by
  decide

/-! ### C11 -/

/-- C11. Inferred MUST_LINK is an equivalence, inferred CANNOT_LINK is irreflexive and
respects it (stated on the results of `get_inferred_constraint`). -/
theorem C11_equivalence_and_congruence {m : Manager α} (hm : Reachable m) :
    (∀ x ∈ m.managed, m.getInferred x x = .ok (some .mustLink)) ∧
    (∀ x y, m.getInferred x y = .ok (some .mustLink) → m.getInferred y x = .ok (some .mustLink)) ∧
    (∀ x y z, m.getInferred x y = .ok (some .mustLink) → m.getInferred y z = .ok (some .mustLink) →
      m.getInferred x z = .ok (some .mustLink)) ∧
    (∀ x, m.getInferred x x ≠ .ok (some .cannotLink)) ∧
    (∀ x x' y y', m.getInferred x x' = .ok (some .mustLink) → m.getInferred y y' = .ok (some .mustLink) →
      (m.getInferred x y = .ok (some .cannotLink) ↔ m.getInferred x' y' = .ok (some .cannotLink))) := by
  have h := hm.inv
  have mem : ∀ {x y r}, m.getInferred x y = .ok r → x ∈ m.managed ∧ y ∈ m.managed := by
    intro x y r hr
    by_cases hx : x ∈ m.managed
    · by_cases hy : y ∈ m.managed
      · exact ⟨hx, hy⟩
      · rw [getInferred_err2 (by rw [h.t.keys]; exact hx) (by rw [h.t.keys]; exact hy)] at hr; cases hr
    · rw [getInferred_err1 (by rw [h.t.keys]; exact hx)] at hr; cases hr
  refine ⟨?_, ?_, ?_, ?_, ?_⟩
  · intro x hx
    exact (inferred_ml_iff h hx hx).2 (MustLinked.refl m x)
  · intro x y hxy
    obtain ⟨hx, hy⟩ := mem hxy
    exact (inferred_ml_iff h hy hx).2 (((inferred_ml_iff h hx hy).1 hxy).symm h)
  · intro x y z hxy hyz
    obtain ⟨hx, hy⟩ := mem hxy
    obtain ⟨-, hz⟩ := mem hyz
    exact (inferred_ml_iff h hx hz).2 (((inferred_ml_iff h hx hy).1 hxy).trans ((inferred_ml_iff h hy hz).1 hyz))
  · intro x hxx
    obtain ⟨hx, -⟩ := mem hxx
    exact CannotLinked.irrefl h x ((inferred_cl_iff h hx hx).1 hxx)
  · intro x x' y y' hxx hyy
    obtain ⟨hx, hx'⟩ := mem hxx
    obtain ⟨hy, hy'⟩ := mem hyy
    rw [inferred_cl_iff h hx hy, inferred_cl_iff h hx' hy']
    rw [inferred_ml_iff h hx hx'] at hxx
    rw [inferred_ml_iff h hy hy'] at hyy
    exact ⟨fun hc => hc.congr (hxx.symm h) hyy, fun hc => hc.congr hxx (hyy.symm h)⟩

example : demo.getInferred 1 2 = .ok (some .mustLink) ∧ demo.getInferred 3 3 = .ok (some .mustLink) ∧
    demo.getInferred 1 3 = .ok (some .cannotLink) := by decide

/-! ### C12 -/

/-- C12. The connected components partition the managed IDs into the must-link classes, listed by
the position of their earliest managed ID. -/
theorem C12_components_partition {m : Manager α} (hm : Reachable m) :
    (∀ c ∈ m.components, c ≠ [] ∧ c.Nodup) ∧
    m.components.Pairwise (fun c c' => ∀ x ∈ c, x ∉ c') ∧
    m.components.flatten.Perm m.managed ∧
    (∀ x ∈ m.managed, ∀ y ∈ m.managed,
      ((∃ c ∈ m.components, x ∈ c ∧ y ∈ c) ↔ m.getInferred x y = .ok (some .mustLink))) ∧
    m.components.Pairwise (fun c c' =>
      m.managed.findIdx (fun x => decide (x ∈ c)) < m.managed.findIdx (fun x => decide (x ∈ c'))) := by
  have h := hm.inv
  refine ⟨fun c hc => ⟨component_ne_nil h hc, component_nodup h hc⟩, components_disjoint h,
    components_flatten_perm h, ?_, components_order h⟩
  intro x hx y hy
  rw [inferred_ml_iff h hx hy]
  constructor
  · rintro ⟨c, hc, hxc, hyc⟩
    exact ((mem_component_iff h hc hxc).2 y).1 hyc
  · intro hl
    obtain ⟨c, hc, hxc⟩ := exists_component h hx
    exact ⟨c, hc, hxc, ((mem_component_iff h hc hxc).2 y).2 hl⟩

example : demo.components = [[3], [1, 2], [9]] := by decide

/-! ### C13 -/

/-- C13. The completeness check is exact. -/
theorem C13_completude_exact {m : Manager α} (hm : Reachable m) :
    m.complete = true ↔ ∀ x ∈ m.managed, ∀ y ∈ m.managed,
      ∃ t, m.getInferred x y = .ok (some t) := by
  have h := hm.inv
  rw [complete_iff h]
  constructor
  · intro hall x hx y hy
    rcases hall x hx y hy with hl | hl
    · exact ⟨_, (inferred_ml_iff h hx hy).2 hl⟩
    · exact ⟨_, (inferred_cl_iff h hx hy).2 hl⟩
  · intro hall x hx y hy
    obtain ⟨t, ht⟩ := hall x hx y hy
    cases t with
    | mustLink => exact .inl ((inferred_ml_iff h hx hy).1 ht)
    | cannotLink => exact .inr ((inferred_cl_iff h hx hy).1 ht)

/-- Both verdicts occur. -/
example : demo.complete = false ∧
    (runOps demo [.addConstraint 9 1 "CANNOT_LINK" 1, .addConstraint 9 3 "MUST_LINK" 1]).complete = true := by
  decide

/-! ### C17 -/

/-- C17. The conflict report is None iff `add_constraint` would accept, and otherwise lists,
without repetition, exactly the managed IDs must-linked to one of the two IDs. -/
theorem C17_conflict_report {m : Manager α} (hm : Reachable m) {x y : α} (hx : x ∈ m.managed)
    (hy : y ∈ m.managed) (t : CType) (v : Rat) :
    (m.conflictIDs x y t.toStr = .ok none ∧ ∃ m', Manager.addConstraint x y t.toStr v m = .ok true m') ∨
    (∃ l, m.conflictIDs x y t.toStr = .ok (some l) ∧
      Manager.addConstraint x y t.toStr v m = .error (.valueError "conflict") m ∧
      l.Nodup ∧ ∀ z, z ∈ l ↔ z ∈ m.managed ∧ (m.getInferred z x = .ok (some .mustLink) ∨
        m.getInferred z y = .ok (some .mustLink))) := by
  have h := hm.inv
  have hty : CType.parse? t.toStr = some t := parse_eq_some.2 rfl
  rcases addConstraint_cases (v := v) h hx hy hty with ⟨h1, h2⟩ | ⟨t', h1, h2, h3⟩
  · left
    refine ⟨?_, ?_⟩
    · rcases h1 with h1 | h1
      · rw [conflictIDs_eq hx hy hty h1]; simp
      · rw [conflictIDs_eq hx hy hty h1]; simp
    · rcases h2 with ⟨s, hk, hc⟩ | ⟨hk, m', hc, -⟩
      · exact ⟨m, hc⟩
      · exact ⟨m', hc⟩
  · right
    refine ⟨(m.components.filter fun c => decide (x ∈ c ∨ y ∈ c)).flatten, ?_, h3, ?_, ?_⟩
    · rw [conflictIDs_eq hx hy hty h2, if_pos]
      exact ⟨rfl, by simpa using fun he => h1 he.symm⟩
    · refine flatten_nodup (fun c hc => component_nodup h (List.mem_filter.1 hc).1) ?_
      exact (components_disjoint h).sublist List.filter_sublist
    · intro z
      simp only [List.mem_flatten, List.mem_filter, decide_eq_true_eq]
      constructor
      · rintro ⟨c, ⟨hc, hxy⟩, hz⟩
        obtain ⟨hzm, hzc⟩ := mem_component_iff h hc hz
        refine ⟨hzm, ?_⟩
        rcases hxy with hxc | hyc
        · exact .inl ((inferred_ml_iff h hzm hx).2 ((hzc x).1 hxc))
        · exact .inr ((inferred_ml_iff h hzm hy).2 ((hzc y).1 hyc))
      · rintro ⟨hzm, hl⟩
        obtain ⟨c, hc, hz⟩ := exists_component h hzm
        refine ⟨c, ⟨hc, ?_⟩, hz⟩
        rcases hl with hl | hl
        · exact .inl (((mem_component_iff h hc hz).2 x).2 ((inferred_ml_iff h hzm hx).1 hl))
        · exact .inr (((mem_component_iff h hc hz).2 y).2 ((inferred_ml_iff h hzm hy).1 hl))

example : 1 ∈ demo.managed ∧ 3 ∈ demo.managed ∧
    demo.conflictIDs 1 3 "MUST_LINK" = .ok (some [3, 1, 2]) ∧
    demo.conflictIDs 1 9 "MUST_LINK" = .ok none := by decide

/-! ### C19 -/

/-- C19. Two managers with the same managed IDs and the same added constraints between distinct
IDs are indistinguishable by inference, components (as sets), completeness and the decisions of
`add_constraint` and of the conflict report, whatever histories produced them. -/
theorem C19_order_independence {m₁ m₂ : Manager α} (h₁ : Reachable m₁) (h₂ : Reachable m₂)
    (hids : ∀ x, x ∈ m₁.managed ↔ x ∈ m₂.managed)
    (hadd : ∀ x y, x ≠ y → m₁.getAdded x y = m₂.getAdded x y) :
    (∀ x y, m₁.getInferred x y = m₂.getInferred x y) ∧
    (∀ c ∈ m₁.components, ∃ c' ∈ m₂.components, c.Perm c') ∧
    m₁.components.length = m₂.components.length ∧
    m₁.complete = m₂.complete ∧
    (∀ x y ty v, resVal (Manager.addConstraint x y ty v m₁) = resVal (Manager.addConstraint x y ty v m₂)) ∧
    (∀ x y ty, (∀ e, m₁.conflictIDs x y ty = .error e → m₂.conflictIDs x y ty = .error e) ∧
      (m₁.conflictIDs x y ty = .ok none → m₂.conflictIDs x y ty = .ok none) ∧
      ∀ l, m₁.conflictIDs x y ty = .ok (some l) →
        ∃ l', m₂.conflictIDs x y ty = .ok (some l') ∧ l.Perm l') := by
  have i₁ := h₁.inv
  have i₂ := h₂.inv
  have hml : ∀ x y, MustLinked m₁ x y ↔ MustLinked m₂ x y := fun x y =>
    ⟨chain_offdiag fun p q hn ha => by unfold AddedAs at ha ⊢; rwa [← hadd p q hn],
     chain_offdiag fun p q hn ha => by unfold AddedAs at ha ⊢; rwa [hadd p q hn]⟩
  have irr : ∀ {m : Manager α}, Inv m → ∀ {p q}, AddedAs m .cannotLink p q → p ≠ q := by
    rintro m hi p q ha rfl
    exact CannotLinked.irrefl hi p ⟨p, p, .refl, ha, .refl⟩
  have hcl : ∀ x y, CannotLinked m₁ x y ↔ CannotLinked m₂ x y := fun x y =>
    ⟨sep_offdiag (fun p q hn ha => by unfold AddedAs at ha ⊢; rwa [← hadd p q hn])
      (fun p q ha => by have hn := irr i₁ ha; unfold AddedAs at ha ⊢; rwa [← hadd p q hn]),
     sep_offdiag (fun p q hn ha => by unfold AddedAs at ha ⊢; rwa [hadd p q hn])
      (fun p q ha => by have hn := irr i₂ ha; unfold AddedAs at ha ⊢; rwa [hadd p q hn])⟩
  have hinf : ∀ x y, m₁.getInferred x y = m₂.getInferred x y := fun x y =>
    getInferred_congr i₁ i₂ (hids x) (hids y) (hml x y) (hcl x y)
  have hcomp : ∀ {m m' : Manager α}, Inv m → Inv m' → (∀ x, x ∈ m.managed ↔ x ∈ m'.managed) →
      (∀ x y, MustLinked m x y ↔ MustLinked m' x y) →
      ∀ c ∈ m.components, ∃ c' ∈ m'.components, c.Perm c' := by
    intro m m' hi hi' hk hl c hc
    obtain ⟨x, hx⟩ := List.exists_mem_of_ne_nil c (component_ne_nil hi hc)
    obtain ⟨hxm, hxc⟩ := mem_component_iff hi hc hx
    obtain ⟨c', hc', hx'⟩ := exists_component hi' ((hk x).1 hxm)
    refine ⟨c', hc', (List.perm_ext_iff_of_nodup (component_nodup hi hc) (component_nodup hi' hc')).2 ?_⟩
    intro y
    rw [hxc, (mem_component_iff hi' hc' hx').2, hl]
  have hlen : ∀ {m m' : Manager α}, Inv m → Inv m' → (∀ x, x ∈ m.managed ↔ x ∈ m'.managed) →
      (∀ x y, MustLinked m x y ↔ MustLinked m' x y) → m.components.length ≤ m'.components.length := by
    intro m m' hi hi' hk hl
    classical
    let g : List α → List α := fun c =>
      if h : c ∈ m.components then Classical.choose (hcomp hi hi' hk hl c h) else []
    have hg : ∀ c ∈ m.components, g c ∈ m'.components ∧ c.Perm (g c) := by
      intro c hc
      simp only [g, hc, dif_pos]
      exact Classical.choose_spec (hcomp hi hi' hk hl c hc)
    have hnd : (m.components.map g).Nodup := by
      refine List.Nodup.map_on ?_ (components_nodup m)
      intro c hc c' hc' he
      obtain ⟨x, hx⟩ := List.exists_mem_of_ne_nil c (component_ne_nil hi hc)
      refine component_unique hi hc hc' hx ?_
      rw [(hg c' hc').2.mem_iff, ← he, ← (hg c hc).2.mem_iff]
      exact hx
    have hsub : m.components.map g ⊆ m'.components := by
      intro d hd
      obtain ⟨c, hc, rfl⟩ := List.mem_map.1 hd
      exact (hg c hc).1
    simpa using (List.subperm_of_subset hnd hsub).length_le
  refine ⟨hinf, hcomp i₁ i₂ hids hml, ?_, ?_, ?_, ?_⟩
  · exact le_antisymm (hlen i₁ i₂ hids hml) (hlen i₂ i₁ (fun x => (hids x).symm) (fun x y => (hml x y).symm))
  · rw [Bool.eq_iff_iff, complete_iff i₁, complete_iff i₂]
    simp only [hids, hml, hcl]
  · exact fun x y ty v => decisions_congr i₁ i₂ hids hinf x y ty v
  · intro x y ty
    by_cases hx : x ∈ m₁.managed
    swap
    · have e1 : m₁.conflictIDs x y ty = .error (.valueError "data_ID1") := conflictIDs_err1 hx
      have e2 : m₂.conflictIDs x y ty = .error (.valueError "data_ID1") :=
        conflictIDs_err1 (fun hc => hx ((hids x).2 hc))
      rw [e1, e2]
      exact ⟨fun e he => he, fun he => (by cases he), fun l he => (by cases he)⟩
    by_cases hy : y ∈ m₁.managed
    swap
    · have e1 : m₁.conflictIDs x y ty = .error (.valueError "data_ID2") := conflictIDs_err2 hx hy
      have e2 : m₂.conflictIDs x y ty = .error (.valueError "data_ID2") :=
        conflictIDs_err2 ((hids x).1 hx) (fun hc => hy ((hids y).2 hc))
      rw [e1, e2]
      exact ⟨fun e he => he, fun he => (by cases he), fun l he => (by cases he)⟩
    have hx2 := (hids x).1 hx
    have hy2 := (hids y).1 hy
    rcases parse_cases ty with hty | ⟨t, hty⟩
    · have e1 : m₁.conflictIDs x y ty = .error (.valueError "constraint_type") := conflictIDs_err3 hx hy hty
      have e2 : m₂.conflictIDs x y ty = .error (.valueError "constraint_type") := conflictIDs_err3 hx2 hy2 hty
      rw [e1, e2]
      exact ⟨fun e he => he, fun he => (by cases he), fun l he => (by cases he)⟩
    obtain ⟨r, hr, -⟩ := getInferred_spec i₁ hx hy
    rw [conflictIDs_eq hx hy hty hr, conflictIDs_eq hx2 hy2 hty (hinf x y ▸ hr)]
    by_cases hc : r.isSome ∧ some t ≠ r
    · rw [if_pos hc, if_pos hc]
      refine ⟨fun e he => (by cases he), fun he => (by cases he), ?_⟩
      intro l hl
      cases hl
      refine ⟨_, rfl, ?_⟩
      have nd : ∀ {m : Manager α}, Inv m →
          ((m.components.filter fun c => decide (x ∈ c ∨ y ∈ c)).flatten).Nodup := fun hi =>
        flatten_nodup (fun c hc => component_nodup hi (List.mem_filter.1 hc).1)
          ((components_disjoint hi).sublist List.filter_sublist)
      refine (List.perm_ext_iff_of_nodup (nd i₁) (nd i₂)).2 ?_
      have mem : ∀ {m : Manager α}, Inv m → ∀ z, z ∈ ((m.components.filter fun c =>
          decide (x ∈ c ∨ y ∈ c)).flatten) ↔ z ∈ m.managed ∧ (MustLinked m z x ∨ MustLinked m z y) := by
        intro m hi z
        simp only [List.mem_flatten, List.mem_filter, decide_eq_true_eq]
        constructor
        · rintro ⟨c, ⟨hc, hxy⟩, hz⟩
          obtain ⟨hzm, hzc⟩ := mem_component_iff hi hc hz
          exact ⟨hzm, hxy.imp (hzc x).1 (hzc y).1⟩
        · rintro ⟨hzm, hl⟩
          obtain ⟨c, hc, hz⟩ := exists_component hi hzm
          obtain ⟨-, hzc⟩ := mem_component_iff hi hc hz
          exact ⟨c, ⟨hc, hl.imp (hzc x).2 (hzc y).2⟩, hz⟩
      intro z
      rw [mem i₁, mem i₂, hids, hml, hml]
    · rw [if_neg hc, if_neg hc]
      exact ⟨fun e he => (by cases he), fun he => rfl, fun l hl => by cases hl⟩

/-- The demo manager and one built in another order (with a different list order). -/
example : Reachable (runOps (Manager.init [9, 2, 1, 3])
      [.addConstraint 2 3 "CANNOT_LINK" 1, .addConstraint 2 1 "MUST_LINK" 1]) ∧
    (∀ x ∈ [1, 2, 3, 9], ∀ y ∈ [1, 2, 3, 9], (runOps (Manager.init [9, 2, 1, 3])
      [.addConstraint 2 3 "CANNOT_LINK" 1, .addConstraint 2 1 "MUST_LINK" 1]).getAdded x y =
      demo.getAdded x y) := ⟨⟨_, _, rfl⟩, by decide⟩

/-! ### C20 -/

/-- C20. A successful `add_constraint` keeps every known inference; `delete_constraint` only
forgets: an inference afterwards was already there before. -/
theorem C20_monotone {m m' : Manager α} (hm : Reachable m) {a b : α} :
    (∀ ty v r, Manager.addConstraint a b ty v m = .ok r m' →
      ∀ x y t, m.getInferred x y = .ok (some t) → m'.getInferred x y = .ok (some t)) ∧
    (∀ r, Manager.deleteConstraint a b m = .ok r m' →
      ∀ x y t, m'.getInferred x y = .ok (some t) → m.getInferred x y = .ok (some t)) := by
  have h := hm.inv
  have mono : ∀ {m m' : Manager α}, Inv m → Inv m' → m'.managed = m.managed →
      (∀ t p q, AddedAs m t p q → AddedAs m' t p q) →
      ∀ x y t, m.getInferred x y = .ok (some t) → m'.getInferred x y = .ok (some t) := by
    intro m m' hi hi' hmm hadd x y t ht
    have hx : x ∈ m.managed := by
      by_contra hx
      rw [getInferred_err1 (by rw [hi.t.keys]; exact hx)] at ht; cases ht
    have hy : y ∈ m.managed := by
      by_contra hy
      rw [getInferred_err2 (by rw [hi.t.keys]; exact hx) (by rw [hi.t.keys]; exact hy)] at ht; cases ht
    have hx' : x ∈ m'.managed := hmm ▸ hx
    have hy' : y ∈ m'.managed := hmm ▸ hy
    cases t with
    | mustLink =>
      exact (inferred_ml_iff hi' hx' hy').2 (((inferred_ml_iff hi hx hy).1 ht).mono (hadd _))
    | cannotLink =>
      exact (inferred_cl_iff hi' hx' hy').2 (((inferred_cl_iff hi hx hy).1 ht).mono (hadd _) (hadd _))
  constructor
  · intro ty v r hc
    have hi' : Inv m' := by
      have := (call_inv h (.addConstraint a b ty v)).1
      simp only [Op.call] at this
      rw [hc] at this
      exact this
    obtain ⟨-, ⟨t, -, h1, h2⟩, hmm, hfr, hid⟩ := C06_add_constraint_frame hm hc
    refine mono h hi' hmm ?_
    intro t' p q ha
    by_cases hpq : (p = a ∧ q = b) ∨ (p = b ∧ q = a)
    · have : m' = m := by
        apply hid
        obtain ⟨w, hw⟩ := ha
        rcases hpq with ⟨rfl, rfl⟩ | ⟨rfl, rfl⟩
        · rw [hw]; simp
        · have := AddedAs.symm h _ _ ⟨w, hw⟩
          obtain ⟨w', hw'⟩ := this
          rw [hw']; simp
      rw [this]; exact ha
    · obtain ⟨w, hw⟩ := ha
      exact ⟨w, by rw [hfr p q (fun h => hpq (.inl h)) (fun h => hpq (.inr h))]; exact hw⟩
  · intro r hc
    have hi' : Inv m' := by
      have := (call_inv h (.deleteConstraint a b)).1
      simp only [Op.call] at this
      rw [hc] at this
      exact this
    by_cases ha : a ∈ m.managed
    swap
    · rw [deleteConstraint_err1 ha] at hc; cases hc
    by_cases hb : b ∈ m.managed
    swap
    · rw [deleteConstraint_err2 ha hb] at hc; cases hc
    obtain ⟨m'', h1, h2, h3, h4⟩ := deleteConstraint_ok h ha hb
    rw [h1] at hc
    cases hc
    refine mono hi' h h3.symm ?_
    intro t' p q hadd
    rw [addedAs_iff_known h2, h4] at hadd
    rw [addedAs_iff_known h]
    split at hadd
    · cases hadd
    · exact hadd

example : resVal (Manager.addConstraint 9 1 "MUST_LINK" 1 demo) = .ok true ∧
    resVal (Manager.deleteConstraint 1 2 demo) = .ok true ∧
    demo.getInferred 1 3 = .ok (some .cannotLink) := by decide

/-! ### C21 -/

/-- C21. Exact result of every method on every reachable manager with arbitrary arguments: the
documented `ValueError`s under the documented conditions, `True`, or the getter's answer. No
`KeyError` or other failure can surface. -/
theorem C21_only_documented_exceptions {m : Manager α} (hm : Reachable m) :
    (∀ x, resVal (Manager.addDataID x m) =
      if x ∈ m.managed then .error (.valueError "data_ID") else .ok true) ∧
    (∀ x, resVal (Manager.deleteDataID x m) =
      if x ∈ m.managed then .ok true else .error (.valueError "data_ID")) ∧
    (∀ x y, resVal (Manager.deleteConstraint x y m) =
      if x ∉ m.managed then .error (.valueError "data_ID1")
      else if y ∉ m.managed then .error (.valueError "data_ID2") else .ok true) ∧
    (∀ x y ty v, resVal (Manager.addConstraint x y ty v m) =
      if x ∉ m.managed then .error (.valueError "data_ID1")
      else if y ∉ m.managed then .error (.valueError "data_ID2")
      else if ty ≠ "MUST_LINK" ∧ ty ≠ "CANNOT_LINK" then .error (.valueError "constraint_type")
      else if (ty = "MUST_LINK" ∧ m.getInferred x y = .ok (some .cannotLink)) ∨
          (ty = "CANNOT_LINK" ∧ m.getInferred x y = .ok (some .mustLink))
        then .error (.valueError "conflict") else .ok true) ∧
    (∀ x y, (x ∉ m.managed → m.getAdded x y = .error (.valueError "data_ID1")) ∧
      (x ∈ m.managed → y ∉ m.managed → m.getAdded x y = .error (.valueError "data_ID2")) ∧
      (x ∈ m.managed → y ∈ m.managed → ∃ r, m.getAdded x y = .ok r)) ∧
    (∀ x y th, (x ∉ m.managed → m.getInferred x y th = .error (.valueError "data_ID1")) ∧
      (x ∈ m.managed → y ∉ m.managed → m.getInferred x y th = .error (.valueError "data_ID2")) ∧
      (x ∈ m.managed → y ∈ m.managed → ∃ r, m.getInferred x y th = .ok r)) ∧
    (∀ x y ty, (x ∉ m.managed → m.conflictIDs x y ty = .error (.valueError "data_ID1")) ∧
      (x ∈ m.managed → y ∉ m.managed → m.conflictIDs x y ty = .error (.valueError "data_ID2")) ∧
      (x ∈ m.managed → y ∈ m.managed → ty ≠ "MUST_LINK" → ty ≠ "CANNOT_LINK" →
        m.conflictIDs x y ty = .error (.valueError "constraint_type")) ∧
      (x ∈ m.managed → y ∈ m.managed → (ty = "MUST_LINK" ∨ ty = "CANNOT_LINK") →
        ∃ r, m.conflictIDs x y ty = .ok r)) := by
  have h := hm.inv
  have hk : ∀ z, z ∈ dkeys m.trans ↔ z ∈ m.managed := fun z => by rw [h.t.keys]; rfl
  refine ⟨?_, ?_, ?_, ?_, ?_, ?_, ?_⟩
  · intro x
    by_cases hx : x ∈ m.managed
    · rw [if_pos hx, addDataID_err hx]; rfl
    · obtain ⟨m', h1, -⟩ := addDataID_ok h hx
      rw [if_neg hx, h1]; rfl
  · intro x
    by_cases hx : x ∈ m.managed
    · obtain ⟨m', h1, -⟩ := deleteDataID_ok h hx
      rw [if_pos hx, h1]; rfl
    · rw [if_neg hx, deleteDataID_err hx]; rfl
  · intro x y
    by_cases hx : x ∈ m.managed
    · by_cases hy : y ∈ m.managed
      · obtain ⟨m', h1, -⟩ := deleteConstraint_ok h hx hy
        rw [if_neg (not_not.2 hx), if_neg (not_not.2 hy), h1]; rfl
      · rw [if_neg (not_not.2 hx), if_pos hy, deleteConstraint_err2 hx hy]; rfl
    · rw [if_pos hx, deleteConstraint_err1 hx]; rfl
  · intro x y ty v
    by_cases hx : x ∈ m.managed
    swap
    · rw [if_pos hx, addConstraint_err1 hx]; rfl
    by_cases hy : y ∈ m.managed
    swap
    · rw [if_neg (not_not.2 hx), if_pos hy, addConstraint_err2 hx hy]; rfl
    rw [if_neg (not_not.2 hx), if_neg (not_not.2 hy)]
    by_cases hbad : ty ≠ "MUST_LINK" ∧ ty ≠ "CANNOT_LINK"
    · rw [if_pos hbad, addConstraint_err3 hx hy (by simp [CType.parse?, hbad.1, hbad.2])]; rfl
    rw [if_neg hbad]
    obtain ⟨t, hty⟩ : ∃ t : CType, ty = t.toStr := by
      by_cases h1 : ty = "MUST_LINK"
      · exact ⟨.mustLink, h1⟩
      · by_cases h2 : ty = "CANNOT_LINK"
        · exact ⟨.cannotLink, h2⟩
        · exact absurd ⟨h1, h2⟩ hbad
    rcases addConstraint_cases (v := v) h hx hy (parse_eq_some.2 hty) with ⟨h1, h2⟩ | ⟨t', h1, h2, h3⟩
    · rw [if_neg]
      · rcases h2 with ⟨s, -, hc⟩ | ⟨-, m', hc, -⟩ <;> rw [hc] <;> rfl
      · subst hty
        rcases h1 with h1 | h1 <;> rw [h1] <;> cases t <;> simp [CType.toStr]
    · rw [if_pos, h3]
      · rfl
      · subst hty
        rcases ctype_other h1 with ⟨rfl, rfl⟩ | ⟨rfl, rfl⟩
        · exact .inl ⟨rfl, h2⟩
        · exact .inr ⟨rfl, h2⟩
  · intro x y
    exact ⟨getAdded_err1, getAdded_err2, fun hx hy => ⟨_, getAdded_eq h.d hx hy⟩⟩
  · intro x y th
    refine ⟨fun hx => getInferred_err1 (by rwa [hk]), fun hx hy => getInferred_err2 (by rwa [hk]) (by rwa [hk]),
      fun hx hy => ?_⟩
    obtain ⟨r, hr, -⟩ := getInferred_spec h hx hy th
    exact ⟨r, hr⟩
  · intro x y ty
    refine ⟨conflictIDs_err1, conflictIDs_err2, fun hx hy h1 h2 =>
      conflictIDs_err3 hx hy (by simp [CType.parse?, h1, h2]), fun hx hy hty => ?_⟩
    obtain ⟨r, hr, -⟩ := getInferred_spec h hx hy
    rcases hty with rfl | rfl
    · exact ⟨_, conflictIDs_eq hx hy parse_ml hr⟩
    · exact ⟨_, conflictIDs_eq hx hy parse_cl hr⟩

example : resVal (Manager.addConstraint 1 2 "MAYBE" 1 demo) = .error (.valueError "constraint_type") ∧
    resVal (Manager.addConstraint 8 2 "MAYBE" 1 demo) = .error (.valueError "data_ID1") := by decide

/-! ### C22 -/

/-- C22. Every added constraint read back has value 1.0, and neither the `constraint_value` nor
the `threshold` argument influences anything. -/
theorem C22_values_are_one {m : Manager α} (hm : Reachable m) (x y : α) :
    (∀ t v, m.getAdded x y = .ok (some (t, v)) → v = 1) ∧
    (∀ ty v v', Manager.addConstraint x y ty v m = Manager.addConstraint x y ty v' m) ∧
    (∀ th th', m.getInferred x y th = m.getInferred x y th') := by
  refine ⟨?_, fun ty v v' => rfl, fun th th' => rfl⟩
  intro t v hv
  rw [getAdded_inv hm.inv] at hv
  split at hv
  · cases hv
  · split at hv
    · cases hv
    · simp only [Except.ok.injEq] at hv
      exact known_val hm.inv.d hv

example : demo.getAdded 2 3 = .ok (some (.cannotLink, 1)) := by decide

end Verif
