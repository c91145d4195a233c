import Verif.Proofs.Serialize

/-
Property C18: `to_json` followed by `load_constraints_manager_from_json`, on the document level.
-/

set_option linter.unusedSectionVars false

namespace Verif

variable {α : Type} [LinearOrder α]

/-- C18. Loading a saved manager never raises and gives a manager (itself the result of API
calls) with the same managed list, the same added constraints between distinct IDs, the same
inferences and completeness verdict, and the same components in the same order up to the order
inside a component. Each ID has its self-constraint again. -/
theorem C18_save_load {m : Manager α} (hm : Reachable m) :
    ∃ m', loadManager m.save = .ok m' ∧ Reachable m' ∧
      m'.managed = m.managed ∧
      (∀ x y, x ≠ y → m'.getAdded x y = m.getAdded x y) ∧
      (∀ x ∈ m.managed, m'.getAdded x x = .ok (some (.mustLink, 1))) ∧
      (∀ x y, m'.getInferred x y = m.getInferred x y) ∧
      m'.complete = m.complete ∧
      List.Forall₂ List.Perm m.components m'.components := by
  obtain ⟨m', h1, h2, h3, h4⟩ := load_save hm.inv
  have hadd : ∀ x y, x ≠ y → m'.getAdded x y = m.getAdded x y := by
    intro x y hxy
    have hk : known m'.dict x y = known m.dict x y := by rw [h4, if_neg hxy]
    rw [getAdded_inv h2.inv, getAdded_inv hm.inv, h3, hk]
  obtain ⟨c1, -, -, c4, -⟩ := C19_order_independence h2 hm (fun x => by rw [h3]) hadd
  refine ⟨m', h1, h2, h3, hadd, ?_, c1, c4, ?_⟩
  · intro x hx
    have hx' : x ∈ m'.managed := h3 ▸ hx
    rw [getAdded_eq h2.inv.d hx' hx', h4]
    simp [hx]
  · apply components_forall₂ hm.inv h2.inv h3
    intro x y
    by_cases hx : x ∈ m.managed
    · by_cases hy : y ∈ m.managed
      · rw [← inferred_ml_iff hm.inv hx hy, ← inferred_ml_iff h2.inv (h3 ▸ hx) (h3 ▸ hy), c1]
      · have n1 : ¬ MustLinked m x y := fun hl => hy (hl.mem hm.inv hx)
        have n2 : ¬ MustLinked m' x y := fun hl => hy (h3 ▸ hl.mem h2.inv (h3 ▸ hx))
        exact ⟨fun h => absurd h n1, fun h => absurd h n2⟩
    · -- an unmanaged ID is linked to itself only
      have only : ∀ {m : Manager α}, Inv m → x ∉ m.managed → (MustLinked m x y ↔ x = y) := by
        intro m hi hx
        constructor
        · intro hl
          rcases Relation.ReflTransGen.cases_head hl with h | ⟨z, hz, -⟩
          · exact h
          · exact absurd (AddedAs.mem hi hz).1 hx
        · rintro rfl; exact MustLinked.refl _ _
      rw [only hm.inv hx, only h2.inv (h3 ▸ hx)]

example : Reachable demo ∧ (demo.save.ids, demo.save.constraints.map fun c => (c.id1, c.id2, c.type)) =
    ([3, 1, 2, 9], [(3, 3, "MUST_LINK"), (1, 1, "MUST_LINK"), (1, 2, "MUST_LINK"),
      (2, 3, "CANNOT_LINK"), (2, 2, "MUST_LINK"), (9, 9, "MUST_LINK")]) :=
  ⟨demo_reachable, by decide⟩

/-- C18. The exception is real: a manager whose self-constraint was deleted is not restored
exactly. -/
theorem C18_self_constraint_exception :
    ∃ m m' : Manager Nat, Reachable m ∧ loadManager m.save = .ok m' ∧
      m.getAdded 1 1 = .ok none ∧ m'.getAdded 1 1 = .ok (some (.mustLink, 1)) := by
  refine ⟨runOps (Manager.init [1, 2]) [.deleteConstraint 1 1], Manager.init [1, 2],
    ⟨_, _, rfl⟩, by decide, by decide, by decide⟩

/-- C18. The order inside a component is not preserved in general. -/
theorem C18_component_order_exception :
    ∃ m m' : Manager Nat, Reachable m ∧ loadManager m.save = .ok m' ∧
      m.components ≠ m'.components := by
  refine ⟨runOps (Manager.init [1, 2, 3]) [.addConstraint 2 3 "MUST_LINK" 1, .addConstraint 3 1 "MUST_LINK" 1],
    runOps (Manager.init [1, 2, 3]) [.addConstraint 1 3 "MUST_LINK" 1, .addConstraint 2 3 "MUST_LINK" 1],
    ⟨_, _, rfl⟩, by decide, by decide⟩

end Verif
