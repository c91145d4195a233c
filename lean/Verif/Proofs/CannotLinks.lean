import Verif.Proofs.Session

/-
Managers whose only annotations are given cannot-links.
-/

namespace Verif

variable {α : Type} [LinearOrder α]

/-- For every list of pairs of different IDs there is a reachable manager with exactly these cannot-links. -/
theorem exists_cannot_manager {ids : List α} (hn : ids.Nodup) {E : List (α × α)} (hE : ∀ p ∈ E, p.1 ∈ ids ∧ p.2 ∈ ids ∧ p.1 ≠ p.2) :
    ∃ m : Manager α, Reachable m ∧ m.managed = ids ∧ ∀ x ∈ ids, ∀ y ∈ ids,
      m.getInferred x y = .ok (if x = y then some .mustLink else if (x, y) ∈ E ∨ (y, x) ∈ E then some .cannotLink else none) := by
  have key : ∃ m : Manager α, Reachable m ∧ m.managed = ids ∧ ∀ x y, known m.dict x y =
      if x = y ∧ x ∈ ids then some (.mustLink, 1) else if (x, y) ∈ E ∨ (y, x) ∈ E then some (.cannotLink, 1) else none := by
    induction E with
    | nil =>
      refine ⟨Manager.init ids, Reachable.init ids, ?_, fun x y => ?_⟩
      · show dkeys _ = _
        rw [init_keys]; exact ounion_nil_of_nodup hn
      · rw [init_known]; simp
    | cons e E ih =>
      obtain ⟨m, h1, h2, h3⟩ := ih fun p hp => hE p (List.mem_cons_of_mem _ hp)
      obtain ⟨a, b⟩ := e
      obtain ⟨ha, hb, hab⟩ := hE (a, b) List.mem_cons_self
      simp only at ha hb hab
      have hml : ∀ u w, MustLinked m u w → u = w := by
        intro u w hl
        induction hl with
        | refl => rfl
        | tail _ hs ih =>
          rw [addedAs_iff_known h1.inv, h3] at hs
          split at hs
          · rename_i hc; exact ih.trans hc.1
          · split at hs <;> cases hs
      rcases addConstraint_cases (v := 1) h1.inv (x := a) (y := b) (by rw [h2]; exact ha) (by rw [h2]; exact hb)
        (parse_eq_some (t := .cannotLink).2 rfl) with ⟨-, h4⟩ | ⟨t', h4, h5, -⟩
      · have hr := h1.call (.addConstraint a b "CANNOT_LINK" 1)
        rcases h4 with ⟨s, hk, hc⟩ | ⟨hk, m', hc, -, hm', hk'⟩
        · refine ⟨m, h1, h2, fun x y => ?_⟩
          rw [h3]
          have hs : (a, b) ∈ E ∨ (b, a) ∈ E := by
            rw [h3, if_neg (fun h => hab h.1)] at hk
            by_contra h0
            rw [if_neg h0] at hk
            cases hk
          by_cases hxy : x = y ∧ x ∈ ids
          · rw [if_pos hxy, if_pos hxy]
          · rw [if_neg hxy, if_neg hxy]
            congr 1
            simp only [List.mem_cons, Prod.mk.injEq, eq_iff_iff]
            constructor
            · rintro (h | h)
              · exact .inl (.inr h)
              · exact .inr (.inr h)
            · rintro ((⟨rfl, rfl⟩ | h) | (⟨rfl, rfl⟩ | h))
              · exact hs
              · exact .inl h
              · exact hs.symm
              · exact .inr h
        · refine ⟨m', ?_, hm'.trans h2, fun x y => ?_⟩
          · have hc' : Manager.addConstraint a b "CANNOT_LINK" 1 m = .ok true m' := hc
            have : resState ((Op.addConstraint a b "CANNOT_LINK" 1).call m) = m' := by
              show resState (Manager.addConstraint a b "CANNOT_LINK" 1 m) = m'
              rw [hc']; rfl
            rw [← this]; exact hr
          · rw [hk', h3]
            by_cases hxy : x = y ∧ x ∈ ids
            · rw [if_pos hxy, if_pos hxy, if_neg]
              rintro (⟨rfl, rfl⟩ | ⟨rfl, rfl⟩)
              · exact hab hxy.1
              · exact hab hxy.1.symm
            · rw [if_neg hxy, if_neg hxy]
              by_cases hq : (x = a ∧ y = b) ∨ (x = b ∧ y = a)
              · rw [if_pos hq, if_pos]
                rcases hq with ⟨rfl, rfl⟩ | ⟨rfl, rfl⟩ <;> simp
              · rw [if_neg hq]
                congr 1
                simp only [List.mem_cons, Prod.mk.injEq, eq_iff_iff]
                constructor
                · rintro (h | h)
                  · exact .inl (.inr h)
                  · exact .inr (.inr h)
                · rintro ((h | h) | (⟨h, h'⟩ | h))
                  · exact absurd (.inl h) hq
                  · exact .inl h
                  · exact absurd (.inr ⟨h', h⟩) hq
                  · exact .inr h
      · exfalso
        cases t' with
        | mustLink => exact hab (hml a b ((inferred_ml_iff h1.inv (by rw [h2]; exact ha) (by rw [h2]; exact hb)).1 h5))
        | cannotLink => exact h4 rfl
  obtain ⟨m, h1, h2, h3⟩ := key
  have hml : ∀ u w, MustLinked m u w → u = w := by
    intro u w hl
    induction hl with
    | refl => rfl
    | tail _ hs ih =>
      rw [addedAs_iff_known h1.inv, h3] at hs
      split at hs
      · rename_i hc; exact ih.trans hc.1
      · split at hs <;> cases hs
  refine ⟨m, h1, h2, fun x hx y hy => ?_⟩
  have hxm : x ∈ m.managed := by rw [h2]; exact hx
  have hym : y ∈ m.managed := by rw [h2]; exact hy
  have hcl : CannotLinked m x y ↔ AddedAs m .cannotLink x y := by
    constructor
    · rintro ⟨u, w, hu, hs, hw⟩
      rw [hml x u hu, ← hml w y hw]; exact hs
    · exact fun hs => ⟨x, y, .refl, hs, .refl⟩
  rw [addedAs_iff_known h1.inv, h3] at hcl
  by_cases hxy : x = y
  · rw [if_pos hxy, inferred_ml_iff h1.inv hxm hym, hxy]; exact MustLinked.refl m y
  · rw [if_neg hxy]
    rw [if_neg (fun h => hxy h.1)] at hcl
    by_cases hq : (x, y) ∈ E ∨ (y, x) ∈ E
    · rw [if_pos hq] at hcl ⊢
      exact (inferred_cl_iff h1.inv hxm hym).2 (hcl.2 rfl)
    · rw [if_neg hq] at hcl ⊢
      exact (inferred_none_iff h1.inv hxm hym).2 ⟨fun h => hxy (hml x y h), fun h => absurd (hcl.1 h) (by simp)⟩

end Verif
