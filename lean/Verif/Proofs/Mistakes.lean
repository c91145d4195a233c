import Mathlib.Algebra.BigOperators.Group.Finset.Basic
import Mathlib.Algebra.Order.BigOperators.Group.Finset
import Mathlib.Algebra.BigOperators.Group.Finset.Piecewise
import Verif.Spec.Mistakes
import Verif.Props.Questions

/-
Lists of annotations, one of which may be wrong.
-/

namespace Verif

variable {α : Type} [LinearOrder α]

/-- An accepted annotation adds its own demand to the labellings allowed, nothing else. -/
theorem add_satisfies {m m' : Manager α} (hm : Reachable m) {x y : α} {t : CType} {v : Rat} {r : Bool}
    (hc : Manager.addConstraint x y t.toStr v m = .ok r m') (f : α → Nat) :
    Satisfies m' f ↔ Satisfies m f ∧ Agrees f x y t := by
  obtain ⟨-, ⟨t2, ht2, ha1, ha2⟩, hman, hframe, hsame⟩ := C06_add_constraint_frame hm hc
  have ht2' : t2 = t := by
    have h1 := parse_eq_some.2 ht2
    rw [parse_eq_some.2 (rfl : t.toStr = t.toStr)] at h1
    exact (Option.some.inj h1).symm
  subst ht2'
  constructor
  · intro hs
    refine ⟨?_, ?_⟩
    · by_cases hk : m.getAdded x y = .ok none
      · have hI := hm.inv
        have hk' : m.getAdded y x = .ok none := by
          have hx : x ∈ m.managed := by
            by_contra hx; rw [addConstraint_err1 hx] at hc; cases hc
          have hy : y ∈ m.managed := by
            by_contra hy; rw [addConstraint_err2 hx hy] at hc; cases hc
          rw [getAdded_eq hI.d hx hy] at hk
          rw [getAdded_eq hI.d hy hx, known_comm]
          exact hk
        intro u w
        by_cases hu1 : u = x ∧ w = y
        · obtain ⟨rfl, rfl⟩ := hu1
          unfold AddedAs; rw [hk]
          exact ⟨fun ⟨v, h⟩ => (by cases h), fun ⟨v, h⟩ => (by cases h)⟩
        · by_cases hu2 : u = y ∧ w = x
          · obtain ⟨rfl, rfl⟩ := hu2
            unfold AddedAs; rw [hk']
            exact ⟨fun ⟨v, h⟩ => (by cases h), fun ⟨v, h⟩ => (by cases h)⟩
          · have := hs u w
            unfold AddedAs at this ⊢
            rwa [hframe u w hu1 hu2] at this
      · rw [hsame hk] at hs; exact hs
    · cases t2 with
      | mustLink => exact (hs x y).1 ⟨1, ha1⟩
      | cannotLink => exact (hs x y).2 ⟨1, ha1⟩
  · rintro ⟨hs, hag⟩ u w
    by_cases hu1 : u = x ∧ w = y
    · obtain ⟨rfl, rfl⟩ := hu1
      constructor
      · rintro ⟨v, hv⟩; rw [ha1] at hv; cases hv; exact hag
      · rintro ⟨v, hv⟩; rw [ha1] at hv; cases hv; exact hag
    · by_cases hu2 : u = y ∧ w = x
      · obtain ⟨rfl, rfl⟩ := hu2
        constructor
        · rintro ⟨v, hv⟩; rw [ha2] at hv; cases hv; exact hag.symm
        · rintro ⟨v, hv⟩; rw [ha2] at hv; cases hv; exact fun h => hag h.symm
      · unfold AddedAs
        rw [hframe u w hu1 hu2]
        exact hs u w

/-- What is inferred is exactly what every allowed labelling says. -/
theorem inferred_iff_forced {m : Manager α} (hm : Reachable m) {x y : α} (hx : x ∈ m.managed) (hy : y ∈ m.managed)
    (t : CType) : m.getInferred x y = .ok (some t) ↔ ∀ f : α → Nat, Satisfies m f → Agrees f x y t := by
  have hI := hm.inv
  constructor
  · intro h f hs
    cases t with
    | mustLink => exact satisfies_chain hs ((inferred_ml_iff hI hx hy).1 h)
    | cannotLink => exact satisfies_sep hs ((inferred_cl_iff hI hx hy).1 h)
  · intro h
    cases t with
    | mustLink =>
      have hno : ¬ ∃ f : α → Nat, Satisfies m f ∧ Agrees f x y .cannotLink := by
        rintro ⟨f, h1, h2⟩; exact h2 (h f h1)
      obtain ⟨m', hc⟩ := (C04_refuses_exactly_unsatisfiable hm hx hy .cannotLink 1).1.2 hno
      rcases addConstraint_cases (v := 1) hI hx hy (parse_eq_some (t := .cannotLink).2 rfl) with ⟨h1, h2⟩ | ⟨t', h1, h2, h3⟩
      · rcases h2 with ⟨s, -, h2⟩ | ⟨-, m2, h2, -⟩ <;> rw [h2] at hc <;> cases hc
      · cases t' with
        | mustLink => exact h2
        | cannotLink => exact absurd rfl h1
    | cannotLink =>
      have hno : ¬ ∃ f : α → Nat, Satisfies m f ∧ Agrees f x y .mustLink := by
        rintro ⟨f, h1, h2⟩; exact h f h1 h2
      obtain ⟨m', hc⟩ := (C04_refuses_exactly_unsatisfiable hm hx hy .mustLink 1).1.2 hno
      rcases addConstraint_cases (v := 1) hI hx hy (parse_eq_some (t := .mustLink).2 rfl) with ⟨h1, h2⟩ | ⟨t', h1, h2, h3⟩
      · rcases h2 with ⟨s, -, h2⟩ | ⟨-, m2, h2, -⟩ <;> rw [h2] at hc <;> cases hc
      · cases t' with
        | cannotLink => exact h2
        | mustLink => exact absurd rfl h1

theorem giveAll_cons (m : Manager α) (a : α × α × CType) (l : List (α × α × CType)) :
    giveAll m (a :: l) = match Manager.addConstraint a.1 a.2.1 a.2.2.toStr 1 m with
      | .ok _ m' => giveAll m' l
      | .error e _ => .error e := by
  unfold giveAll
  rw [List.foldlM_cons]
  cases Manager.addConstraint a.1 a.2.1 a.2.2.toStr 1 m <;> rfl

/-- Giving a list of annotations: either it succeeds, and then the labellings allowed are those that
also agree with the list, or no labelling is allowed by both and the conflict is reported. -/
theorem giveAll_cases {m : Manager α} (hm : Reachable m) {l : List (α × α × CType)} (hl : AboutManaged m l) :
    (∃ m', giveAll m l = .ok m' ∧ Reachable m' ∧ m'.managed = m.managed ∧
      ∀ f, Satisfies m' f ↔ Satisfies m f ∧ AgreesAll f l) ∨
    (giveAll m l = .error (.valueError "conflict") ∧ ¬ ∃ f, Satisfies m f ∧ AgreesAll f l) := by
  induction l generalizing m with
  | nil => exact .inl ⟨m, rfl, hm, rfl, fun f => ⟨fun h => ⟨h, fun a ha => by cases ha⟩, And.left⟩⟩
  | cons a l ih =>
    obtain ⟨hx, hy⟩ := hl a (by simp)
    rw [giveAll_cons]
    by_cases hs : ∃ f : α → Nat, Satisfies m f ∧ Agrees f a.1 a.2.1 a.2.2
    · obtain ⟨m1, hc⟩ := (C04_refuses_exactly_unsatisfiable hm hx hy a.2.2 1).2.2 hs
      have hm1 : Reachable m1 := by
        have := hm.call (.addConstraint a.1 a.2.1 a.2.2.toStr 1)
        simpa only [Op.call, hc, resState] using this
      have hman : m1.managed = m.managed := (C06_add_constraint_frame hm hc).2.2.1
      have hsat := add_satisfies hm hc
      rw [hc]
      have hl1 : AboutManaged m1 l := by
        intro b hb; rw [hman]; exact hl b (by simp [hb])
      have hcons : ∀ f, (Satisfies m1 f ∧ AgreesAll f l) ↔ (Satisfies m f ∧ AgreesAll f (a :: l)) := by
        intro f
        rw [hsat f]
        unfold AgreesAll
        rw [List.forall_mem_cons, and_assoc]
      rcases ih hm1 hl1 with ⟨m', h1, h2, h3, h4⟩ | ⟨h1, h2⟩
      · exact .inl ⟨m', h1, h2, h3.trans hman, fun f => (h4 f).trans (hcons f)⟩
      · refine .inr ⟨h1, ?_⟩
        rintro ⟨f, hf⟩
        exact h2 ⟨f, (hcons f).2 hf⟩
    · rcases addConstraint_cases (v := 1) hm.inv hx hy (parse_eq_some (t := a.2.2).2 rfl) with ⟨h1, h2⟩ | ⟨t', h1, h2, h3⟩
      · exfalso
        apply hs
        apply (C04_refuses_exactly_unsatisfiable hm hx hy a.2.2 1).2.1
        rcases h2 with ⟨s, -, h2⟩ | ⟨-, m2, h2, -⟩
        · exact ⟨_, h2⟩
        · exact ⟨_, h2⟩
      · rw [h3]
        refine .inr ⟨rfl, ?_⟩
        rintro ⟨f, h4, h5⟩
        exact hs ⟨f, h4, h5 a (by simp)⟩

theorem giveAll_conflict_iff {m : Manager α} (hm : Reachable m) {l : List (α × α × CType)} (hl : AboutManaged m l) :
    giveAll m l = .error (.valueError "conflict") ↔ ¬ ∃ f, Satisfies m f ∧ AgreesAll f l := by
  rcases giveAll_cases hm hl with ⟨m', h1, h2, -, h4⟩ | ⟨h1, h2⟩
  · rw [h1]
    obtain ⟨f, hf⟩ := (C03_never_contradictory h2).1
    exact ⟨fun h => (by cases h), fun h => absurd ⟨f, (h4 f).1 hf⟩ h⟩
  · exact ⟨fun _ => h2, fun _ => h1⟩

theorem giveAll_about {m m' : Manager α} (hm : Reachable m) {l : List (α × α × CType)} (hc : giveAll m l = .ok m') :
    AboutManaged m l := by
  induction l generalizing m with
  | nil => intro a ha; cases ha
  | cons a l ih =>
    rw [giveAll_cons] at hc
    cases h1 : Manager.addConstraint a.1 a.2.1 a.2.2.toStr 1 m with
    | error e s => rw [h1] at hc; cases hc
    | ok b m1 =>
      rw [h1] at hc
      have hm1 : Reachable m1 := by
        have := hm.call (.addConstraint a.1 a.2.1 a.2.2.toStr 1)
        simpa only [Op.call, h1, resState] using this
      have hman : m1.managed = m.managed := (C06_add_constraint_frame hm h1).2.2.1
      intro b hb
      rcases List.mem_cons.1 hb with rfl | hb
      · have hx : b.1 ∈ m.managed := by
          by_contra hx; rw [addConstraint_err1 hx] at h1; cases h1
        refine ⟨hx, ?_⟩
        by_contra hy; rw [addConstraint_err2 hx hy] at h1; cases h1
      · rw [← hman]; exact ih hm1 hc b hb

theorem giveAll_added {m m' : Manager α} (hm : Reachable m) {l : List (α × α × CType)} (hc : giveAll m l = .ok m') :
    (addedPairs m' .mustLink ++ addedPairs m' .cannotLink).length ≤
      (addedPairs m .mustLink ++ addedPairs m .cannotLink).length + l.length := by
  induction l generalizing m with
  | nil => cases hc; exact le_rfl
  | cons a l ih =>
    rw [giveAll_cons] at hc
    cases h1 : Manager.addConstraint a.1 a.2.1 a.2.2.toStr 1 m with
    | error e s => rw [h1] at hc; cases hc
    | ok b m1 =>
      rw [h1] at hc
      have hm1 : Reachable m1 := by
        have := hm.call (.addConstraint a.1 a.2.1 a.2.2.toStr 1)
        simpa only [Op.call, h1, resState] using this
      have h2 := added_step hm h1
      have h3 := ih hm1 hc
      rw [List.length_cons]
      omega

omit [LinearOrder α] in
theorem agrees_mistake {f : α → Nat} {a : α × α × CType} :
    Agrees f (mistake a).1 (mistake a).2.1 (mistake a).2.2 ↔ ¬ Agrees f a.1 a.2.1 a.2.2 := by
  obtain ⟨x, y, t⟩ := a
  cases t
  · exact Iff.rfl
  · exact Classical.not_not.symm

omit [LinearOrder α] in
theorem about_mistake {m : Manager α} {l₁ l₂ : List (α × α × CType)} {a : α × α × CType} :
    AboutManaged m (l₁ ++ mistake a :: l₂) ↔ AboutManaged m (l₁ ++ a :: l₂) := by
  have h1 : (mistake a).1 = a.1 ∧ (mistake a).2.1 = a.2.1 := by
    obtain ⟨x, y, t⟩ := a
    cases t <;> exact ⟨rfl, rfl⟩
  unfold AboutManaged
  simp only [List.mem_append, List.mem_cons, or_imp, forall_and, forall_eq, h1.1, h1.2]

omit [LinearOrder α] in
theorem agreesAll_middle {f : α → Nat} {l₁ l₂ : List (α × α × CType)} {a : α × α × CType} :
    AgreesAll f (l₁ ++ a :: l₂) ↔ Agrees f a.1 a.2.1 a.2.2 ∧ AgreesAll f (l₁ ++ l₂) := by
  unfold AgreesAll
  simp only [List.mem_append, List.mem_cons, or_imp, forall_and, forall_eq]
  tauto

/-- A single mistake is noticed iff the rest forces the right answer. -/
theorem mistake_noticed_iff {m : Manager α} (hm : Reachable m) {l₁ l₂ : List (α × α × CType)} {a : α × α × CType}
    (hl : AboutManaged m (l₁ ++ a :: l₂)) :
    giveAll m (l₁ ++ mistake a :: l₂) = .error (.valueError "conflict") ↔
      ∀ f, Satisfies m f → AgreesAll f (l₁ ++ l₂) → Agrees f a.1 a.2.1 a.2.2 := by
  rw [giveAll_conflict_iff hm (about_mistake.2 hl)]
  simp only [agreesAll_middle, agrees_mistake]
  push Not
  constructor
  · intro h f h1 h2
    by_contra h3
    exact h f h1 h3 h2
  · intro h f h1 h3 h2
    exact h3 (h f h1 h2)

/-! ### Counting -/

theorem countP_lt_two {ι : Type} (p : ι → Bool) (l : List ι) (h : l.countP p < 2) :
    (∀ a ∈ l, p a = false) ∨ ∃ l₁ a l₂, l = l₁ ++ a :: l₂ ∧ p a = true ∧ ∀ b ∈ l₁ ++ l₂, p b = false := by
  induction l with
  | nil => left; intro a ha; cases ha
  | cons c l ih =>
    cases hc : p c with
    | false =>
      rw [List.countP_cons_of_neg (by simp [hc])] at h
      rcases ih h with h1 | ⟨l₁, a, l₂, h1, h2, h3⟩
      · left
        intro a ha
        rcases List.mem_cons.1 ha with rfl | ha
        · exact hc
        · exact h1 a ha
      · right
        refine ⟨c :: l₁, a, l₂, by rw [h1]; rfl, h2, ?_⟩
        intro b hb
        rw [List.cons_append] at hb
        rcases List.mem_cons.1 hb with rfl | hb
        · exact hc
        · exact h3 b hb
    | true =>
      rw [List.countP_cons_of_pos hc] at h
      right
      refine ⟨[], c, l, rfl, hc, ?_⟩
      have h0 : l.countP p = 0 := by omega
      intro b hb
      have := (List.countP_eq_zero.1 h0) b (by simpa using hb)
      simpa using this

/-- A must-link between `x` and another ID. -/
def mlAt (x : α) (a : α × α × CType) : Bool :=
  decide (a.2.2 = .mustLink ∧ a.1 ≠ a.2.1 ∧ (x = a.1 ∨ x = a.2.1))

/-- A cannot-link between the two classes. -/
def clAt (truth : α → Nat) (p : Nat × Nat) (a : α × α × CType) : Bool :=
  decide (a.2.2 = .cannotLink ∧ p.1 = min (truth a.1) (truth a.2.1) ∧ p.2 = max (truth a.1) (truth a.2.1))

theorem sum_countP {ι κ : Type} (S : Finset ι) (q : ι → κ → Bool) (r : κ → Bool) (c : Nat)
    (h : ∀ a, (∑ x ∈ S, if q x a = true then 1 else 0) ≤ if r a = true then c else 0) (l : List κ) :
    ∑ x ∈ S, l.countP (q x) ≤ c * l.countP r := by
  induction l with
  | nil => simp
  | cons a l ih =>
    simp only [List.countP_cons]
    rw [Finset.sum_add_distrib, Nat.mul_add]
    refine Nat.add_le_add ih ((h a).trans ?_)
    split <;> simp

theorem sum_mlAt (S : Finset α) (l : List (α × α × CType)) :
    ∑ x ∈ S, l.countP (mlAt x) ≤ 2 * l.countP fun a => decide (a.2.2 = .mustLink) := by
  apply sum_countP
  intro a
  by_cases ha : a.2.2 = .mustLink
  · rw [if_pos (by simpa using ha), ← Finset.card_filter]
    refine (Finset.card_le_card (t := {a.1, a.2.1}) ?_).trans Finset.card_le_two
    intro x hx
    have := (Finset.mem_filter.1 hx).2
    unfold mlAt at this
    rw [decide_eq_true_iff] at this
    simpa using this.2.2
  · rw [if_neg (by simpa using ha)]
    apply le_of_eq
    apply Finset.sum_eq_zero
    intro x _
    rw [if_neg]
    unfold mlAt
    simp [ha]

theorem sum_clAt (truth : α → Nat) (S : Finset (Nat × Nat)) (l : List (α × α × CType)) :
    ∑ p ∈ S, l.countP (clAt truth p) ≤ 1 * l.countP fun a => !decide (a.2.2 = .mustLink) := by
  apply sum_countP
  intro a
  by_cases ha : a.2.2 = .mustLink
  · rw [if_neg (by simpa using ha)]
    apply le_of_eq
    apply Finset.sum_eq_zero
    intro x _
    rw [if_neg]
    unfold clAt
    simp [ha]
  · rw [if_pos (by simpa using ha), ← Finset.card_filter]
    refine (Finset.card_le_card (t := {(min (truth a.1) (truth a.2.1), max (truth a.1) (truth a.2.1))}) ?_).trans
      (by simp)
    intro x hx
    have := (Finset.mem_filter.1 hx).2
    unfold clAt at this
    rw [decide_eq_true_iff] at this
    rw [Finset.mem_singleton]
    exact Prod.ext this.2.1 this.2.2

end Verif
