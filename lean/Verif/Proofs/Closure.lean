import Verif.Spec.Closure

/-
Relational facts about chains of must-link steps and separations by cannot-link steps.
-/

namespace Verif

variable {α : Type} {em em' ec ec' : α → α → Prop} {a b x y z : α}

theorem Chain.refl : Chain em x x := Relation.ReflTransGen.refl

theorem Chain.trans (h₁ : Chain em x y) (h₂ : Chain em y z) : Chain em x z :=
  Relation.ReflTransGen.trans h₁ h₂

theorem Chain.single (h : em x y) : Chain em x y := Relation.ReflTransGen.single h

theorem Chain.symm (hs : ∀ x y, em x y → em y x) (h : Chain em x y) : Chain em y x := by
  induction h with
  | refl => exact Chain.refl
  | tail _ h ih => exact (Chain.single (hs _ _ h)).trans ih

theorem Chain.mono (hm : ∀ x y, em x y → em' x y) (h : Chain em x y) : Chain em' x y := by
  induction h with
  | refl => exact Chain.refl
  | tail _ h ih => exact ih.trans (Chain.single (hm _ _ h))

theorem Separated.mono (hm : ∀ x y, em x y → em' x y) (hc : ∀ x y, ec x y → ec' x y)
    (h : Separated em ec x y) : Separated em' ec' x y := by
  obtain ⟨u, v, h1, h2, h3⟩ := h
  exact ⟨u, v, h1.mono hm, hc _ _ h2, h3.mono hm⟩

theorem Separated.symm (hs : ∀ x y, em x y → em y x) (hs' : ∀ x y, ec x y → ec y x)
    (h : Separated em ec x y) : Separated em ec y x := by
  obtain ⟨u, v, h1, h2, h3⟩ := h
  exact ⟨v, u, h3.symm hs, hs' _ _ h2, h1.symm hs⟩

theorem Separated.congr_left (h : Separated em ec x y) (h' : Chain em z x) :
    Separated em ec z y := by
  obtain ⟨u, v, h1, h2, h3⟩ := h
  exact ⟨u, v, h'.trans h1, h2, h3⟩

theorem Separated.congr_right (h : Separated em ec x y) (h' : Chain em y z) :
    Separated em ec x z := by
  obtain ⟨u, v, h1, h2, h3⟩ := h
  exact ⟨u, v, h1, h2, h3.trans h'⟩

theorem chain_congr (hm : ∀ x y, em x y ↔ em' x y) : Chain em x y ↔ Chain em' x y :=
  ⟨Chain.mono fun x y h => (hm x y).1 h, Chain.mono fun x y h => (hm x y).2 h⟩

theorem separated_congr (hm : ∀ x y, em x y ↔ em' x y) (hc : ∀ x y, ec x y ↔ ec' x y) :
    Separated em ec x y ↔ Separated em' ec' x y :=
  ⟨Separated.mono (fun x y h => (hm x y).1 h) fun x y h => (hc x y).1 h,
   Separated.mono (fun x y h => (hm x y).2 h) fun x y h => (hc x y).2 h⟩

/-- Adding one must-link step `a - b`. -/
theorem chain_add
    (he : ∀ x y, em' x y ↔ em x y ∨ (x = a ∧ y = b) ∨ (x = b ∧ y = a)) :
    Chain em' x y ↔ Chain em x y ∨ (Chain em x a ∧ Chain em b y) ∨ (Chain em x b ∧ Chain em a y) := by
  constructor
  · intro h
    induction h with
    | refl => exact .inl .refl
    | @tail z w _ h ih =>
      rcases (he _ _).1 h with h | ⟨rfl, rfl⟩ | ⟨rfl, rfl⟩
      · rcases ih with ih | ⟨h1, h2⟩ | ⟨h1, h2⟩
        · exact .inl (ih.trans (.single h))
        · exact .inr (.inl ⟨h1, h2.trans (.single h)⟩)
        · exact .inr (.inr ⟨h1, h2.trans (.single h)⟩)
      · rcases ih with ih | ⟨h1, h2⟩ | ⟨h1, h2⟩
        · exact .inr (.inl ⟨ih, .refl⟩)
        · exact .inr (.inl ⟨h1, .refl⟩)
        · exact .inl h1
      · rcases ih with ih | ⟨h1, h2⟩ | ⟨h1, h2⟩
        · exact .inr (.inr ⟨ih, .refl⟩)
        · exact .inl h1
        · exact .inr (.inr ⟨h1, .refl⟩)
  · have hm : ∀ x y, em x y → em' x y := fun x y h => (he x y).2 (.inl h)
    rintro (h | ⟨h1, h2⟩ | ⟨h1, h2⟩)
    · exact h.mono hm
    · exact (h1.mono hm).trans ((Chain.single ((he a b).2 (by simp))).trans (h2.mono hm))
    · exact (h1.mono hm).trans ((Chain.single ((he b a).2 (by simp))).trans (h2.mono hm))

/-- Adding one cannot-link step `a - b`. -/
theorem separated_add_cl
    (he : ∀ x y, ec' x y ↔ ec x y ∨ (x = a ∧ y = b) ∨ (x = b ∧ y = a)) :
    Separated em ec' x y ↔
      Separated em ec x y ∨ (Chain em x a ∧ Chain em b y) ∨ (Chain em x b ∧ Chain em a y) := by
  constructor
  · rintro ⟨u, v, h1, h2, h3⟩
    rcases (he _ _).1 h2 with h | ⟨rfl, rfl⟩ | ⟨rfl, rfl⟩
    · exact .inl ⟨u, v, h1, h, h3⟩
    · exact .inr (.inl ⟨h1, h3⟩)
    · exact .inr (.inr ⟨h1, h3⟩)
  · rintro (⟨u, v, h1, h2, h3⟩ | ⟨h1, h3⟩ | ⟨h1, h3⟩)
    · exact ⟨u, v, h1, (he _ _).2 (.inl h2), h3⟩
    · exact ⟨a, b, h1, (he _ _).2 (by simp), h3⟩
    · exact ⟨b, a, h1, (he _ _).2 (by simp), h3⟩

/-- Adding one must-link step between IDs that are not separated, in a consistent situation. -/
theorem separated_add_ml (hs : ∀ x y, em x y → em y x) (hs' : ∀ x y, ec x y → ec y x)
    (he : ∀ x y, em' x y ↔ em x y ∨ (x = a ∧ y = b) ∨ (x = b ∧ y = a))
    (hcons : ∀ x, ¬ Separated em ec x x) (hab : ¬ Separated em ec a b) :
    Separated em' ec x y ↔
      Separated em ec x y ∨
      ((Chain em a x ∨ Chain em b x) ∧ (Separated em ec a y ∨ Separated em ec b y)) ∨
      ((Chain em a y ∨ Chain em b y) ∧ (Separated em ec a x ∨ Separated em ec b x)) := by
  have hba : ¬ Separated em ec b a := fun h => hab (h.symm hs hs')
  have sy : ∀ {x y}, Chain em x y → Chain em y x := fun h => h.symm hs
  have ssy : ∀ {x y}, Separated em ec x y → Separated em ec y x := fun h => h.symm hs hs'
  constructor
  · rintro ⟨u, v, h1, h2, h3⟩
    have huv : Separated em ec u v := ⟨u, v, .refl, h2, .refl⟩
    rcases (chain_add he).1 h1 with h1 | ⟨h1, h1'⟩ | ⟨h1, h1'⟩ <;>
    rcases (chain_add he).1 h3 with h3 | ⟨h3, h3'⟩ | ⟨h3, h3'⟩
    · exact .inl ((huv.congr_left h1).congr_right h3)
    · exact .inr (.inr ⟨.inr h3', .inl (ssy ((huv.congr_left h1).congr_right h3))⟩)
    · exact .inr (.inr ⟨.inl h3', .inr (ssy ((huv.congr_left h1).congr_right h3))⟩)
    · exact .inr (.inl ⟨.inl (sy h1), .inr ((huv.congr_left h1').congr_right h3)⟩)
    · exact absurd ((huv.congr_left h1').congr_right h3) hba
    · exact absurd ((huv.congr_left h1').congr_right h3) (hcons b)
    · exact .inr (.inl ⟨.inr (sy h1), .inl ((huv.congr_left h1').congr_right h3)⟩)
    · exact absurd ((huv.congr_left h1').congr_right h3) (hcons a)
    · exact absurd ((huv.congr_left h1').congr_right h3) hab
  · have hm : ∀ x y, em x y → em' x y := fun x y h => (he x y).2 (.inl h)
    have hab' : Chain em' a b := .single ((he a b).2 (by simp))
    have hba' : Chain em' b a := .single ((he b a).2 (by simp))
    have up : ∀ {x y}, Separated em ec x y → Separated em' ec x y :=
      fun h => h.mono hm fun _ _ => id
    have upc : ∀ {x y}, Chain em x y → Chain em' x y := fun h => h.mono hm
    rintro (h | ⟨h | h, h' | h'⟩ | ⟨h | h, h' | h'⟩)
    · exact up h
    · exact (up h').congr_left (upc (sy h))
    · exact (up h').congr_left ((upc (sy h)).trans hab')
    · exact (up h').congr_left ((upc (sy h)).trans hba')
    · exact (up h').congr_left (upc (sy h))
    · exact (up (ssy h')).congr_right (upc h)
    · exact (up (ssy h')).congr_right (hba'.trans (upc h))
    · exact (up (ssy h')).congr_right (hab'.trans (upc h))
    · exact (up (ssy h')).congr_right (upc h)

end Verif
