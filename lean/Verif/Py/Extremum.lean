import Mathlib.Order.Defs.LinearOrder

/-
Python's `min(l, key=...)` and `max(l, key=...)`: the first element whose key is extremal; `none`
stands for the `ValueError` of an empty list.
-/

namespace Verif

variable {ι κ : Type} [LinearOrder κ]

def pyMinBy (key : ι → κ) : List ι → Option ι
  | [] => none
  | a :: l => some (l.foldl (fun best b => if key b < key best then b else best) a)

def pyMaxBy (key : ι → κ) : List ι → Option ι
  | [] => none
  | a :: l => some (l.foldl (fun best b => if key best < key b then b else best) a)

theorem pyMinBy_spec {key : ι → κ} {l : List ι} {a : ι} (h : pyMinBy key l = some a) :
    a ∈ l ∧ ∀ b ∈ l, key a ≤ key b := by
  cases l with
  | nil => cases h
  | cons x l =>
    have gen : ∀ (l : List ι) (x : ι),
        l.foldl (fun best b => if key b < key best then b else best) x ∈ x :: l ∧
        ∀ b ∈ x :: l, key (l.foldl (fun best b => if key b < key best then b else best) x) ≤ key b := by
      intro l
      induction l with
      | nil => intro x; simp
      | cons y l ih =>
        intro x
        rw [List.foldl_cons]
        by_cases hy : key y < key x
        · rw [if_pos hy]
          obtain ⟨h1, h2⟩ := ih y
          refine ⟨List.mem_cons_of_mem _ h1, fun b hb => ?_⟩
          rcases List.mem_cons.1 hb with rfl | hb
          · exact le_trans (h2 y (by simp)) (le_of_lt hy)
          · exact h2 b hb
        · rw [if_neg hy]
          obtain ⟨h1, h2⟩ := ih x
          refine ⟨?_, fun b hb => ?_⟩
          · rcases List.mem_cons.1 h1 with h1 | h1
            · rw [h1]; simp
            · simp [h1]
          · rcases List.mem_cons.1 hb with rfl | hb
            · exact h2 b (by simp)
            · rcases List.mem_cons.1 hb with rfl | hb
              · exact le_trans (h2 x (by simp)) (le_of_not_gt hy)
              · exact h2 b (by simp [hb])
    cases h
    exact gen l x

theorem pyMaxBy_spec {key : ι → κ} {l : List ι} {a : ι} (h : pyMaxBy key l = some a) :
    a ∈ l ∧ ∀ b ∈ l, key b ≤ key a := by
  cases l with
  | nil => cases h
  | cons x l =>
    have gen : ∀ (l : List ι) (x : ι),
        l.foldl (fun best b => if key best < key b then b else best) x ∈ x :: l ∧
        ∀ b ∈ x :: l, key b ≤ key (l.foldl (fun best b => if key best < key b then b else best) x) := by
      intro l
      induction l with
      | nil => intro x; simp
      | cons y l ih =>
        intro x
        rw [List.foldl_cons]
        by_cases hy : key x < key y
        · rw [if_pos hy]
          obtain ⟨h1, h2⟩ := ih y
          refine ⟨List.mem_cons_of_mem _ h1, fun b hb => ?_⟩
          rcases List.mem_cons.1 hb with rfl | hb
          · exact le_trans (le_of_lt hy) (h2 y (by simp))
          · exact h2 b hb
        · rw [if_neg hy]
          obtain ⟨h1, h2⟩ := ih x
          refine ⟨?_, fun b hb => ?_⟩
          · rcases List.mem_cons.1 h1 with h1 | h1
            · rw [h1]; simp
            · simp [h1]
          · rcases List.mem_cons.1 hb with rfl | hb
            · exact h2 b (by simp)
            · rcases List.mem_cons.1 hb with rfl | hb
              · exact le_trans (le_of_not_gt hy) (h2 x (by simp))
              · exact h2 b (by simp [hb])
    cases h
    exact gen l x

theorem pyMinBy_isSome {key : ι → κ} {l : List ι} (h : l ≠ []) : ∃ a, pyMinBy key l = some a := by
  cases l with
  | nil => exact absurd rfl h
  | cons x l => exact ⟨_, rfl⟩

theorem pyMaxBy_isSome {key : ι → κ} {l : List ι} (h : l ≠ []) : ∃ a, pyMaxBy key l = some a := by
  cases l with
  | nil => exact absurd rfl h
  | cons x l => exact ⟨_, rfl⟩

/-- `min` returns the first of the smallest elements. -/
theorem pyMinBy_first {key : ι → κ} {l : List ι} {a : ι} (h : pyMinBy key l = some a) :
    ∃ p s, l = p ++ a :: s ∧ (∀ b ∈ p, key a < key b) ∧ ∀ b ∈ s, key a ≤ key b := by
  cases l with
  | nil => cases h
  | cons x l =>
    have gen : ∀ (l : List ι) (x : ι) (p : List ι), (∀ b ∈ p, key x < key b) → ∀ t : List ι, (∀ b ∈ t, key x ≤ key b) →
        ∃ q s, p ++ x :: t ++ l = q ++ l.foldl (fun best b => if key b < key best then b else best) x :: s ∧
          (∀ b ∈ q, key (l.foldl (fun best b => if key b < key best then b else best) x) < key b) ∧
          ∀ b ∈ s, key (l.foldl (fun best b => if key b < key best then b else best) x) ≤ key b := by
      intro l
      induction l with
      | nil => exact fun x p hp t ht => ⟨p, t, by simp, hp, ht⟩
      | cons y l ih =>
        intro x p hp t ht
        rw [List.foldl_cons]
        by_cases hxy : key y < key x
        · rw [if_pos hxy]
          obtain ⟨q, s, e, h1, h2⟩ := ih y (p ++ x :: t) (by
            intro b hb
            rcases List.mem_append.1 hb with hb | hb
            · exact lt_trans hxy (hp b hb)
            · rcases List.mem_cons.1 hb with rfl | hb
              · exact hxy
              · exact lt_of_lt_of_le hxy (ht b hb)) [] (by simp)
          exact ⟨q, s, by rw [← e]; simp, h1, h2⟩
        · rw [if_neg hxy]
          obtain ⟨q, s, e, h1, h2⟩ := ih x p hp (t ++ [y]) (by
            intro b hb
            rcases List.mem_append.1 hb with hb | hb
            · exact ht b hb
            · rw [List.mem_singleton.1 hb]; exact le_of_not_gt hxy)
          exact ⟨q, s, by rw [← e]; simp, h1, h2⟩
    unfold pyMinBy at h
    cases h
    obtain ⟨q, s, e, h1, h2⟩ := gen l x [] (by simp) [] (by simp)
    exact ⟨q, s, by simpa using e, h1, h2⟩

end Verif
