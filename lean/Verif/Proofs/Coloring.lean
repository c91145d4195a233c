import Mathlib.Data.List.Perm.Subperm
import Mathlib.Data.List.Induction
import Mathlib.Data.List.Dedup
import Mathlib.Data.Finset.Card
import Mathlib.Order.Nat
import Verif.Model.Bounds
import Verif.Proofs.Calls

/-
Greedy colouring is proper and bounded, for every visiting order.
-/

set_option linter.unusedSectionVars false

namespace Verif

theorem exists_notMem_range (l : List Nat) : ∃ c, c < l.length + 1 ∧ c ∉ l := by
  by_contra hc
  push Not at hc
  have hsub : List.range (l.length + 1) ⊆ l := fun c h => hc c (List.mem_range.1 h)
  have := (List.subperm_of_subset List.nodup_range hsub).length_le
  simp at this
  omega

theorem mex_spec (l : List Nat) : mex l ∉ l ∧ mex l ≤ l.length := by
  unfold mex
  cases h : (List.range (l.length + 1)).find? (fun c => decide (c ∉ l)) with
  | none =>
    obtain ⟨c, h1, h2⟩ := exists_notMem_range l
    have := List.find?_eq_none.1 h c (List.mem_range.2 h1)
    simp at this
    exact absurd this h2
  | some c =>
    have h1 := List.find?_some h
    have h2 := List.mem_of_find?_eq_some h
    simp only [decide_eq_true_eq] at h1
    exact ⟨h1, Nat.lt_succ_iff.1 (List.mem_range.1 h2)⟩

section
variable {ν : Type} [DecidableEq ν]

/-- Properties of `greedy_color` on a duplicate-free order. -/
structure GreedyOK (adj : ν → ν → Bool) (order : List ν) (C : Dict ν Nat) : Prop where
  keys : dkeys C = order
  proper : ∀ u v cu cv, u ≠ v → adj u v = true → dget? C u = some cu → dget? C v = some cv → cu ≠ cv
  bound : ∀ u cu, dget? C u = some cu → cu ≤ ((order.filter (· ≠ u)).filter fun v => adj u v).length

theorem greedyColor_ok (adj : ν → ν → Bool) (hsym : ∀ u v, adj u v = adj v u) (order : List ν)
    (hn : order.Nodup) : GreedyOK adj order (greedyColor adj order) := by
  induction order using List.reverseRecOn with
  | nil => exact ⟨rfl, by simp [greedyColor, dget?], by simp [greedyColor, dget?]⟩
  | append_singleton order u ih =>
    rw [List.nodup_append] at hn
    obtain ⟨h1, -, h3⟩ := hn
    have hu : u ∉ order := fun hm => h3 u hm u (by simp) rfl
    have ih := ih h1
    have e : greedyColor adj (order ++ [u]) = greedyStep adj (greedyColor adj order) u := by
      simp [greedyColor]
    rw [e]
    set C := greedyColor adj order with hC
    have huC : u ∉ dkeys C := by rw [ih.keys]; exact hu
    set cols := (C.filter fun p => adj u p.1).map Prod.snd with hcols
    have hmex := mex_spec cols
    have hget : ∀ v, dget? (greedyStep adj C u) v = if v = u then some (mex cols) else dget? C v := by
      intro v
      unfold greedyStep
      rw [dget?_dset]
      by_cases hvu : v = u
      · subst hvu; simp [hcols]
      · simp [hvu, Ne.symm hvu]
    have hnd : (dkeys C).Nodup := by rw [ih.keys]; exact h1
    have hmemcols : ∀ v cv, adj u v = true → dget? C v = some cv → cv ∈ cols := by
      intro v cv ha hv
      rw [hcols, List.mem_map]
      exact ⟨(v, cv), List.mem_filter.2 ⟨mem_of_dget? hv, ha⟩, rfl⟩
    have hlen : cols.length ≤ (order.filter fun v => adj u v).length := by
      rw [hcols, List.length_map, ← ih.keys, dkeys, List.filter_map, List.length_map]
      exact le_of_eq (by congr)
    refine ⟨?_, ?_, ?_⟩
    · unfold greedyStep
      rw [dkeys_dset, if_neg huC, ih.keys]
    · intro a b ca cb hab hadj ha hb
      rw [hget] at ha hb
      by_cases hau : a = u
      · rw [if_pos hau] at ha
        rw [if_neg (fun hb' => hab (hau.trans hb'.symm))] at hb
        cases ha
        rintro rfl
        exact hmex.1 (hmemcols b _ (hau ▸ hadj) hb)
      · rw [if_neg hau] at ha
        by_cases hbu : b = u
        · rw [if_pos hbu] at hb
          cases hb
          rintro rfl
          exact hmex.1 (hmemcols a _ (by rw [hsym, ← hbu]; exact hadj) ha)
        · rw [if_neg hbu] at hb
          exact ih.proper a b ca cb hab hadj ha hb
    · intro a ca ha
      rw [hget] at ha
      rw [List.filter_append, List.filter_append, List.length_append]
      by_cases hau : a = u
      · rw [if_pos hau] at ha
        cases ha
        have : order.filter (fun x => decide (x ≠ a)) = order := by
          rw [List.filter_eq_self]
          intro x hx
          simp only [ne_eq, decide_eq_true_eq]
          rintro rfl
          exact hu (hau ▸ hx)
        rw [this, hau]
        exact le_trans hmex.2 (le_trans hlen (Nat.le_add_right _ _))
      · rw [if_neg hau] at ha
        exact le_trans (ih.bound a ca ha) (Nat.le_add_right _ _)

end

theorem foldl_max_spec (l : List Nat) (x : Nat) :
    x ≤ l.foldl max x ∧ (∀ y ∈ l, y ≤ l.foldl max x) ∧ (l.foldl max x = x ∨ l.foldl max x ∈ l) := by
  induction l generalizing x with
  | nil => simp
  | cons a l ih =>
    obtain ⟨h1, h2, h3⟩ := ih (max x a)
    simp only [List.foldl_cons]
    refine ⟨le_trans (le_max_left _ _) h1, ?_, ?_⟩
    · intro y hy
      rcases List.mem_cons.1 hy with rfl | hy
      · exact le_trans (le_max_right _ _) h1
      · exact h2 y hy
    · rcases h3 with h3 | h3
      · rw [h3]
        rcases max_choice x a with h | h
        · left; exact h
        · right; rw [h]; simp
      · right; exact List.mem_cons_of_mem _ h3

theorem pyMax_spec {l : List Nat} (hl : l ≠ []) :
    ∃ M, pyMax l = .ok M ∧ M ∈ l ∧ ∀ y ∈ l, y ≤ M := by
  cases l with
  | nil => exact absurd rfl hl
  | cons x xs =>
    obtain ⟨h1, h2, h3⟩ := foldl_max_spec xs x
    refine ⟨_, rfl, ?_, ?_⟩
    · rcases h3 with h3 | h3
      · rw [h3]; simp
      · exact List.mem_cons_of_mem _ h3
    · intro y hy
      rcases List.mem_cons.1 hy with rfl | hy
      · exact h1
      · exact h2 y hy

theorem mapM_ok {β γ : Type} {l : List β} {f : β → Except PyErr γ} {g : β → γ}
    (h : ∀ x ∈ l, f x = .ok (g x)) : l.mapM f = .ok (l.map g) := by
  induction l with
  | nil => rfl
  | cons a l ih =>
    rw [List.mapM_cons, h a (by simp), ih (fun x hx => h x (by simp [hx]))]
    rfl

end Verif
