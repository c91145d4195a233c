import Mathlib.Data.Finset.Card
import Verif.Proofs.DBScan

/-
Counting the clusters of a labelling.
-/

namespace Verif

section
variable {α : Type} [LinearOrder α]

/-- Counting the clusters of a labelling by another description of its groups. -/
theorem labels_count_on {ids : List α} (hmn : ids.Nodup) (hne : ids ≠ []) {r : Dict α Int} (hk : dkeys r = ids.insertionSort (· ≤ ·))
    (hfo : FirstAppearanceOrder (dvals r)) {ι : Type} [DecidableEq ι] (f : α → ι)
    (hiff : ∀ x ∈ ids, ∀ y ∈ ids, (dget? r x = dget? r y ↔ f x = f y)) {I : List ι} (hI : I.Nodup)
    (hmem : ∀ e, e ∈ I ↔ ∃ x ∈ ids, f x = e) : LabelsAre (dvals r) I.length := by
  have hl := firstAppearance_labelsAre hfo
  obtain ⟨x0, -⟩ := List.exists_mem_of_ne_nil _ hne
  have : Nonempty α := ⟨x0⟩
  suffices hs : (dvals r).dedup.length = I.length by rw [hs] at hl; exact hl
  have hrn : (dkeys r).Nodup := by rw [hk]; exact (List.perm_insertionSort _ _).nodup_iff.2 hmn
  have hex : ∀ c ∈ (dvals r).dedup, ∃ x ∈ ids, dget? r x = some c := by
    intro c hc
    rw [List.mem_dedup] at hc
    obtain ⟨x, hx⟩ := (mem_dvals hrn).1 hc
    have := mem_dkeys_of_dget? hx
    rw [hk, List.mem_insertionSort] at this
    exact ⟨x, this, hx⟩
  have hval : ∀ x ∈ ids, ∃ c ∈ (dvals r).dedup, dget? r x = some c := by
    intro x hx
    obtain ⟨c, hc⟩ := dget?_isSome_of_mem (d := r) (k := x) (by rw [hk, List.mem_insertionSort]; exact hx)
    exact ⟨c, List.mem_dedup.2 ((mem_dvals hrn).2 ⟨x, hc⟩), hc⟩
  have e1 : (dvals r).dedup.toFinset.card = (dvals r).dedup.length := List.toFinset_card_of_nodup (List.nodup_dedup _)
  have e2 : I.toFinset.card = I.length := List.toFinset_card_of_nodup hI
  rw [← e1, ← e2]
  apply le_antisymm
  · choose! g hg1 hg2 using hex
    apply Finset.card_le_card_of_injOn (fun c => f (g c))
    · intro c hc
      have hc' := List.mem_toFinset.1 hc
      exact List.mem_toFinset.2 ((hmem _).2 ⟨g c, hg1 c hc', rfl⟩)
    · intro a ha b hb hab
      have ha' := List.mem_toFinset.1 ha
      have hb' := List.mem_toFinset.1 hb
      have := (hiff _ (hg1 a ha') _ (hg1 b hb')).2 hab
      rw [hg2 a ha', hg2 b hb'] at this
      exact Option.some.inj this
  · have hex2 : ∀ e ∈ I, ∃ c ∈ (dvals r).dedup, ∃ x ∈ ids, f x = e ∧ dget? r x = some c := by
      intro e he
      obtain ⟨x, hx, hxe⟩ := (hmem e).1 he
      obtain ⟨c, hc, hxc⟩ := hval x hx
      exact ⟨c, hc, x, hx, hxe, hxc⟩
    choose! g hg1 z hz1 hz2 hz3 using hex2
    apply Finset.card_le_card_of_injOn g
    · intro e he
      exact List.mem_toFinset.2 (hg1 e (List.mem_toFinset.1 he))
    · intro a ha b hb hab
      have ha' := List.mem_toFinset.1 ha
      have hb' := List.mem_toFinset.1 hb
      rw [← hz2 a ha', ← hz2 b hb']
      apply (hiff _ (hz1 a ha') _ (hz1 b hb')).1
      rw [hz3 a ha', hz3 b hb', hab]

end

end Verif
