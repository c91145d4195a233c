import Verif.Proofs.Rename

/-
Property C30: `rename_clusters_by_order`. Specification vocabulary: `Verif/Spec/Labels.lean`.
-/

namespace Verif

variable {α : Type} [LinearOrder α]

/-- On every Python dictionary (distinct keys) the function succeeds; the keys are the same, in
sorted order; the partition is the same; the new labels are `0..k-1`, numbered by first
appearance along the sorted keys. -/
theorem C30_rename {clusters : Dict α Int} (hn : (dkeys clusters).Nodup) :
    ∃ r, renameClusters clusters = .ok r ∧
      (dkeys r).Perm (dkeys clusters) ∧ (dkeys r).Pairwise (· < ·) ∧
      SamePartition (dkeys clusters) clusters r ∧
      FirstAppearanceOrder (dvals r) ∧
      ∃ k : Nat, k ≤ clusters.length ∧ LabelsAre (dvals r) k := by
  obtain ⟨r, h1, h2, h3, h4⟩ := rename_ok hn
  have hperm : (dkeys r).Perm (dkeys clusters) := by rw [h2]; exact List.perm_insertionSort _ _
  obtain ⟨k, hk, hl⟩ := h4.labels
  refine ⟨r, h1, hperm, ?_, h3, h4, k, ?_, hl⟩
  · have hle : (dkeys r).Pairwise (· ≤ ·) := by rw [h2]; exact List.pairwise_insertionSort _ _
    have hnd : (dkeys r).Nodup := hperm.nodup_iff.2 hn
    exact hle.imp₂ (fun a b h1 h2 => lt_of_le_of_ne h1 h2) hnd
  · have := hperm.length_eq
    simp only [dkeys, dvals, List.length_map] at this hk
    omega

example : renameClusters [(5, 7), (2, -3), (4, 7), (1, 0), (3, -3)] = .ok [(1, 0), (2, 1), (3, 1), (4, 2), (5, 2)] ∧
    (dkeys [(5, (7 : Int)), (2, -3), (4, 7), (1, 0), (3, -3)]).Nodup := by decide +kernel

/-- The result depends only on the set of keys and the partition, not on the labels or on the
order of the dictionary. -/
theorem C30_depends_only_on_partition {c c' : Dict α Int} (hn : (dkeys c).Nodup) (hn' : (dkeys c').Nodup)
    (hk : ∀ x, x ∈ dkeys c ↔ x ∈ dkeys c') (hp : SamePartition (dkeys c) c c') :
    renameClusters c = renameClusters c' := by
  obtain ⟨r, h1, h2, h3, h4⟩ := rename_ok hn
  obtain ⟨r', h1', h2', h3', h4'⟩ := rename_ok hn'
  rw [h1, h1']
  have hperm : (dkeys c).Perm (dkeys c') := (List.perm_ext_iff_of_nodup hn hn').2 hk
  have hkeys : dkeys r = dkeys r' := by
    rw [h2, h2']
    exact List.Perm.eq_of_pairwise' ((List.pairwise_insertionSort _ _)) ((List.pairwise_insertionSort _ _))
      (((List.perm_insertionSort _ _).trans hperm).trans (List.perm_insertionSort _ _).symm)
  have hrn : (dkeys r).Nodup := by rw [h2]; exact (List.perm_insertionSort _ _).nodup_iff.2 hn
  have hmem : ∀ x, x ∈ dkeys r ↔ x ∈ dkeys c := fun x => by rw [h2]; exact List.mem_insertionSort _
  have hvals : ∀ d : Dict α Int, (dkeys d).Nodup → dvals d = (dkeys d).map (lab d) := by
    intro d hd
    unfold dvals dkeys
    rw [List.map_map]
    apply List.map_congr_left
    intro p hp
    show p.2 = lab d p.1
    rw [lab, dget?_of_mem hd hp]; rfl
  rw [hvals r hrn] at h4
  rw [hvals r' (hkeys ▸ hrn), ← hkeys] at h4'
  have huniq := firstAppearance_unique h4 h4' (by
    intro x hx y hy
    have hx' := (hmem x).1 hx
    have hy' := (hmem y).1 hy
    have e1 := (h3 x hx' y hy').symm.trans ((hp x hx' y hy').trans (h3' x ((hk x).1 hx') y ((hk y).1 hy')))
    rw [dget?_lab hx, dget?_lab hy, dget?_lab (hkeys ▸ hx), dget?_lab (hkeys ▸ hy)] at e1
    simpa using e1)
  congr 1
  apply dict_ext hrn hkeys
  intro x
  by_cases hx : x ∈ dkeys r
  · rw [dget?_lab hx, dget?_lab (hkeys ▸ hx), huniq x hx]
  · rw [dget?_eq_none_iff.2 hx, dget?_eq_none_iff.2 (hkeys ▸ hx)]

/-- Renaming a renamed clustering changes nothing. -/
theorem C30_idempotent {clusters r : Dict α Int} (hn : (dkeys clusters).Nodup) (hr : renameClusters clusters = .ok r) :
    renameClusters r = .ok r := by
  obtain ⟨r', h1, h2, h3, -⟩ := rename_ok hn
  rw [hr] at h1
  cases h1
  have hrn : (dkeys r).Nodup := by rw [h2]; exact (List.perm_insertionSort _ _).nodup_iff.2 hn
  rw [← hr]
  refine (C30_depends_only_on_partition hn hrn ?_ h3).symm
  intro x
  rw [h2]; exact (List.mem_insertionSort _).symm

example : renameClusters [(1, 0), (2, 1), (3, 1), (4, 2), (5, 2)] = .ok [(1, 0), (2, 1), (3, 1), (4, 2), (5, (2 : Int))] ∧
    renameClusters [(3, 9), (1, 4), (2, 9)] = renameClusters [(1, 0), (2, -1), (3, (-1 : Int))] := by decide +kernel

/-! ### Each theorem applied to a concrete case -/

example := C30_rename (clusters := [(5, 7), (2, -3), (4, 7), (1, 0), (3, -3)]) (by decide +kernel)

example := C30_depends_only_on_partition (c := [(3, 9), (1, 4), (2, 9)]) (c' := [(1, 0), (2, -1), (3, -1)]) (by decide +kernel)
  (by decide +kernel) (fun x => by simp only [dkeys, List.map_cons, List.map_nil, List.mem_cons, List.not_mem_nil, or_false]; omega)
  (by unfold SamePartition; decide +kernel)

example := C30_idempotent (clusters := [(5, 7), (2, -3), (4, 7), (1, 0), (3, -3)]) (r := [(1, 0), (2, 1), (3, 1), (4, 2), (5, 2)])
  (by decide +kernel) (by decide +kernel)

end Verif
