import Verif.Model.Rename
import Verif.Spec.Labels
import Verif.Proofs.Sampling

/-
Lemmas on `rename_clusters_by_order`.
-/

set_option linter.unusedSectionVars false

namespace Verif

/-! ### Facts on label lists -/

theorem FirstAppearanceOrder.prefix {p s : List Int} (h : FirstAppearanceOrder (p ++ s)) : FirstAppearanceOrder p := by
  intro p' c s' he
  exact h p' c (s' ++ s) (by rw [he]; simp)

theorem firstAppearanceOrder_append {p : List Int} {c : Int} :
    FirstAppearanceOrder (p ++ [c]) ↔
      FirstAppearanceOrder p ∧ (c ∈ p ∨ (0 ≤ c ∧ ∀ d, d ∈ p ↔ 0 ≤ d ∧ d < c)) := by
  constructor
  · intro h; exact ⟨h.prefix, h p c [] rfl⟩
  · rintro ⟨h1, h2⟩ p' c' s' he
    rcases List.eq_nil_or_concat s' with rfl | ⟨s, d, rfl⟩
    · obtain ⟨rfl, h⟩ := List.append_inj' he rfl
      cases h
      exact h2
    · have he' : p ++ [c] = (p' ++ c' :: s) ++ [d] := by rw [he]; simp
      obtain ⟨h3, -⟩ := List.append_inj' he' rfl
      exact h1 p' c' s h3

theorem FirstAppearanceOrder.labels {l : List Int} (h : FirstAppearanceOrder l) :
    ∃ k : Nat, k ≤ l.length ∧ LabelsAre l k := by
  induction l using List.reverseRecOn with
  | nil => exact ⟨0, by simp, fun d => by simp⟩
  | append_singleton l c ih =>
    obtain ⟨h1, h2⟩ := firstAppearanceOrder_append.1 h
    obtain ⟨k, hk, hl⟩ := ih h1
    rcases h2 with hc | ⟨h0, hc⟩
    · refine ⟨k, by simp; omega, fun d => ?_⟩
      rw [List.mem_append, List.mem_singleton, ← hl d]
      constructor
      · rintro (h | rfl)
        · exact h
        · exact hc
      · exact fun h => .inl h
    · have hck : c = (k : Int) := by
        have h1 := fun d => (hl d).symm.trans (hc d)
        have a := h1 c
        have f := h1 k
        omega
      subst hck
      refine ⟨k + 1, by simp; omega, fun d => ?_⟩
      rw [List.mem_append, List.mem_singleton, hl d]
      omega

/-- A numbering by order of first appearance is determined by the partition. -/
theorem firstAppearance_unique {ι : Type} {l : List ι} {f g : ι → Int} (hf : FirstAppearanceOrder (l.map f))
    (hg : FirstAppearanceOrder (l.map g)) (hfg : ∀ x ∈ l, ∀ y ∈ l, (f x = f y ↔ g x = g y)) :
    ∀ x ∈ l, f x = g x := by
  induction l using List.reverseRecOn with
  | nil => simp
  | append_singleton l a ih =>
    rw [List.map_append] at hf hg
    obtain ⟨f1, f2⟩ := firstAppearanceOrder_append.1 hf
    obtain ⟨g1, g2⟩ := firstAppearanceOrder_append.1 hg
    have ih' := ih f1 g1 (fun x hx y hy => hfg x (by simp [hx]) y (by simp [hy]))
    have key : f a = g a := by
      have memiff : f a ∈ l.map f ↔ g a ∈ l.map g := by
        simp only [List.mem_map]
        constructor
        · rintro ⟨x, hx, he⟩; exact ⟨x, hx, (hfg x (by simp [hx]) a (by simp)).1 he⟩
        · rintro ⟨x, hx, he⟩; exact ⟨x, hx, (hfg x (by simp [hx]) a (by simp)).2 he⟩
      by_cases hm : f a ∈ l.map f
      · obtain ⟨x, hx, he⟩ := List.mem_map.1 hm
        rw [← he, ih' x hx]
        exact (hfg x (by simp [hx]) a (by simp)).1 he
      · have hm' : g a ∉ l.map g := fun h => hm (memiff.2 h)
        obtain ⟨p0, p1⟩ := f2.resolve_left hm
        obtain ⟨q0, q1⟩ := g2.resolve_left hm'
        have he : l.map f = l.map g := List.map_congr_left ih'
        have h1 := fun d => (p1 d).symm.trans ((by rw [he] : d ∈ l.map f ↔ d ∈ l.map g).trans (q1 d))
        have a1 := h1 (f a)
        have a2 := h1 (g a)
        omega
    intro x hx
    rcases List.mem_append.1 hx with hx | hx
    · exact ih' x hx
    · rw [List.mem_singleton.1 hx]; exact key

/-! ### The loop -/

section
variable {α : Type} [LinearOrder α]

/-- The label of an ID. -/
def lab (clusters : Dict α Int) (x : α) : Int := (dget? clusters x).getD 0

theorem dget_lab {clusters : Dict α Int} {x : α} (hx : x ∈ dkeys clusters) : dget clusters x = .ok (lab clusters x) := by
  obtain ⟨v, hv⟩ := dget?_isSome_of_mem hx
  rw [dget_of_dget? hv, lab, hv]; rfl

theorem dget?_lab {clusters : Dict α Int} {x : α} (hx : x ∈ dkeys clusters) : dget? clusters x = some (lab clusters x) := by
  obtain ⟨v, hv⟩ := dget?_isSome_of_mem hx
  rw [lab, hv]; rfl

/-- Loop invariant after the IDs of `P`. -/
structure RenameInv (clusters : Dict α Int) (P : List α) (s : Dict Int Int × Int) : Prop where
  keys : ∀ c, c ∈ dkeys s.1 ↔ ∃ x ∈ P, lab clusters x = c
  range : ∀ c v, dget? s.1 c = some v → 0 ≤ v ∧ v < s.2
  inj : ∀ c c' v, dget? s.1 c = some v → dget? s.1 c' = some v → c = c'
  surj : ∀ d, 0 ≤ d → d < s.2 → ∃ c, dget? s.1 c = some d
  nonneg : 0 ≤ s.2
  order : FirstAppearanceOrder (P.map fun x => lab s.1 (lab clusters x))

theorem renameStep_inv {clusters : Dict α Int} {P : List α} {s : Dict Int Int × Int} (h : RenameInv clusters P s)
    {x : α} (hx : x ∈ dkeys clusters) :
    ∃ s', renameStep clusters s x = .ok s' ∧ RenameInv clusters (P ++ [x]) s' := by
  unfold renameStep
  rw [dget_lab hx]
  simp only [bind, Except.bind, pure, Except.pure]
  by_cases hc : lab clusters x ∉ dkeys s.1
  · rw [if_pos hc]
    refine ⟨_, rfl, ?_⟩
    have hne : ∀ y ∈ P, lab clusters y ≠ lab clusters x := by
      intro y hy he; exact hc ((h.keys _).2 ⟨y, hy, he⟩)
    have hnone : dget? s.1 (lab clusters x) = none := dget?_eq_none_iff.2 hc
    constructor
    · intro c
      rw [mem_dkeys_dset, h.keys]
      constructor
      · rintro (rfl | ⟨y, hy, he⟩)
        · exact ⟨x, by simp, rfl⟩
        · exact ⟨y, by simp [hy], he⟩
      · rintro ⟨y, hy, he⟩
        rcases List.mem_append.1 hy with hy | hy
        · exact .inr ⟨y, hy, he⟩
        · rw [List.mem_singleton.1 hy] at he; exact .inl he.symm
    · intro c v hv
      have := h.nonneg
      rw [dget?_dset] at hv
      split at hv
      · cases hv; simp only; omega
      · have := h.range c v hv
        simp only; omega
    · intro c c' v hv hv'
      rw [dget?_dset] at hv hv'
      split at hv <;> split at hv'
      · simp_all
      · cases hv
        have := h.range c' _ hv'
        omega
      · cases hv'
        have := h.range c _ hv
        omega
      · exact h.inj c c' v hv hv'
    · intro d h0 hd
      by_cases hds : d < s.2
      · obtain ⟨c, hc'⟩ := h.surj d h0 hds
        refine ⟨c, ?_⟩
        rw [dget?_dset, if_neg]
        · exact hc'
        · rintro rfl; rw [hnone] at hc'; cases hc'
      · refine ⟨lab clusters x, ?_⟩
        rw [dget?_dset, if_pos rfl]
        simp only at hd
        congr 1; omega
    · have := h.nonneg; simp only; omega
    · have hP : (P.map fun y => lab (dset s.1 (lab clusters x) s.2) (lab clusters y)) =
          P.map fun y => lab s.1 (lab clusters y) := by
        apply List.map_congr_left
        intro y hy
        rw [lab, dget?_dset, if_neg (fun he => hne y hy he.symm)]; rfl
      rw [List.map_append, List.map_singleton, firstAppearanceOrder_append, hP]
      refine ⟨h.order, .inr ?_⟩
      have hlab : lab (dset s.1 (lab clusters x) s.2) (lab clusters x) = s.2 := by
        rw [lab, dget?_dset, if_pos rfl]; rfl
      rw [hlab]
      refine ⟨h.nonneg, ?_⟩
      intro d
      rw [List.mem_map]
      constructor
      · rintro ⟨y, hy, rfl⟩
        exact h.range _ _ (dget?_lab ((h.keys _).2 ⟨y, hy, rfl⟩))
      · rintro ⟨h0, hd⟩
        obtain ⟨c, hc'⟩ := h.surj d h0 hd
        obtain ⟨y, hy, rfl⟩ := (h.keys c).1 (mem_dkeys_of_dget? hc')
        exact ⟨y, hy, by rw [lab, hc']; rfl⟩
  · rw [if_neg hc]
    refine ⟨_, rfl, ?_⟩
    have hc' : lab clusters x ∈ dkeys s.1 := not_not.1 hc
    obtain ⟨z, hz, hze⟩ := (h.keys _).1 hc'
    refine ⟨?_, h.range, h.inj, h.surj, h.nonneg, ?_⟩
    · intro c
      rw [h.keys]
      constructor
      · rintro ⟨y, hy, he⟩; exact ⟨y, by simp [hy], he⟩
      · rintro ⟨y, hy, he⟩
        rcases List.mem_append.1 hy with hy | hy
        · exact ⟨y, hy, he⟩
        · rw [List.mem_singleton.1 hy] at he; exact ⟨z, hz, hze.trans he⟩
    · rw [List.map_append, List.map_singleton, firstAppearanceOrder_append]
      exact ⟨h.order, .inl (List.mem_map.2 ⟨z, hz, by rw [hze]⟩)⟩

theorem rename_loop {clusters : Dict α Int} {P Q : List α} {s : Dict Int Int × Int} (h : RenameInv clusters P s)
    (hQ : ∀ x ∈ Q, x ∈ dkeys clusters) :
    ∃ s', Q.foldlM (renameStep clusters) s = .ok s' ∧ RenameInv clusters (P ++ Q) s' := by
  induction Q generalizing P s with
  | nil => exact ⟨s, rfl, by simpa using h⟩
  | cons x Q ih =>
    obtain ⟨s1, h1, h2⟩ := renameStep_inv h (hQ x (by simp))
    obtain ⟨s2, h3, h4⟩ := ih h2 (fun y hy => hQ y (by simp [hy]))
    refine ⟨s2, ?_, by simpa using h4⟩
    rw [List.foldlM_cons, h1]
    exact h3

/-- Everything about the result. -/
theorem rename_ok {clusters : Dict α Int} (hn : (dkeys clusters).Nodup) :
    ∃ r, renameClusters clusters = .ok r ∧ dkeys r = (dkeys clusters).insertionSort (· ≤ ·) ∧
      SamePartition (dkeys clusters) clusters r ∧ FirstAppearanceOrder (dvals r) := by
  have hmem : ∀ x, x ∈ (dkeys clusters).insertionSort (· ≤ ·) ↔ x ∈ dkeys clusters := fun x =>
    List.mem_insertionSort _
  have hsn : ((dkeys clusters).insertionSort (· ≤ ·)).Nodup := (List.perm_insertionSort _ _).nodup_iff.2 hn
  obtain ⟨s, h1, h2⟩ := rename_loop (clusters := clusters) (P := []) (Q := (dkeys clusters).insertionSort (· ≤ ·))
    (s := ([], 0)) ⟨by simp, by simp [dget?], by simp [dget?], fun d h0 hd => by simp at hd; omega, by simp, by
      intro p c s he; simp at he⟩ (fun x hx => (hmem x).1 hx)
  rw [List.nil_append] at h2
  have hget : ∀ x ∈ (dkeys clusters).insertionSort (· ≤ ·),
      dget s.1 (lab clusters x) = .ok (lab s.1 (lab clusters x)) := fun x hx => dget_lab ((h2.keys _).2 ⟨x, hx, rfl⟩)
  have hmap : (((dkeys clusters).insertionSort (· ≤ ·)).mapM fun x => do
        return (x, ← dget s.1 (← dget clusters x)) : Except PyErr (List (α × Int))) =
      .ok (((dkeys clusters).insertionSort (· ≤ ·)).map fun x => (x, lab s.1 (lab clusters x))) := by
    rw [mapM_ok_iff, List.forall₂_map_right_iff, List.forall₂_same]
    intro x hx
    rw [dget_lab ((hmem x).1 hx)]
    show (do return (x, ← dget s.1 (lab clusters x)) : Except PyErr (α × Int)) = _
    rw [hget x hx]; rfl
  refine ⟨dofList (((dkeys clusters).insertionSort (· ≤ ·)).map fun x => (x, lab s.1 (lab clusters x))), ?_, ?_, ?_, ?_⟩
  · unfold renameClusters
    show ((((dkeys clusters).insertionSort (· ≤ ·)).foldlM (renameStep clusters) ([], 0)) >>= fun s => _) = _
    rw [h1]
    show ((((dkeys clusters).insertionSort (· ≤ ·)).mapM fun x => do
        return (x, ← dget s.1 (← dget clusters x)) : Except PyErr (List (α × Int))) >>= fun items => .ok (dofList items)) = _
    rw [hmap]; rfl
  · rw [dkeys_dofList_map, ounion_nil_of_nodup hsn]
  · intro x hx y hy
    rw [dget?_dofList_map, dget?_dofList_map, if_pos ((hmem x).2 hx), if_pos ((hmem y).2 hy), dget?_lab hx, dget?_lab hy]
    simp only [Option.some.injEq]
    constructor
    · intro h; rw [h]
    · intro h
      refine h2.inj _ _ (lab s.1 (lab clusters x)) ?_ ?_
      · exact dget?_lab ((h2.keys _).2 ⟨x, (hmem x).2 hx, rfl⟩)
      · rw [h]; exact dget?_lab ((h2.keys _).2 ⟨y, (hmem y).2 hy, rfl⟩)
  · have : dvals (dofList (((dkeys clusters).insertionSort (· ≤ ·)).map fun x => (x, lab s.1 (lab clusters x)))) =
        ((dkeys clusters).insertionSort (· ≤ ·)).map fun x => lab s.1 (lab clusters x) := by
      rw [dofList_of_nodup (by simpa [Function.comp_def] using hsn)]
      simp [dvals]
    rw [this]
    exact h2.order

end

end Verif
