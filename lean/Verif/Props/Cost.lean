import Verif.Spec.Cost
import Verif.Props.Sampling
import Verif.Proofs.Clustering

/-
Property C68: how many annotations complete constraints need. Specification vocabulary:
`Verif/Spec/Cost.lean`.
-/

namespace Verif

variable {α : Type} [LinearOrder α]

theorem mem_addedPairs {m : Manager α} {t : CType} {p : α × α} :
    p ∈ addedPairs m t ↔ p.1 ∈ m.managed ∧ p.2 ∈ m.managed ∧ p.1 < p.2 ∧ AddedAs m t p.1 p.2 := by
  unfold addedPairs
  rw [List.mem_filter]
  change p ∈ allPairs m ∧ _ ↔ _
  rw [mem_allPairs, Bool.and_eq_true, decide_eq_true_iff]
  constructor
  · rintro ⟨⟨h1, h2⟩, h3, h4⟩
    refine ⟨h1, h2, h3, ?_⟩
    split at h4
    · rename_i t' v hg
      rw [decide_eq_true_iff] at h4
      subst h4
      exact ⟨v, hg⟩
    · cases h4
  · rintro ⟨h1, h2, h3, v, h4⟩
    exact ⟨⟨h1, h2⟩, h3, by rw [h4]; simp⟩

theorem addedPairs_nodup {m : Manager α} (h : Inv m) (t : CType) : (addedPairs m t).Nodup :=
  (allPairs_nodup h).filter _

/-- Every list of edges has a labelling that is constant along its edges and loses at most one label
per edge. -/
theorem exists_merging (E : List (α × α)) (S : Finset α) :
    ∃ f : α → α, (∀ p ∈ E, f p.1 = f p.2) ∧ S.card ≤ (S.image f).card + E.length := by
  induction E with
  | nil => exact ⟨id, by simp, by simp⟩
  | cons e E ih =>
    obtain ⟨f, h1, h2⟩ := ih
    refine ⟨fun x => if f x = f e.2 then f e.1 else f x, ?_, ?_⟩
    · intro p hp
      rcases List.mem_cons.1 hp with rfl | hp
      · simp
      · simp only [h1 p hp]
    · have : S.image f ⊆ insert (f e.2) (S.image fun x => if f x = f e.2 then f e.1 else f x) := by
        intro a ha
        obtain ⟨x, hx, rfl⟩ := Finset.mem_image.1 ha
        by_cases hxe : f x = f e.2
        · rw [hxe]; exact Finset.mem_insert_self _ _
        · exact Finset.mem_insert_of_mem (Finset.mem_image.2 ⟨x, hx, if_neg hxe⟩)
      have := (Finset.card_le_card this).trans (Finset.card_insert_le _ _)
      rw [List.length_cons]
      omega

/-- Position of the component of an ID. -/
def compIdx (m : Manager α) (x : α) : Nat := m.components.findIdx fun c => decide (x ∈ c)

theorem compIdx_spec {m : Manager α} (h : Inv m) {x : α} (hx : x ∈ m.managed) :
    ∃ hlt : compIdx m x < m.components.length, x ∈ m.components[compIdx m x] := by
  obtain ⟨c, hc, hxc⟩ := exists_component h hx
  have hlt : compIdx m x < m.components.length := List.findIdx_lt_length_of_exists ⟨c, hc, by simpa using hxc⟩
  refine ⟨hlt, ?_⟩
  have := List.findIdx_getElem (w := hlt)
  exact of_decide_eq_true this

theorem compIdx_eq_iff {m : Manager α} (h : Inv m) {x y : α} (hx : x ∈ m.managed) (hy : y ∈ m.managed) :
    compIdx m x = compIdx m y ↔ MustLinked m x y := by
  obtain ⟨h1, h2⟩ := compIdx_spec h hx
  obtain ⟨h3, h4⟩ := compIdx_spec h hy
  constructor
  · intro he
    exact ((mem_component_iff h (List.getElem_mem h1) h2).2 y).1 (by simpa only [he] using h4)
  · intro hl
    have hyc := ((mem_component_iff h (List.getElem_mem h1) h2).2 y).2 hl
    have := component_unique h (List.getElem_mem h1) (List.getElem_mem h3) hyc h4
    exact (components_nodup m).getElem_inj_iff.1 this

theorem compIdx_surj {m : Manager α} (h : Inv m) {i : Nat} (hi : i < m.components.length) :
    ∃ x ∈ m.managed, compIdx m x = i := by
  have hc := List.getElem_mem hi
  obtain ⟨x, hx⟩ := List.exists_mem_of_ne_nil _ (component_ne_nil h hc)
  have hxm := (mem_component_iff h hc hx).1
  obtain ⟨h1, h2⟩ := compIdx_spec h hxm
  exact ⟨x, hxm, (components_nodup m).getElem_inj_iff.1 (component_unique h (List.getElem_mem h1) hc h2 hx)⟩

theorem components_card {m : Manager α} (h : Inv m) :
    (m.managed.toFinset.image (compIdx m)).card = m.components.length := by
  have : m.managed.toFinset.image (compIdx m) = Finset.range m.components.length := by
    ext i
    rw [Finset.mem_image, Finset.mem_range]
    constructor
    · rintro ⟨x, hx, rfl⟩
      exact (compIdx_spec h (List.mem_toFinset.1 hx)).1
    · intro hi
      obtain ⟨x, hx, e⟩ := compIdx_surj h hi
      exact ⟨x, List.mem_toFinset.2 hx, e⟩
  rw [this, Finset.card_range]

omit [LinearOrder α] in
theorem image_card_le {ι κ : Type} [DecidableEq ι] [DecidableEq κ] {S : Finset α} {f : α → ι} {g : α → κ}
    (h : ∀ x ∈ S, ∀ y ∈ S, f x = f y → g x = g y) : (S.image g).card ≤ (S.image f).card := by
  classical
  by_cases hS : S.Nonempty
  · obtain ⟨a, ha⟩ := hS
    have : S.image g ⊆ (S.image f).image fun i => if hi : ∃ x ∈ S, f x = i then g hi.choose else g a := by
      intro k hk
      obtain ⟨x, hx, rfl⟩ := Finset.mem_image.1 hk
      refine Finset.mem_image.2 ⟨f x, Finset.mem_image_of_mem f hx, ?_⟩
      have hi : ∃ y ∈ S, f y = f x := ⟨x, hx, rfl⟩
      rw [dif_pos hi]
      exact h _ hi.choose_spec.1 _ hx hi.choose_spec.2
    exact (Finset.card_le_card this).trans Finset.card_image_le
  · rw [Finset.not_nonempty_iff_eq_empty.1 hS]; simp

theorem managed_card {m : Manager α} (h : Inv m) : m.managed.toFinset.card = m.managed.length :=
  List.toFinset_card_of_nodup h.d.nodup

/-- Whatever the history, there are at least `n - k` added must-links between different IDs, for `n`
managed IDs in `k` components. -/
theorem C68_must_links_needed {m : Manager α} (hm : Reachable m) :
    m.managed.length ≤ (addedPairs m .mustLink).length + m.components.length := by
  have h := hm.inv
  obtain ⟨f, h1, h2⟩ := exists_merging (addedPairs m .mustLink) m.managed.toFinset
  rw [managed_card h] at h2
  have hedge : ∀ x y, AddedAs m .mustLink x y → f x = f y := by
    intro x y ha
    obtain ⟨hx, hy⟩ := AddedAs.mem h ha
    rcases lt_trichotomy x y with hlt | rfl | hlt
    · exact h1 (x, y) (mem_addedPairs.2 ⟨hx, hy, hlt, ha⟩)
    · rfl
    · exact (h1 (y, x) (mem_addedPairs.2 ⟨hy, hx, hlt, AddedAs.symm h _ _ ha⟩)).symm
  have hle : (m.managed.toFinset.image f).card ≤ (m.managed.toFinset.image (compIdx m)).card := by
    apply image_card_le
    intro x hx y hy he
    rw [List.mem_toFinset] at hx hy
    have hl := (compIdx_eq_iff h hx hy).1 he
    clear he hy
    induction hl with
    | refl => rfl
    | tail _ hb ih => exact ih.trans (hedge _ _ hb)
  rw [components_card h] at hle
  omega

/-- Complete constraints contain at least `k(k-1)/2` added cannot-links, for `k` components: one for
each two of them. -/
theorem C68_cannot_links_needed {m : Manager α} (hm : Reachable m) (hc : m.complete = true) :
    m.components.length * (m.components.length - 1) / 2 ≤ (addedPairs m .cannotLink).length := by
  have h := hm.inv
  have hcard := ordered_pairs_card (Finset.range m.components.length)
  rw [Finset.card_range] at hcard
  have hsub : ((Finset.range m.components.length ×ˢ Finset.range m.components.length).filter fun p => p.1 < p.2) ⊆
      (addedPairs m .cannotLink).toFinset.image fun p =>
        (min (compIdx m p.1) (compIdx m p.2), max (compIdx m p.1) (compIdx m p.2)) := by
    rintro ⟨i, j⟩ hp
    simp only [Finset.mem_filter, Finset.mem_product, Finset.mem_range] at hp
    obtain ⟨⟨hi, hj⟩, hlt⟩ := hp
    obtain ⟨x, hx, rfl⟩ := compIdx_surj h hi
    obtain ⟨y, hy, rfl⟩ := compIdx_surj h hj
    rcases (complete_iff h).1 hc x hx y hy with hl | ⟨u, v, hxu, huv, hvy⟩
    · rw [(compIdx_eq_iff h hx hy).2 hl] at hlt
      exact absurd hlt (lt_irrefl _)
    · obtain ⟨hu, hv⟩ := AddedAs.mem h huv
      have e1 : compIdx m u = compIdx m x := ((compIdx_eq_iff h hx hu).2 hxu).symm
      have e2 : compIdx m v = compIdx m y := (compIdx_eq_iff h hv hy).2 hvy
      rw [Finset.mem_image]
      rcases lt_trichotomy u v with huv' | rfl | huv'
      · refine ⟨(u, v), List.mem_toFinset.2 (mem_addedPairs.2 ⟨hu, hv, huv', huv⟩), ?_⟩
        simp only [e1, e2, min_eq_left hlt.le, max_eq_right hlt.le]
      · rw [← e1, ← e2] at hlt
        exact absurd hlt (lt_irrefl _)
      · refine ⟨(v, u), List.mem_toFinset.2 (mem_addedPairs.2 ⟨hv, hu, huv', AddedAs.symm h _ _ huv⟩), ?_⟩
        simp only [e1, e2, min_eq_right hlt.le, max_eq_left hlt.le]
  have := (Finset.card_le_card hsub).trans Finset.card_image_le
  rw [List.toFinset_card_of_nodup (addedPairs_nodup h _)] at this
  omega

/-- So an annotator who makes the constraints complete for a truth of `k` classes has answered at
least `(n - k) + k(k-1)/2` questions. -/
theorem C68_cost {m : Manager α} (hm : Reachable m) (hc : m.complete = true) {truth : α → Nat} (hs : Satisfies m truth) :
    (m.managed.length - (m.managed.toFinset.image truth).card) +
        (m.managed.toFinset.image truth).card * ((m.managed.toFinset.image truth).card - 1) / 2 ≤
      (addedPairs m .mustLink).length + (addedPairs m .cannotLink).length := by
  have h := hm.inv
  have hk : (m.managed.toFinset.image truth).card = m.components.length := by
    rw [← components_card h]
    apply le_antisymm
    · exact image_card_le fun x hx y hy he => satisfies_chain hs
        ((compIdx_eq_iff h (List.mem_toFinset.1 hx) (List.mem_toFinset.1 hy)).1 he)
    · refine image_card_le fun x hx y hy he => ?_
      rw [List.mem_toFinset] at hx hy
      rw [compIdx_eq_iff h hx hy]
      rcases (complete_iff h).1 hc x hx y hy with hl | hl
      · exact hl
      · exact absurd he (satisfies_sep hs hl)
  have h1 := C68_must_links_needed hm
  have h2 := C68_cannot_links_needed hm hc
  rw [hk]
  omega

theorem Economical.reachable {m : Manager α} (hm : Economical m) : Reachable m := by
  induction hm with
  | init ids => exact .init ids
  | @add m m' x y ty v r h hnew hc ih =>
    have h' := Reachable.call ih (.addConstraint x y ty v)
    simp only [Op.call, hc] at h'
    exact h'

omit [LinearOrder α] in
theorem image_card_lt {ι κ : Type} [DecidableEq ι] [DecidableEq κ] {S : Finset α} {f : α → ι} {g : α → κ}
    (h : ∀ x ∈ S, ∀ y ∈ S, f x = f y → g x = g y) {u v : α} (hu : u ∈ S) (hv : v ∈ S) (hf : f u ≠ f v) (hg : g u = g v) :
    (S.image g).card < (S.image f).card := by
  have h1 : S.image g ⊆ (S.filter fun x => f x ≠ f v).image g := by
    intro k hk
    obtain ⟨x, hx, rfl⟩ := Finset.mem_image.1 hk
    by_cases hxv : f x = f v
    · rw [h x hx v hv hxv, ← hg]
      exact Finset.mem_image_of_mem g (Finset.mem_filter.2 ⟨hu, hf⟩)
    · exact Finset.mem_image_of_mem g (Finset.mem_filter.2 ⟨hx, hxv⟩)
  have h2 : ((S.filter fun x => f x ≠ f v).image g).card ≤ ((S.filter fun x => f x ≠ f v).image f).card :=
    image_card_le fun x hx y hy => h x (Finset.mem_filter.1 hx).1 y (Finset.mem_filter.1 hy).1
  have h3 : (S.filter fun x => f x ≠ f v).image f ⊆ (S.image f).erase (f v) := by
    intro k hk
    obtain ⟨x, hx, rfl⟩ := Finset.mem_image.1 hk
    obtain ⟨hx, hxv⟩ := Finset.mem_filter.1 hx
    exact Finset.mem_erase.2 ⟨hxv, Finset.mem_image_of_mem f hx⟩
  have h4 := Finset.card_erase_lt_of_mem (Finset.mem_image_of_mem f hv)
  have := Finset.card_le_card h1
  have := Finset.card_le_card h3
  omega

/-- When every question was about a pair of unknown relation, the number of must-links is exactly
`n - k`: none of them is redundant. -/
theorem C68_economical {m : Manager α} (hm : Economical m) :
    (addedPairs m .mustLink).length + m.components.length = m.managed.length := by
  induction hm with
  | init ids =>
    have h1 := C68_must_links_needed (Reachable.init ids)
    have h := init_inv ids
    have h2 : (Manager.init ids).components.length ≤ (Manager.init ids).managed.length := by
      rw [← components_card h, ← managed_card h]; exact Finset.card_image_le
    have h3 : addedPairs (Manager.init ids) .mustLink = [] := by
      rw [List.eq_nil_iff_forall_not_mem]
      intro p hp
      obtain ⟨-, -, hlt, ha⟩ := mem_addedPairs.1 hp
      rw [addedAs_iff_known h, init_known] at ha
      split at ha
      · rename_i hc; rw [hc.1] at hlt; exact lt_irrefl _ hlt
      · cases ha
    rw [h3] at h1 ⊢
    rw [List.length_nil] at h1 ⊢
    omega
  | @add m m' x y ty v r hE hnew hc ih =>
    have hm := hE.reachable
    have hm' := (Economical.add hE hnew hc).reachable
    have h := hm.inv
    have h' := hm'.inv
    have hlow := C68_must_links_needed hm'
    obtain ⟨hx, hy⟩ := mem_of_getInferred h hnew
    obtain ⟨-, ⟨t, -, ht, -⟩, hman, hframe, -⟩ := C06_add_constraint_frame hm hc
    have hmono : ∀ a ∈ m.managed.toFinset, ∀ b ∈ m.managed.toFinset, compIdx m a = compIdx m b → compIdx m' a = compIdx m' b := by
      intro a ha b hb he
      rw [List.mem_toFinset] at ha hb
      rw [compIdx_eq_iff h' (hman ▸ ha) (hman ▸ hb), ← inferred_ml_iff h' (hman ▸ ha) (hman ▸ hb)]
      exact (C20_monotone hm).1 _ _ _ hc a b _ ((inferred_ml_iff h ha hb).2 ((compIdx_eq_iff h ha hb).1 he))
    have hk := components_card h
    have hk' := components_card h'
    rw [hman] at hk' hlow ⊢
    have hne : compIdx m x ≠ compIdx m y := fun he =>
      ((inferred_none_iff h hx hy).1 hnew).1 ((compIdx_eq_iff h hx hy).1 he)
    have hold : ∀ t' p, p ∈ addedPairs m' t' → ¬ (p = (x, y) ∨ p = (y, x)) → p ∈ addedPairs m t' := by
      intro t' p hp hno
      obtain ⟨h1, h2, h3, w, h4⟩ := mem_addedPairs.1 hp
      rw [hman] at h1 h2
      refine mem_addedPairs.2 ⟨h1, h2, h3, w, ?_⟩
      rw [← hframe p.1 p.2 (fun e => hno (.inl (Prod.ext e.1 e.2))) (fun e => hno (.inr (Prod.ext e.1 e.2)))]
      exact h4
    cases t with
    | mustLink =>
      have hlt : (m.managed.toFinset.image (compIdx m')).card < (m.managed.toFinset.image (compIdx m)).card :=
        image_card_lt hmono (List.mem_toFinset.2 hx) (List.mem_toFinset.2 hy) hne
          ((compIdx_eq_iff h' (hman ▸ hx) (hman ▸ hy)).2 (Chain.single ⟨1, ht⟩))
      have hpairs : (addedPairs m' .mustLink).length ≤ (addedPairs m .mustLink).length + 1 := by
        have : (addedPairs m' .mustLink).Subperm ((min x y, max x y) :: addedPairs m .mustLink) := by
          apply List.subperm_of_subset (addedPairs_nodup h' _)
          intro p hp
          by_cases hno : p = (x, y) ∨ p = (y, x)
          · have hlt := (mem_addedPairs.1 hp).2.2.1
            rcases hno with rfl | rfl
            · simp [min_eq_left hlt.le, max_eq_right hlt.le]
            · simp [min_eq_right hlt.le, max_eq_left hlt.le]
          · exact List.mem_cons_of_mem _ (hold _ p hp hno)
        exact this.length_le
      omega
    | cannotLink =>
      have hle : (m.managed.toFinset.image (compIdx m')).card ≤ (m.managed.toFinset.image (compIdx m)).card :=
        image_card_le hmono
      have hpairs : (addedPairs m' .mustLink).length ≤ (addedPairs m .mustLink).length := by
        apply (List.subperm_of_subset (addedPairs_nodup h' _) _).length_le
        intro p hp
        by_cases hno : p = (x, y) ∨ p = (y, x)
        · exfalso
          obtain ⟨-, -, -, ha⟩ := mem_addedPairs.1 hp
          have hxy : AddedAs m' .mustLink x y := by
            rcases hno with rfl | rfl
            · exact ha
            · exact AddedAs.symm h' _ _ ha
          obtain ⟨w, hw⟩ := hxy
          rw [ht] at hw
          cases hw
        · exact hold _ p hp hno
      omega

/-- Classes {1, 3}, {2, 5} and {9}: complete with 2 must-links and 3 cannot-links, which is the
minimum. -/
def costDemo : Manager Nat := runOps (Manager.init [3, 1, 2, 9, 5])
  [.addConstraint 1 3 "MUST_LINK" 1, .addConstraint 1 2 "CANNOT_LINK" 1, .addConstraint 9 3 "CANNOT_LINK" 1,
   .addConstraint 2 9 "CANNOT_LINK" 1, .addConstraint 5 2 "MUST_LINK" 1]

example : Reachable costDemo ∧ costDemo.complete = true ∧ addedPairs costDemo .mustLink = [(1, 3), (2, 5)] ∧
    addedPairs costDemo .cannotLink = [(3, 9), (1, 2), (2, 9)] ∧ costDemo.components.length = 3 :=
  ⟨⟨_, _, rfl⟩, by decide +kernel⟩

example : ∃ m : Manager Nat, Economical m ∧ m.managed = [3, 1, 2] ∧ addedPairs m .mustLink = [(1, 3)] :=
  ⟨resState (Manager.addConstraint 3 1 "MUST_LINK" 1 (Manager.init [3, 1, 2])),
    .add (.init [3, 1, 2]) (x := 3) (y := 1) (ty := "MUST_LINK") (v := 1) (r := true) (by decide +kernel) rfl,
    by decide +kernel⟩

/-! ### Each theorem applied to a concrete case -/

example : costDemo.managed.length ≤ (addedPairs costDemo .mustLink).length + costDemo.components.length :=
  C68_must_links_needed ⟨_, _, rfl⟩

example := C68_cannot_links_needed (m := costDemo) ⟨_, _, rfl⟩ (by decide +kernel)

theorem costDemo_truth : Satisfies costDemo fun x => if x = 1 ∨ x = 3 then 0 else if x = 9 then 2 else 1 :=
  satisfies_of_managed (Reachable.inv ⟨_, _, rfl⟩) (by decide +kernel)

example := C68_cost (m := costDemo) ⟨_, _, rfl⟩ (by decide +kernel) costDemo_truth

end Verif
