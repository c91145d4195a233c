import Mathlib.Order.MinMax
import Verif.Spec.Clustering
import Verif.Proofs.Rename
import Verif.Proofs.Calls

/-
Lemmas shared by the clustering algorithms.
-/

set_option linter.unusedSectionVars false

namespace Verif

variable {α V δ : Type} [LinearOrder α] [LinearOrder δ]

theorem min?_spec {l : List δ} {a : δ} (h : l.min? = some a) : a ∈ l ∧ ∀ b ∈ l, a ≤ b := by
  cases l with
  | nil => cases h
  | cons x l =>
    rw [List.min?_cons'] at h
    have key : ∀ (l : List δ) (x : δ), l.foldl min x ∈ x :: l ∧ ∀ b ∈ x :: l, l.foldl min x ≤ b := by
      intro l
      induction l with
      | nil => intro x; simp
      | cons y l ih =>
        intro x
        obtain ⟨h1, h2⟩ := ih (min x y)
        rw [List.foldl_cons]
        refine ⟨?_, ?_⟩
        · rcases List.mem_cons.1 h1 with h1 | h1
          · rw [h1]
            rcases min_choice x y with h | h <;> rw [h] <;> simp
          · simp [h1]
        · have h3 := h2 (min x y) (by simp)
          intro b hb
          rcases List.mem_cons.1 hb with rfl | hb
          · exact h3.trans (min_le_left _ _)
          · rcases List.mem_cons.1 hb with rfl | hb
            · exact h3.trans (min_le_right _ _)
            · exact h2 b (by simp [hb])
    cases h
    exact key l x

theorem max?_spec {l : List δ} {a : δ} (h : l.max? = some a) : a ∈ l ∧ ∀ b ∈ l, b ≤ a := by
  cases l with
  | nil => cases h
  | cons x l =>
    rw [List.max?_cons'] at h
    have key : ∀ (l : List δ) (x : δ), l.foldl max x ∈ x :: l ∧ ∀ b ∈ x :: l, b ≤ l.foldl max x := by
      intro l
      induction l with
      | nil => intro x; simp
      | cons y l ih =>
        intro x
        obtain ⟨h1, h2⟩ := ih (max x y)
        rw [List.foldl_cons]
        refine ⟨?_, ?_⟩
        · rcases List.mem_cons.1 h1 with h1 | h1
          · rw [h1]
            rcases max_choice x y with h | h <;> rw [h] <;> simp
          · simp [h1]
        · have h3 := h2 (max x y) (by simp)
          intro b hb
          rcases List.mem_cons.1 hb with rfl | hb
          · exact (le_max_left _ _).trans h3
          · rcases List.mem_cons.1 hb with rfl | hb
            · exact (le_max_right _ _).trans h3
            · exact h2 b (by simp [hb])
    cases h
    exact key l x

/-- An entry of a comprehension is one of its items. -/
theorem mem_of_dget?_dofList {κ ν : Type} [DecidableEq κ] {l : List (κ × ν)} {k : κ} {v : ν}
    (h : dget? (dofList l) k = some v) : (k, v) ∈ l := by
  have key : ∀ (l : List (κ × ν)) (d : Dict κ ν), dget? (l.foldl (fun d p => dset d p.1 p.2) d) k = some v →
      (k, v) ∈ l ∨ dget? d k = some v := by
    intro l
    induction l with
    | nil => intro d h; exact .inr h
    | cons p l ih =>
      intro d h
      rcases ih _ h with h1 | h1
      · exact .inl (by simp [h1])
      · rw [dget?_dset] at h1
        split at h1
        · rename_i hk
          cases h1
          exact .inl (by simp [← hk])
        · exact .inr h1
  rcases key l [] h with h1 | h1
  · exact h1
  · simp [dget?] at h1

theorem isCL_eq {m : Manager α} (h : Inv m) {x y : α} (hx : x ∈ m.managed) (hy : y ∈ m.managed) :
    ∃ o, m.getInferred x y = .ok o ∧ (o = some .cannotLink ↔ CannotLinked m x y) ∧ (o = some .mustLink ↔ MustLinked m x y) := by
  obtain ⟨r, h1, h2, h3⟩ := getInferred_spec h hx hy
  exact ⟨r, h1, h3, h2⟩

theorem mapM_dget {κ ν : Type} [DecidableEq κ] {d : Dict κ ν} {l : List κ} (h : ∀ x ∈ l, x ∈ dkeys d) :
    ∃ r, (l.mapM fun x => dget d x : Except PyErr (List ν)) = .ok r ∧ List.Forall₂ (fun x v => dget? d x = some v) l r := by
  obtain ⟨r, hr⟩ := mapM_total (f := fun x => dget d x) (l := l) (fun x hx => by
    obtain ⟨v, hv⟩ := dget?_isSome_of_mem (h x hx)
    exact ⟨v, dget_of_dget? hv⟩)
  refine ⟨r, hr, ?_⟩
  exact (mapM_ok_iff.1 hr).imp fun a b hab => dget_eq_ok.1 hab

theorem forall₂_mem_right {ι κ : Type} {R : ι → κ → Prop} {l : List ι} {r : List κ} (h : List.Forall₂ R l r) {b : κ} (hb : b ∈ r) :
    ∃ a ∈ l, R a b := by
  induction h with
  | nil => cases hb
  | cons h1 _ ih =>
    rcases List.mem_cons.1 hb with rfl | hb
    · exact ⟨_, by simp, h1⟩
    · obtain ⟨a, ha, hr⟩ := ih hb
      exact ⟨a, by simp [ha], hr⟩

theorem forall₂_mem_left {ι κ : Type} {R : ι → κ → Prop} {l : List ι} {r : List κ} (h : List.Forall₂ R l r) {a : ι} (ha : a ∈ l) :
    ∃ b ∈ r, R a b := by
  induction h with
  | nil => cases ha
  | cons h1 _ ih =>
    rcases List.mem_cons.1 ha with rfl | ha
    · exact ⟨_, by simp, h1⟩
    · obtain ⟨b, hb, hr⟩ := ih ha
      exact ⟨b, by simp [hb], hr⟩

theorem mem_dvals {κ ν : Type} [DecidableEq κ] {d : Dict κ ν} (hn : (dkeys d).Nodup) {v : ν} :
    v ∈ dvals d ↔ ∃ k, dget? d k = some v := by
  unfold dvals
  rw [List.mem_map]
  constructor
  · rintro ⟨⟨k, w⟩, h1, rfl⟩
    exact ⟨k, dget?_of_mem hn h1⟩
  · rintro ⟨k, h1⟩
    exact ⟨(k, v), mem_of_dget? h1, rfl⟩

theorem mem_of_getInferred {m : Manager α} (h : Inv m) {x y : α} {o : Option CType}
    (ho : m.getInferred x y = .ok o) : x ∈ m.managed ∧ y ∈ m.managed := by
  by_cases hx : x ∈ m.managed
  · by_cases hy : y ∈ m.managed
    · exact ⟨hx, hy⟩
    · rw [getInferred_err2 (by rw [h.t.keys]; exact hx) (by rw [h.t.keys]; exact hy)] at ho; cases ho
  · rw [getInferred_err1 (by rw [h.t.keys]; exact hx)] at ho; cases ho

theorem labelsRespect_iff {m : Manager α} (h : Inv m) {r : Dict α Int} :
    LabelsRespect m r ↔ (∀ x y, x ∈ m.managed → MustLinked m x y → dget? r x = dget? r y) ∧
      (∀ x y, CannotLinked m x y → dget? r x ≠ dget? r y) := by
  unfold LabelsRespect
  constructor
  · intro hr
    refine ⟨fun x y hx hl => (hr x y).1 ((inferred_ml_iff h hx (hl.mem h hx)).2 hl), fun x y hl => ?_⟩
    exact (hr x y).2 ((inferred_cl_iff h (hl.mem h).1 (hl.mem h).2).2 hl)
  · rintro ⟨h1, h2⟩ x y
    constructor
    · intro hl
      obtain ⟨hx, hy⟩ := mem_of_getInferred h hl
      exact h1 x y hx ((inferred_ml_iff h hx hy).1 hl)
    · intro hl
      obtain ⟨hx, hy⟩ := mem_of_getInferred h hl
      exact h2 x y ((inferred_cl_iff h hx hy).1 hl)

/-- Labels that are constant on the components: there are at most as many as components. -/
theorem labels_le_components {m : Manager α} (h : Inv m) {r : Dict α Int} (hn : (dkeys r).Nodup)
    (hk : ∀ x ∈ dkeys r, x ∈ m.managed)
    (hml : ∀ x y, x ∈ m.managed → MustLinked m x y → dget? r x = dget? r y) {k : Nat} (hl : LabelsAre (dvals r) k) :
    k ≤ m.components.length := by
  have hsub : (List.range k).map (fun (i : Nat) => some (i : Int)) ⊆
      m.components.map (fun c => (c.head?.bind fun x => dget? r x)) := by
    intro o ho
    obtain ⟨i, hi, rfl⟩ := List.mem_map.1 ho
    have : (i : Int) ∈ dvals r := (hl i).2 ⟨by omega, by have := List.mem_range.1 hi; omega⟩
    obtain ⟨x, hx⟩ := (mem_dvals hn).1 this
    have hxm := hk x (mem_dkeys_of_dget? hx)
    obtain ⟨c, hc, hxc⟩ := exists_component h hxm
    refine List.mem_map.2 ⟨c, hc, ?_⟩
    cases c with
    | nil => cases hxc
    | cons z c =>
      obtain ⟨hzm, hz⟩ := mem_component_iff h hc (List.mem_cons_self ..)
      show dget? r z = _
      rw [hml z x hzm ((hz x).1 hxc), hx]
  have hnd : ((List.range k).map (fun (i : Nat) => some (i : Int))).Nodup := by
    refine List.Nodup.map ?_ List.nodup_range
    intro a b hab
    simp only [Option.some.injEq] at hab
    omega
  have := (List.subperm_of_subset hnd hsub).length_le
  simpa using this

/-- The last step of the algorithms: renaming. -/
theorem rename_managed {m : Manager α} (h : Inv m) {new : Dict α Int} (hk : dkeys new = m.managed) :
    ∃ r, renameClusters new = .ok r ∧ dkeys r = m.managed.insertionSort (· ≤ ·) ∧ SamePartition m.managed new r ∧
      FirstAppearanceOrder (dvals r) ∧ ∃ k : Nat, k ≤ m.managed.length ∧ (m.managed ≠ [] → 1 ≤ k) ∧ LabelsAre (dvals r) k := by
  obtain ⟨r, h1, h2, h3, h4⟩ := rename_ok (clusters := new) (by rw [hk]; exact h.d.nodup)
  rw [hk] at h2 h3
  obtain ⟨k, hk1, hk2⟩ := h4.labels
  have hlen : (dvals r).length = m.managed.length := by
    have : (dkeys r).length = m.managed.length := by rw [h2, List.length_insertionSort]
    rw [← this]; simp [dkeys, dvals]
  refine ⟨r, h1, h2, h3, h4, k, by omega, ?_, hk2⟩
  intro hne
  by_contra hk0
  have hk0' : k = 0 := by omega
  subst hk0'
  have : dvals r = [] := by
    rw [List.eq_nil_iff_forall_not_mem]
    intro d hd
    have := (hk2 d).1 hd
    omega
  rw [this] at hlen
  exact hne (List.eq_nil_of_length_eq_zero hlen.symm)

theorem rename_respects {m : Manager α} (h : Inv m) {new r : Dict α Int}
    (hp : SamePartition m.managed new r) (hr : LabelsRespect m new) : LabelsRespect m r := by
  rw [labelsRespect_iff h] at hr ⊢
  refine ⟨fun x y hx hl => (hp x hx y (hl.mem h hx)).1 (hr.1 x y hx hl), fun x y hl he => ?_⟩
  exact hr.2 x y hl ((hp x (hl.mem h).1 y (hl.mem h).2).2 he)

theorem hasVectors_of_table {metric : V → V → δ} {m : Manager α} {vectors : Dict α V}
    {table : Dict α (Dict α δ)} (h : distanceTable m vectors metric = .ok table) : HasVectors m vectors := by
  intro x hx
  obtain ⟨d, -, vs, v, w, e, h1, -⟩ := distanceTable_ok h (p := (x, x)) hx hx
  cases e
  exact ⟨v, h1⟩

theorem nonempty_of_table {metric : V → V → δ} {m : Manager α} {vectors : Dict α V}
    {table : Dict α (Dict α δ)} (h : distanceTable m vectors metric = .ok table) : m.managed ≠ [] := by
  intro h0
  unfold distanceTable at h
  rw [h0] at h
  cases h

end Verif
