import Verif.Proofs.Clustering
import Verif.Proofs.Sampling
import Verif.Spec.DBScan

/-
Lemmas on C-DBScan.
-/

set_option linter.unusedSectionVars false

namespace Verif

variable {α V δ : Type} [LinearOrder α] [LinearOrder δ]

theorem filterM_spec {ι ε : Type} {f : ι → Except ε Bool} {P : ι → Prop} {l : List ι}
    (h : ∀ a ∈ l, ∃ b, f a = .ok b ∧ (b = true ↔ P a)) :
    ∃ r, l.filterM f = .ok r ∧ r.Sublist l ∧ ∀ a, a ∈ r ↔ a ∈ l ∧ P a := by
  obtain ⟨r, hr⟩ := filterM_total (f := f) (l := l) (fun a ha => by obtain ⟨b, hb, -⟩ := h a ha; exact ⟨b, hb⟩)
  obtain ⟨-, rfl⟩ := filterM_ok hr
  refine ⟨_, hr, List.filter_sublist, fun a => ?_⟩
  rw [List.mem_filter]
  refine and_congr_right fun ha => ?_
  obtain ⟨b, hb, hP⟩ := h a ha
  rw [hb]; exact hP

theorem forall₂_fst {ι κ : Type} {l : List ι} {r : List (ι × κ)} (h : List.Forall₂ (fun a b => b.1 = a) l r) :
    r.map Prod.fst = l := by
  induction h with
  | nil => rfl
  | cons h1 _ ih => simp [h1, ih]

/-- No cannot-link inside a list. -/
def NoCL (m : Manager α) (l : List α) : Prop := ∀ x ∈ l, ∀ y ∈ l, ¬ CannotLinked m x y

theorem NoCL.sub {m : Manager α} {l l' : List α} (h : NoCL m l) (hs : ∀ x ∈ l', x ∈ l) : NoCL m l' :=
  fun x hx y hy => h x (hs x hx) y (hs y hy)

/-- Distances are found in the table, and are small on the diagonal. -/
structure DbTable (p : DbParams δ) (m : Manager α) (table : Dict α (Dict α δ)) : Prop where
  total : ∀ x ∈ m.managed, ∀ y ∈ m.managed, ∃ d, pairDistance table (x, y) = .ok d
  self : ∀ x ∈ m.managed, ∀ d, pairDistance table (x, x) = .ok d → d ≤ p.eps

section
variable {env : DbEnv α V δ} {p : DbParams δ} {m : Manager α} {table : Dict α (Dict α δ)}

theorem dbConflict_ok (h : Inv m) {xs ys : List α} (hx : ∀ x ∈ xs, x ∈ m.managed) (hy : ∀ y ∈ ys, y ∈ m.managed) :
    ∃ b, dbConflict m xs ys = .ok b ∧ (b = true ↔ ∃ x ∈ xs, ∃ y ∈ ys, CannotLinked m x y) := by
  have hrow : ∀ x ∈ xs, ∃ row, (ys.filterM fun y => do return decide ((← m.getInferred x y) = some .cannotLink) :
      Except PyErr (List α)) = .ok row ∧ ∀ y, y ∈ row ↔ y ∈ ys ∧ CannotLinked m x y := by
    intro x hxs
    obtain ⟨row, h1, -, h2⟩ := filterM_spec (f := fun y => (do
      return decide ((← m.getInferred x y) = some .cannotLink) : Except PyErr Bool)) (P := fun y => CannotLinked m x y)
      (l := ys) (fun y hys => by
        obtain ⟨o, ho, ho2, -⟩ := isCL_eq h (hx x hxs) (hy y hys)
        exact ⟨decide (o = some .cannotLink), by rw [ho]; rfl, by simpa using ho2⟩)
    exact ⟨row, h1, h2⟩
  obtain ⟨rows, hrows⟩ := mapM_total (f := fun x => (ys.filterM fun y => do
    return decide ((← m.getInferred x y) = some .cannotLink) : Except PyErr (List α))) (l := xs)
    (fun x hxs => by obtain ⟨row, e, -⟩ := hrow x hxs; exact ⟨row, e⟩)
  have hF := mapM_ok_iff.1 hrows
  refine ⟨rows.any fun row => decide (row ≠ []), ?_, ?_⟩
  · unfold dbConflict; rw [hrows]; rfl
  · rw [List.any_eq_true]
    constructor
    · rintro ⟨row, hr, hne⟩
      obtain ⟨x, hxs, e⟩ := forall₂_mem_right hF hr
      obtain ⟨row', e', hmem⟩ := hrow x hxs
      rw [e] at e'; cases e'
      obtain ⟨y, hy'⟩ := List.exists_mem_of_ne_nil _ (of_decide_eq_true hne)
      exact ⟨x, hxs, y, ((hmem y).1 hy').1, ((hmem y).1 hy').2⟩
    · rintro ⟨x, hxs, y, hys, hcl⟩
      obtain ⟨row, hr, e⟩ := forall₂_mem_left hF hxs
      obtain ⟨row', e', hmem⟩ := hrow x hxs
      rw [e] at e'; cases e'
      refine ⟨row, hr, decide_eq_true ?_⟩
      rintro rfl
      exact absurd ((hmem y).2 ⟨hys, hcl⟩) List.not_mem_nil

theorem dbNeighbors_ok (hT : DbTable p m table) {labels : Dict α DLabel} (hl : dkeys labels = m.managed)
    (hn : m.managed.Nodup) {x : α} (hx : x ∈ m.managed) :
    ∃ r, dbNeighbors p table m.managed labels x = .ok r ∧ r.Nodup ∧ (∀ y ∈ r, y ∈ m.managed) ∧
      (dget? labels x ≠ some .singleCore → x ∈ r) ∧
      ∀ y, y ∈ r ↔ y ∈ m.managed ∧ dget? labels y ≠ some .singleCore ∧ ∃ d, pairDistance table (x, y) = .ok d ∧ d ≤ p.eps := by
  obtain ⟨possible, e1, hs1, hm1⟩ := filterM_spec (f := fun y => (do
      return decide ((← dget labels y) ≠ .singleCore) : Except PyErr Bool)) (P := fun y => dget? labels y ≠ some .singleCore)
      (l := m.managed) (fun y hy => by
        obtain ⟨v, hv⟩ := dget?_isSome_of_mem (d := labels) (k := y) (by rw [hl]; exact hy)
        exact ⟨decide (v ≠ .singleCore), by rw [dget_of_dget? hv]; rfl, by rw [hv]; simp⟩)
  obtain ⟨r, e2, hs2, hm2⟩ := filterM_spec (f := fun y => (do
      return decide ((← pairDistance table (x, y)) ≤ p.eps) : Except PyErr Bool))
      (P := fun y => ∀ d, pairDistance table (x, y) = .ok d → d ≤ p.eps)
      (l := possible) (fun y hy => by
        obtain ⟨d, hd⟩ := hT.total x hx y ((hm1 y).1 hy).1
        refine ⟨decide (d ≤ p.eps), by rw [hd]; rfl, ?_⟩
        rw [hd]
        simp only [decide_eq_true_eq, Except.ok.injEq, forall_eq'])
  refine ⟨r, ?_, (hs2.trans hs1).nodup hn, fun y hy => (hs2.trans hs1).subset hy, fun hx' => ?_, fun y => ?_⟩
  · unfold dbNeighbors; rw [e1]; exact e2
  · exact (hm2 x).2 ⟨(hm1 x).2 ⟨hx, hx'⟩, hT.self x hx⟩
  · rw [hm2, hm1, and_assoc]
    refine and_congr_right fun hy => and_congr_right fun _ => ?_
    obtain ⟨d, hd⟩ := hT.total x hx y hy
    rw [hd]
    simp

/-! ### Local clusters -/

def GoodPoints (m : Manager α) (c : α) (pts : List α) : Prop :=
  c ∈ pts ∧ (∀ x ∈ pts, x ∈ m.managed) ∧ NoCL m pts

structure LocInv (m : Manager α) (P : List α) (s : Dict α DLabel × Dict α (List α)) : Prop where
  keys : dkeys s.1 = m.managed
  nodup : (dkeys s.2).Nodup
  pts : ∀ c pts, dget? s.2 c = some pts → GoodPoints m c pts
  sc : ∀ x, dget? s.1 x = some .singleCore → x ∈ dkeys s.2
  done : ∀ x ∈ P, dget? s.1 x = some .noise ∨ x ∈ dkeys s.2

theorem dbLocal_single (h : Inv m) {P : List α} {s : Dict α DLabel × Dict α (List α)} (hs : LocInv m P s) {l : List α}
    (hl : ∀ x ∈ l, x ∈ m.managed) :
    LocInv m P (l.foldl (fun s y => (dset s.1 y .singleCore, dset s.2 y [y])) s) ∧
      ∀ x, x ∈ l ∨ x ∈ dkeys s.2 → x ∈ dkeys (l.foldl (fun s y => (dset s.1 y .singleCore, dset s.2 y [y])) s).2 := by
  induction l generalizing s with
  | nil => exact ⟨hs, by simp⟩
  | cons a l ih =>
    have ha := hl a (by simp)
    have hs' : LocInv m P (dset s.1 a .singleCore, dset s.2 a [a]) := by
      refine ⟨?_, nodup_dkeys_dset _ _ hs.nodup, ?_, ?_, ?_⟩
      · rw [dkeys_dset_of_mem _ (by rw [hs.keys]; exact ha)]; exact hs.keys
      · intro c pts hc
        simp only [dget?_dset] at hc
        split at hc
        · rename_i he
          subst he
          cases hc
          refine ⟨by simp, by simpa using ha, ?_⟩
          intro x hx y hy
          rw [List.mem_singleton] at hx hy
          rw [hx, hy]
          exact fun hcl => not_both h (MustLinked.refl m a) hcl
        · exact hs.pts c pts hc
      · intro x hx
        simp only [dget?_dset] at hx
        rw [mem_dkeys_dset]
        split at hx
        · rename_i he; exact .inl he.symm
        · exact .inr (hs.sc x hx)
      · intro x hx
        simp only [mem_dkeys_dset]
        by_cases hxa : x = a
        · exact .inr (.inl hxa)
        · rcases hs.done x hx with h1 | h1
          · left; rw [dget?_dset, if_neg (Ne.symm hxa)]; exact h1
          · exact .inr (.inr h1)
    obtain ⟨h1, h2⟩ := ih hs' (fun x hx => hl x (by simp [hx]))
    refine ⟨h1, fun x hx => h2 x ?_⟩
    simp only [mem_dkeys_dset]
    rcases hx with hx | hx
    · rcases List.mem_cons.1 hx with rfl | hx
      · exact .inr (.inl rfl)
      · exact .inl hx
    · exact .inr (.inr hx)

theorem dbLocalStep_ok (h : Inv m) (hT : DbTable p m table) {P : List α} {s : Dict α DLabel × Dict α (List α)}
    (hs : LocInv m P s) {x : α} (hx : x ∈ m.managed) :
    ∃ s', dbLocalStep p m table m.managed s x = .ok s' ∧ LocInv m (P ++ [x]) s' := by
  obtain ⟨v, hv⟩ := dget?_isSome_of_mem (d := s.1) (k := x) (by rw [hs.keys]; exact hx)
  have mono : ∀ {s' : Dict α DLabel × Dict α (List α)}, LocInv m P s' →
      (dget? s'.1 x = some .noise ∨ x ∈ dkeys s'.2) → LocInv m (P ++ [x]) s' := by
    intro s' hs' hx'
    refine { hs' with done := fun y hy => ?_ }
    rcases List.mem_append.1 hy with hy | hy
    · exact hs'.done y hy
    · rw [List.mem_singleton] at hy; subst hy; exact hx'
  unfold dbLocalStep
  rw [dget_of_dget? hv]
  simp only [bind, Except.bind]
  by_cases hsc : v = .singleCore
  · subst hsc
    rw [if_neg (by simp)]
    exact ⟨s, rfl, mono hs (.inr (hs.sc x hv))⟩
  · rw [if_pos (by simpa using hsc)]
    obtain ⟨r, e1, hrn, hrm, hrx, -⟩ := dbNeighbors_ok hT hs.keys h.d.nodup hx
    have hxr : x ∈ r := hrx (by rw [hv]; simpa using hsc)
    obtain ⟨b, e2, hb⟩ := dbConflict_ok h hrm hrm
    simp only [e1, e2]
    have hlab : ∀ (w : DLabel), dkeys (dset s.1 x w) = m.managed := fun w => by
      rw [dkeys_dset_of_mem _ (by rw [hs.keys]; exact hx)]; exact hs.keys
    by_cases hlen : r.length < p.minSamples
    · rw [if_pos hlen]
      refine ⟨_, rfl, mono ⟨hlab _, hs.nodup, hs.pts, ?_, ?_⟩ (.inl ?_)⟩
      · intro y hy
        simp only [dget?_dset] at hy
        split at hy
        · cases hy
        · exact hs.sc y hy
      · intro y hy
        simp only [dget?_dset]
        split
        · exact .inl rfl
        · exact hs.done y hy
      · simp only [dget?_dset, if_true]
    · rw [if_neg hlen]
      cases b with
      | true =>
        simp only [if_true]
        obtain ⟨h1, h2⟩ := dbLocal_single h hs hrm
        exact ⟨_, rfl, mono h1 (.inr (h2 x (.inl hxr)))⟩
      | false =>
        simp only [Bool.false_eq_true, if_false]
        refine ⟨_, rfl, mono ⟨hlab _, nodup_dkeys_dset _ _ hs.nodup, ?_, ?_, ?_⟩ (.inr ?_)⟩
        · intro c pts hc
          simp only [dget?_dset] at hc
          split at hc
          · rename_i he
            subst he
            cases hc
            refine ⟨hxr, hrm, fun y hy z hz hcl => ?_⟩
            exact absurd (hb.2 ⟨y, hy, z, hz, hcl⟩) (by simp)
          · exact hs.pts c pts hc
        · intro y hy
          simp only [dget?_dset] at hy
          rw [mem_dkeys_dset]
          split at hy
          · cases hy
          · exact .inr (hs.sc y hy)
        · intro y hy
          simp only [mem_dkeys_dset, dget?_dset]
          by_cases hyx : y = x
          · exact .inr (.inl hyx)
          · rw [if_neg (Ne.symm hyx)]
            rcases hs.done y hy with h1 | h1
            · exact .inl h1
            · exact .inr (.inr h1)
        · exact mem_dkeys_dset.2 (.inl rfl)

theorem dbLocals_ok (h : Inv m) (hT : DbTable p m table) :
    ∃ s, dbLocals p m table m.managed = .ok s ∧ LocInv m m.managed s := by
  have key : ∀ (Q P : List α) (s : Dict α DLabel × Dict α (List α)), (∀ x ∈ Q, x ∈ m.managed) → LocInv m P s →
      ∃ s', Q.foldlM (dbLocalStep p m table m.managed) s = .ok s' ∧ LocInv m (P ++ Q) s' := by
    intro Q
    induction Q with
    | nil => intro P s _ hs; exact ⟨s, rfl, by rw [List.append_nil]; exact hs⟩
    | cons x Q ih =>
      intro P s hQ hs
      obtain ⟨s1, e1, hs1⟩ := dbLocalStep_ok h hT hs (hQ x (by simp))
      obtain ⟨s2, e2, hs2⟩ := ih (P ++ [x]) s1 (fun y hy => hQ y (by simp [hy])) hs1
      refine ⟨s2, ?_, by rw [List.append_assoc] at hs2; exact hs2⟩
      rw [List.foldlM_cons, e1]; exact e2
  have h0 : LocInv m [] (dofList (m.managed.map fun x => (x, DLabel.unlabeled)), ([] : Dict α (List α))) := by
    refine ⟨?_, by simp, by simp [dget?], ?_, by simp⟩
    · show dkeys (dofList _) = _
      rw [dkeys_dofList_map]
      exact ounion_nil_of_nodup h.d.nodup
    · intro x hx
      simp only [dget?_dofList_map] at hx
      split at hx <;> cases hx
  obtain ⟨s, e, hs⟩ := key m.managed [] _ (fun _ hx => hx) h0
  exact ⟨s, e, hs⟩

/-! ### Core clusters -/

theorem foldlM_inv {ι σ ε : Type} {f : σ → ι → Except ε σ} {I : List ι → σ → Prop} {L : List ι}
    (step : ∀ P x s, (∃ Q, L = P ++ x :: Q) → I P s → ∃ s', f s x = .ok s' ∧ I (P ++ [x]) s') {s : σ} (h0 : I [] s) :
    ∃ s', L.foldlM f s = .ok s' ∧ I L s' := by
  have key : ∀ (Q P : List ι) (s : σ), L = P ++ Q → I P s → ∃ s', Q.foldlM f s = .ok s' ∧ I L s' := by
    intro Q
    induction Q with
    | nil => intro P s e hs; rw [List.append_nil] at e; subst e; exact ⟨s, rfl, hs⟩
    | cons x Q ih =>
      intro P s e hs
      obtain ⟨s1, e1, hs1⟩ := step P x s ⟨Q, e⟩ hs
      obtain ⟨s2, e2, hs2⟩ := ih (P ++ [x]) s1 (by rw [List.append_assoc]; exact e) hs1
      exact ⟨s2, by rw [List.foldlM_cons, e1]; exact e2, hs2⟩
  exact key L [] s rfl h0

theorem dbCompatible_ok (h : Inv m) : ∃ d, dbCompatible m m.managed = .ok d ∧
    ∀ x ∈ m.managed, ∃ ys, dget? d x = some ys ∧ ys.Sublist m.managed ∧ ∀ y, y ∈ ys ↔ y ∈ m.managed ∧ MustLinked m x y := by
  have hrow : ∀ x ∈ m.managed, ∃ ys, (m.managed.filterM fun y => do
      return decide ((← m.getInferred x y) = some .mustLink) : Except PyErr (List α)) = .ok ys ∧
      ys.Sublist m.managed ∧ ∀ y, y ∈ ys ↔ y ∈ m.managed ∧ MustLinked m x y := fun x hx =>
    filterM_spec (f := fun y => (do return decide ((← m.getInferred x y) = some .mustLink) : Except PyErr Bool))
      (P := fun y => MustLinked m x y) (fun y hy => by
        obtain ⟨o, ho, -, ho2⟩ := isCL_eq h hx hy
        exact ⟨decide (o = some .mustLink), by rw [ho]; rfl, by simpa using ho2⟩)
  obtain ⟨rows, hrows⟩ := mapM_total (f := fun x => (do
      return (x, ← m.managed.filterM fun y => do return decide ((← m.getInferred x y) = some .mustLink)) :
      Except PyErr (α × List α))) (l := m.managed) (fun x hx => by
        obtain ⟨ys, e, -⟩ := hrow x hx
        exact ⟨(x, ys), by rw [e]; rfl⟩)
  have hF := mapM_ok_iff.1 hrows
  have hfst : rows.map Prod.fst = m.managed := by
    have : List.Forall₂ (fun a (b : α × List α) => b.1 = a) m.managed rows := hF.imp fun a b hab => by
      cases e : (m.managed.filterM fun y => do
        return decide ((← m.getInferred a y) = some .mustLink) : Except PyErr (List α)) with
      | error e' => rw [e] at hab; cases hab
      | ok ys => rw [e] at hab; cases hab; rfl
    exact forall₂_fst this
  have hd : dofList rows = rows := dofList_of_nodup (by rw [hfst]; exact h.d.nodup)
  refine ⟨dofList rows, by unfold dbCompatible; rw [hrows]; rfl, fun x hx => ?_⟩
  obtain ⟨ys, e, hs, hm⟩ := hrow x hx
  obtain ⟨row, hr, e'⟩ := forall₂_mem_left hF hx
  rw [e] at e'
  cases e'
  refine ⟨ys, ?_, hs, hm⟩
  rw [hd]
  exact dget?_of_mem (by show (rows.map Prod.fst).Nodup; rw [hfst]; exact h.d.nodup) hr

/-- `pts` may be the core cluster of `x`. -/
def CoreOf (m : Manager α) (labels : Dict α DLabel) (locals : Dict α (List α)) (x : α) (pts : List α) : Prop :=
  ∃ own, ((dget? labels x = some .noise ∧ own = [x]) ∨ (dget? labels x ≠ some .noise ∧ dget? locals x = some own)) ∧
    ∀ z ∈ pts, z ∈ own ∨ (z ∈ m.managed ∧ MustLinked m x z)

theorem own_good (h : Inv m) {labels : Dict α DLabel} {locals : Dict α (List α)} {P : List α}
    (hL : LocInv m P (labels, locals)) {x : α} (hx : x ∈ m.managed) {own : List α}
    (ho : (dget? labels x = some .noise ∧ own = [x]) ∨ (dget? labels x ≠ some .noise ∧ dget? locals x = some own)) :
    GoodPoints m x own := by
  rcases ho with ⟨-, rfl⟩ | ⟨-, h1⟩
  · refine ⟨by simp, by simpa using hx, ?_⟩
    intro a ha b hb
    rw [List.mem_singleton] at ha hb
    rw [ha, hb]
    exact CannotLinked.irrefl h x
  · exact hL.pts x own h1

theorem CoreOf.good (h : Inv m) {labels : Dict α DLabel} {locals : Dict α (List α)} {P : List α}
    (hL : LocInv m P (labels, locals)) {x : α} (hx : x ∈ m.managed) {pts : List α} (hc : CoreOf m labels locals x pts) :
    (∀ z ∈ pts, z ∈ m.managed) ∧ NoCL m pts := by
  obtain ⟨own, ho, hz⟩ := hc
  obtain ⟨hxo, hom, hocl⟩ := own_good h hL hx ho
  refine ⟨fun z hzp => ?_, fun a ha b hb hcl => ?_⟩
  · rcases hz z hzp with h1 | h1
    · exact hom z h1
    · exact h1.1
  · -- replace the points that are must-linked to `x` by `x`
    have hrep : ∀ z ∈ pts, ∃ w ∈ own, MustLinked m w z := fun z hzp => by
      rcases hz z hzp with h1 | h1
      · exact ⟨z, h1, MustLinked.refl m z⟩
      · exact ⟨x, hxo, h1.2⟩
    obtain ⟨a', ha', hla⟩ := hrep a ha
    obtain ⟨b', hb', hlb⟩ := hrep b hb
    exact hocl a' ha' b' hb' (hcl.congr hla (hlb.symm h))

theorem dbTake_fold {c : α} {l : List α} {s : Dict α α × List α}
    (hl : ∀ z ∈ l, z ∈ dkeys s.1) :
    ∃ t, l.foldlM (dbTake env c) s = .ok t ∧ dkeys t.1 = dkeys s.1 ∧ ∀ z ∈ t.2, z ∈ s.2 ∨ z ∈ l := by
  induction l generalizing s with
  | nil => exact ⟨s, rfl, rfl, fun z hz => .inl hz⟩
  | cons a l ih =>
    obtain ⟨v, hv⟩ := dget?_isSome_of_mem (hl a (by simp))
    rw [List.foldlM_cons]
    unfold dbTake
    rw [dget_of_dget? hv]
    simp only [bind, Except.bind]
    by_cases hvn : v = env.none
    · rw [if_pos hvn]
      have hk : dkeys (dset s.1 a c) = dkeys s.1 := dkeys_dset_of_mem _ (hl a (by simp))
      obtain ⟨t, e, h1, h2⟩ := ih (s := (dset s.1 a c, s.2 ++ [a])) (fun z hz => by
        show z ∈ dkeys (dset s.1 a c)
        rw [hk]; exact hl z (by simp [hz]))
      refine ⟨t, e, h1.trans hk, fun z hz => ?_⟩
      rcases h2 z hz with h3 | h3
      · rcases List.mem_append.1 h3 with h4 | h4
        · exact .inl h4
        · rw [List.mem_singleton] at h4; exact .inr (by simp [h4])
      · exact .inr (by simp [h3])
    · rw [if_neg hvn]
      obtain ⟨t, e, h1, h2⟩ := ih (s := s) (fun z hz => hl z (by simp [hz]))
      refine ⟨t, e, h1, fun z hz => ?_⟩
      rcases h2 z hz with h3 | h3
      · exact .inl h3
      · exact .inr (by simp [h3])

structure CoreInv (m : Manager α) (labels : Dict α DLabel) (locals : Dict α (List α)) (s : Dict α α × Dict α (List α)) :
    Prop where
  akeys : dkeys s.1 = m.managed
  ckeys : dkeys s.2 = m.managed
  core : ∀ x pts, dget? s.2 x = some pts → CoreOf m labels locals x pts

theorem dbLinkStep_ok (henum : SetOrder env.enum) (h : Inv m) {labels : Dict α DLabel} {locals clustersOf : Dict α (List α)}
    (hL : LocInv m m.managed (labels, locals)) {x : α} (hx : x ∈ m.managed) {own : List α}
    (ho : (dget? labels x = some .noise ∧ own = [x]) ∨ (dget? labels x ≠ some .noise ∧ dget? locals x = some own))
    {s : Dict α α × Dict α (List α)} (hs : CoreInv m labels locals s) {y : α} (hy : y ∈ m.managed) (hxy : MustLinked m x y) :
    ∃ s', dbLinkStep env labels locals clustersOf x x own s y = .ok s' ∧ CoreInv m labels locals s' ∧
      (∀ c, c ≠ x → dget? s'.2 c = dget? s.2 c) ∧
      ∃ old new, dget? s.2 x = some old ∧ dget? s'.2 x = some new ∧ (∀ z ∈ old, z ∈ new) ∧ y ∈ new := by
  have hpart : ∃ o, dbPartner labels locals clustersOf y = .ok o ∧ ∀ others, o = some others → others = [y] := by
    unfold dbPartner
    obtain ⟨v, hv⟩ := dget?_isSome_of_mem (d := labels) (k := y) (by rw [hL.keys]; exact hy)
    rw [dget_of_dget? hv]
    simp only [bind, Except.bind]
    by_cases hvn : v = .noise
    · rw [if_pos hvn]; exact ⟨none, rfl, by simp⟩
    · rw [if_neg hvn]
      rcases hL.done y hy with h1 | h1
      · simp only [hv, Option.some.injEq] at h1; exact absurd h1 hvn
      · rw [if_pos h1]; exact ⟨some [y], rfl, by simp⟩
  obtain ⟨o, ep, hop⟩ := hpart
  have hg := own_good h hL hx ho
  have hall : ∀ z ∈ dbAll env own o, z ∈ own ∨ z = y := by
    intro z hz
    cases o with
    | none => exact .inl hz
    | some others =>
      have := hop others rfl
      subst this
      have := ((henum _).2 z).1 hz
      simpa using this
  obtain ⟨t, e, h1, h2⟩ := dbTake_fold (env := env) (c := x) (l := dbAll env own o) (s := (s.1, [])) (fun z hz => by
    show z ∈ dkeys s.1
    rw [hs.akeys]
    rcases hall z hz with h3 | rfl
    · exact hg.2.1 z h3
    · exact hy)
  obtain ⟨old, hold⟩ := dget?_isSome_of_mem (d := s.2) (k := x) (by rw [hs.ckeys]; exact hx)
  refine ⟨(t.1, dset s.2 x (env.enum (old ++ t.2 ++ [x, y]))), ?_, ⟨h1.trans hs.akeys, ?_, ?_⟩, fun c hc => ?_, old, env.enum (old ++ t.2 ++ [x, y]), hold, ?_, ?_, ?_⟩
  · unfold dbLinkStep
    rw [ep]
    simp only [bind, Except.bind]
    rw [e, dget_of_dget? hold]
    rfl
  · show dkeys (dset _ _ _) = _
    rw [dkeys_dset_of_mem _ (by rw [hs.ckeys]; exact hx)]; exact hs.ckeys
  · intro c pts hc
    simp only [dget?_dset] at hc
    split at hc
    · rename_i he
      subst he
      cases hc
      obtain ⟨own', ho', hz'⟩ := hs.core x old hold
      have heq : own' = own := by
        rcases ho with ⟨a, rfl⟩ | ⟨a, b⟩ <;> rcases ho' with ⟨a', rfl⟩ | ⟨a', b'⟩
        · rfl
        · exact absurd a a'
        · exact absurd a' a
        · rw [b] at b'; cases b'; rfl
      subst heq
      refine ⟨own', ho, fun z hz => ?_⟩
      have hz := ((henum _).2 z).1 hz
      simp only [List.mem_append, List.mem_cons, List.not_mem_nil, or_false] at hz
      have hfin : z ∈ own' ∨ z = y → z ∈ own' ∨ (z ∈ m.managed ∧ MustLinked m x z) := by
        rintro (h3 | rfl)
        · exact .inl h3
        · exact .inr ⟨hy, hxy⟩
      rcases hz with (h3 | h3) | h3 | h3
      · exact hz' z h3
      · rcases h2 z h3 with h4 | h4
        · exact absurd h4 List.not_mem_nil
        · exact hfin (hall z h4)
      · subst h3; exact .inl hg.1
      · exact hfin (.inr h3)
    · exact hs.core c pts hc
  · simp only [dget?_dset, if_neg (Ne.symm hc)]
  · simp only [dget?_dset, if_true]
  · intro z hz
    rw [(henum _).2 z]
    simp [hz]
  · rw [(henum _).2 y]
    simp

/-- `pts` contains every ID must-linked to `x`. -/
def Whole (m : Manager α) (x : α) (pts : List α) : Prop := ∀ y ∈ m.managed, MustLinked m x y → y ∈ pts

theorem dbMergeStep_ok (henum : SetOrder env.enum) (h : Inv m) {labels : Dict α DLabel}
    {locals clustersOf compatible : Dict α (List α)} (hL : LocInv m m.managed (labels, locals))
    (hc : ∀ x ∈ m.managed, ∃ ys, dget? compatible x = some ys ∧ ys.Sublist m.managed ∧
      ∀ y, y ∈ ys ↔ y ∈ m.managed ∧ MustLinked m x y) {x : α} (hx : x ∈ m.managed)
    {s : List α × Dict α α × Dict α (List α)} (hs : CoreInv m labels locals s.2) (ha : x ∉ s.1) :
    ∃ s', dbMergeStep env labels locals clustersOf compatible s x = .ok s' ∧ CoreInv m labels locals s'.2 ∧
      s'.1 = s.1 ++ [x] ∧ (∀ c, c ≠ x → dget? s'.2.2 c = dget? s.2.2 c) ∧ ∃ new, dget? s'.2.2 x = some new ∧ Whole m x new := by
  unfold dbMergeStep
  · rw [if_pos ha]
    obtain ⟨ys, hys, -, hmem⟩ := hc x hx
    rw [dget_of_dget? hys]
    simp only [bind, Except.bind]
    have hnil : ys ≠ [] := List.ne_nil_of_mem ((hmem x).2 ⟨hx, MustLinked.refl m x⟩)
    · rw [if_neg hnil]
      have hown : ∃ own, dbOwn labels locals clustersOf x = .ok (x, own) ∧
          ((dget? labels x = some .noise ∧ own = [x]) ∨ (dget? labels x ≠ some .noise ∧ dget? locals x = some own)) := by
        unfold dbOwn
        obtain ⟨v, hv⟩ := dget?_isSome_of_mem (d := labels) (k := x) (by rw [hL.keys]; exact hx)
        rw [dget_of_dget? hv]
        simp only [bind, Except.bind]
        by_cases hvn : v = .noise
        · rw [if_pos hvn]; exact ⟨[x], rfl, .inl ⟨by rw [hv, hvn], rfl⟩⟩
        · rw [if_neg hvn]
          rcases hL.done x hx with h1 | h1
          · simp only [hv, Option.some.injEq] at h1; exact absurd h1 hvn
          · rw [if_pos h1]
            obtain ⟨own, ho⟩ := dget?_isSome_of_mem h1
            rw [dget_of_dget? ho]
            exact ⟨own, rfl, .inr ⟨by rw [hv]; simpa using hvn, ho⟩⟩
      obtain ⟨own, e, ho⟩ := hown
      rw [e]
      simp only
      obtain ⟨old, hold⟩ := dget?_isSome_of_mem (d := s.2.2) (k := x) (by rw [hs.ckeys]; exact hx)
      obtain ⟨s', e', hs', hoth, new, hnew, hin⟩ := foldlM_inv (f := dbLinkStep env labels locals clustersOf x x own)
        (I := fun P t => CoreInv m labels locals t ∧ (∀ c, c ≠ x → dget? t.2 c = dget? s.2.2 c) ∧
          ∃ new, dget? t.2 x = some new ∧ ∀ z ∈ P, z ∈ new) (L := ys) (fun P y s hP hs => by
          obtain ⟨Q, e⟩ := hP
          obtain ⟨hs, hoth, new, hnew, hin⟩ := hs
          have hy := (hmem y).1 (by rw [e]; simp)
          obtain ⟨s', e', hs', hoth', old', new', ho1, ho2, ho3, ho4⟩ :=
            dbLinkStep_ok (clustersOf := clustersOf) henum h hL hx ho hs hy.1 hy.2
          rw [hnew] at ho1
          cases ho1
          refine ⟨s', e', hs', fun c hc => (hoth' c hc).trans (hoth c hc), new', ho2, fun z hz => ?_⟩
          rcases List.mem_append.1 hz with hz | hz
          · exact ho3 z (hin z hz)
          · rw [List.mem_singleton] at hz; rw [hz]; exact ho4)
        ⟨hs, fun _ _ => rfl, old, hold, by simp⟩
      rw [e']
      exact ⟨_, rfl, hs', rfl, hoth, new, hnew, fun y hy hxy => hin y ((hmem y).2 ⟨hy, hxy⟩)⟩

theorem mem_mid {ι : Type} {P Q : List ι} {x : ι} {L : List ι} (hn : L.Nodup) (e : L = P ++ x :: Q) : x ∈ L ∧ x ∉ P := by
  refine ⟨by rw [e]; simp, fun hx => ?_⟩
  rw [e, List.nodup_append] at hn
  exact hn.2.2 x hx x (by simp) rfl

theorem dbCores_ok (henum : SetOrder env.enum) (h : Inv m) {labels : Dict α DLabel} {locals : Dict α (List α)}
    (hL : LocInv m m.managed (labels, locals)) :
    ∃ core, dbCores env m m.managed labels locals = .ok core ∧ (dkeys core).Nodup ∧
      ∀ x pts, dget? core x = some pts → x ∈ m.managed ∧ CoreOf m labels locals x pts ∧ 2 ≤ pts.length ∧ Whole m x pts := by
  obtain ⟨compatible, ec, hc⟩ := dbCompatible_ok h
  have hn : m.managed.Nodup := h.d.nodup
  have h0 : CoreInv m labels locals (dofList (m.managed.map fun x => (x, env.none)),
      dofList (m.managed.map fun x => (x, ([] : List α)))) := by
    refine ⟨?_, ?_, ?_⟩
    · show dkeys (dofList _) = _
      rw [dkeys_dofList_map]
      exact ounion_nil_of_nodup hn
    · show dkeys (dofList _) = _
      rw [dkeys_dofList_map]
      exact ounion_nil_of_nodup hn
    · intro x pts hx
      simp only [dget?_dofList_map] at hx
      split at hx
      · rename_i hxm
        cases hx
        by_cases hnz : dget? labels x = some .noise
        · exact ⟨[x], .inl ⟨hnz, rfl⟩, by simp⟩
        · rcases hL.done x hxm with h1 | h1
          · exact absurd h1 hnz
          · obtain ⟨own, ho⟩ := dget?_isSome_of_mem h1
            exact ⟨own, .inr ⟨hnz, ho⟩, by simp⟩
      · cases hx
  obtain ⟨s, es, hs, -, hwhole⟩ := foldlM_inv (f := dbMergeStep env labels locals (dbClustersOf m.managed locals) compatible)
    (I := fun P s => CoreInv m labels locals s.2 ∧ s.1 = P ∧ ∀ x ∈ P, ∀ pts, dget? s.2.2 x = some pts → Whole m x pts)
    (L := m.managed) (fun P x s hP hs => by
      obtain ⟨Q, e⟩ := hP
      obtain ⟨hs, hsP, hw⟩ := hs
      obtain ⟨hx, hxP⟩ := mem_mid hn e
      obtain ⟨s', e', hs', h1, h2, new, h3, h4⟩ :=
        dbMergeStep_ok (clustersOf := dbClustersOf m.managed locals) henum h hL hc hx hs (by rw [hsP]; exact hxP)
      refine ⟨s', e', hs', by rw [h1, hsP], fun y hy pts hpts => ?_⟩
      by_cases hyx : y = x
      · subst hyx
        rw [h3] at hpts
        cases hpts
        exact h4
      · rw [h2 y hyx] at hpts
        rcases List.mem_append.1 hy with hy | hy
        · exact hw y hy pts hpts
        · rw [List.mem_singleton] at hy; exact absurd hy hyx)
    (s := ([], dofList (m.managed.map fun x => (x, env.none)), dofList (m.managed.map fun x => (x, ([] : List α)))))
    ⟨h0, rfl, by simp⟩
  obtain ⟨core, e1, ⟨hsub, hnd⟩, -⟩ := foldlM_inv (f := dbClean s.2.1)
    (I := fun P (core : Dict α (List α)) => ((∀ x pts, dget? core x = some pts → dget? s.2.2 x = some pts) ∧ (dkeys core).Nodup) ∧
      ∀ x ∈ m.managed, x ∉ P → x ∈ dkeys core) (L := m.managed) (s := s.2.2) (fun P x core hP hI => by
      obtain ⟨Q, e⟩ := hP
      obtain ⟨hx, hxP⟩ := mem_mid hn e
      obtain ⟨⟨hsub, hnd⟩, hk⟩ := hI
      obtain ⟨c, hc'⟩ := dget?_isSome_of_mem (hk x hx hxP)
      obtain ⟨a, ha⟩ := dget?_isSome_of_mem (d := s.2.1) (k := x) (by rw [hs.akeys]; exact hx)
      have hpop : ((∀ y pts, dget? (dpop core x) y = some pts → dget? s.2.2 y = some pts) ∧ (dkeys (dpop core x)).Nodup) ∧
          ∀ y ∈ m.managed, y ∉ P ++ [x] → y ∈ dkeys (dpop core x) := by
        refine ⟨⟨fun y pts hy => ?_, nodup_dkeys_dpop x hnd⟩, fun y hy hyP => ?_⟩
        · rw [dget?_dpop] at hy
          split at hy
          · cases hy
          · exact hsub y pts hy
        · rw [List.mem_append, not_or, List.mem_singleton] at hyP
          exact mem_dkeys_dpop.2 ⟨hk y hy hyP.1, hyP.2⟩
      have hkeep : ∀ y ∈ m.managed, y ∉ P ++ [x] → y ∈ dkeys core := fun y hy hyP => hk y hy fun hp => hyP (by simp [hp])
      unfold dbClean
      rw [dget_of_dget? hc', dget_of_dget? ha]
      simp only [bind, Except.bind]
      by_cases h1 : c = []
      · rw [if_pos h1]; exact ⟨_, rfl, hpop⟩
      · rw [if_neg h1]
        by_cases h2 : a ≠ x
        · rw [if_pos h2]; exact ⟨_, rfl, hpop⟩
        · rw [if_neg h2]; exact ⟨_, rfl, ⟨hsub, hnd⟩, hkeep⟩)
    ⟨⟨fun _ _ h => h, by rw [hs.ckeys]; exact hn⟩, fun x hx _ => by rw [hs.ckeys]; exact hx⟩
  obtain ⟨core', e2, hsub', hnd', hlen⟩ := foldlM_inv (f := dbCleanSingle)
    (I := fun P (core : Dict α (List α)) => (∀ x pts, dget? core x = some pts → dget? s.2.2 x = some pts) ∧ (dkeys core).Nodup ∧
      ∀ x ∈ P, ∀ pts, dget? core x = some pts → 2 ≤ pts.length) (L := m.managed) (s := core) (fun P x core hP hI => by
      obtain ⟨hsub, hnd, hk⟩ := hI
      unfold dbCleanSingle
      by_cases hx : x ∈ dkeys core
      · rw [if_pos hx]
        obtain ⟨c, hc'⟩ := dget?_isSome_of_mem hx
        rw [dget_of_dget? hc']
        simp only [bind, Except.bind]
        by_cases h1 : c.length < 2
        · rw [if_pos h1]
          refine ⟨_, rfl, fun y pts hy => ?_, nodup_dkeys_dpop x hnd, fun y hyP pts hy => ?_⟩
          · rw [dget?_dpop] at hy
            split at hy
            · cases hy
            · exact hsub y pts hy
          · rw [dget?_dpop] at hy
            split at hy
            · cases hy
            · rename_i hne
              rcases List.mem_append.1 hyP with h3 | h3
              · exact hk y h3 pts hy
              · rw [List.mem_singleton] at h3; exact absurd h3 hne
        · rw [if_neg h1]
          refine ⟨_, rfl, hsub, hnd, fun y hyP pts hy => ?_⟩
          rcases List.mem_append.1 hyP with h3 | h3
          · exact hk y h3 pts hy
          · rw [List.mem_singleton] at h3; subst h3
            rw [hc'] at hy; cases hy; omega
      · rw [if_neg hx]
        refine ⟨_, rfl, hsub, hnd, fun y hyP pts hy => ?_⟩
        rcases List.mem_append.1 hyP with h3 | h3
        · exact hk y h3 pts hy
        · rw [List.mem_singleton] at h3; subst h3
          exact absurd (mem_dkeys_of_dget? hy) hx)
    ⟨hsub, hnd, by simp⟩
  refine ⟨core', ?_, hnd', fun x pts hx => ?_⟩
  · unfold dbCores
    rw [ec]
    simp only [bind, Except.bind]
    rw [es]
    simp only
    rw [e1]
    exact e2
  · have h1 := hsub' x pts hx
    have hxm : x ∈ m.managed := by
      have := mem_dkeys_of_dget? h1
      rw [hs.ckeys] at this; exact this
    exact ⟨hxm, hs.core x pts h1, hlen x hxm pts hx, hwhole x hxm pts h1⟩

/-! ### Growing the core clusters -/

/-- The points of a cluster. -/
def Cluster (m : Manager α) (pts : List α) : Prop := pts ≠ [] ∧ (∀ x ∈ pts, x ∈ m.managed) ∧ NoCL m pts

/-- The local clusters left. -/
structure Locals (m : Manager α) (locals : Dict α (List α)) : Prop where
  nodup : (dkeys locals).Nodup
  pts : ∀ c pts, dget? locals c = some pts → Cluster m pts

theorem Locals.pop {locals : Dict α (List α)} (h : Locals m locals) (c : α) : Locals m (dpop locals c) := by
  refine ⟨nodup_dkeys_dpop c h.nodup, fun x pts hx => ?_⟩
  rw [dget?_dpop] at hx
  split at hx
  · cases hx
  · exact h.pts x pts hx

theorem dbDistances_ok (hT : DbTable p m table) {core : List α} (hc : Cluster m core) {locals : Dict α (List α)}
    (hl : Locals m locals) : ∃ d, dbDistances table core locals = .ok d ∧ dkeys d = dkeys locals := by
  have hrow : ∀ c ∈ locals, ∃ d, (do
      let ds ← (core.flatMap fun x => c.2.map fun y => (x, y)).mapM fun p => pairDistance table p
      return (c.1, ← dbMin ds) : Except PyErr (α × δ)) = .ok (c.1, d) := by
    intro c hcl
    have hg := hl.pts c.1 c.2 (dget?_of_mem hl.nodup hcl)
    obtain ⟨ds, e⟩ := mapM_total (f := fun p => pairDistance table p)
      (l := core.flatMap fun x => c.2.map fun y => (x, y)) (fun q hq => by
        obtain ⟨x, hx, hq⟩ := List.mem_flatMap.1 hq
        obtain ⟨y, hy, rfl⟩ := List.mem_map.1 hq
        exact hT.total x (hc.2.1 x hx) y (hg.2.1 y hy))
    have hne : ds ≠ [] := by
      rintro rfl
      obtain ⟨x, hx⟩ := List.exists_mem_of_ne_nil _ hc.1
      obtain ⟨y, hy⟩ := List.exists_mem_of_ne_nil _ hg.1
      obtain ⟨b, hb, -⟩ := forall₂_mem_left (mapM_ok_iff.1 e) (a := (x, y))
        (List.mem_flatMap.2 ⟨x, hx, List.mem_map.2 ⟨y, hy, rfl⟩⟩)
      exact absurd hb List.not_mem_nil
    rw [e]
    simp only [bind, Except.bind]
    unfold dbMin
    cases hmin : ds.min? with
    | none => rw [List.min?_eq_none_iff] at hmin; exact absurd hmin hne
    | some d => exact ⟨d, rfl⟩
  obtain ⟨rows, e⟩ := mapM_total (fun c hc => by obtain ⟨d, hd⟩ := hrow c hc; exact ⟨_, hd⟩)
  have hfst : rows.map Prod.fst = dkeys locals := by
    have hF := mapM_ok_iff.1 e
    have : List.Forall₂ (fun a (b : α × δ) => b.1 = a) (locals.map Prod.fst) rows := by
      rw [List.forall₂_map_left_iff]
      refine hF.imp fun a b hab => ?_
      cases e1 : (core.flatMap fun x => a.2.map fun y => (x, y)).mapM (fun p => pairDistance table p) with
      | error e' => rw [e1] at hab; cases hab
      | ok ds =>
        rw [e1] at hab
        simp only [bind, Except.bind] at hab
        cases e2 : dbMin ds with
        | error e' => rw [e2] at hab; cases hab
        | ok d => rw [e2] at hab; cases hab; rfl
    exact forall₂_fst this
  refine ⟨dofList rows, by unfold dbDistances; rw [e]; rfl, ?_⟩
  rw [dofList_of_nodup (by rw [hfst]; exact hl.nodup)]
  exact hfst

theorem dbGrow_ok (henum : SetOrder env.enum) (h : Inv m) (hT : DbTable p m table) {fuel : Nat} {core : List α}
    (hc : Cluster m core) {locals : Dict α (List α)} (hl : Locals m locals) (hf : locals.length ≤ fuel) :
    ∃ s, dbGrow env p m table fuel (core, locals) = .ok s ∧ Cluster m s.1 ∧ Locals m s.2 ∧ ∀ x ∈ core, x ∈ s.1 := by
  induction fuel generalizing core locals with
  | zero =>
    have : locals = [] := List.length_eq_zero_iff.1 (by omega)
    subst this
    exact ⟨_, rfl, hc, hl, fun _ h => h⟩
  | succ fuel ih =>
    unfold dbGrow
    by_cases hnil : locals ≠ []
    · simp only [if_pos hnil]
      obtain ⟨d, e, hk⟩ := dbDistances_ok hT hc hl
      simp only [e, bind, Except.bind]
      have hmin : ∃ c, dbClosest d = .ok c ∧ c ∈ dkeys locals := by
        unfold dbClosest
        cases hmin : (dkeys d).min? with
        | none =>
          rw [List.min?_eq_none_iff, hk] at hmin
          exact absurd (List.map_eq_nil_iff.1 hmin) hnil
        | some c => exact ⟨c, rfl, by rw [← hk]; exact (min?_spec hmin).1⟩
      obtain ⟨c, e1, hcm⟩ := hmin
      obtain ⟨dist, hdist⟩ := dget?_isSome_of_mem (d := d) (k := c) (by rw [hk]; exact hcm)
      obtain ⟨pts, hpts⟩ := dget?_isSome_of_mem hcm
      simp only [e1, dget_of_dget? hdist, dget_of_dget? hpts]
      have hg := hl.pts c pts hpts
      by_cases heps : p.eps < dist
      · rw [if_pos heps]; exact ⟨_, rfl, hc, hl, fun _ h => h⟩
      · rw [if_neg heps]
        obtain ⟨b, e2, hb⟩ := dbConflict_ok h hc.2.1 hg.2.1
        simp only [e2]
        cases b with
        | true => simp only [if_true]; exact ⟨_, rfl, hc, hl, fun _ h => h⟩
        | false =>
          simp only [Bool.false_eq_true, if_false]
          have hmem : ∀ z, z ∈ env.enum (core ++ pts) ↔ z ∈ core ∨ z ∈ pts := fun z => by
            rw [(henum _).2 z, List.mem_append]
          have hno : ∀ x ∈ core, ∀ y ∈ pts, ¬ CannotLinked m x y := fun x hx y hy hcl =>
            absurd (hb.2 ⟨x, hx, y, hy, hcl⟩) (by simp)
          have hc' : Cluster m (env.enum (core ++ pts)) := by
            refine ⟨?_, fun z hz => ?_, fun x hx y hy hcl => ?_⟩
            · obtain ⟨x, hx⟩ := List.exists_mem_of_ne_nil _ hc.1
              exact List.ne_nil_of_mem ((hmem x).2 (.inl hx))
            · rcases (hmem z).1 hz with h1 | h1
              · exact hc.2.1 z h1
              · exact hg.2.1 z h1
            · rcases (hmem x).1 hx with h1 | h1 <;> rcases (hmem y).1 hy with h2 | h2
              · exact hc.2.2 x h1 y h2 hcl
              · exact hno x h1 y h2 hcl
              · exact hno y h2 x h1 (hcl.symm h)
              · exact hg.2.2 x h1 y h2 hcl
          have hlen : (dpop locals c).length ≤ fuel := by
            have h1 : (dkeys (dpop locals c)).length < (dkeys locals).length := by
              rw [dkeys_dpop]
              exact List.length_filter_lt_length_iff_exists.2 ⟨c, hcm, by simp⟩
            simp only [dkeys, List.length_map] at h1
            omega
          obtain ⟨s, e3, h1, h2, h3⟩ := ih hc' (hl.pop c) hlen
          exact ⟨s, e3, h1, h2, fun x hx => h3 x ((hmem x).2 (.inl hx))⟩
    · rw [if_neg hnil]; exact ⟨_, rfl, hc, hl, fun _ h => h⟩

theorem dbMergeAll_ok (henum : SetOrder env.enum) (h : Inv m) (hT : DbTable p m table) {core locals : Dict α (List α)}
    (hn : (dkeys core).Nodup) (hc : ∀ x pts, dget? core x = some pts → Cluster m pts) (hl : Locals m locals) :
    ∃ s, dbMergeAll env p m table core locals = .ok s ∧ dkeys s.1 = dkeys core ∧
      (∀ x pts, dget? s.1 x = some pts → Cluster m pts) ∧ Locals m s.2 ∧
      ∀ x pts, dget? s.1 x = some pts → ∃ old, dget? core x = some old ∧ ∀ z ∈ old, z ∈ pts := by
  obtain ⟨s, e, h1, h2, h3⟩ := foldlM_inv (f := dbGrowStep env p m table)
    (I := fun _ (s : Dict α (List α) × Dict α (List α)) => dkeys s.1 = dkeys core ∧
      (∀ x pts, dget? s.1 x = some pts → Cluster m pts) ∧ Locals m s.2 ∧
      ∀ x pts, dget? s.1 x = some pts → ∃ old, dget? core x = some old ∧ ∀ z ∈ old, z ∈ pts) (L := dkeys core) (s := (core, locals))
    (fun P x s hP hI => by
      obtain ⟨Q, e⟩ := hP
      have hx := (mem_mid hn e).1
      obtain ⟨hk, hc, hl, hold⟩ := hI
      obtain ⟨c, hcx⟩ := dget?_isSome_of_mem (d := s.1) (k := x) (by rw [hk]; exact hx)
      obtain ⟨t, et, h1, h2, h3⟩ := dbGrow_ok henum h hT (hc x c hcx) hl (Nat.le_refl _)
      refine ⟨(dset s.1 x t.1, t.2), ?_, ?_, ?_, h2, ?_⟩
      · unfold dbGrowStep
        rw [dget_of_dget? hcx]
        simp only [bind, Except.bind]
        rw [et]; rfl
      · show dkeys (dset _ _ _) = _
        rw [dkeys_dset_of_mem _ (by rw [hk]; exact hx)]; exact hk
      · intro y pts hy
        simp only [dget?_dset] at hy
        split at hy
        · cases hy; exact h1
        · exact hc y pts hy
      · intro y pts hy
        simp only [dget?_dset] at hy
        split at hy
        · rename_i he
          subst he
          cases hy
          obtain ⟨old, ho, hz⟩ := hold x c hcx
          exact ⟨old, ho, fun z hzo => h3 z (hz z hzo)⟩
        · exact hold y pts hy)
    ⟨rfl, hc, hl, fun x pts hx => ⟨pts, hx, fun _ h => h⟩⟩
  exact ⟨s, e, h1, h2, h3⟩

/-! ### Final clusters -/

theorem dbRemove_fold {l r : List α} (h : l.Subperm r) : ∃ r', l.foldlM dbRemove r = .ok r' ∧ r'.Sublist r := by
  induction l generalizing r with
  | nil => exact ⟨r, rfl, List.Sublist.refl r⟩
  | cons a l ih =>
    have ha : a ∈ r := h.subset (by simp)
    have h' : l.Subperm (r.erase a) := by
      have := h.erase a
      rwa [List.erase_cons_head] at this
    obtain ⟨r', e, hs⟩ := ih h'
    refine ⟨r', ?_, hs.trans List.erase_sublist⟩
    rw [List.foldlM_cons]
    unfold dbRemove
    rw [if_pos ha]
    exact e

/-- Predictions, all labels below `c`. -/
structure FinInv (m : Manager α) (s : Dict α Int × Int) : Prop where
  nodup : (dkeys s.1).Nodup
  mem : ∀ x ∈ dkeys s.1, x ∈ m.managed
  lt : ∀ x c, dget? s.1 x = some c → c < s.2
  cl : ∀ x y c, dget? s.1 x = some c → dget? s.1 y = some c → ¬ CannotLinked m x y

theorem dget?_dbPredict (pts : List α) (c : Int) (d : Dict α Int) (x : α) :
    dget? (dbPredict pts c d) x = if x ∈ pts then some c else dget? d x := by
  unfold dbPredict
  induction pts generalizing d with
  | nil => simp
  | cons a pts ih =>
    rw [List.foldl_cons, ih, dget?_dset]
    by_cases h1 : x ∈ pts
    · rw [if_pos h1, if_pos (by simp [h1])]
    · rw [if_neg h1]
      by_cases h2 : a = x
      · rw [if_pos h2, if_pos (by simp [h2])]
      · rw [if_neg h2, if_neg (by simp [h1, Ne.symm h2])]

theorem nodup_dbPredict {pts : List α} {c : Int} {d : Dict α Int} (h : (dkeys d).Nodup) :
    (dkeys (dbPredict pts c d)).Nodup := by
  unfold dbPredict
  induction pts generalizing d with
  | nil => exact h
  | cons a pts ih => exact ih (nodup_dkeys_dset _ _ h)

theorem FinInv.predict {s : Dict α Int × Int} (hs : FinInv m s) {pts : List α} (hm : ∀ x ∈ pts, x ∈ m.managed)
    (hcl : NoCL m pts) : FinInv m (dbPredict pts s.2 s.1, s.2 + 1) := by
  refine ⟨nodup_dbPredict hs.nodup, fun x hx => ?_, fun x c hx => ?_, fun x y c hx hy => ?_⟩
  · obtain ⟨v, hv⟩ := dget?_isSome_of_mem hx
    simp only [dget?_dbPredict] at hv
    split at hv
    · rename_i h1; exact hm x h1
    · exact hs.mem x (mem_dkeys_of_dget? hv)
  · simp only [dget?_dbPredict] at hx
    split at hx
    · cases hx; show s.2 < s.2 + 1; omega
    · have := hs.lt x c hx; show c < s.2 + 1; omega
  · simp only [dget?_dbPredict] at hx hy
    split at hx <;> split at hy
    · rename_i h1 h2; exact hcl x h1 y h2
    · cases hx; exact absurd (hs.lt y _ hy) (by omega)
    · cases hy; exact absurd (hs.lt x _ hx) (by omega)
    · exact hs.cl x y c hx hy

theorem dbIgnore_fold {l : List α} (hn : l.Nodup) {d : Dict α Int} {n : Int} :
    l.foldl dbIgnore (d, n) =
      (d ++ (l.filter (· ∉ dkeys d)).zipIdx.map (fun q => (q.1, n - q.2)), n - (l.filter (· ∉ dkeys d)).length) := by
  induction l generalizing d n with
  | nil => simp
  | cons a l ih =>
    obtain ⟨hal, hn⟩ := List.nodup_cons.1 hn
    rw [List.foldl_cons]
    unfold dbIgnore
    by_cases ha : a ∉ dkeys d
    · simp only [if_pos ha]
      have hf : l.filter (fun x => decide (x ∉ dkeys (dset d a n))) = l.filter (fun x => decide (x ∉ dkeys d)) := by
        refine List.filter_congr fun x hx => ?_
        have : x ≠ a := fun he => hal (he ▸ hx)
        simp [mem_dkeys_dset, this]
      have := ih hn (d := dset d a n) (n := n - 1)
      unfold dbIgnore at this
      rw [this, hf, dset_of_notMem _ ha, List.filter_cons_of_pos (by simpa using ha)]
      rw [List.zipIdx_cons, List.map_cons, List.length_cons]
      refine Prod.ext ?_ ?_
      · show d ++ [(a, n)] ++ _ = _
        rw [List.append_assoc]
        congr 1
        show (a, n) :: _ = (a, n - ((0 : Nat) : Int)) :: _
        congr 1
        · simp
        · rw [List.zipIdx_succ, List.map_map]
          refine List.map_congr_left fun q _ => ?_
          simp only [Function.comp]
          congr 1
          push_cast
          omega
      · push_cast; omega
    · simp only [if_neg ha]
      have := ih hn (d := d) (n := n)
      unfold dbIgnore at this
      rw [this, List.filter_cons_of_neg (by simpa using ha)]

theorem firstAppearance_labelsAre {l : List Int} (h : FirstAppearanceOrder l) : LabelsAre l l.dedup.length := by
  obtain ⟨k, -, hk⟩ := h.labels
  have hp : l.dedup.Perm ((List.range k).map fun (i : Nat) => (i : Int)) := by
    have hn : ((List.range k).map fun (i : Nat) => (i : Int)).Nodup :=
      List.Nodup.map (fun a b h => Int.ofNat.inj h) List.nodup_range
    rw [List.perm_ext_iff_of_nodup (List.nodup_dedup l) hn]
    intro d
    rw [List.mem_dedup, hk d, List.mem_map]
    constructor
    · rintro ⟨h1, h2⟩
      exact ⟨d.toNat, List.mem_range.2 (by omega), by omega⟩
    · rintro ⟨i, hi, rfl⟩
      rw [List.mem_range] at hi
      omega
  rw [hp.length_eq, List.length_map, List.length_range]
  exact hk

theorem dget?_append (d d' : Dict α Int) (x : α) : dget? (d ++ d') x = (dget? d x).or (dget? d' x) := by
  induction d with
  | nil => simp [dget?]
  | cons q d ih =>
    obtain ⟨k, v⟩ := q
    rw [List.cons_append]
    simp only [dget?]
    by_cases h : k = x
    · simp [h]
    · simp only [if_neg h]; exact ih

theorem dbFinish_ok (h : Inv m) {labels : Dict α DLabel} {cores locals : Dict α (List α)}
    (hc : ∀ pts ∈ dvals cores, Cluster m pts) (hl : Locals m locals) :
    ∃ o d k j, dbFinish p m.managed labels cores locals = .ok o ∧ o.predicted = some d ∧ DbLabelling m d k j ∧
      o.regular = k ∧ o.single = j ∧ o.total = k + j ∧
      (∀ x y c, dget? d x = some c → dget? d y = some c → ¬ CannotLinked m x y) ∧ o.cores = cores := by
  have hs : FinInv m ((dvals cores).foldl dbFinalCore ([], 0)) := by
    have key : ∀ (l : List (List α)) s, (∀ pts ∈ l, Cluster m pts) → FinInv m s → FinInv m (l.foldl dbFinalCore s) := by
      intro l
      induction l with
      | nil => intro s _ hs; exact hs
      | cons a l ih =>
        intro s ha hs
        have := ha a (by simp)
        exact ih _ (fun pts hp => ha pts (by simp [hp])) (hs.predict this.2.1 this.2.2)
    exact key _ _ hc ⟨by simp, by simp, by simp [dget?], by simp [dget?]⟩
  obtain ⟨t, e, ⟨hk, hp⟩, ht⟩ := foldlM_inv (f := dbFinalLocal p)
    (I := fun _ (s : Dict α (List α) × Dict α Int × Int) => (dkeys s.1 = dkeys locals ∧
      ∀ c pts, dget? s.1 c = some pts → (∀ x ∈ pts, x ∈ m.managed) ∧ NoCL m pts) ∧ FinInv m s.2)
    (L := dkeys locals) (s := (locals, (dvals cores).foldl dbFinalCore ([], 0))) (fun P x s hP hI => by
      obtain ⟨Q, e⟩ := hP
      have hx := (mem_mid hl.nodup e).1
      obtain ⟨⟨hk, hp⟩, hf⟩ := hI
      obtain ⟨pts, hpts⟩ := dget?_isSome_of_mem (d := s.1) (k := x) (by rw [hk]; exact hx)
      obtain ⟨rest, er, hr⟩ := dbRemove_fold (l := pts.filter fun y => decide (y ∈ dkeys s.2.1)) (r := pts)
        List.filter_sublist.subperm
      have hg := hp x pts hpts
      have hrm : ∀ y ∈ rest, y ∈ m.managed := fun y hy => hg.1 y (hr.subset hy)
      have hrc : NoCL m rest := hg.2.sub fun y hy => hr.subset hy
      have hI' : dkeys (dset s.1 x rest) = dkeys locals ∧
          ∀ c pts, dget? (dset s.1 x rest) c = some pts → (∀ x ∈ pts, x ∈ m.managed) ∧ NoCL m pts := by
        refine ⟨?_, fun c pts hc => ?_⟩
        · rw [dkeys_dset_of_mem _ (by rw [hk]; exact hx)]; exact hk
        · rw [dget?_dset] at hc
          split at hc
          · cases hc; exact ⟨hrm, hrc⟩
          · exact hp c pts hc
      unfold dbFinalLocal
      rw [dget_of_dget? hpts]
      simp only [bind, Except.bind]
      rw [er]
      simp only
      by_cases hen : p.enough rest.length = true
      · rw [if_pos hen]; exact ⟨_, rfl, hI', hf.predict hrm hrc⟩
      · rw [if_neg hen]; exact ⟨_, rfl, hI', hf⟩)
    ⟨⟨rfl, fun c pts hc => (hl.pts c pts hc).2⟩, hs⟩
  obtain ⟨r, er, hrk, hrs, hrf⟩ := rename_ok ht.nodup
  have hrmem : ∀ x, x ∈ dkeys r ↔ x ∈ dkeys t.2.1 := fun x => by rw [hrk]; exact List.mem_insertionSort _
  have hrn : (dkeys r).Nodup := by rw [hrk]; exact (List.perm_insertionSort _ _).nodup_iff.2 ht.nodup
  have hn : m.managed.Nodup := h.d.nodup
  have hig := dbIgnore_fold hn (d := r) (n := -1)
  set ign := m.managed.filter (fun x => decide (x ∉ dkeys r)) with hign
  have hik : dkeys (ign.zipIdx.map fun q => (q.1, (-1 : Int) - q.2)) = ign := by
    simp only [dkeys, List.map_map]
    exact List.zipIdx_map_fst 0 ign
  have hiv : dvals (ign.zipIdx.map fun q => (q.1, (-1 : Int) - q.2)) = (List.range ign.length).map fun (i : Nat) => -(i : Int) - 1 := by
    rw [List.range_eq_range', ← List.zipIdx_map_snd 0 ign, dvals, List.map_map, List.map_map]
    refine List.map_congr_left fun q _ => ?_
    simp only [Function.comp]
    omega
  refine ⟨⟨some (r ++ ign.zipIdx.map fun q => (q.1, (-1 : Int) - q.2)), labels, t.1, cores, (dvals r).dedup.length, ign.length,
    (dvals r).dedup.length + ign.length⟩, _, (dvals r).dedup.length, ign.length, ?_, rfl, ⟨r, _, rfl, ?_, ?_, hrf,
      firstAppearance_labelsAre hrf, hik, hiv⟩, rfl, rfl, rfl, ?_, rfl⟩
  · unfold dbFinish
    simp only [bind, Except.bind]
    rw [e]
    simp only
    rw [er]
    simp only [hig]
    have : -((-1 : Int) - (ign.length : Int) + 1) = ign.length := by omega
    rw [this]
    rfl
  · rw [hrk]
    have h1 := List.pairwise_insertionSort (· ≤ ·) (dkeys t.2.1)
    have h2 : ((dkeys t.2.1).insertionSort (· ≤ ·)).Nodup := by rw [← hrk]; exact hrn
    exact (h1.and h2).imp fun ⟨a, b⟩ => lt_of_le_of_ne a b
  · intro x hx; exact ht.mem x ((hrmem x).1 hx)
  · intro x y c hx hy hcl
    have hI : ∀ z, dget? (ign.zipIdx.map fun q => (q.1, (-1 : Int) - q.2)) z = some c →
        ∃ i : Nat, c = -1 - (i : Int) ∧ ign[i]? = some z := by
      intro z hz
      obtain ⟨q, hq, e⟩ := List.mem_map.1 (mem_of_dget? hz)
      cases e
      exact ⟨q.2, rfl, List.mem_zipIdx_iff_getElem?.1 hq⟩
    have hR : ∀ z, dget? r z = some c → 0 ≤ c := fun z hz =>
      ((firstAppearance_labelsAre hrf c).1 (List.mem_map.2 ⟨(z, c), mem_of_dget? hz, rfl⟩)).1
    rw [dget?_append, Option.or_eq_some_iff] at hx hy
    rcases hx with hx | ⟨-, hx⟩ <;> rcases hy with hy | ⟨-, hy⟩
    · have hxk := (hrmem x).1 (mem_dkeys_of_dget? hx)
      have hyk := (hrmem y).1 (mem_dkeys_of_dget? hy)
      have := (hrs x hxk y hyk).2 (by rw [hx, hy])
      obtain ⟨v, hv⟩ := dget?_isSome_of_mem hxk
      exact ht.cl x y v hv (by rw [← this]; exact hv) hcl
    · obtain ⟨i, hi, -⟩ := hI y hy
      have := hR x hx
      omega
    · obtain ⟨i, hi, -⟩ := hI x hx
      have := hR y hy
      omega
    · obtain ⟨i, hi, hi'⟩ := hI x hx
      obtain ⟨j, hj, hj'⟩ := hI y hy
      have : i = j := by omega
      subst this
      rw [hi'] at hj'
      cases hj'
      exact CannotLinked.irrefl h x hcl

theorem dbTable_of_ok (ha : DbAssumptions env p) {vectors : Dict α V} (et : distanceTable m vectors env.metric = .ok table) :
    DbTable p m table := by
  refine ⟨fun x hx y hy => ?_, fun x hx d hd => ?_⟩
  · obtain ⟨d, e, -⟩ := distanceTable_ok et (p := (x, y)) hx hy
    exact ⟨d, e⟩
  · obtain ⟨d', e, vs, v, w, e1, h1, h2, h3⟩ := distanceTable_ok et (p := (x, x)) hx hx
    rw [hd] at e
    cases e
    cases e1
    rw [h1] at h2
    cases h2
    rw [h3]
    exact ha.self v

theorem dbCluster_parts {m : Manager α} (h : Inv m) (ha : DbAssumptions env p) (hne : m.managed ≠ []) {vectors : Dict α V}
    (hv : HasVectors m vectors) :
    ∃ labels cores rest, dbCluster env p m (some vectors) none = dbFinish p m.managed labels cores rest ∧
      (dkeys cores).Nodup ∧ (∀ x pts, dget? cores x = some pts → x ∈ m.managed ∧ Cluster m pts ∧ Whole m x pts) ∧
      Locals m rest := by
  obtain ⟨table, et⟩ := distanceTable_total (metric := env.metric) hne hv
  have hT : DbTable p m table := dbTable_of_ok ha et
  obtain ⟨⟨labels, locals⟩, e1, hL⟩ := dbLocals_ok h hT
  obtain ⟨core, e2, hcn, hcore⟩ := dbCores_ok (env := env) ha.enum h hL
  have hcl : ∀ x pts, dget? core x = some pts → Cluster m pts := fun x pts hx => by
    obtain ⟨h1, h2, h3, -⟩ := hcore x pts hx
    have := h2.good h hL h1
    exact ⟨by rintro rfl; simp at h3, this⟩
  have hlocals : Locals m locals := ⟨hL.nodup, fun c pts hc => by
    have := hL.pts c pts hc
    exact ⟨List.ne_nil_of_mem this.1, this.2⟩⟩
  obtain ⟨⟨cores, rest⟩, e3, hk, hcores, hrest, hgrow⟩ := dbMergeAll_ok ha.enum h hT hcn hcl hlocals
  refine ⟨labels, cores, rest, ?_, by rw [hk]; exact hcn, fun x pts hx => ?_, hrest⟩
  · unfold dbCluster
    simp only [bind, Except.bind]
    rw [et]
    simp only
    rw [e1]
    simp only
    rw [e2]
    simp only
    rw [e3]
  · obtain ⟨old, ho, hz⟩ := hgrow x pts hx
    obtain ⟨hxm, -, -, hw⟩ := hcore x old ho
    exact ⟨hxm, hcores x pts hx, fun y hy hxy => hz y (hw y hy hxy)⟩

theorem dbCluster_ok {m : Manager α} (h : Inv m) (ha : DbAssumptions env p) (hne : m.managed ≠ []) {vectors : Dict α V}
    (hv : HasVectors m vectors) :
    ∃ o d k j, dbCluster env p m (some vectors) none = .ok o ∧ o.predicted = some d ∧ DbLabelling m d k j ∧
      o.regular = k ∧ o.single = j ∧ o.total = k + j ∧
      (∀ x y c, dget? d x = some c → dget? d y = some c → ¬ CannotLinked m x y) ∧
      ∀ x pts, dget? o.cores x = some pts → x ∈ m.managed ∧ Cluster m pts ∧ Whole m x pts := by
  obtain ⟨labels, cores, rest, e, hn, hcores, hrest⟩ := dbCluster_parts h ha hne hv
  obtain ⟨o, d, k, j, e4, hd, h1, h2, h3, h4, h5, hoc⟩ := dbFinish_ok (p := p) h (labels := labels) (cores := cores)
    (locals := rest) (fun pts hp => by
      obtain ⟨q, hq, rfl⟩ := List.mem_map.1 hp
      exact (hcores q.1 q.2 (dget?_of_mem hn hq)).2.1) hrest
  exact ⟨o, d, k, j, e.trans e4, hd, h1, h2, h3, h4, h5, fun x pts hx => hcores x pts (by rw [← hoc]; exact hx)⟩

end

end Verif
