import Verif.Proofs.HierTree

/-
Lemmas on the hierarchical clustering: cuts of the tree.
-/

set_option linter.unusedSectionVars false

namespace Verif

variable {α V δ : Type} [LinearOrder α] [LinearOrder δ]

/-- A list of clusters that partition the managed IDs. -/
structure CutInv (m : Manager α) (st : Dict Nat (HCluster α V)) (l : List Nat) : Prop where
  stored : ∀ c ∈ l, c < st.length
  cover : (l.flatMap (membersOf st)).Perm m.managed

theorem nodup_of_flatMap {β : Type} {f : Nat → List β} {l : List Nat} (hne : ∀ c ∈ l, f c ≠ []) (h : (l.flatMap f).Nodup) :
    l.Nodup := by
  induction l with
  | nil => exact List.nodup_nil
  | cons a l ih =>
    rw [List.flatMap_cons, List.nodup_append] at h
    rw [List.nodup_cons]
    refine ⟨fun ha => ?_, ih (fun c hc => hne c (by simp [hc])) h.2.1⟩
    obtain ⟨x, hx⟩ := List.exists_mem_of_ne_nil _ (hne a (by simp))
    exact h.2.2 x hx x (List.mem_flatMap.2 ⟨a, ha, hx⟩) rfl

theorem eq_of_flatMap {β : Type} {f : Nat → List β} {l : List Nat} (h : (l.flatMap f).Nodup) {a b : Nat} (ha : a ∈ l)
    (hb : b ∈ l) {x : β} (hxa : x ∈ f a) (hxb : x ∈ f b) : a = b := by
  induction l with
  | nil => cases ha
  | cons c l ih =>
    rw [List.flatMap_cons, List.nodup_append] at h
    rcases List.mem_cons.1 ha with rfl | ha' <;> rcases List.mem_cons.1 hb with rfl | hb'
    · rfl
    · exact absurd rfl (h.2.2 x hxa x (List.mem_flatMap.2 ⟨b, hb', hxb⟩))
    · exact absurd rfl (h.2.2 x hxb x (List.mem_flatMap.2 ⟨a, ha', hxa⟩))
    · exact ih h.2.1 ha' hb'

section
variable {env : HierEnv V δ} {link : Linkage} {m : Manager α} {vectors : Dict α V} {root : Nat}
  {st : Dict Nat (HCluster α V)}

theorem CutInv.flat_nodup (h : Inv m) {l : List Nat} (hc : CutInv m st l) : (l.flatMap (membersOf st)).Nodup :=
  hc.cover.nodup_iff.2 h.d.nodup

theorem CutInv.nodup (h : Inv m) {R : Nat → Prop} {cur : List Nat} (ht : TreeInv m R cur st) {l : List Nat}
    (hc : CutInv m st l) : l.Nodup :=
  nodup_of_flatMap (fun c hcl => ht.ne c (hc.stored c hcl)) (hc.flat_nodup h)

theorem CutInv.exists {l : List Nat} (hc : CutInv m st l) {x : α} (hx : x ∈ m.managed) : ∃ c ∈ l, x ∈ membersOf st c :=
  List.mem_flatMap.1 (hc.cover.mem_iff.2 hx)

theorem Built.cutInv_root (hb : Built env link m vectors root st) : CutInv m st [root] :=
  ⟨hb.tree.cur, hb.tree.cover⟩

/-- Key of a stored cluster. -/
def keyOf (by_ : CutBy) (st : Dict Nat (HCluster α V)) (c : Nat) : Nat :=
  match dget? st c with
  | some n => by_.key n
  | none => 0

theorem keyOf_eq {by_ : CutBy} {c : Nat} {n : HCluster α V} (h : dget? st c = some n) : keyOf by_ st c = by_.key n := by
  unfold keyOf; rw [h]

theorem hChoice_ok {by_ : CutBy} (hk : SeqKeys st) {l : List Nat} (hl : ∀ c ∈ l, c < st.length) (hne : l ≠ []) :
    ∃ c ∈ l, hChoice by_ st l = .ok c ∧ ∀ d ∈ l, keyOf by_ st d ≤ keyOf by_ st c := by
  have hmap : (l.mapM fun c => do return (c, by_.key (← dget st c)) : Except PyErr (List (Nat × Nat))) =
      .ok (l.map fun c => (c, keyOf by_ st c)) := by
    rw [mapM_ok_iff, List.forall₂_map_right_iff, List.forall₂_same]
    intro c hc
    obtain ⟨n, hn⟩ := hk.exists (hl c hc)
    rw [dget_of_dget? hn, keyOf_eq hn]; rfl
  obtain ⟨p, hp⟩ := pyMaxBy_isSome (key := fun (p : Nat × Nat) => p.2) (l := l.map fun c => (c, keyOf by_ st c)) (by simpa using hne)
  obtain ⟨h1, h2⟩ := pyMaxBy_spec hp
  obtain ⟨c, hc, rfl⟩ := List.mem_map.1 h1
  refine ⟨c, hc, ?_, fun d hd => h2 _ (List.mem_map.2 ⟨d, hd, rfl⟩)⟩
  unfold hChoice
  rw [hmap]
  simp only [bind, Except.bind, hp]; rfl

theorem CutInv.split (h : Inv m) {R : Nat → Prop} {cur : List Nat} (ht : TreeInv m R cur st) {l : List Nat}
    (hc : CutInv m st l) {c : Nat} (hcl : c ∈ l) {n : HCluster α V} (hn : dget? st c = some n) (hne : n.children ≠ []) :
    CutInv m st (l.erase c ++ n.children) ∧ l.length + 1 ≤ (l.erase c ++ n.children).length ∧
      (n.children.length = 2 → (l.erase c ++ n.children).length = l.length + 1) := by
  obtain ⟨h1, h2, h3, h4, -⟩ := ht.inner c n hn hne
  have hlen := List.length_erase_of_mem hcl
  have hpos : 0 < l.length := List.length_pos_of_mem hcl
  refine ⟨⟨?_, ?_⟩, ?_, ?_⟩
  · intro d hd
    rcases List.mem_append.1 hd with hd | hd
    · exact hc.stored d (List.mem_of_mem_erase hd)
    · have := h2 d hd; have := ht.keys.lt hn; omega
  · rw [List.flatMap_append, ← h4, ← membersOf_eq hn]
    have hp : l.Perm (l.erase c ++ [c]) := (List.perm_cons_erase hcl).trans (List.perm_append_singleton c (l.erase c)).symm
    have := hp.flatMap_right (membersOf st)
    rw [List.flatMap_append, List.flatMap_cons, List.flatMap_nil, List.append_nil] at this
    exact this.symm.trans hc.cover
  · rw [List.length_append]; omega
  · intro h2'; rw [List.length_append]; omega

/-- How the exploration goes: split the chosen cluster as long as there are too few clusters. -/
inductive Explored (by_ : CutBy) (st : Dict Nat (HCluster α V)) (nb : Int) : List Nat → List Nat → Prop
  | enough {l} : nb ≤ l.length → Explored by_ st nb l l
  | leaf {l c n} : (l.length : Int) < nb → c ∈ l → (∀ d ∈ l, keyOf by_ st d ≤ keyOf by_ st c) → dget? st c = some n →
      n.children = [] → Explored by_ st nb l l
  | split {l c n l'} : (l.length : Int) < nb → c ∈ l → (∀ d ∈ l, keyOf by_ st d ≤ keyOf by_ st c) → dget? st c = some n →
      n.children ≠ [] → Explored by_ st nb (l.erase c ++ n.children) l' → Explored by_ st nb l l'

theorem hExplore_ok {by_ : CutBy} {nb : Int} (h : Inv m) {R : Nat → Prop} {cur : List Nat} (ht : TreeInv m R cur st) :
    ∀ {fuel : Nat} {l : List Nat}, CutInv m st l → l ≠ [] → nb ≤ l.length + fuel →
      ∃ l', hExplore by_ st nb fuel l = .ok l' ∧ Explored by_ st nb l l' := by
  intro fuel
  induction fuel with
  | zero =>
    intro l _ _ hf
    have hn : ¬ (l.length : Int) < nb := by omega
    exact ⟨l, by unfold hExplore; rw [if_neg hn], .enough (by omega)⟩
  | succ fuel ih =>
    intro l hc hne hf
    by_cases hn : (l.length : Int) < nb
    · obtain ⟨c, hcl, hch, hmax⟩ := hChoice_ok (by_ := by_) ht.keys hc.stored hne
      obtain ⟨n, hn'⟩ := ht.keys.exists (hc.stored c hcl)
      by_cases h0 : n.children = []
      · refine ⟨l, ?_, .leaf hn hcl hmax hn' h0⟩
        unfold hExplore
        simp only [if_pos hn, hch, bind, Except.bind, dget_of_dget? hn', if_pos h0]; rfl
      · obtain ⟨hc', hlen, -⟩ := hc.split h ht hcl hn' h0
        obtain ⟨l', e, hE⟩ := ih hc' (by intro h0'; rw [h0'] at hlen; simp at hlen) (by omega)
        refine ⟨l', ?_, .split hn hcl hmax hn' h0 hE⟩
        unfold hExplore
        simp only [if_pos hn, hch, bind, Except.bind, dget_of_dget? hn', if_neg h0]
        exact e
    · exact ⟨l, by unfold hExplore; rw [if_neg hn], .enough (by omega)⟩

theorem explored_of_ok {by_ : CutBy} {nb : Int} (h : Inv m) {R : Nat → Prop} {cur : List Nat} (ht : TreeInv m R cur st) :
    ∀ {fuel : Nat} {l l' : List Nat}, CutInv m st l → l ≠ [] → hExplore by_ st nb fuel l = .ok l' →
      Explored by_ st nb l l' := by
  intro fuel
  induction fuel with
  | zero =>
    intro l l' _ _ hh
    unfold hExplore at hh
    split at hh
    · cases hh
    · cases hh; exact .enough (by omega)
  | succ fuel ih =>
    intro l l' hc hne hh
    by_cases hlt : (l.length : Int) < nb
    · obtain ⟨c, hcl, hch, hmax⟩ := hChoice_ok (by_ := by_) ht.keys hc.stored hne
      obtain ⟨n, hn'⟩ := ht.keys.exists (hc.stored c hcl)
      unfold hExplore at hh
      simp only [if_pos hlt, hch, bind, Except.bind, dget_of_dget? hn'] at hh
      by_cases h0 : n.children = []
      · rw [if_pos h0] at hh
        cases hh
        exact .leaf hlt hcl hmax hn' h0
      · rw [if_neg h0] at hh
        obtain ⟨hc', hlen, -⟩ := hc.split h ht hcl hn' h0
        exact .split hlt hcl hmax hn' h0 (ih hc' (by intro h0'; rw [h0'] at hlen; simp at hlen) hh)
    · unfold hExplore at hh
      rw [if_neg hlt] at hh
      cases hh; exact .enough (by omega)

theorem hExplore_compose {by_ : CutBy} {nb1 nb2 : Int} (h12 : nb1 ≤ nb2) :
    ∀ {f1 : Nat} {l l1 : List Nat}, hExplore by_ st nb1 f1 l = .ok l1 → ∀ {f2 : Nat} {l2 : List Nat},
      hExplore by_ st nb2 f2 l = .ok l2 → ∃ f3, hExplore by_ st nb2 f3 l1 = .ok l2 := by
  intro f1
  induction f1 with
  | zero =>
    intro l l1 h1 f2 l2 h2
    unfold hExplore at h1
    split at h1
    · cases h1
    · cases h1; exact ⟨f2, h2⟩
  | succ f1 ih =>
    intro l l1 h1 f2 l2 h2
    unfold hExplore at h1
    split at h1
    · rename_i hlt
      have hlt2 : (l.length : Int) < nb2 := by omega
      cases f2 with
      | zero => unfold hExplore at h2; rw [if_pos hlt2] at h2; cases h2
      | succ f2 =>
        have h2' := h2
        unfold hExplore at h2
        rw [if_pos hlt2] at h2
        cases hch : hChoice by_ st l with
        | error e => rw [hch] at h1; cases h1
        | ok c =>
          rw [hch] at h1 h2
          simp only [bind, Except.bind] at h1 h2
          cases hg : dget st c with
          | error e => rw [hg] at h1; cases h1
          | ok n =>
            rw [hg] at h1 h2
            simp only at h1 h2
            by_cases h0 : n.children = []
            · rw [if_pos h0] at h1
              cases h1; exact ⟨_, h2'⟩
            · rw [if_neg h0] at h1 h2
              exact ih h1 h2
    · cases h1; exact ⟨f2, h2⟩

/-- Invariants of the exploration. -/
theorem Explored.induct {by_ : CutBy} {nb : Int} {P : List Nat → Prop} {l l' : List Nat} (hE : Explored by_ st nb l l')
    (h0 : P l) (hs : ∀ l c n, P l → (l.length : Int) < nb → c ∈ l → (∀ d ∈ l, keyOf by_ st d ≤ keyOf by_ st c) →
      dget? st c = some n → n.children ≠ [] → P (l.erase c ++ n.children)) : P l' := by
  induction hE with
  | enough _ => exact h0
  | leaf _ _ _ _ _ => exact h0
  | split h1 h2 h3 h4 h5 _ ih => exact ih (hs _ _ _ h0 h1 h2 h3 h4 h5)

theorem Explored.cutInv {by_ : CutBy} {nb : Int} (h : Inv m) {R : Nat → Prop} {cur : List Nat} (ht : TreeInv m R cur st)
    {l l' : List Nat} (hE : Explored by_ st nb l l') (hc : CutInv m st l) : CutInv m st l' :=
  hE.induct hc (fun _ _ _ hP _ hcl _ hn hne => (hP.split h ht hcl hn hne).1)

/-- Every cluster of the finer list lies in one of the coarser list. -/
def RefinesList (st : Dict Nat (HCluster α V)) (l l' : List Nat) : Prop :=
  ∀ c' ∈ l', ∃ c ∈ l, ∀ x ∈ membersOf st c', x ∈ membersOf st c

theorem Explored.refines {by_ : CutBy} {nb : Int} {R : Nat → Prop} {cur : List Nat} (ht : TreeInv m R cur st)
    {l l' : List Nat} (hE : Explored by_ st nb l l') : RefinesList st l l' := by
  refine hE.induct (P := RefinesList st l) (fun c hc => ⟨c, hc, fun _ h => h⟩) ?_
  intro l1 c n hP _ hcl _ hn hne d hd
  rcases List.mem_append.1 hd with hd | hd
  · exact hP d (List.mem_of_mem_erase hd)
  · obtain ⟨e, he, hsub⟩ := hP c hcl
    refine ⟨e, he, fun x hx => hsub x ?_⟩
    rw [membersOf_eq hn, (ht.inner c n hn hne).2.2.2.1]
    exact List.mem_flatMap.2 ⟨d, hd, hx⟩

/-! ### Labels of a cut -/

theorem hAffect_members (xs : List α) (c : Int) (d : Dict α Int) :
    (∀ x, dget? (xs.foldl (fun d x => dset d x c) d) x = if x ∈ xs then some c else dget? d x) ∧
    ((∀ x ∈ xs, x ∈ dkeys d) → dkeys (xs.foldl (fun d x => dset d x c) d) = dkeys d) ∧
    ((dkeys d).Nodup → (dkeys (xs.foldl (fun d x => dset d x c) d)).Nodup) := by
  induction xs generalizing d with
  | nil => exact ⟨by simp, by simp, by simp⟩
  | cons a xs ih =>
    obtain ⟨h1, h2, h3⟩ := ih (dset d a c)
    rw [List.foldl_cons]
    refine ⟨?_, ?_, ?_⟩
    · intro x
      rw [h1, dget?_dset]
      by_cases hx : x ∈ xs
      · simp [hx]
      · by_cases hxa : a = x
        · simp [hxa]
        · simp [hx, hxa, Ne.symm hxa]
    · intro hsub
      have hk := dkeys_dset_of_mem (v := c) (hsub a (by simp))
      rw [h2 (fun x hx => by rw [hk]; exact hsub x (by simp [hx])), hk]
    · intro hn
      exact h3 (nodup_dkeys_dset a c hn)

theorem hAffect_loop (hk : SeqKeys st) {l : List Nat} (hl : ∀ c ∈ l, c < st.length) (hd : (l.flatMap (membersOf st)).Nodup)
    (d : Dict α Int) :
    ∃ d', l.foldlM (fun d c => do
        let n ← dget st c
        return n.members.foldl (fun d x => dset d x (c : Int)) d) d = (.ok d' : Except PyErr (Dict α Int)) ∧
      (∀ c ∈ l, ∀ x ∈ membersOf st c, dget? d' x = some (c : Int)) ∧
      (∀ x, x ∉ l.flatMap (membersOf st) → dget? d' x = dget? d x) ∧
      ((∀ x ∈ l.flatMap (membersOf st), x ∈ dkeys d) → dkeys d' = dkeys d) ∧ ((dkeys d).Nodup → (dkeys d').Nodup) := by
  induction l generalizing d with
  | nil => exact ⟨d, rfl, by simp, by simp, by simp, by simp⟩
  | cons c l ih =>
    obtain ⟨n, hn⟩ := hk.exists (hl c (by simp))
    rw [List.flatMap_cons, List.nodup_append] at hd
    obtain ⟨h1, h2, h3⟩ := hAffect_members n.members (c : Int) d
    obtain ⟨d', e1, e2, e3, e4, e5⟩ := ih (fun c hc => hl c (by simp [hc])) hd.2.1
      (n.members.foldl (fun d x => dset d x (c : Int)) d)
    refine ⟨d', ?_, ?_, ?_, ?_, fun hnd => e5 (h3 hnd)⟩
    · rw [List.foldlM_cons, dget_of_dget? hn]; exact e1
    · intro c' hc' x hx
      by_cases hxl : x ∈ l.flatMap (membersOf st)
      · rcases List.mem_cons.1 hc' with rfl | hc'
        · exact absurd rfl (hd.2.2 x hx x hxl)
        · exact e2 c' hc' x hx
      · rcases List.mem_cons.1 hc' with rfl | hc'
        · rw [e3 x hxl, h1, if_pos]
          rwa [membersOf_eq hn] at hx
        · exact absurd (List.mem_flatMap.2 ⟨c', hc', hx⟩) hxl
    · intro x hx
      rw [List.flatMap_cons, List.mem_append, not_or, membersOf_eq hn] at hx
      rw [e3 x hx.2, h1, if_neg hx.1]
    · intro hsub
      have hk' := h2 (fun x hx => hsub x (by
        rw [List.flatMap_cons, List.mem_append, membersOf_eq hn]; exact .inl hx))
      rw [e4 (fun x hx => by
        rw [hk']; exact hsub x (by rw [List.flatMap_cons, List.mem_append]; exact .inr hx)), hk']

theorem hAffect_any (h : Inv m) (hk : SeqKeys st) {l : List Nat} (hc : CutInv m st l) (ids : List α) :
    ∃ new, hAffect ids st l = .ok new ∧ (dkeys new).Nodup := by
  obtain ⟨d', e1, -, -, -, e5⟩ := hAffect_loop hk hc.stored (hc.flat_nodup h) (dofList (ids.map fun x => (x, (-1 : Int))))
  exact ⟨d', e1, e5 (nodup_dkeys_dofList _)⟩

theorem hAffect_ok (h : Inv m) (hk : SeqKeys st) {l : List Nat} (hc : CutInv m st l) :
    ∃ new, hAffect m.managed st l = .ok new ∧ dkeys new = m.managed ∧
      ∀ c ∈ l, ∀ x ∈ membersOf st c, dget? new x = some (c : Int) := by
  obtain ⟨d', e1, e2, -, e4, -⟩ := hAffect_loop hk hc.stored (hc.flat_nodup h)
    (dofList (m.managed.map fun x => (x, (-1 : Int))))
  have hkeys : dkeys (dofList (m.managed.map fun x => (x, (-1 : Int)))) = m.managed := by
    rw [dkeys_dofList_map]; exact ounion_nil_of_nodup h.d.nodup
  refine ⟨d', e1, ?_, e2⟩
  rw [e4, hkeys]
  intro x hx
  rw [hkeys]
  exact hc.cover.mem_iff.1 hx

/-- The result of a cut, described by its list of clusters. -/
structure CutResult (m : Manager α) (st : Dict Nat (HCluster α V)) (l : List Nat) (r : Dict α Int) : Prop where
  cut : CutInv m st l
  keys : dkeys r = m.managed.insertionSort (· ≤ ·)
  order : FirstAppearanceOrder (dvals r)
  same : ∀ x ∈ m.managed, ∀ y ∈ m.managed, (dget? r x = dget? r y ↔ ∃ c ∈ l, x ∈ membersOf st c ∧ y ∈ membersOf st c)
  labels : LabelsAre (dvals r) l.length

theorem cutResult (h : Inv m) {R : Nat → Prop} {cur : List Nat} (ht : TreeInv m R cur st) {l : List Nat}
    (hc : CutInv m st l) : ∃ r, (do renameClusters (← hAffect m.managed st l)) = .ok r ∧ CutResult m st l r := by
  obtain ⟨new, e1, e2, e3⟩ := hAffect_ok h ht.keys hc
  obtain ⟨r, f1, f2, f3, f4, k, -, -, hk⟩ := rename_managed h e2
  have hsame : ∀ x ∈ m.managed, ∀ y ∈ m.managed,
      (dget? r x = dget? r y ↔ ∃ c ∈ l, x ∈ membersOf st c ∧ y ∈ membersOf st c) := by
    intro x hx y hy
    rw [← f3 x hx y hy]
    obtain ⟨c, hcl, hxc⟩ := hc.exists hx
    obtain ⟨d, hdl, hyd⟩ := hc.exists hy
    rw [e3 c hcl x hxc, e3 d hdl y hyd]
    constructor
    · intro he
      simp only [Option.some.injEq, Int.natCast_inj] at he
      subst he
      exact ⟨c, hcl, hxc, hyd⟩
    · rintro ⟨e, hel, hxe, hye⟩
      rw [eq_of_flatMap (hc.flat_nodup h) hcl hel hxc hxe, eq_of_flatMap (hc.flat_nodup h) hdl hel hyd hye]
  refine ⟨r, by rw [e1]; exact f1, hc, f2, f4, hsame, ?_⟩
  have hkl : k = l.length := by
    have hrn : (dkeys r).Nodup := by rw [f2]; exact (List.perm_insertionSort _ _).nodup_iff.2 h.d.nodup
    have hrm : ∀ x, x ∈ dkeys r ↔ x ∈ m.managed := fun x => by rw [f2]; exact List.mem_insertionSort _
    have hrep : ∀ c ∈ l, ∃ x, (membersOf st c).head? = some x ∧ x ∈ membersOf st c ∧ x ∈ m.managed := by
      intro c hcl
      cases hM : membersOf st c with
      | nil => exact absurd hM (ht.ne c (hc.stored c hcl))
      | cons x xs => exact ⟨x, rfl, by simp, ht.sub c x (by rw [hM]; simp)⟩
    have hp : (l.map fun c => (membersOf st c).head?.bind (dget? r)).Perm
        ((List.range k).map fun (i : Nat) => some (i : Int)) := by
      refine (List.perm_ext_iff_of_nodup ?_ ?_).2 ?_
      · refine List.Nodup.map_on ?_ (hc.nodup h ht)
        intro c hcl d hdl he
        obtain ⟨x, hx1, hx2, hx3⟩ := hrep c hcl
        obtain ⟨y, hy1, hy2, hy3⟩ := hrep d hdl
        rw [hx1, hy1] at he
        obtain ⟨e, hel, hxe, hye⟩ := (hsame x hx3 y hy3).1 he
        rw [eq_of_flatMap (hc.flat_nodup h) hcl hel hx2 hxe, eq_of_flatMap (hc.flat_nodup h) hdl hel hy2 hye]
      · refine List.Nodup.map ?_ List.nodup_range
        intro a b hab
        simp only [Option.some.injEq] at hab
        omega
      · intro o
        rw [List.mem_map, List.mem_map]
        constructor
        · rintro ⟨c, hcl, rfl⟩
          obtain ⟨x, hx1, -, hx3⟩ := hrep c hcl
          rw [hx1]
          obtain ⟨d, hd⟩ := dget?_isSome_of_mem ((hrm x).2 hx3)
          obtain ⟨h0, h1⟩ := (hk d).1 ((mem_dvals hrn).2 ⟨x, hd⟩)
          refine ⟨d.toNat, List.mem_range.2 (by omega), ?_⟩
          show some _ = dget? r x
          rw [hd]
          congr 1; omega
        · rintro ⟨i, hi, rfl⟩
          obtain ⟨x, hx⟩ := (mem_dvals hrn).1 ((hk i).2 ⟨by omega, by have := List.mem_range.1 hi; omega⟩)
          have hxm := (hrm x).1 (mem_dkeys_of_dget? hx)
          obtain ⟨c, hcl, hxc⟩ := hc.exists hxm
          obtain ⟨y, hy1, hy2, hy3⟩ := hrep c hcl
          refine ⟨c, hcl, ?_⟩
          rw [hy1]
          show dget? r y = _
          rw [← hx]
          exact (hsame y hy3 x hxm).2 ⟨c, hcl, hy2, hxc⟩
    have := hp.length_eq
    rw [List.length_map, List.length_map, List.length_range] at this
    exact this.symm
  rw [hkl] at hk; exact hk

theorem hCut_ok (h : Inv m) (hb : Built env link m vectors root st) (nb : Int) (by_ : CutBy) :
    ∃ l r, hExplore by_ st nb nb.toNat [root] = .ok l ∧ Explored by_ st nb [root] l ∧
      hCut m.managed st root nb by_ = .ok r ∧ CutResult m st l r := by
  obtain ⟨l, e1, hE⟩ := hExplore_ok (by_ := by_) (nb := nb) h hb.tree (fuel := nb.toNat) hb.cutInv_root (by simp)
    (by rw [List.length_singleton]; omega)
  obtain ⟨r, e2, hr⟩ := cutResult h hb.tree (hE.cutInv h hb.tree hb.cutInv_root)
  refine ⟨l, r, e1, hE, ?_, hr⟩
  unfold hCut
  rw [e1]; exact e2

theorem hCut_any (h : Inv m) (hb : Built env link m vectors root st) (ids : List α) (nb : Int) (by_ : CutBy) :
    ∃ r, hCut ids st root nb by_ = .ok r := by
  obtain ⟨l, e1, hE⟩ := hExplore_ok (by_ := by_) (nb := nb) h hb.tree (fuel := nb.toNat) hb.cutInv_root (by simp)
    (by rw [List.length_singleton]; omega)
  obtain ⟨new, e2, hn⟩ := hAffect_any h hb.tree.keys (hE.cutInv h hb.tree hb.cutInv_root) ids
  obtain ⟨r, e3, -⟩ := rename_ok hn
  refine ⟨r, ?_⟩
  unfold hCut
  rw [e1]
  show (do renameClusters (← hAffect ids st l)) = _
  rw [e2]; exact e3

/-- Cuts are nested. -/
theorem hCut_nested (h : Inv m) (hb : Built env link m vectors root st) {nb1 nb2 : Int} (h12 : nb1 ≤ nb2) {by_ : CutBy}
    {r1 r2 : Dict α Int} (h1 : hCut m.managed st root nb1 by_ = .ok r1) (h2 : hCut m.managed st root nb2 by_ = .ok r2)
    {x y : α} (hx : x ∈ m.managed) (hy : y ∈ m.managed) (he : dget? r2 x = dget? r2 y) : dget? r1 x = dget? r1 y := by
  obtain ⟨l1, r1', e1, -, f1, g1⟩ := hCut_ok h hb nb1 by_
  obtain ⟨l2, r2', e2, -, f2, g2⟩ := hCut_ok h hb nb2 by_
  rw [h1] at f1; rw [h2] at f2; cases f1; cases f2
  obtain ⟨f3, e3⟩ := hExplore_compose h12 e1 e2
  have href : RefinesList st l1 l2 := by
    have hne : l1 ≠ [] := by
      rintro rfl
      obtain ⟨c, hc, -⟩ := g1.cut.exists hx
      cases hc
    exact (explored_of_ok h hb.tree g1.cut hne e3).refines hb.tree
  obtain ⟨c, hc, hxc, hyc⟩ := (g2.same x hx y hy).1 he
  obtain ⟨d, hd, hsub⟩ := href c hc
  exact (g1.same x hx y hy).2 ⟨d, hd, hsub x hxc, hsub y hyc⟩

/-! ### Sizes of cuts -/

theorem leaves_length (h : Inv m) {R : Nat → Prop} {cur : List Nat} (ht : TreeInv m R cur st) {l : List Nat}
    (hc : CutInv m st l) (hl : ∀ c ∈ l, ∀ n, dget? st c = some n → n.children = []) : l.length = m.components.length := by
  have hcomp : ∀ c ∈ l, membersOf st c ∈ m.components := by
    intro c hcl
    obtain ⟨n, hn⟩ := ht.keys.exists (hc.stored c hcl)
    rw [membersOf_eq hn]
    exact (ht.leaf c n hn (hl c hcl n hn)).1
  have hp : (l.map (membersOf st)).Perm m.components := by
    refine (List.perm_ext_iff_of_nodup ?_ ?_).2 ?_
    · refine List.Nodup.map_on ?_ (hc.nodup h ht)
      intro c hcl d hdl he
      obtain ⟨x, hx⟩ := List.exists_mem_of_ne_nil _ (ht.ne c (hc.stored c hcl))
      exact eq_of_flatMap (hc.flat_nodup h) hcl hdl hx (he ▸ hx)
    · exact components_nodup m
    · intro xs
      rw [List.mem_map]
      constructor
      · rintro ⟨c, hcl, rfl⟩; exact hcomp c hcl
      · intro hxs
        obtain ⟨x, hx⟩ := List.exists_mem_of_ne_nil _ (component_ne_nil h hxs)
        have hxm := (mem_component_iff h hxs hx).1
        obtain ⟨c, hcl, hxc⟩ := hc.exists hxm
        refine ⟨c, hcl, ?_⟩
        exact component_unique h (hcomp c hcl) hxs hxc hx
  have := hp.length_eq
  rwa [List.length_map] at this

theorem Explored.final {by_ : CutBy} {nb : Int} {l l' : List Nat} (hE : Explored by_ st nb l l') :
    nb ≤ l'.length ∨ ((l'.length : Int) < nb ∧ ∃ c ∈ l', (∀ d ∈ l', keyOf by_ st d ≤ keyOf by_ st c) ∧
      ∃ n, dget? st c = some n ∧ n.children = []) := by
  induction hE with
  | enough h => exact .inl h
  | leaf h1 h2 h3 h4 h5 => exact .inr ⟨h1, _, h2, h3, _, h4, h5⟩
  | split _ _ _ _ _ _ ih => exact ih

/-- The number of children of the root. -/
def rootWidth (st : Dict Nat (HCluster α V)) (root : Nat) : Nat :=
  match dget? st root with
  | some n => n.children.length
  | none => 0

theorem Built.binary (hb : Built env link m vectors root st) {i : Nat} {n : HCluster α V} (hn : dget? st i = some n)
    (hne : n.children ≠ []) (hi : i ≠ root) : n.children.length = 2 := by
  rcases hb.kind i n hn hne with ⟨a, b, hab, -⟩ | ⟨h1, -⟩
  · rw [hab]; rfl
  · exact absurd h1 hi

/-- How many clusters an exploration leaves. -/
theorem Explored.count (h : Inv m) (hb : Built env link m vectors root st) {by_ : CutBy} {nb : Int} {l : List Nat}
    (hE : Explored by_ st nb [root] l) :
    l = [root] ∨ (root ∉ l ∧ 2 ≤ rootWidth st root ∧ rootWidth st root ≤ l.length ∧
      (l.length : Int) ≤ max nb (rootWidth st root)) := by
  have ht := hb.tree
  have := hE.induct (P := fun l => CutInv m st l ∧ (l = [root] ∨ (root ∉ l ∧ 2 ≤ rootWidth st root ∧
    rootWidth st root ≤ l.length ∧ (l.length : Int) ≤ max nb (rootWidth st root)))) ⟨hb.cutInv_root, .inl rfl⟩ ?_
  · exact this.2
  · rintro l c n ⟨hc, hP⟩ hlt hcl - hn hne
    obtain ⟨hc', hlen, hlen2⟩ := hc.split h ht hcl hn hne
    have hroot : root ∉ n.children := fun hr => ht.top c root ⟨n, hn, hr⟩ (by simp)
    refine ⟨hc', .inr ?_⟩
    rcases hP with rfl | ⟨h1, h2, h3, h4⟩
    · rw [List.mem_singleton] at hcl
      subst hcl
      have hw : rootWidth st c = n.children.length := by unfold rootWidth; rw [hn]
      have h2 := (ht.inner c n hn hne).1
      rw [hw]
      simp only [List.erase_cons_head, List.nil_append]
      exact ⟨hroot, h2, le_refl _, by omega⟩
    · have hcr : c ≠ root := fun hh => h1 (hh ▸ hcl)
      have := hlen2 (hb.binary hn hne hcr)
      refine ⟨?_, h2, by omega, by omega⟩
      intro hr
      rcases List.mem_append.1 hr with hr | hr
      · exact h1 (List.mem_of_mem_erase hr)
      · exact hroot hr

theorem Explored.count_iteration (h : Inv m) (hb : Built env link m vectors root st) {nb : Int} (h2 : 2 ≤ nb)
    (hnb : nb ≤ m.components.length) {l : List Nat} (hE : Explored .iteration st nb [root] l) :
    (l.length : Int) = max nb (rootWidth st root) := by
  have hlow : nb ≤ l.length := by
    rcases hE.final with hf | ⟨-, c, hcl, hmax, n, hn, h0⟩
    · exact hf
    · have hc := hE.cutInv h hb.tree hb.cutInv_root
      have hlen := leaves_length h hb.tree hc (by
        intro d hd n' hn'
        by_contra hne
        have h3 := hmax d hd
        rw [keyOf_eq hn', keyOf_eq hn] at h3
        have h4 := (hb.tree.inner d n' hn' hne).2.2.2.2.1
        have h5 := (hb.tree.leaf c n hn h0).2.1
        simp only [CutBy.key] at h3
        omega)
      omega
  rcases hE.count h hb with rfl | ⟨-, -, h3, h4⟩
  · rw [List.length_singleton] at hlow; omega
  · omega

/-- A cut by iteration is a state of the merging. -/
theorem Explored.alive (h : Inv m) (hb : Built env link m vectors root st) {nb : Int} {l : List Nat}
    (hE : Explored .iteration st nb [root] l) :
    ∃ i, m.components.length ≤ i ∧ i ≤ st.length ∧ ∀ j, j ∈ l ↔ Alive st i j := by
  have ht := hb.tree
  have := hE.induct (P := fun l => CutInv m st l ∧ ∃ i, m.components.length ≤ i ∧ i ≤ st.length ∧ ∀ j, j ∈ l ↔ Alive st i j)
    ⟨hb.cutInv_root, st.length, hb.size.1, le_refl _, fun j => ht.alive.symm⟩ ?_
  · exact this.2
  · rintro l c n ⟨hc, i, hi1, hi2, hl⟩ - hcl hmax hn hne
    refine ⟨(hc.split h ht hcl hn hne).1, ?_⟩
    have hci := ((hl c).1 hcl).1
    have hcit : m.components.length ≤ c ∧ n.iteration + m.components.length = c + 1 := by
      rcases hb.iters c n hn with ⟨h0, -⟩ | ⟨-, h1, h2⟩
      · exact absurd h0 hne
      · exact ⟨h1, h2⟩
    -- the last cluster of the state is in the list
    have hlast : i - 1 ∈ l := by
      refine (hl _).2 ⟨by omega, fun k hk hch => ?_⟩
      have := (ht.child_lt hch).1
      omega
    obtain ⟨n', hn'⟩ := ht.keys.exists (i := i - 1) (by omega)
    have hle := hmax _ hlast
    rw [keyOf_eq hn', keyOf_eq hn] at hle
    simp only [CutBy.key] at hle
    have hceq : c = i - 1 := by
      rcases hb.iters _ n' hn' with ⟨-, h1⟩ | ⟨-, h1, h2⟩
      · omega
      · omega
    refine ⟨c, hcit.1, by omega, fun j => ?_⟩
    rw [List.mem_append, (hc.nodup h ht).mem_erase_iff, hl]
    constructor
    · rintro (⟨hjc, hj1, hj2⟩ | hj)
      · exact ⟨by omega, fun k hk => hj2 k (by omega)⟩
      · have hch : Child st c j := ⟨n, hn, hj⟩
        refine ⟨(ht.child_lt hch).1, fun k hk hk' => ?_⟩
        have := ht.single k c j hk' hch
        omega
    · rintro ⟨hj1, hj2⟩
      by_cases hch : j ∈ n.children
      · exact .inr hch
      · refine .inl ⟨by omega, by omega, fun k hk hk' => ?_⟩
        by_cases hkc : k = c
        · subst hkc
          obtain ⟨n2, hn2, hj⟩ := hk'
          rw [hn] at hn2; cases hn2
          exact hch hj
        · exact hj2 k (by omega) hk'

end

end Verif
