import Verif.Spec.Inferred
import Verif.Spec.Names
import Verif.Proofs.HierLoop
import Verif.Proofs.DBOrder
import Verif.Proofs.Vectors
import Verif.Proofs.Serialize

/-
Lemmas for C89: the hierarchical clustering does not depend on the order inside the components.
-/

set_option linter.unusedSectionVars false

namespace Verif

/-! ### Related computations -/

section
variable {ρ ρ' σ σ' ι ι' : Type}

theorem SameOutcome.bind {R : ρ → ρ' → Prop} {S : σ → σ' → Prop} {a : Except PyErr ρ} {a' : Except PyErr ρ'} {k : ρ → Except PyErr σ}
    {k' : ρ' → Except PyErr σ'} (h : SameOutcome R a a') (hk : ∀ b b', R b b' → SameOutcome S (k b) (k' b')) :
    SameOutcome S (a >>= k) (a' >>= k') := by
  cases a with
  | error e =>
    cases a' with
    | error e' => exact h
    | ok b' => exact h.elim
  | ok b =>
    cases a' with
    | error e' => exact h.elim
    | ok b' => exact hk b b' h

theorem SameOutcome.of_eq {a a' : Except PyErr ρ} (h : a' = a) : SameOutcome (fun b b' => b' = b) a a' := by
  subst h
  cases a' with
  | error e => exact rfl
  | ok b => exact rfl

theorem SameOutcome.eq {a a' : Except PyErr ρ} (h : SameOutcome (fun b b' => b' = b) a a') : a' = a := by
  cases a with
  | error e =>
    cases a' with
    | error e' => exact congrArg Except.error (Eq.symm h)
    | ok b' => exact h.elim
  | ok b =>
    cases a' with
    | error e' => exact h.elim
    | ok b' => exact congrArg Except.ok h

theorem SameOutcome.mono {R S : ρ → ρ' → Prop} {a : Except PyErr ρ} {a' : Except PyErr ρ'} (h : SameOutcome R a a')
    (hRS : ∀ b b', R b b' → S b b') : SameOutcome S a a' := by
  cases a with
  | error e =>
    cases a' with
    | error e' => exact h
    | ok b' => exact h.elim
  | ok b =>
    cases a' with
    | error e' => exact h.elim
    | ok b' => exact hRS b b' h

theorem SameOutcome.mapM {I : ι → ι' → Prop} {R : ρ → ρ' → Prop} {f : ι → Except PyErr ρ} {f' : ι' → Except PyErr ρ'} {l : List ι}
    {l' : List ι'} (hl : List.Forall₂ I l l') (h : ∀ x x', I x x' → SameOutcome R (f x) (f' x')) :
    SameOutcome (List.Forall₂ R) (l.mapM f) (l'.mapM f') := by
  induction hl with
  | nil => exact List.Forall₂.nil
  | cons h1 _ ih =>
    rw [List.mapM_cons, List.mapM_cons]
    exact (h _ _ h1).bind fun b b' hb => ih.bind fun bs bs' hbs => List.Forall₂.cons hb hbs

theorem SameOutcome.foldlM {I : ι → ι' → Prop} {S : σ → σ' → Prop} {f : σ → ι → Except PyErr σ} {f' : σ' → ι' → Except PyErr σ'}
    {l : List ι} {l' : List ι'} (hl : List.Forall₂ I l l') {s : σ} {s' : σ'} (hs : S s s')
    (h : ∀ s s' x x', S s s' → I x x' → SameOutcome S (f s x) (f' s' x')) : SameOutcome S (l.foldlM f s) (l'.foldlM f' s') := by
  induction hl generalizing s s' with
  | nil => exact hs
  | cons h1 _ ih =>
    rw [List.foldlM_cons, List.foldlM_cons]
    exact (h _ _ _ _ hs h1).bind fun t t' ht => ih ht

theorem SameOutcome.mapM_same {R : ρ → ρ' → Prop} {f : ι → Except PyErr ρ} {f' : ι → Except PyErr ρ'} {l : List ι}
    (h : ∀ x ∈ l, SameOutcome R (f x) (f' x)) : SameOutcome (List.Forall₂ R) (l.mapM f) (l.mapM f') := by
  have : List.Forall₂ (fun x x' => x' = x ∧ x ∈ l) l l := List.forall₂_same.2 fun x hx => ⟨rfl, hx⟩
  exact SameOutcome.mapM this fun x x' hx => by
    obtain ⟨rfl, hx⟩ := hx
    exact h _ hx

theorem SameOutcome.foldlM_same {S : σ → σ' → Prop} {f : σ → ι → Except PyErr σ} {f' : σ' → ι → Except PyErr σ'} {l : List ι}
    {s : σ} {s' : σ'} (hs : S s s') (h : ∀ s s' x, S s s' → SameOutcome S (f s x) (f' s' x)) :
    SameOutcome S (l.foldlM f s) (l.foldlM f' s') :=
  SameOutcome.foldlM (I := fun x x' => x' = x) (List.forall₂_same.2 fun _ _ => rfl) hs fun s s' x x' hs hx => by
    subst hx
    exact h s s' _ hs

end

variable {α V δ : Type} [LinearOrder α] [LinearOrder δ]

omit [LinearOrder α] in
theorem min?_perm {l l' : List δ} (h : l.Perm l') : l'.min? = l.min? := by
  cases e : l.min? with
  | none =>
    cases e' : l'.min? with
    | none => rfl
    | some b =>
      rw [List.min?_eq_none_iff] at e
      subst e
      have := (min?_spec e').1
      exact absurd (h.mem_iff.2 this) List.not_mem_nil
  | some a =>
    cases e' : l'.min? with
    | none =>
      rw [List.min?_eq_none_iff] at e'
      subst e'
      exact absurd (h.mem_iff.1 (min?_spec e).1) List.not_mem_nil
    | some b =>
      obtain ⟨h1, h2⟩ := min?_spec e
      obtain ⟨h3, h4⟩ := min?_spec e'
      rw [le_antisymm (h2 _ (h.mem_iff.2 h3)) (h4 _ (h.mem_iff.1 h1))]

omit [LinearOrder α] in
theorem max?_perm {l l' : List δ} (h : l.Perm l') : l'.max? = l.max? := by
  cases e : l.max? with
  | none =>
    cases e' : l'.max? with
    | none => rfl
    | some b =>
      rw [List.max?_eq_none_iff] at e
      subst e
      have := (max?_spec e').1
      exact absurd (h.mem_iff.2 this) List.not_mem_nil
  | some a =>
    cases e' : l'.max? with
    | none =>
      rw [List.max?_eq_none_iff] at e'
      subst e'
      exact absurd (h.mem_iff.1 (max?_spec e).1) List.not_mem_nil
    | some b =>
      obtain ⟨h1, h2⟩ := max?_spec e
      obtain ⟨h3, h4⟩ := max?_spec e'
      rw [le_antisymm (h4 _ (h.mem_iff.1 h1)) (h2 _ (h.mem_iff.2 h3))]

omit [LinearOrder α] in
/-- A symmetric function of the pairs of different positions. -/
theorem laterPairs_perm {γ : Type} (D : α → α → γ) {l l' : List α} (h : l.Perm l') (hD : ∀ x ∈ l, ∀ y ∈ l, D x y = D y x) :
    ((laterPairs l).map fun p => D p.1 p.2).Perm ((laterPairs l').map fun p => D p.1 p.2) := by
  induction h with
  | nil => exact .nil
  | cons x hp ih =>
    simp only [laterPairs, List.map_append, List.map_map]
    exact (hp.map _).append (ih fun a ha b hb => hD a (List.mem_cons_of_mem _ ha) b (List.mem_cons_of_mem _ hb))
  | swap x y l =>
    simp only [laterPairs, List.map_append, List.map_map, List.map_cons, List.cons_append, Function.comp_def]
    rw [hD y List.mem_cons_self x (by simp)]
    refine .cons _ ?_
    rw [← List.append_assoc, ← List.append_assoc]
    exact List.perm_append_comm.append_right _
  | trans h1 _ ih1 ih2 =>
    exact (ih1 hD).trans (ih2 fun a ha b hb => hD a (h1.mem_iff.2 ha) b (h1.mem_iff.2 hb))

/-! ### Clusters that differ in the order of their members -/

section
variable {env : HierEnv V δ} {link : Linkage} {m m' : Manager α} {vs : Dict α V} {table : Dict α (Dict α δ)}

/-- The same cluster up to the order of its members. -/
structure SameNode (link : Linkage) (ids : List α) (c c' : HCluster α V) : Prop where
  iteration : c'.iteration = c.iteration
  children : c'.children = c.children
  depth : c'.depth = c.depth
  members : c.members.Perm c'.members
  managed : ∀ x ∈ c.members, x ∈ ids
  centroid : link = .average → c'.centroid = c.centroid

def SameStorage (link : Linkage) (ids : List α) (st st' : Dict Nat (HCluster α V)) : Prop :=
  List.Forall₂ (fun q q' => q'.1 = q.1 ∧ SameNode link ids q.2 q'.2) st st'

structure SameState (link : Linkage) (ids : List α) (s s' : HState α V δ) : Prop where
  current : s'.current = s.current
  storage : SameStorage link ids s.storage s'.storage
  distances : s'.distances = s.distances
  iteration : s'.iteration = s.iteration

theorem SameStorage.keys {ids : List α} {st st' : Dict Nat (HCluster α V)} (h : SameStorage link ids st st') : dkeys st' = dkeys st := by
  unfold dkeys
  induction h with
  | nil => rfl
  | cons h1 _ ih => rw [List.map_cons, List.map_cons, ih, h1.1]

theorem SameStorage.get {ids : List α} {st st' : Dict Nat (HCluster α V)} (h : SameStorage link ids st st') (i : Nat) :
    SameOutcome (SameNode link ids) (dget st i) (dget st' i) := by
  unfold dget
  induction h with
  | nil => exact rfl
  | @cons q q' _ _ h1 _ ih =>
    obtain ⟨k, c⟩ := q
    obtain ⟨k', c'⟩ := q'
    obtain ⟨rfl, h2⟩ := h1
    simp only [dget?] at ih ⊢
    by_cases hk : k' = i
    · simp only [hk, if_true]
      exact h2
    · simp only [hk, if_false]
      exact ih

theorem SameStorage.set {ids : List α} {st st' : Dict Nat (HCluster α V)} (h : SameStorage link ids st st') (i : Nat)
    {c c' : HCluster α V} (hc : SameNode link ids c c') : SameStorage link ids (dset st i c) (dset st' i c') := by
  unfold SameStorage at *
  induction h with
  | nil => exact .cons ⟨rfl, hc⟩ .nil
  | @cons q q' _ _ h1 h2 ih =>
    obtain ⟨k, d⟩ := q
    obtain ⟨k', d'⟩ := q'
    obtain ⟨rfl, h3⟩ := h1
    simp only [dset]
    by_cases hk : k' = i
    · simp only [hk, if_true]
      exact .cons ⟨rfl, hc⟩ h2
    · simp only [hk, if_false]
      exact .cons ⟨rfl, h3⟩ ih

theorem hCentroid_perm (hfree : OrderFree env link) {ids l l' : List α} (hv : ∀ x ∈ ids, ∃ v, dget? vs x = some v) (hp : l.Perm l')
    (hl : ∀ x ∈ l, x ∈ ids) :
    SameOutcome (fun c c' => link = .average → c' = c) (hCentroid env vs l) (hCentroid env vs l') := by
  unfold hCentroid
  obtain ⟨r, hr⟩ := mapM_total (f := fun x => dget vs x) (l := l) fun x hx => by
    obtain ⟨v, hv⟩ := hv x (hl x hx)
    exact ⟨v, dget_of_dget? hv⟩
  obtain ⟨r', hr'⟩ := mapM_total (f := fun x => dget vs x) (l := l') fun x hx => by
    obtain ⟨v, hv⟩ := hv x (hl x (hp.mem_iff.2 hx))
    exact ⟨v, dget_of_dget? hv⟩
  have hrr := mapM_perm hp hr hr'
  simp only [hr, hr', bind, Except.bind]
  have : r = [] ↔ r' = [] := by
    constructor
    · rintro rfl; exact hrr.nil_eq.symm
    · rintro rfl; exact hrr.eq_nil
  by_cases h0 : r = []
  · rw [if_pos h0, if_pos (this.1 h0)]; exact rfl
  · rw [if_neg h0, if_neg (fun h => h0 (this.2 h))]
    exact fun hl => hfree.mean hl _ _ hrr

theorem hAddLeaf_perm (hfree : OrderFree env link) {ids l l' : List α} (hv : ∀ x ∈ ids, ∃ v, dget? vs x = some v) (hp : l.Perm l')
    (hl : ∀ x ∈ l, x ∈ ids) {s s' : HState α V δ} (hs : SameState link ids s s') :
    SameOutcome (SameState link ids) (hAddLeaf env vs s l) (hAddLeaf env vs s' l') := by
  unfold hAddLeaf
  refine (hCentroid_perm hfree hv hp hl).bind fun c c' hc => ?_
  have hid : hNextId s'.storage = hNextId s.storage := by unfold hNextId; rw [hs.storage.keys]
  exact ⟨by simp only [hid, hs.current], by
    simp only [hid]
    exact hs.storage.set _ ⟨hs.iteration, rfl, rfl, hp, hl, hc⟩, hs.distances, hs.iteration⟩

theorem hCreate_perm (hfree : OrderFree env link) {ids : List α} (hv : ∀ x ∈ ids, ∃ v, dget? vs x = some v)
    {s s' : HState α V δ} (hs : SameState link ids s s') (current children : List Nat) (i : Nat) :
    SameOutcome (SameState link ids) (hCreate env vs s current children i) (hCreate env vs s' current children i) := by
  unfold hCreate
  refine (SameOutcome.mapM_same fun c _ => hs.storage.get c).bind fun nodes nodes' hn => ?_
  have hd : (nodes'.map fun n => n.depth) = nodes.map fun n => n.depth := by
    induction hn with
    | nil => rfl
    | cons h1 _ ih => rw [List.map_cons, List.map_cons, ih, h1.depth]
  have hmem : (nodes.flatMap fun n => n.members).Perm (nodes'.flatMap fun n => n.members) := by
    clear hd
    induction hn with
    | nil => exact .nil
    | cons h1 _ ih => rw [List.flatMap_cons, List.flatMap_cons]; exact h1.members.append ih
  have hids : ∀ x ∈ nodes.flatMap fun n => n.members, x ∈ ids := by
    clear hd hmem
    induction hn with
    | nil => exact fun x hx => absurd hx List.not_mem_nil
    | cons h1 _ ih =>
      intro x hx
      rw [List.flatMap_cons, List.mem_append] at hx
      rcases hx with hx | hx
      · exact h1.managed x hx
      · exact ih x hx
  refine (hCentroid_perm hfree hv hmem hids).bind fun c c' hc => ?_
  exact ⟨rfl, hs.storage.set _ ⟨hs.iteration, rfl, by simp only [hd], hmem, hids, hc⟩, hs.distances, hs.iteration⟩

theorem hAddMerge_perm (hfree : OrderFree env link) {ids : List α} (hv : ∀ x ∈ ids, ∃ v, dget? vs x = some v)
    {s s' : HState α V δ} (hs : SameState link ids s s') (children : List Nat) :
    SameOutcome (fun r r' => r'.1 = r.1 ∧ SameState link ids r.2 r'.2) (hAddMerge env vs s children) (hAddMerge env vs s' children) := by
  unfold hAddMerge
  rw [hs.current, hs.storage.keys]
  refine (SameOutcome.of_eq rfl).bind fun current current' hc => ?_
  subst hc
  cases (dkeys s.storage).max? with
  | none => exact rfl
  | some k => exact (hCreate_perm hfree hv hs _ children (k + 1)).bind fun t t' ht => ⟨rfl, ht⟩

theorem hHasCannotLink_perm (h : Inv m) (h' : Inv m') (hs : SameInferred m m') {xs xs' ys ys' : List α} (hx : xs.Perm xs') (hy : ys.Perm ys')
    (hxm : ∀ x ∈ xs, x ∈ m.managed) (hym : ∀ y ∈ ys, y ∈ m.managed) : hHasCannotLink m' xs' ys' = hHasCannotLink m xs ys := by
  obtain ⟨b, e, hb⟩ := hHasCannotLink_ok h hxm hym
  obtain ⟨b', e', hb'⟩ := hHasCannotLink_ok (xs := xs') (ys := ys') h' (fun x hx' => hs.managed ▸ hxm x (hx.mem_iff.2 hx'))
    fun y hy' => hs.managed ▸ hym y (hy.mem_iff.2 hy')
  rw [e, e']
  congr 1
  rw [Bool.eq_iff_iff, hb, hb']
  have : ∀ x ∈ xs, ∀ y ∈ ys, (CannotLinked m' x y ↔ CannotLinked m x y) := fun x hx y hy => by
    rw [← inferred_cl_iff h (hxm x hx) (hym y hy), ← inferred_cl_iff h' (hs.managed ▸ hxm x hx) (hs.managed ▸ hym y hy), hs.inferred]
  constructor
  · rintro ⟨x, hx', y, hy', hc⟩
    exact ⟨x, hx.mem_iff.2 hx', y, hy.mem_iff.2 hy', (this x (hx.mem_iff.2 hx') y (hy.mem_iff.2 hy')).1 hc⟩
  · rintro ⟨x, hx', y, hy', hc⟩
    exact ⟨x, hx.mem_iff.1 hx', y, hy.mem_iff.1 hy', (this x hx' y hy').2 hc⟩

theorem hLinkage_perm (hfree : OrderFree env link) (hT : PairTable env m vs table) {ci ci' cj cj' : HCluster α V}
    (hi : SameNode link m.managed ci ci') (hj : SameNode link m.managed cj cj') :
    hLinkage env link table ci' cj' = hLinkage env link table ci cj := by
  have hcross : (ci.members.flatMap fun x => cj.members.map fun y => (x, y)).Perm
      (ci'.members.flatMap fun x => cj'.members.map fun y => (x, y)) :=
    hi.members.flatMap fun x _ => hj.members.map _
  have htot : ∀ (l : List (α × α)), (∀ p ∈ l, p.1 ∈ m.managed ∧ p.2 ∈ m.managed) → ∃ r, l.mapM (fun p => pairDistance table p) = .ok r :=
    fun l hl => mapM_total fun p hp => by
      obtain ⟨v, w, -, -, e⟩ := hT p (hl p hp).1 (hl p hp).2
      exact ⟨_, e⟩
  have hmi : ∀ x ∈ ci'.members, x ∈ m.managed := fun x hx => hi.managed x (hi.members.mem_iff.2 hx)
  have hmj : ∀ x ∈ cj'.members, x ∈ m.managed := fun x hx => hj.managed x (hj.members.mem_iff.2 hx)
  unfold hLinkage
  cases hlink : link with
  | complete =>
    obtain ⟨r, e⟩ := htot _ fun p hp => ⟨hi.managed _ (mem_cross.1 hp).1, hj.managed _ (mem_cross.1 hp).2⟩
    obtain ⟨r', e'⟩ := htot _ fun p hp => ⟨hmi _ (mem_cross.1 hp).1, hmj _ (mem_cross.1 hp).2⟩
    simp only [e, e', bind, Except.bind, max?_perm (mapM_perm hcross e e')]
  | average => exact congrArg Except.ok (by rw [hi.centroid hlink, hj.centroid hlink])
  | single =>
    obtain ⟨r, e⟩ := htot _ fun p hp => ⟨hi.managed _ (mem_cross.1 hp).1, hj.managed _ (mem_cross.1 hp).2⟩
    obtain ⟨r', e'⟩ := htot _ fun p hp => ⟨hmi _ (mem_cross.1 hp).1, hmj _ (mem_cross.1 hp).2⟩
    simp only [e, e', bind, Except.bind, min?_perm (mapM_perm hcross e e')]
  | ward =>
    have hml : ∀ x ∈ ci.members ++ cj.members, x ∈ m.managed := fun x hx => by
      rcases List.mem_append.1 hx with hx | hx
      · exact hi.managed x hx
      · exact hj.managed x hx
    have hml' : ∀ x ∈ ci'.members ++ cj'.members, x ∈ m.managed := fun x hx => by
      rcases List.mem_append.1 hx with hx | hx
      · exact hmi x hx
      · exact hmj x hx
    obtain ⟨r, e⟩ := htot _ fun p hp => ⟨hml _ (laterPairs_mem hp).1, hml _ (laterPairs_mem hp).2⟩
    obtain ⟨r', e'⟩ := htot _ fun p hp => ⟨hml' _ (laterPairs_mem hp).1, hml' _ (laterPairs_mem hp).2⟩
    have hsome : ∀ {l : List (α × α)} {r : List δ}, l.mapM (fun p => pairDistance table p) = .ok r →
        r.map some = l.map fun p => (pairDistance table (p.1, p.2)).toOption := by
      intro l r e
      have := mapM_ok_iff.1 e
      induction this with
      | nil => rfl
      | cons h1 h2 ih =>
        rw [List.map_cons, List.map_cons, ih (mapM_ok_iff.2 h2), h1]
        rfl
    have hD := laterPairs_perm (fun x y => (pairDistance table (x, y)).toOption) (hi.members.append hj.members) fun x hx y hy => by
      obtain ⟨v, w, h1, h2, h3⟩ := hT (x, y) (hml x hx) (hml y hy)
      obtain ⟨v', w', h4, h5, h6⟩ := hT (y, x) (hml y hy) (hml x hx)
      rw [h1] at h5; rw [h2] at h4
      cases h4; cases h5
      rw [h3, h6, hfree.metric hlink]
    rw [← hsome e, ← hsome e'] at hD
    have hrr : r.Perm r' := (List.map_perm_map_iff (Option.some_injective δ)).1 hD
    simp only [e, e', bind, Except.bind, hi.members.length_eq, hj.members.length_eq, hfree.ward hlink _ _ _ _ hrr]

theorem hComputeDistance_perm (h : Inv m) (h' : Inv m') (hs : SameInferred m m') (hfree : OrderFree env link)
    (hT : PairTable env m vs table) {st st' : Dict Nat (HCluster α V)} (hst : SameStorage link m.managed st st') (i j : Nat) :
    hComputeDistance env link m' table st' i j = hComputeDistance env link m table st i j := by
  refine SameOutcome.eq ?_
  unfold hComputeDistance
  refine (hst.get i).bind fun ci ci' hi => (hst.get j).bind fun cj cj' hj => ?_
  rw [hHasCannotLink_perm h h' hs hi.members hj.members hi.managed hj.managed, hLinkage_perm hfree hT hi hj]
  exact SameOutcome.of_eq rfl

theorem hInitDistances_perm (h : Inv m) (h' : Inv m') (hs : SameInferred m m') (hfree : OrderFree env link)
    (hT : PairTable env m vs table) {s s' : HState α V δ} (hst : SameState link m.managed s s') :
    hInitDistances env link m' table s' = hInitDistances env link m table s := by
  unfold hInitDistances
  simp only [hst.current, hComputeDistance_perm h h' hs hfree hT hst.storage]

theorem hUpdateDistances_perm (h : Inv m) (h' : Inv m') (hs : SameInferred m m') (hfree : OrderFree env link)
    (hT : PairTable env m vs table) {s s' : HState α V δ} (hst : SameState link m.managed s s') (c : Nat) :
    hUpdateDistances env link m' table s' c = hUpdateDistances env link m table s c := by
  unfold hUpdateDistances
  simp only [hst.current, hst.distances, hComputeDistance_perm h h' hs hfree hT hst.storage]

theorem hClosest_perm {ids : List α} {s s' : HState α V δ} (hst : SameState link ids s s') : hClosest s' = hClosest s := by
  refine SameOutcome.eq ?_
  unfold hClosest
  rw [hst.current, hst.distances]
  refine SameOutcome.bind (R := fun b b' => b' = b) (SameOutcome.of_eq (mapM_same fun p _ => SameOutcome.eq ?_)) fun b b' hb => by
    subst hb; exact SameOutcome.of_eq rfl
  refine (SameOutcome.of_eq rfl).bind fun d d' hd => ?_
  subst hd
  refine (hst.storage.get p.1).bind fun n1 n1' h1 => (hst.storage.get p.2).bind fun n2 n2' h2 => ?_
  show (_, _, _) = (_, _, _)
  rw [h1.members.length_eq, h2.members.length_eq]

theorem hMergeStep_perm (h : Inv m) (h' : Inv m') (hs : SameInferred m m') (hfree : OrderFree env link)
    (hT : PairTable env m vs table) (hv : ∀ x ∈ m.managed, ∃ v, dget? vs x = some v) {s s' : HState α V δ}
    (hst : SameState link m.managed s s') (p : Nat × Nat) :
    SameOutcome (SameState link m.managed) (hMergeStep env link m vs table s p) (hMergeStep env link m' vs table s' p) := by
  unfold hMergeStep
  refine (hAddMerge_perm hfree hv hst [p.1, p.2]).bind fun r r' hr => ?_
  obtain ⟨c, t⟩ := r
  obtain ⟨c', t'⟩ := r'
  obtain ⟨rfl, ht⟩ := hr
  dsimp only at ht ⊢
  rw [hUpdateDistances_perm h h' hs hfree hT ht]
  refine (SameOutcome.of_eq rfl).bind fun d d' hd => ?_
  subst hd
  exact ⟨ht.current, ht.storage, rfl, by rw [ht.iteration]⟩

theorem hLoop_perm (h : Inv m) (h' : Inv m') (hs : SameInferred m m') (hfree : OrderFree env link)
    (hT : PairTable env m vs table) (hv : ∀ x ∈ m.managed, ∃ v, dget? vs x = some v) (fuel : Nat) {s s' : HState α V δ}
    (hst : SameState link m.managed s s') :
    SameOutcome (SameState link m.managed) (hLoop env link m vs table fuel s) (hLoop env link m' vs table fuel s') := by
  induction fuel generalizing s s' with
  | zero =>
    unfold hLoop
    rw [hst.current]
    split
    · exact rfl
    · exact hst
  | succ fuel ih =>
    unfold hLoop
    rw [hst.current, hClosest_perm hst]
    split
    · refine (SameOutcome.of_eq rfl).bind fun o o' ho => ?_
      subst ho
      cases o' with
      | none => exact hst
      | some p => exact (hMergeStep_perm h h' hs hfree hT hv hst p).bind fun t t' ht => ih ht
    · exact hst

theorem components_same (h : Inv m) (h' : Inv m') (hs : SameInferred m m') :
    List.Forall₂ (fun c c' => c.Perm c' ∧ ∀ x ∈ c, x ∈ m.managed) m.components m'.components := by
  have h1 : List.Forall₂ List.Perm m.components m'.components := by
    refine components_forall₂ h h' hs.managed fun x y => ?_
    by_cases hx : x ∈ m.managed
    · by_cases hy : y ∈ m.managed
      · rw [← inferred_ml_iff h hx hy, ← inferred_ml_iff h' (hs.managed ▸ hx) (hs.managed ▸ hy), hs.inferred]
      · exact ⟨fun hl => absurd (hl.mem h hx) hy, fun hl => absurd (hs.managed ▸ hl.mem h' (hs.managed ▸ hx)) hy⟩
    · have only : ∀ {m : Manager α}, Inv m → x ∉ m.managed → (MustLinked m x y ↔ x = y) := by
        intro m hi hx
        constructor
        · intro hl
          rcases Relation.ReflTransGen.cases_head hl with h | ⟨z, hz, -⟩
          · exact h
          · exact absurd (AddedAs.mem hi hz).1 hx
        · rintro rfl; exact MustLinked.refl _ _
      rw [only h hx, only h' (hs.managed ▸ hx)]
  rw [List.forall₂_iff_zip] at h1 ⊢
  exact ⟨h1.1, fun hab => ⟨h1.2 hab, fun x hx => (mem_component_iff h (List.of_mem_zip hab).1 hx).1⟩⟩

theorem hBuild_perm (h : Inv m) (h' : Inv m') (hs : SameInferred m m') (hfree : OrderFree env link)
    (hT : PairTable env m vs table) (hv : ∀ x ∈ m.managed, ∃ v, dget? vs x = some v) :
    SameOutcome (fun r r' => r'.1 = r.1 ∧ SameStorage link m.managed r.2 r'.2) (hBuild env link m vs table)
      (hBuild env link m' vs table) := by
  have hc := components_same h h' hs
  unfold hBuild
  refine SameOutcome.bind (R := SameState link m.managed) ?_ fun s0 s0' h0 => ?_
  · unfold hStart
    refine SameOutcome.bind (R := SameState link m.managed)
      (SameOutcome.foldlM hc ⟨rfl, .nil, rfl, rfl⟩ fun s s' c c' hst hcc => hAddLeaf_perm hfree hv hcc.1 hcc.2 hst) fun s s' hst => ?_
    rw [hInitDistances_perm h h' hs hfree hT hst]
    refine (SameOutcome.of_eq rfl).bind fun d d' hd => ?_
    subst hd
    exact ⟨hst.current, hst.storage, rfl, rfl⟩
  · rw [show m'.components.length = m.components.length from hc.length_eq.symm]
    refine (hLoop_perm h h' hs hfree hT hv _ h0).bind fun s1 s1' h1 => ?_
    refine SameOutcome.bind (R := SameState link m.managed) ?_ fun s2 s2' h2 => ?_
    · unfold hFinish
      rw [h1.current]
      split
      · exact (hAddMerge_perm hfree hv h1 _).bind fun r r' hr => hr.2
      · exact h1
    · rw [h2.current]
      cases s2.current with
      | nil => exact rfl
      | cons root _ => exact (h2.storage.get root).bind fun n n' _ => ⟨rfl, h2.storage⟩

/-! ### Cuts -/

theorem hChoice_perm (by_ : CutBy) {ids : List α} {st st' : Dict Nat (HCluster α V)} (hst : SameStorage link ids st st') (l : List Nat) :
    hChoice by_ st' l = hChoice by_ st l := by
  unfold hChoice
  refine congrArg (· >>= _) (mapM_same fun c _ => SameOutcome.eq ?_)
  refine (hst.get c).bind fun n n' hn => ?_
  have : by_.key n' = by_.key n := by
    cases by_
    · exact hn.members.length_eq.symm
    · exact hn.iteration
  show (_, _) = (_, _)
  rw [this]

theorem hExplore_perm (by_ : CutBy) {ids : List α} {st st' : Dict Nat (HCluster α V)} (hst : SameStorage link ids st st') (nb : Int)
    (fuel : Nat) (l : List Nat) : hExplore by_ st' nb fuel l = hExplore by_ st nb fuel l := by
  induction fuel generalizing l with
  | zero => rfl
  | succ fuel ih =>
    unfold hExplore
    split
    · rw [hChoice_perm by_ hst]
      refine congrArg (_ >>= ·) (funext fun c => SameOutcome.eq ?_)
      refine (hst.get c).bind fun n n' hn => ?_
      rw [hn.children, ih]
      exact SameOutcome.of_eq rfl
    · rfl

theorem foldl_dset_perm {l l' : List α} (hp : l.Perm l') (c : Int) {d : Dict α Int} (hd : (dkeys d).Nodup) (hl : ∀ x ∈ l, x ∈ dkeys d) :
    l'.foldl (fun d x => dset d x c) d = l.foldl (fun d x => dset d x c) d ∧
      dkeys (l.foldl (fun d x => dset d x c) d) = dkeys d := by
  have hk : ∀ (l : List α) (d : Dict α Int), (∀ x ∈ l, x ∈ dkeys d) → dkeys (l.foldl (fun d x => dset d x c) d) = dkeys d := by
    intro l
    induction l with
    | nil => exact fun d _ => rfl
    | cons x l ih =>
      intro d hl
      have h1 := dkeys_dset_of_mem c (hl x List.mem_cons_self)
      rw [List.foldl_cons, ih _ fun y hy => by rw [h1]; exact hl y (List.mem_cons_of_mem _ hy), h1]
  have hg : ∀ (l : List α) (d : Dict α Int) (z : α),
      dget? (l.foldl (fun d x => dset d x c) d) z = if z ∈ l then some c else dget? d z := by
    intro l
    induction l with
    | nil => exact fun d z => by simp
    | cons x l ih =>
      intro d z
      rw [List.foldl_cons, ih, dget?_dset]
      by_cases h1 : z ∈ l
      · simp [h1]
      · by_cases h2 : x = z
        · simp [h2]
        · simp [h1, h2, Ne.symm h2]
  have hk' := hk l' d fun x hx => hl x (hp.mem_iff.2 hx)
  refine ⟨dict_ext (by rw [hk']; exact hd) (by rw [hk', hk l d hl]) fun z => ?_, hk l d hl⟩
  rw [hg, hg]
  simp only [hp.mem_iff]

theorem hAffect_perm {ids : List α} {st st' : Dict Nat (HCluster α V)} (hst : SameStorage link ids st st') (l : List Nat) :
    hAffect ids st' l = hAffect ids st l := by
  refine SameOutcome.eq (SameOutcome.mono (R := fun d d' => d' = d ∧ (dkeys d).Nodup ∧ ∀ x ∈ ids, x ∈ dkeys d) ?_ fun _ _ h => h.1)
  unfold hAffect
  refine SameOutcome.foldlM_same ⟨rfl, nodup_dkeys_dofList _, fun x hx => (mem_dkeys_dofList_map _ _ _).2 hx⟩ fun d d' c hd => ?_
  obtain ⟨rfl, h1, h2⟩ := hd
  refine (hst.get c).bind fun n n' hn => ?_
  obtain ⟨e1, e2⟩ := foldl_dset_perm hn.members (c : Int) h1 fun x hx => h2 x (hn.managed x hx)
  exact ⟨e1, by rw [e2]; exact h1, by rw [e2]; exact h2⟩

theorem hCut_perm {ids : List α} {st st' : Dict Nat (HCluster α V)} (hst : SameStorage link ids st st') (root : Nat) (nb : Int)
    (by_ : CutBy) : hCut ids st' root nb by_ = hCut ids st root nb by_ := by
  unfold hCut
  simp only [hExplore_perm by_ hst, hAffect_perm hst]

end

end Verif
