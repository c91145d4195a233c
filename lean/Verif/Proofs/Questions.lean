import Verif.Spec.Questions
import Verif.Props.Cost

/-
Lemmas on the number of questions.
-/

namespace Verif

variable {α V δ : Type} [LinearOrder α] [LinearOrder δ]

theorem mem_openCross {truth : α → Nat} {m : Manager α} {p : α × α} :
    p ∈ openCross truth m ↔ p ∈ unknownPairs m ∧ truth p.1 ≠ truth p.2 := by
  unfold openCross; rw [Finset.mem_filter, List.mem_toFinset]

/-- One truthful answer about a pair of unknown relation. -/
theorem annotate_new {truth : α → Nat} {m : Manager α} (hm : Reachable m) (hs : Satisfies m truth) {p : α × α}
    (hp : p ∈ unknownPairs m) :
    ∃ m', annotate truth m [p] = .ok m' ∧ Reachable m' ∧ Satisfies m' truth ∧ KnowsMore m m' ∧
      (∃ t, m'.getInferred p.1 p.2 = .ok (some t)) ∧
      ∀ t u w, AddedAs m' t u w → AddedAs m t u w ∨ (Agrees truth p.1 p.2 t ∧ ((u = p.1 ∧ w = p.2) ∨ (u = p.2 ∧ w = p.1))) := by
  obtain ⟨hx, hy, -, hnone⟩ := mem_unknownPairs.1 hp
  obtain ⟨m', h1, h2, h3, h4, h5, h6⟩ := annotate_one hm hs hx hy
  refine ⟨m', ?_, h2, h3, ⟨h4, h5⟩, h6, ?_⟩
  · unfold annotate
    rw [List.foldlM_cons, h1]
    rfl
  · obtain ⟨-, ⟨t2, ht2, ha1, ha2⟩, -, hframe, -⟩ := C06_add_constraint_frame hm h1
    obtain ⟨t3, ht3, hag⟩ := truthAnswer_parse truth p.1 p.2
    have ht : t2 = t3 := by
      have := parse_eq_some.2 ht2
      rw [ht3] at this; exact (Option.some.inj this).symm
    subst ht
    intro t u w ha
    by_cases hu1 : u = p.1 ∧ w = p.2
    · obtain ⟨rfl, rfl⟩ := hu1
      obtain ⟨v, hv⟩ := ha
      rw [ha1] at hv
      cases hv
      exact .inr ⟨hag, .inl ⟨rfl, rfl⟩⟩
    · by_cases hu2 : u = p.2 ∧ w = p.1
      · obtain ⟨rfl, rfl⟩ := hu2
        obtain ⟨v, hv⟩ := ha
        rw [ha2] at hv
        cases hv
        exact .inr ⟨hag, .inr ⟨rfl, rfl⟩⟩
      · obtain ⟨v, hv⟩ := ha
        rw [hframe u w hu1 hu2] at hv
        exact .inl ⟨v, hv⟩

theorem KnowsMore.mustLinked {m m' : Manager α} (h : Inv m) (h' : Inv m') (hk : KnowsMore m m') {x y : α}
    (hx : x ∈ m.managed) (hy : y ∈ m.managed) (hl : MustLinked m x y) : MustLinked m' x y :=
  (inferred_ml_iff h' (hk.1 ▸ hx) (hk.1 ▸ hy)).1 (hk.2 _ _ _ ((inferred_ml_iff h hx hy).2 hl))

theorem components_knowsMore {m m' : Manager α} (h : Inv m) (h' : Inv m') (hk : KnowsMore m m') :
    m'.components.length ≤ m.components.length := by
  rw [← components_card h, ← components_card h', hk.1]
  apply image_card_le
  intro x hx y hy he
  rw [List.mem_toFinset] at hx hy
  rw [compIdx_eq_iff h' (hk.1 ▸ hx) (hk.1 ▸ hy)]
  exact hk.mustLinked h h' hx hy ((compIdx_eq_iff h hx hy).1 he)

theorem components_lt {m m' : Manager α} (h : Inv m) (h' : Inv m') (hk : KnowsMore m m') {x y : α}
    (hx : x ∈ m.managed) (hy : y ∈ m.managed) (hno : ¬ MustLinked m x y) (hl : MustLinked m' x y) :
    m'.components.length < m.components.length := by
  rw [← components_card h, ← components_card h', hk.1]
  refine image_card_lt ?_ (List.mem_toFinset.2 hx) (List.mem_toFinset.2 hy) (fun he => hno ((compIdx_eq_iff h hx hy).1 he))
    ((compIdx_eq_iff h' (hk.1 ▸ hx) (hk.1 ▸ hy)).2 hl)
  intro x hx y hy he
  rw [List.mem_toFinset] at hx hy
  rw [compIdx_eq_iff h' (hk.1 ▸ hx) (hk.1 ▸ hy)]
  exact hk.mustLinked h h' hx hy ((compIdx_eq_iff h hx hy).1 he)

/-- One must-link joins at most two components. -/
theorem components_step {m m' : Manager α} (h : Inv m) (h' : Inv m') (hk : m'.managed = m.managed) {x y : α}
    (hadd : ∀ u w, AddedAs m' .mustLink u w → AddedAs m .mustLink u w ∨ (u = x ∧ w = y) ∨ (u = y ∧ w = x)) :
    m.components.length ≤ m'.components.length + 1 := by
  rw [← components_card h, ← components_card h', hk]
  set S := m.managed.toFinset
  set g : α → Nat := fun u => if compIdx m u = compIdx m x then compIdx m y else compIdx m u with hg
  have hgxy : g x = g y := by simp [hg]
  have hchain : ∀ a b, a ∈ m.managed → MustLinked m' a b → g a = g b ∧ b ∈ m.managed := by
    intro a b ha hl
    induction hl with
    | refl => exact ⟨rfl, ha⟩
    | @tail b c _ he ih =>
      have hb := ih.2
      have hc : c ∈ m.managed := hk ▸ (AddedAs.mem h' he).2
      refine ⟨ih.1.trans ?_, hc⟩
      rcases hadd b c he with ho | ⟨rfl, rfl⟩ | ⟨rfl, rfl⟩
      · have : compIdx m b = compIdx m c := (compIdx_eq_iff h hb hc).2 (Chain.single ho)
        simp only [hg, this]
      · exact hgxy
      · exact hgxy.symm
  have h1 : (S.image g).card ≤ (S.image (compIdx m')).card := by
    apply image_card_le
    intro a ha b hb he
    rw [List.mem_toFinset] at ha hb
    exact (hchain a b ha ((compIdx_eq_iff h' (hk ▸ ha) (hk ▸ hb)).1 he)).1
  have h2 : S.image (compIdx m) ⊆ insert (compIdx m x) (S.image g) := by
    intro i hi
    obtain ⟨u, hu, rfl⟩ := Finset.mem_image.1 hi
    by_cases he : compIdx m u = compIdx m x
    · rw [he]; exact Finset.mem_insert_self _ _
    · exact Finset.mem_insert_of_mem (Finset.mem_image.2 ⟨u, hu, if_neg he⟩)
  have := (Finset.card_le_card h2).trans (Finset.card_insert_le _ _)
  omega

theorem classes_le {truth : α → Nat} {m : Manager α} (h : Inv m) (hs : Satisfies m truth) :
    classes truth m.managed ≤ m.components.length := by
  rw [← components_card h]
  apply image_card_le
  intro x hx y hy he
  rw [List.mem_toFinset] at hx hy
  exact satisfies_chain hs ((compIdx_eq_iff h hx hy).1 he)

/-- Nothing unknown inside the classes: as many components as classes. -/
theorem components_eq_classes {truth : α → Nat} {m : Manager α} (h : Inv m) (hs : Satisfies m truth)
    (hall : ∀ x ∈ m.managed, ∀ y ∈ m.managed, truth x = truth y → MustLinked m x y) :
    m.components.length = classes truth m.managed := by
  apply le_antisymm _ (classes_le h hs)
  rw [← components_card h]
  apply image_card_le
  intro x hx y hy he
  rw [List.mem_toFinset] at hx hy
  exact (compIdx_eq_iff h hx hy).2 (hall x hx y hy he)

theorem mustLinked_of_closed {truth : α → Nat} {m : Manager α} (h : Inv m) (hs : Satisfies m truth)
    (hno : ∀ p ∈ unknownPairs m, truth p.1 ≠ truth p.2) :
    ∀ x ∈ m.managed, ∀ y ∈ m.managed, truth x = truth y → MustLinked m x y := by
  have lt_case : ∀ x ∈ m.managed, ∀ y ∈ m.managed, x < y → truth x = truth y → MustLinked m x y := by
    intro x hx y hy hlt he
    by_contra hc
    exact hno (x, y) (mem_unknownPairs.2 ⟨hx, hy, hlt, (inferred_none_iff h hx hy).2 ⟨hc, fun hcl => satisfies_sep hs hcl he⟩⟩) he
  intro x hx y hy he
  rcases lt_trichotomy x y with hlt | rfl | hlt
  · exact lt_case x hx y hy hlt he
  · exact MustLinked.refl m x
  · exact (lt_case y hy x hx hlt he.symm).symm h

/-- What remains to be asked in the worst case, up to the number of classes. -/
def todo (truth : α → Nat) (m : Manager α) : Nat := m.components.length + (openCross truth m).card

theorem openCross_mono {truth : α → Nat} {m m' : Manager α} (h : Inv m) (hk : KnowsMore m m') :
    openCross truth m' ⊆ openCross truth m := by
  intro p hp
  rw [mem_openCross] at hp ⊢
  exact ⟨unknown_mono h hk p hp.1, hp.2⟩

theorem todo_le {truth : α → Nat} {m m' : Manager α} (h : Inv m) (h' : Inv m') (hk : KnowsMore m m') :
    todo truth m' ≤ todo truth m :=
  Nat.add_le_add (components_knowsMore h h' hk) (Finset.card_le_card (openCross_mono h hk))

theorem mustLinked_of_known {truth : α → Nat} {m' : Manager α} (h' : Inv m') (hs' : Satisfies m' truth) {x y : α}
    (hx : x ∈ m'.managed) (hy : y ∈ m'.managed) (he : truth x = truth y) {t : CType} (ht : m'.getInferred x y = .ok (some t)) :
    MustLinked m' x y := by
  cases t with
  | mustLink => exact (inferred_ml_iff h' hx hy).1 ht
  | cannotLink => exact absurd he (satisfies_sep hs' ((inferred_cl_iff h' hx hy).1 ht))

theorem todo_lt {truth : α → Nat} {m m' : Manager α} (h : Inv m) (h' : Inv m') (hs' : Satisfies m' truth) (hk : KnowsMore m m')
    {p : α × α} (hp : p ∈ unknownPairs m) {t : CType} (ht : m'.getInferred p.1 p.2 = .ok (some t)) :
    todo truth m' < todo truth m := by
  obtain ⟨hx, hy, -, hnone⟩ := mem_unknownPairs.1 hp
  by_cases he : truth p.1 = truth p.2
  · exact Nat.add_lt_add_of_lt_of_le
      (components_lt h h' hk hx hy ((inferred_none_iff h hx hy).1 hnone).1
        (mustLinked_of_known h' hs' (hk.1 ▸ hx) (hk.1 ▸ hy) he ht))
      (Finset.card_le_card (openCross_mono h hk))
  · refine Nat.add_lt_add_of_le_of_lt (components_knowsMore h h' hk) (Finset.card_lt_card ?_)
    refine (Finset.ssubset_iff_of_subset (openCross_mono h hk)).2 ⟨p, mem_openCross.2 ⟨hp, he⟩, fun hc => ?_⟩
    have := (mem_unknownPairs.1 (mem_openCross.1 hc).1).2.2.2
    rw [ht] at this
    cases this

theorem todo_complete {truth : α → Nat} {m : Manager α} (hm : Reachable m) (hs : Satisfies m truth) (hc : m.complete = true) :
    todo truth m = classes truth m.managed := by
  rw [complete_iff_unknown hm] at hc
  have h1 : openCross truth m = ∅ := by
    apply Finset.eq_empty_of_forall_notMem
    intro p hp
    have := (mem_openCross.1 hp).1
    rw [hc] at this
    cases this
  have h2 := components_eq_classes hm.inv hs (mustLinked_of_closed hm.inv hs (by rw [hc]; simp))
  unfold todo
  rw [h1, h2]; simp

theorem classes_le_todo {truth : α → Nat} {m : Manager α} (h : Inv m) (hs : Satisfies m truth) :
    classes truth m.managed ≤ todo truth m := (classes_le h hs).trans (Nat.le_add_right _ _)

/-! ### A new manager -/

theorem init_toFinset (ids : List α) : (Manager.init ids).managed.toFinset = ids.toFinset := by
  ext x
  rw [List.mem_toFinset, List.mem_toFinset, show (Manager.init ids).managed = ounion [] ids from init_keys ids, mem_ounion]
  simp

theorem init_mem (ids : List α) (x : α) : x ∈ (Manager.init ids).managed ↔ x ∈ ids := by
  rw [← List.mem_toFinset, init_toFinset, List.mem_toFinset]

theorem init_mustLinked (ids : List α) {x y : α} (hl : MustLinked (Manager.init ids) x y) : x = y := by
  induction hl with
  | refl => rfl
  | tail _ he ih =>
    rw [addedAs_iff_known (init_inv ids), init_known] at he
    split at he
    · rename_i hc; exact ih.trans hc.1
    · cases he

theorem init_components (ids : List α) : (Manager.init ids).components.length = ids.toFinset.card := by
  rw [← components_card (init_inv ids), init_toFinset]
  apply Finset.card_image_of_injOn
  intro x hx y hy he
  rw [Finset.mem_coe, List.mem_toFinset] at hx hy
  exact init_mustLinked ids ((compIdx_eq_iff (init_inv ids) ((init_mem ids x).2 hx) ((init_mem ids y).2 hy)).1 he)

theorem init_openCross (ids : List α) (truth : α → Nat) : openCross truth (Manager.init ids) = crossPairs truth ids := by
  have h := init_inv ids
  ext p
  rw [mem_openCross, mem_unknownPairs, crossPairs, Finset.mem_filter, Finset.mem_product, List.mem_toFinset, List.mem_toFinset,
    init_mem, init_mem]
  constructor
  · rintro ⟨⟨h1, h2, h3, -⟩, h4⟩; exact ⟨⟨h1, h2⟩, h3, h4⟩
  · rintro ⟨⟨h1, h2⟩, h3, h4⟩
    refine ⟨⟨h1, h2, h3, (inferred_none_iff h ((init_mem ids _).2 h1) ((init_mem ids _).2 h2)).2 ⟨?_, ?_⟩⟩, h4⟩
    · intro hl; rw [init_mustLinked ids hl] at h3; exact lt_irrefl _ h3
    · rintro ⟨u, w, -, ha, -⟩
      rw [addedAs_iff_known h, init_known] at ha
      split at ha <;> cases ha

theorem init_todo (ids : List α) (truth : α → Nat) :
    todo truth (Manager.init ids) = ids.toFinset.card + (crossPairs truth ids).card := by
  unfold todo; rw [init_components, init_openCross]

theorem init_classes (ids : List α) (truth : α → Nat) : classes truth (Manager.init ids).managed = classes truth ids := by
  unfold classes; rw [init_toFinset]

/-! ### The worst order of questions -/

/-- Must-links are only asked for when all pairs of different classes are known. -/
def Unlucky (truth : α → Nat) (m : Manager α) : Prop := openCross truth m = ∅ ∨ ∀ x y, MustLinked m x y → x = y

theorem todo_step {truth : α → Nat} {m m' : Manager α} (hm : Reachable m) (hs : Satisfies m truth) (hm' : Reachable m')
    (hk : KnowsMore m m') (hu : Unlucky truth m) {p : α × α} (hp : p ∈ unknownPairs m)
    (hcross : openCross truth m ≠ ∅ → truth p.1 ≠ truth p.2)
    (hadd : ∀ t u w, AddedAs m' t u w →
      AddedAs m t u w ∨ (Agrees truth p.1 p.2 t ∧ ((u = p.1 ∧ w = p.2) ∨ (u = p.2 ∧ w = p.1)))) :
    Unlucky truth m' ∧ todo truth m ≤ todo truth m' + 1 := by
  have h := hm.inv
  have h' := hm'.inv
  by_cases hc : openCross truth m = ∅
  · have hc' : openCross truth m' = ∅ := Finset.subset_empty.1 (hc ▸ openCross_mono h hk)
    refine ⟨.inl hc', ?_⟩
    unfold todo
    rw [hc, hc']
    have := components_step h h' hk.1 (x := p.1) (y := p.2) fun u w ha => (hadd _ u w ha).imp id And.right
    simpa using this
  · have hne := hcross hc
    have hml : ∀ x y, MustLinked m x y → x = y := hu.resolve_left hc
    have hml' : ∀ x y, MustLinked m' x y → x = y := by
      intro x y hl
      induction hl with
      | refl => rfl
      | tail _ he ih =>
        rcases hadd _ _ _ he with ho | ⟨hag, -⟩
        · exact ih.trans (hml _ _ (Chain.single ho))
        · exact absurd hag hne
    refine ⟨.inr hml', ?_⟩
    have hcomp : m.components.length ≤ m'.components.length := by
      rw [← components_card h, ← components_card h', hk.1]
      apply image_card_le
      intro x hx y hy he
      rw [List.mem_toFinset] at hx hy
      rw [hml' x y ((compIdx_eq_iff h' (hk.1 ▸ hx) (hk.1 ▸ hy)).1 he)]
    have hsub : openCross truth m ⊆ insert p (openCross truth m') := by
      intro q hq
      obtain ⟨hqu, hqc⟩ := mem_openCross.1 hq
      obtain ⟨q1, q2, q3, q4⟩ := mem_unknownPairs.1 hqu
      by_cases hqp : q = p
      · rw [hqp]; exact Finset.mem_insert_self _ _
      · refine Finset.mem_insert_of_mem (mem_openCross.2 ⟨mem_unknownPairs.2 ⟨hk.1 ▸ q1, hk.1 ▸ q2, q3, ?_⟩, hqc⟩)
        rw [inferred_none_iff h' (hk.1 ▸ q1) (hk.1 ▸ q2)]
        refine ⟨fun hl => q3.ne (hml' _ _ hl), ?_⟩
        rintro ⟨u, w, hl1, ha, hl2⟩
        rw [← hml' _ _ hl1, hml' _ _ hl2] at ha
        rcases hadd _ _ _ ha with ho | ⟨-, ⟨e1, e2⟩ | ⟨e1, e2⟩⟩
        · exact ((inferred_none_iff h q1 q2).1 q4).2 ⟨q.1, q.2, .refl, ho, .refl⟩
        · exact hqp (Prod.ext e1 e2)
        · have := (mem_unknownPairs.1 hp).2.2.1
          rw [e1, e2] at q3
          exact lt_asymm this q3
    have := (Finset.card_le_card hsub).trans (Finset.card_insert_le _ _)
    unfold todo
    omega

/-! ### The best order of questions -/

/-- The pairs of classes about which something is unknown. -/
def openClasses (truth : α → Nat) (m : Manager α) : Finset (Nat × Nat) :=
  (openCross truth m).image fun p => (min (truth p.1) (truth p.2), max (truth p.1) (truth p.2))

def todoBest (truth : α → Nat) (m : Manager α) : Nat := m.components.length + (openClasses truth m).card

theorem todoBest_lt {truth : α → Nat} {m m' : Manager α} (h : Inv m) (hs : Satisfies m truth) (h' : Inv m')
    (hs' : Satisfies m' truth) (hk : KnowsMore m m')
    {p : α × α} (hp : p ∈ unknownPairs m) {t : CType} (ht : m'.getInferred p.1 p.2 = .ok (some t))
    (hbest : truth p.1 ≠ truth p.2 → ∀ q ∈ unknownPairs m, truth q.1 ≠ truth q.2) : todoBest truth m' < todoBest truth m := by
  obtain ⟨hx, hy, -, hnone⟩ := mem_unknownPairs.1 hp
  have hsub : openClasses truth m' ⊆ openClasses truth m := Finset.image_subset_image (openCross_mono h hk)
  by_cases he : truth p.1 = truth p.2
  · exact Nat.add_lt_add_of_lt_of_le
      (components_lt h h' hk hx hy ((inferred_none_iff h hx hy).1 hnone).1
        (mustLinked_of_known h' hs' (hk.1 ▸ hx) (hk.1 ▸ hy) he ht))
      (Finset.card_le_card hsub)
  · have hml := mustLinked_of_closed h hs (hbest he)
    have hcl : CannotLinked m' p.1 p.2 := by
      cases t with
      | cannotLink => exact (inferred_cl_iff h' (hk.1 ▸ hx) (hk.1 ▸ hy)).1 ht
      | mustLink => exact absurd (satisfies_chain hs' ((inferred_ml_iff h' (hk.1 ▸ hx) (hk.1 ▸ hy)).1 ht)) he
    have hspread : ∀ a ∈ m.managed, ∀ b ∈ m.managed, truth a = truth p.1 → truth b = truth p.2 → CannotLinked m' a b := by
      intro a ha b hb e1 e2
      obtain ⟨u, w, l1, ha', l2⟩ := hcl
      exact ⟨u, w, (hk.mustLinked h h' ha hx (hml a ha _ hx e1)).trans l1, ha',
        MustLinked.trans l2 (hk.mustLinked h h' hy hb (hml _ hy b hb e2.symm))⟩
    refine Nat.add_lt_add_of_le_of_lt (components_knowsMore h h' hk) (Finset.card_lt_card ?_)
    refine (Finset.ssubset_iff_of_subset hsub).2 ⟨_, Finset.mem_image_of_mem _ (mem_openCross.2 ⟨hp, he⟩), fun hc => ?_⟩
    obtain ⟨q, hq, e⟩ := Finset.mem_image.1 hc
    obtain ⟨q1, q2, -, q4⟩ := mem_unknownPairs.1 (mem_openCross.1 hq).1
    have hn := ((inferred_none_iff h' q1 q2).1 q4).2
    rw [hk.1] at q1 q2
    rw [Prod.mk.injEq] at e
    have hcase : (truth q.1 = truth p.1 ∧ truth q.2 = truth p.2) ∨ (truth q.1 = truth p.2 ∧ truth q.2 = truth p.1) := by
      obtain ⟨e1, e2⟩ := e
      omega
    rcases hcase with ⟨e1, e2⟩ | ⟨e1, e2⟩
    · exact hn (hspread _ q1 _ q2 e1 e2)
    · exact hn ((hspread _ q2 _ q1 e2 e1).symm h')

theorem openClasses_card {truth : α → Nat} {m : Manager α} :
    2 * (openClasses truth m).card ≤ classes truth m.managed * (classes truth m.managed - 1) := by
  unfold classes
  rw [← ordered_pairs_card]
  apply Nat.mul_le_mul_left
  apply Finset.card_le_card
  intro i hi
  obtain ⟨p, hp, rfl⟩ := Finset.mem_image.1 hi
  obtain ⟨hp, hne⟩ := mem_openCross.1 hp
  obtain ⟨h1, h2, -, -⟩ := mem_unknownPairs.1 hp
  have m1 := Finset.mem_image_of_mem truth (List.mem_toFinset.2 h1)
  have m2 := Finset.mem_image_of_mem truth (List.mem_toFinset.2 h2)
  simp only [Finset.mem_filter, Finset.mem_product]
  rcases lt_or_gt_of_ne hne with hlt | hlt
  · rw [min_eq_left hlt.le, max_eq_right hlt.le]; exact ⟨⟨m1, m2⟩, hlt⟩
  · rw [min_eq_right hlt.le, max_eq_left hlt.le]; exact ⟨⟨m2, m1⟩, hlt⟩

end Verif
