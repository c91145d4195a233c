import Verif.Proofs.MpcGraph

/-
MPC-KMeans: neighbourhoods, propagation of the cannot-links and the check of the graphs.
-/

namespace Verif

open Classical in
/-- The class of `i`. -/
noncomputable def classOf (n : Nat) (R : Nat → Nat → Prop) (i : Nat) : List Nat := (List.range n).filter fun j => decide (R i j)

theorem mem_classOf {n : Nat} {R : Nat → Nat → Prop} (hR : EquivOn n R) {i j : Nat} : j ∈ classOf n R i ↔ R i j := by
  classical
  unfold classOf
  rw [List.mem_filter, List.mem_range, decide_eq_true_eq]
  exact ⟨fun h => h.2, fun h => ⟨(hR.lt i j h).2, h⟩⟩

theorem nodup_classOf (n : Nat) (R : Nat → Nat → Prop) (i : Nat) : (classOf n R i).Nodup := by
  unfold classOf
  exact List.nodup_range.filter _

theorem classOf_congr {n : Nat} {R : Nat → Nat → Prop} (hR : EquivOn n R) {i j : Nat} (h : R i j) :
    classOf n R i = classOf n R j := by
  classical
  unfold classOf
  apply List.filter_congr
  intro k _
  have : R i k ↔ R j k := ⟨fun c => hR.trans _ _ _ (hR.symm _ _ h) c, fun c => hR.trans _ _ _ h c⟩
  rw [this]

theorem unvisited_perm_classOf {n : Nat} {R : Nat → Nat → Prop} (hR : EquivOn n R) {v : List Bool} {i : Nat}
    (hv : ∀ j, R i j → v[j]? = some false) : (unvisited n R v i).Perm (classOf n R i) := by
  rw [List.perm_ext_iff_of_nodup (nodup_unvisited _ _ _ _) (nodup_classOf _ _ _)]
  intro j
  rw [mem_unvisited hR, mem_classOf hR]
  exact ⟨fun h => h.1, fun h => ⟨h, hv j h⟩⟩

/-- The loop of lines 441-449 after the positions below `k`. -/
structure NbhInv (n : Nat) (R : Nat → Nat → Prop) (k : Nat) (s : MpcNbh) : Prop where
  graph : GraphOf n s.graph R
  length : s.visited.length = n
  visited : ∀ j, s.visited[j]? = some true ↔ ∃ a < k, R a j
  nodup : ∀ P ∈ s.neighborhoods, P.Nodup
  sound : ∀ P ∈ s.neighborhoods, ∃ a < k, ∀ j, j ∈ P ↔ R a j
  complete : ∀ a < k, ∃ P ∈ s.neighborhoods, ∀ j, j ∈ P ↔ R a j
  disjoint : s.neighborhoods.Pairwise List.Disjoint

theorem gClose_ok {n : Nat} {R : Nat → Nat → Prop} {g : Graph} (hg : GraphOf n g R) {c : List Nat}
    (hc : ∀ x ∈ c, ∀ y ∈ c, R x y) (hlt : ∀ x ∈ c, x < n) : ∃ g', gClose g c = .ok g' ∧ GraphOf n g' R := by
  unfold gClose
  refine foldlM_keep (P := fun g => GraphOf n g R) (fun x hx g hg => ?_) hg
  refine foldlM_keep (P := fun g => GraphOf n g R) (fun y hy g hg => ?_) hg
  by_cases hxy : x ≠ y
  · rw [if_pos hxy]
    exact gAdd_same hg (hlt x hx) (hc x hx y hy)
  · rw [if_neg hxy]
    exact ⟨g, rfl, hg⟩

theorem mpcNbhStep_ok {enum : List Nat → List Nat} (henum : SetOrder enum) {n : Nat} {R : Nat → Nat → Prop} (hR : EquivOn n R)
    {depth k : Nat} (hk : k < n) {s : MpcNbh} (hs : NbhInv n R k s) :
    ((classOf n R k).length ≤ depth → ∃ s', mpcNbhStep enum depth s k = .ok s' ∧ NbhInv n R (k + 1) s') ∧
    (depth < (classOf n R k).length → (∀ a < k, (classOf n R a).length ≤ depth) →
      mpcNbhStep enum depth s k = .error .recursionError) := by
  obtain ⟨b, eb, hb⟩ := lget_lt (l := s.visited) (i := k) (by rw [hs.length]; exact hk)
  obtain ⟨S, eS, -, -, hS⟩ := hs.graph.get hk
  have hSne : S ≠ [] := List.ne_nil_of_mem ((hS k).2 (hR.refl k hk))
  unfold mpcNbhStep
  rw [eb]
  cases b with
  | true =>
    obtain ⟨a, ha, hak⟩ := (hs.visited k).1 hb
    refine ⟨fun _ => ⟨s, rfl, ⟨hs.graph, hs.length, fun j => ?_, hs.nodup, fun P hP => ?_, fun a' ha' => ?_, hs.disjoint⟩⟩,
      fun hd hall => ?_⟩
    · rw [hs.visited j]
      constructor
      · rintro ⟨a', h1, h2⟩; exact ⟨a', by omega, h2⟩
      · rintro ⟨a', h1, h2⟩
        by_cases c : a' = k
        · subst c; exact ⟨a, ha, hR.trans _ _ _ hak h2⟩
        · exact ⟨a', by omega, h2⟩
    · obtain ⟨a', h1, h2⟩ := hs.sound P hP
      exact ⟨a', by omega, h2⟩
    · by_cases c : a' = k
      · subst c
        obtain ⟨P, hP, h2⟩ := hs.complete a ha
        refine ⟨P, hP, fun j => ?_⟩
        rw [h2 j]
        exact ⟨hR.trans _ _ _ (hR.symm _ _ hak), hR.trans _ _ _ hak⟩
      · exact hs.complete a' (by omega)
    · have := hall a ha
      rw [classOf_congr hR hak] at this
      omega
  | false =>
    have hno : ∀ a < k, ¬ R a k := by
      intro a ha hak
      rw [(hs.visited k).2 ⟨a, ha, hak⟩] at hb
      cases hb
    have hunv : ∀ j, R k j → s.visited[j]? = some false := by
      intro j hj
      obtain ⟨b, -, hb'⟩ := lget_lt (l := s.visited) (i := j) (by rw [hs.length]; exact (hR.lt k j hj).2)
      cases b with
      | false => exact hb'
      | true =>
        obtain ⟨a, ha, haj⟩ := (hs.visited j).1 hb'
        exact absurd (hR.trans _ _ _ haj (hR.symm _ _ hj)) (hno a ha)
    have hperm := unvisited_perm_classOf hR hunv
    obtain ⟨d1, d2⟩ := mpcDfs_ok henum hR hs.graph depth hk hs.length hb []
    rw [hperm.length_eq] at d1 d2
    simp only [bind, Except.bind, eS, if_neg hSne, if_neg (show ¬ false = true by decide)]
    refine ⟨fun hd => ?_, fun hd _ => by rw [d2 hd]⟩
    obtain ⟨v', D, e, hvis, hD⟩ := d1 hd
    have hDmem : ∀ j, j ∈ D ↔ R k j := fun j => by rw [(hD.trans hperm).mem_iff, mem_classOf hR]
    obtain ⟨g', eg, hg'⟩ := gClose_ok hs.graph (c := D)
      (fun x hx y hy => hR.trans _ _ _ (hR.symm _ _ ((hDmem x).1 hx)) ((hDmem y).1 hy))
      (fun x hx => (hR.lt k x ((hDmem x).1 hx)).2)
    rw [e]
    simp only [List.nil_append, eg]
    refine ⟨_, rfl, ⟨hg', hvis.1, fun j => ?_, fun P hP => ?_, fun P hP => ?_, fun a ha => ?_, ?_⟩⟩
    · show v'[j]? = some true ↔ _
      rw [hvis.2 j, hs.visited j]
      constructor
      · rintro (⟨a, h1, h2⟩ | h)
        · exact ⟨a, by omega, h2⟩
        · exact ⟨k, by omega, h⟩
      · rintro ⟨a, h1, h2⟩
        by_cases c : a = k
        · subst c; exact .inr h2
        · exact .inl ⟨a, by omega, h2⟩
    · rcases List.mem_append.1 hP with hP | hP
      · exact hs.nodup P hP
      · rw [List.mem_singleton] at hP
        subst hP
        exact (hD.trans hperm).nodup_iff.2 (nodup_classOf _ _ _)
    · rcases List.mem_append.1 hP with hP | hP
      · obtain ⟨a, h1, h2⟩ := hs.sound P hP
        exact ⟨a, by omega, h2⟩
      · rw [List.mem_singleton] at hP
        subst hP
        exact ⟨k, by omega, hDmem⟩
    · by_cases c : a = k
      · subst c
        exact ⟨D, by simp, hDmem⟩
      · obtain ⟨P, hP, h2⟩ := hs.complete a (by omega)
        exact ⟨P, by simp [hP], h2⟩
    · show (s.neighborhoods ++ [D]).Pairwise List.Disjoint
      rw [List.pairwise_append]
      refine ⟨hs.disjoint, List.pairwise_singleton _ _, fun P hP Q hQ => ?_⟩
      rw [List.mem_singleton] at hQ
      subst hQ
      obtain ⟨a, h1, h2⟩ := hs.sound P hP
      intro j hj hj'
      exact hno a h1 (hR.trans _ _ _ ((h2 j).1 hj) (hR.symm _ _ ((hDmem j).1 hj')))

theorem mpcNbhs_ok {enum : List Nat → List Nat} (henum : SetOrder enum) {n : Nat} {R : Nat → Nat → Prop} (hR : EquivOn n R)
    {g : Graph} (hg : GraphOf n g R) (depth : Nat) :
    ((∀ a < n, (classOf n R a).length ≤ depth) → ∃ s, mpcNbhs enum depth n g = .ok s ∧ NbhInv n R n s) ∧
    ((∃ a < n, depth < (classOf n R a).length) → mpcNbhs enum depth n g = .error .recursionError) := by
  have gen : ∀ k ≤ n,
      ((∀ a < k, (classOf n R a).length ≤ depth) → ∃ s,
        (List.range k).foldlM (mpcNbhStep enum depth) ⟨g, List.replicate n false, []⟩ = .ok s ∧ NbhInv n R k s) ∧
      ((∃ a < k, depth < (classOf n R a).length) →
        (List.range k).foldlM (mpcNbhStep enum depth) ⟨g, List.replicate n false, []⟩ = .error .recursionError) := by
    intro k
    induction k with
    | zero =>
      intro _
      refine ⟨fun _ => ⟨_, rfl, ⟨hg, by simp, fun j => ?_, by simp, by simp, by simp, by simp⟩⟩, fun ⟨a, ha, _⟩ => by omega⟩
      simp [List.getElem?_replicate]
    | succ k ih =>
      intro hk
      obtain ⟨ih1, ih2⟩ := ih (by omega)
      rw [List.range_succ, List.foldlM_append]
      refine ⟨fun hall => ?_, fun ⟨a, ha, had⟩ => ?_⟩
      · obtain ⟨s, e, hs⟩ := ih1 fun a ha => hall a (by omega)
        obtain ⟨s', e', hs'⟩ := (mpcNbhStep_ok henum hR (by omega) hs).1 (hall k (by omega))
        refine ⟨s', ?_, hs'⟩
        rw [e]
        simp only [bind, Except.bind, List.foldlM_cons, List.foldlM_nil, e', pure, Except.pure]
      · by_cases hex : ∃ a < k, depth < (classOf n R a).length
        · rw [ih2 hex]; rfl
        · have hall : ∀ a < k, (classOf n R a).length ≤ depth := by
            intro a ha
            by_contra c
            exact hex ⟨a, ha, by omega⟩
          have hak : a = k := by
            by_contra c
            have := hall a (by omega)
            omega
          subst hak
          obtain ⟨s, e, hs⟩ := ih1 hall
          have e' := (mpcNbhStep_ok henum hR (by omega) hs).2 had hall
          rw [e]
          simp only [bind, Except.bind, List.foldlM_cons, e']
  exact gen n (Nat.le_refl n)

theorem mpcSpread_ok {enum : List Nat → List Nat} (henum : SetOrder enum) {n : Nat} {R C : Nat → Nat → Prop} (hR : EquivOn n R)
    (hC : ∀ i j, C i j → C j i) (hcl : ∀ i j a b, C i j → R i a → R j b → C a b) {ml cl : Graph} (hml : GraphOf n ml R)
    (hclg : GraphOf n cl C) {p : Nat × Nat} (h1 : p.1 < n) (h2 : p.2 < n) (hp : C p.1 p.2) :
    ∃ cl', mpcSpread enum ml cl p = .ok cl' ∧ GraphOf n cl' C := by
  obtain ⟨s, es, -, -, hs⟩ := hml.get h1
  obtain ⟨t, et, -, -, ht⟩ := hml.get h2
  have hs' : ∀ x ∈ enum s, R p.1 x := fun x hx => (hs x).1 (((henum s).2 x).1 hx)
  have ht' : ∀ x ∈ enum t, R p.2 x := fun x hx => (ht x).1 (((henum t).2 x).1 hx)
  unfold mpcSpread
  obtain ⟨c1, e1, hc1⟩ := foldlM_keep (f := fun g x => gAddBoth g x p.2) (P := fun g => GraphOf n g C) (l := enum s)
    (fun x hx g hg => gAddBoth_same hg (hR.lt _ _ (hs' x hx)).2 h2 (hcl _ _ _ _ hp (hs' x hx) (hR.refl _ h2))
      (hC _ _ (hcl _ _ _ _ hp (hs' x hx) (hR.refl _ h2)))) hclg
  obtain ⟨c2, e2, hc2⟩ := foldlM_keep (f := fun g y => gAddBoth g p.1 y) (P := fun g => GraphOf n g C) (l := enum t)
    (fun y hy g hg => gAddBoth_same hg h1 (hR.lt _ _ (ht' y hy)).2 (hcl _ _ _ _ hp (hR.refl _ h1) (ht' y hy))
      (hC _ _ (hcl _ _ _ _ hp (hR.refl _ h1) (ht' y hy)))) hc1
  simp only [bind, Except.bind, es, et, e1, e2]
  refine foldlM_keep (P := fun g => GraphOf n g C) (fun a ha g hg => ?_) hc2
  refine foldlM_keep (P := fun g => GraphOf n g C) (fun b hb g hg => ?_) hg
  have := hcl _ _ _ _ hp (hs' a ha) (ht' b hb)
  exact gAddBoth_same hg (hR.lt _ _ (hs' a ha)).2 (hR.lt _ _ (ht' b hb)).2 this (hC _ _ this)

theorem forM_ok {ι : Type} {f : ι → Except PyErr Unit} {l : List ι} (h : ∀ a ∈ l, f a = .ok ()) : l.forM f = .ok () := by
  induction l with
  | nil => rfl
  | cons a l ih =>
    show (do f a; l.forM f) = _
    rw [h a (by simp)]
    exact ih fun b hb => h b (by simp [hb])

/-- The preprocessing on closed, consistent lists of pairs. -/
theorem mpcPreprocess_ok {enum : List Nat → List Nat} (henum : SetOrder enum) {n : Nat} {ml cl : List (Nat × Nat)}
    (hR : EquivOn n fun i j => (i, j) ∈ ml) (hcl : ∀ p ∈ cl, p.1 < n ∧ p.2 < n) (hC : ∀ i j, (i, j) ∈ cl → (j, i) ∈ cl)
    (hclose : ∀ i j a b, (i, j) ∈ cl → (i, a) ∈ ml → (j, b) ∈ ml → (a, b) ∈ cl) (hno : ∀ i j, (i, j) ∈ ml → (i, j) ∉ cl)
    (depth : Nat) :
    ((∀ a < n, (classOf n (fun i j => (i, j) ∈ ml) a).length ≤ depth) → ∃ mlg clg s,
      mpcPreprocess enum depth n ml cl = .ok (mlg, clg, s.neighborhoods) ∧ GraphOf n mlg (fun i j => (i, j) ∈ ml) ∧
      GraphOf n clg (fun i j => (i, j) ∈ cl) ∧ NbhInv n (fun i j => (i, j) ∈ ml) n s) ∧
    ((∃ a < n, depth < (classOf n (fun i j => (i, j) ∈ ml) a).length) →
      mpcPreprocess enum depth n ml cl = .error .recursionError) := by
  obtain ⟨g1, e1, h1⟩ := gOfPairs_ok (n := n) (pairs := ml) (fun p hp => hR.lt p.1 p.2 hp) hR.symm
  obtain ⟨g2, e2, h2⟩ := gOfPairs_ok (n := n) (pairs := cl) hcl hC
  obtain ⟨n1, n2⟩ := mpcNbhs_ok henum hR h1 depth
  unfold mpcPreprocess
  simp only [bind, Except.bind, e1, e2]
  refine ⟨fun hall => ?_, fun hex => by rw [n2 hex]⟩
  obtain ⟨s, es, hs⟩ := n1 hall
  obtain ⟨g3, e3, h3⟩ := foldlM_keep (f := mpcSpread enum s.graph) (P := fun g => GraphOf n g fun i j => (i, j) ∈ cl) (l := cl)
    (fun p hp g hg => mpcSpread_ok henum hR hC hclose hs.graph hg (hcl p hp).1 (hcl p hp).2 hp) h2
  rw [es]
  simp only [e3]
  have hch : (s.graph.flatMap fun e => (enum e.2).map fun j => (e.1, j)).forM (mpcCheck g3) = .ok () := by
    apply forM_ok
    rintro ⟨i, j⟩ hij
    rw [List.mem_flatMap] at hij
    obtain ⟨e, he, hij⟩ := hij
    rw [List.mem_map] at hij
    obtain ⟨j', hj', hj⟩ := hij
    cases hj
    have hget : dget? s.graph e.1 = some e.2 :=
      dget?_of_mem (by rw [hs.graph.1]; exact List.nodup_range) he
    have hml : (e.1, j) ∈ ml := ((hs.graph.2 _ _ hget).2 j).1 (((henum e.2).2 j).1 hj')
    obtain ⟨t, et, -, -, ht⟩ := h3.get (hR.lt _ _ hml).1
    unfold mpcCheck
    by_cases hne : j = e.1
    · simp [hne, pure, Except.pure]
    · have hnt : j ∉ t := fun c => hno _ _ hml ((ht j).1 c)
      simp [hne, et, hnt, bind, Except.bind, pure, Except.pure]
  rw [hch]
  exact ⟨s.graph, g3, s, rfl, hs.graph, h3, hs⟩

section
variable {α : Type} [LinearOrder α]

theorem inferredAt_ml {m : Manager α} (h : Inv m) {i j : Nat} {x y : α} (hi : m.managed[i]? = some x)
    (hj : m.managed[j]? = some y) : InferredAt m .mustLink i j ↔ MustLinked m x y := by
  constructor
  · rintro ⟨x', y', hx', hy', e⟩
    rw [hi] at hx'; rw [hj] at hy'
    cases hx'; cases hy'
    exact (inferred_ml_iff h (List.mem_of_getElem? hi) (List.mem_of_getElem? hj)).1 e
  · intro hl
    exact ⟨x, y, hi, hj, (inferred_ml_iff h (List.mem_of_getElem? hi) (List.mem_of_getElem? hj)).2 hl⟩

theorem inferredAt_cl {m : Manager α} (h : Inv m) {i j : Nat} {x y : α} (hi : m.managed[i]? = some x)
    (hj : m.managed[j]? = some y) : InferredAt m .cannotLink i j ↔ CannotLinked m x y := by
  constructor
  · rintro ⟨x', y', hx', hy', e⟩
    rw [hi] at hx'; rw [hj] at hy'
    cases hx'; cases hy'
    exact (inferred_cl_iff h (List.mem_of_getElem? hi) (List.mem_of_getElem? hj)).1 e
  · intro hl
    exact ⟨x, y, hi, hj, (inferred_cl_iff h (List.mem_of_getElem? hi) (List.mem_of_getElem? hj)).2 hl⟩

theorem InferredAt.symm {m : Manager α} (h : Inv m) {t : CType} {i j : Nat} (hij : InferredAt m t i j) : InferredAt m t j i := by
  obtain ⟨x, y, hx, hy, e⟩ := hij
  refine ⟨y, x, hy, hx, ?_⟩
  have hx' := List.mem_of_getElem? hx
  have hy' := List.mem_of_getElem? hy
  cases t with
  | mustLink => exact (inferred_ml_iff h hy' hx').2 (((inferred_ml_iff h hx' hy').1 e).symm h)
  | cannotLink => exact (inferred_cl_iff h hy' hx').2 (((inferred_cl_iff h hx' hy').1 e).symm h)

theorem InferredAt.lt {m : Manager α} {t : CType} {i j : Nat} (hij : InferredAt m t i j) :
    i < m.managed.length ∧ j < m.managed.length := by
  obtain ⟨x, y, hx, hy, -⟩ := hij
  exact ⟨(List.getElem?_eq_some_iff.1 hx).1, (List.getElem?_eq_some_iff.1 hy).1⟩

theorem mpcPairs_ok {m : Manager α} (h : Inv m) (t : CType) :
    ∃ l, mpcPairs m t = .ok l ∧ ∀ i j, (i, j) ∈ l ↔ InferredAt m t i j := by
  have hmem : ∀ p : α × Nat, p ∈ m.managed.zipIdx ↔ m.managed[p.2]? = some p.1 := by
    rintro ⟨x, i⟩
    exact List.mem_zipIdx_iff_getElem?
  obtain ⟨r, e, -, hr⟩ := filterM_spec
    (l := m.managed.zipIdx.flatMap fun p => m.managed.zipIdx.map fun q => (p, q))
    (f := fun r => do return decide ((← m.getInferred r.2.1 r.1.1) = some t))
    (P := fun r => m.getInferred r.2.1 r.1.1 = .ok (some t)) (by
      rintro ⟨p, q⟩ hpq
      simp only [List.mem_flatMap, List.mem_map] at hpq
      obtain ⟨p', hp, q', hq, heq⟩ := hpq
      cases heq
      obtain ⟨o, ho⟩ := getInferred_total h (List.mem_of_getElem? ((hmem q).1 hq)) (List.mem_of_getElem? ((hmem p).1 hp))
      refine ⟨decide (o = some t), ?_, ?_⟩
      · show (do return decide ((← m.getInferred q.1 p.1) = some t) : Except PyErr Bool) = _
        rw [ho]; rfl
      · show _ ↔ m.getInferred q.1 p.1 = .ok (some t)
        rw [ho]; simp)
  refine ⟨r.map fun r => (r.1.2, r.2.2), ?_, fun i j => ?_⟩
  · unfold mpcPairs
    simp only [bind, Except.bind, pure, Except.pure] at e ⊢
    rw [e]
  · rw [List.mem_map]
    constructor
    · rintro ⟨⟨p, q⟩, hpq, heq⟩
      cases heq
      obtain ⟨hm, he⟩ := (hr _).1 hpq
      simp only [List.mem_flatMap, List.mem_map] at hm
      obtain ⟨p', hp, q', hq, heq⟩ := hm
      cases heq
      exact InferredAt.symm h ⟨q.1, p.1, (hmem q).1 hq, (hmem p).1 hp, he⟩
    · intro hij
      obtain ⟨y, x, hy, hx, he⟩ := hij.symm h
      refine ⟨((x, i), (y, j)), (hr _).2 ⟨?_, he⟩, rfl⟩
      simp only [List.mem_flatMap, List.mem_map]
      exact ⟨(x, i), (hmem _).2 hx, (y, j), (hmem _).2 hy, rfl⟩

/-- The positions of a component. -/
theorem classOf_length {m : Manager α} (h : Inv m) {R : Nat → Nat → Prop} (hR : EquivOn m.managed.length R)
    (hRm : ∀ i j, R i j ↔ InferredAt m .mustLink i j) {c : List α} (hc : c ∈ m.components) {i : Nat} {x : α}
    (hi : m.managed[i]? = some x) (hx : x ∈ c) :
    (∀ j, j ∈ classOf m.managed.length R i ↔ ∃ y ∈ c, m.managed[j]? = some y) ∧
    (classOf m.managed.length R i).length = c.length := by
  have hn : m.managed.Nodup := h.d.nodup
  have hmem : ∀ j, j ∈ classOf m.managed.length R i ↔ ∃ y ∈ c, m.managed[j]? = some y := by
    intro j
    rw [mem_classOf hR, hRm]
    constructor
    · intro hij
      obtain ⟨x', y, hx', hy, -⟩ := id hij
      refine ⟨y, ?_, hy⟩
      exact ((mem_component_iff h hc hx).2 y).2 ((inferredAt_ml h hi hy).1 hij)
    · rintro ⟨y, hy, hj⟩
      exact (inferredAt_ml h hi hj).2 (((mem_component_iff h hc hx).2 y).1 hy)
  refine ⟨hmem, ?_⟩
  have hperm : ((classOf m.managed.length R i).map fun j => (m.managed[j]?).getD x).Perm c := by
    rw [List.perm_ext_iff_of_nodup]
    · intro y
      rw [List.mem_map]
      constructor
      · rintro ⟨j, hj, rfl⟩
        obtain ⟨y, hy, hj'⟩ := (hmem j).1 hj
        rw [hj']
        exact hy
      · intro hy
        have hym : y ∈ m.managed := (mem_component_iff h hc hy).1
        obtain ⟨j, hj⟩ := List.mem_iff_getElem?.1 hym
        exact ⟨j, (hmem j).2 ⟨y, hy, hj⟩, by rw [hj]; rfl⟩
    · apply List.Nodup.map_on _ (nodup_classOf _ _ _)
      intro a ha b hb hab
      obtain ⟨y, -, hya⟩ := (hmem a).1 ha
      obtain ⟨z, -, hzb⟩ := (hmem b).1 hb
      rw [hya, hzb] at hab
      simp only [Option.getD_some] at hab
      subst hab
      obtain ⟨la, ea⟩ := List.getElem?_eq_some_iff.1 hya
      obtain ⟨lb, eb⟩ := List.getElem?_eq_some_iff.1 hzb
      exact (List.Nodup.getElem_inj_iff hn).1 (ea.trans eb.symm)
    · exact component_nodup h hc
  have := hperm.length_eq
  rwa [List.length_map] at this

/-- The preprocessing of the constraints of a manager. -/
theorem mpcPreprocess_manager {enum : List Nat → List Nat} (henum : SetOrder enum) {m : Manager α} (h : Inv m) (depth : Nat) :
    ∃ ml cl, mpcPairs m .mustLink = .ok ml ∧ mpcPairs m .cannotLink = .ok cl ∧
    ((∀ c ∈ m.components, c.length ≤ depth) → ∃ mlg clg nbhs,
      mpcPreprocess enum depth m.managed.length ml cl = .ok (mlg, clg, nbhs) ∧
      GraphOf m.managed.length mlg (InferredAt m .mustLink) ∧ GraphOf m.managed.length clg (InferredAt m .cannotLink) ∧
      Neighborhoods m nbhs) ∧
    ((∃ c ∈ m.components, depth < c.length) →
      mpcPreprocess enum depth m.managed.length ml cl = .error .recursionError) := by
  obtain ⟨ml, em, hml⟩ := mpcPairs_ok h .mustLink
  obtain ⟨cl, ec, hcl⟩ := mpcPairs_ok h .cannotLink
  refine ⟨ml, cl, em, ec, ?_⟩
  have hR : EquivOn m.managed.length fun i j => (i, j) ∈ ml := by
    refine ⟨fun i hi => ?_, fun i j hij => ?_, fun i j k hij hjk => ?_, fun i j hij => ((hml i j).1 hij).lt⟩
    · have := List.getElem?_eq_getElem hi
      exact (hml i i).2 ((inferredAt_ml h this this).2 (MustLinked.refl m _))
    · exact (hml j i).2 (((hml i j).1 hij).symm h)
    · obtain ⟨x, y, hx, hy, -⟩ := (hml i j).1 hij
      obtain ⟨y', z, hy', hz, -⟩ := (hml j k).1 hjk
      exact (hml i k).2 ((inferredAt_ml h hx hz).2 (((inferredAt_ml h hx hy).1 ((hml i j).1 hij)).trans
        ((inferredAt_ml h hy hz).1 ((hml j k).1 hjk))))
  obtain ⟨p1, p2⟩ := mpcPreprocess_ok (cl := cl) henum hR (fun p hp => ((hcl p.1 p.2).1 hp).lt)
    (fun i j hij => (hcl j i).2 (((hcl i j).1 hij).symm h))
    (by
      intro i j a b hij hia hjb
      obtain ⟨x, y, hx, hy, -⟩ := (hcl i j).1 hij
      obtain ⟨x', u, hx', hu, -⟩ := (hml i a).1 hia
      obtain ⟨y', w, hy', hw, -⟩ := (hml j b).1 hjb
      exact (hcl a b).2 ((inferredAt_cl h hu hw).2 (((inferredAt_cl h hx hy).1 ((hcl i j).1 hij)).congr
        (((inferredAt_ml h hx hu).1 ((hml i a).1 hia)).symm h) ((inferredAt_ml h hy hw).1 ((hml j b).1 hjb)))))
    (by
      intro i j hij hij'
      obtain ⟨x, y, hx, hy, -⟩ := (hml i j).1 hij
      exact not_both h ((inferredAt_ml h hx hy).1 ((hml i j).1 hij)) ((inferredAt_cl h hx hy).1 ((hcl i j).1 hij')))
    depth
  have hpos : ∀ c ∈ m.components, ∃ (i : Nat) (x : α), m.managed[i]? = some x ∧ x ∈ c := by
    intro c hc
    obtain ⟨x, hx⟩ := List.exists_mem_of_ne_nil _ (component_ne_nil h hc)
    obtain ⟨i, hi⟩ := List.mem_iff_getElem?.1 (mem_component_iff h hc hx).1
    exact ⟨i, x, hi, hx⟩
  refine ⟨fun hall => ?_, fun ⟨c, hc, hd⟩ => ?_⟩
  · obtain ⟨mlg, clg, s, e, h1, h2, hs⟩ := p1 (by
      intro a ha
      have hia := List.getElem?_eq_getElem ha
      obtain ⟨c, hc, hxc⟩ := exists_component h (List.mem_of_getElem? hia)
      rw [(classOf_length h hR hml hc hia hxc).2]
      exact hall c hc)
    refine ⟨mlg, clg, s.neighborhoods, e, h1.congr fun i _ j => hml i j, h2.congr fun i _ j => hcl i j,
      ⟨hs.nodup, hs.disjoint, fun P hP => ?_, fun c hc => ?_⟩⟩
    · obtain ⟨a, ha, hP'⟩ := hs.sound P hP
      have hia := List.getElem?_eq_getElem ha
      obtain ⟨c, hc, hxc⟩ := exists_component h (List.mem_of_getElem? hia)
      refine ⟨c, hc, fun i => ?_⟩
      rw [hP' i, ← (classOf_length h hR hml hc hia hxc).1 i, mem_classOf hR]
    · obtain ⟨a, x, hia, hxc⟩ := hpos c hc
      obtain ⟨P, hP, hP'⟩ := hs.complete a (List.getElem?_eq_some_iff.1 hia).1
      refine ⟨P, hP, fun i => ?_⟩
      rw [hP' i, ← (classOf_length h hR hml hc hia hxc).1 i, mem_classOf hR]
  · obtain ⟨a, x, hia, hxc⟩ := hpos c hc
    exact p2 ⟨a, (List.getElem?_eq_some_iff.1 hia).1, by rw [(classOf_length h hR hml hc hia hxc).2]; exact hd⟩

end

end Verif
