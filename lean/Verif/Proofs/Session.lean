import Mathlib.Data.Finset.Prod
import Verif.Proofs.Sampling
import Verif.Props.Manager

/-
Interactive sessions: sampling then annotating with a ground truth.
-/

set_option linter.unusedSectionVars false

namespace Verif

variable {α V δ : Type} [LinearOrder α] [LinearOrder δ]

theorem truthAnswer_parse (truth : α → Nat) (x y : α) :
    ∃ t, CType.parse? (truthAnswer truth x y) = some t ∧ Agrees truth x y t := by
  unfold truthAnswer
  by_cases h : truth x = truth y
  · exact ⟨.mustLink, by rw [if_pos h, parse_ml], h⟩
  · exact ⟨.cannotLink, by rw [if_neg h, parse_cl], h⟩

/-- One truthful annotation. -/
theorem annotate_one {truth : α → Nat} {m : Manager α} (hm : Reachable m) (hs : Satisfies m truth) {x y : α}
    (hx : x ∈ m.managed) (hy : y ∈ m.managed) :
    ∃ m', Manager.addConstraint x y (truthAnswer truth x y) 1 m = .ok true m' ∧ Reachable m' ∧
      Satisfies m' truth ∧ m'.managed = m.managed ∧
      (∀ u w t, m.getInferred u w = .ok (some t) → m'.getInferred u w = .ok (some t)) ∧
      ∃ t, m'.getInferred x y = .ok (some t) := by
  obtain ⟨t, ht, hag⟩ := truthAnswer_parse truth x y
  have hI := hm.inv
  rcases addConstraint_cases (v := 1) hI hx hy ht with ⟨h1, h2⟩ | ⟨t', hne, hinf, -⟩
  · have key : ∃ m', Manager.addConstraint x y (truthAnswer truth x y) 1 m = .ok true m' := by
      rcases h2 with ⟨s, -, h⟩ | ⟨-, m', h, -⟩
      · exact ⟨m, h⟩
      · exact ⟨m', h⟩
    obtain ⟨m', hc⟩ := key
    have hm' : Reachable m' := by
      have := hm.call (.addConstraint x y (truthAnswer truth x y) 1)
      simpa only [Op.call, hc, resState] using this
    obtain ⟨-, ⟨t2, ht2, ha1, ha2⟩, hman, hframe, hsame⟩ := C06_add_constraint_frame hm hc
    have ht2' : t2 = t := by
      have := parse_eq_some.2 ht2
      rw [ht] at this; exact (Option.some.inj this).symm
    subst ht2'
    have hsat : Satisfies m' truth := by
      intro u w
      by_cases hu1 : u = x ∧ w = y
      · obtain ⟨rfl, rfl⟩ := hu1
        constructor
        · rintro ⟨v, hv⟩; rw [ha1] at hv; cases hv; exact hag
        · rintro ⟨v, hv⟩; rw [ha1] at hv; cases hv; exact hag
      · by_cases hu2 : u = y ∧ w = x
        · obtain ⟨rfl, rfl⟩ := hu2
          constructor
          · rintro ⟨v, hv⟩; rw [ha2] at hv; cases hv; exact hag.symm
          · rintro ⟨v, hv⟩; rw [ha2] at hv; cases hv; exact fun h => hag h.symm
        · unfold AddedAs
          rw [hframe u w hu1 hu2]
          exact hs u w
    refine ⟨m', hc, hm', hsat, hman, ?_, ?_⟩
    · exact (C20_monotone hm (a := x) (b := y)).1 _ _ _ hc
    · have hx' : x ∈ m'.managed := hman ▸ hx
      have hy' : y ∈ m'.managed := hman ▸ hy
      cases t2 with
      | mustLink => exact ⟨_, (inferred_ml_iff hm'.inv hx' hy').2 (Chain.single ⟨1, ha1⟩)⟩
      | cannotLink => exact ⟨_, (inferred_cl_iff hm'.inv hx' hy').2 ⟨x, y, .refl, ⟨1, ha1⟩, .refl⟩⟩
  · exfalso
    cases t with
    | mustLink =>
      cases t' with
      | mustLink => exact hne rfl
      | cannotLink =>
        exact satisfies_sep hs ((inferred_cl_iff hI hx hy).1 hinf) hag
    | cannotLink =>
      cases t' with
      | cannotLink => exact hne rfl
      | mustLink => exact hag (satisfies_chain hs ((inferred_ml_iff hI hx hy).1 hinf))

/-- `m'` knows all that `m` knows, about the same IDs. -/
def KnowsMore (m m' : Manager α) : Prop :=
  m'.managed = m.managed ∧ ∀ u w t, m.getInferred u w = .ok (some t) → m'.getInferred u w = .ok (some t)

theorem KnowsMore.refl (m : Manager α) : KnowsMore m m := ⟨rfl, fun _ _ _ h => h⟩

theorem KnowsMore.trans {m m' m'' : Manager α} (h : KnowsMore m m') (h' : KnowsMore m' m'') : KnowsMore m m'' :=
  ⟨h'.1.trans h.1, fun u w t ht => h'.2 u w t (h.2 u w t ht)⟩

/-- A truthful batch. -/
theorem annotate_batch {truth : α → Nat} {m : Manager α} (hm : Reachable m) (hs : Satisfies m truth)
    {batch : List (α × α)} (hb : ∀ p ∈ batch, p.1 ∈ m.managed ∧ p.2 ∈ m.managed) :
    ∃ m', annotate truth m batch = .ok m' ∧ Reachable m' ∧ Satisfies m' truth ∧ KnowsMore m m' ∧
      ∀ p ∈ batch, ∃ t, m'.getInferred p.1 p.2 = .ok (some t) := by
  induction batch generalizing m with
  | nil => exact ⟨m, rfl, hm, hs, .refl m, by simp⟩
  | cons p batch ih =>
    obtain ⟨hx, hy⟩ := hb p (by simp)
    obtain ⟨m1, h1, h2, h3, h4, h5, t, h6⟩ := annotate_one hm hs hx hy
    obtain ⟨m2, g1, g2, g3, g4, g5⟩ := ih h2 h3 (fun q hq => by rw [h4]; exact hb q (by simp [hq]))
    refine ⟨m2, ?_, g2, g3, KnowsMore.trans ⟨h4, h5⟩ g4, ?_⟩
    · unfold annotate at g1 ⊢
      rw [List.foldlM_cons, h1]
      exact g1
    · intro q hq
      rcases List.mem_cons.1 hq with rfl | hq
      · exact ⟨t, g4.2 _ _ _ h6⟩
      · exact g5 q hq

/-! ### Counting unknown pairs -/

theorem mem_unknownPairs {m : Manager α} {p : α × α} :
    p ∈ unknownPairs m ↔ p.1 ∈ m.managed ∧ p.2 ∈ m.managed ∧ p.1 < p.2 ∧ m.getInferred p.1 p.2 = .ok none := by
  unfold unknownPairs
  rw [List.mem_filter]
  change p ∈ allPairs m ∧ _ ↔ _
  rw [mem_allPairs, Bool.and_eq_true, decide_eq_true_iff]
  constructor
  · rintro ⟨⟨h1, h2⟩, h3, h4⟩
    refine ⟨h1, h2, h3, ?_⟩
    split at h4
    · assumption
    · cases h4
  · rintro ⟨h1, h2, h3, h4⟩
    exact ⟨⟨h1, h2⟩, h3, by rw [h4]⟩

theorem unknownPairs_nodup {m : Manager α} (h : Inv m) : (unknownPairs m).Nodup :=
  (allPairs_nodup h).filter _

theorem unknown_mono {m m' : Manager α} (h : Inv m) (hk : KnowsMore m m') : ∀ p ∈ unknownPairs m', p ∈ unknownPairs m := by
  intro p hp
  rw [mem_unknownPairs] at hp ⊢
  obtain ⟨h1, h2, h3, h4⟩ := hp
  rw [hk.1] at h1 h2
  refine ⟨h1, h2, h3, ?_⟩
  obtain ⟨o, ho⟩ := getInferred_total h h1 h2
  cases o with
  | none => exact ho
  | some t => rw [hk.2 _ _ _ ho] at h4; simp at h4

theorem unknown_le {m m' : Manager α} (h : Inv m) (h' : Inv m') (hk : KnowsMore m m') :
    (unknownPairs m').length ≤ (unknownPairs m).length := by
  have hsub : ∀ p ∈ unknownPairs m', p ∈ unknownPairs m := unknown_mono h hk
  exact (List.subperm_of_subset (unknownPairs_nodup h') hsub).length_le

theorem unknown_lt {m m' : Manager α} (h : Inv m) (h' : Inv m') (hk : KnowsMore m m') {p : α × α}
    (hp : p ∈ unknownPairs m) {t : CType} (ht : m'.getInferred p.1 p.2 = .ok (some t)) :
    (unknownPairs m').length < (unknownPairs m).length := by
  have hp' : p ∉ unknownPairs m' := by
    intro hc
    rw [mem_unknownPairs, ht] at hc
    simp at hc
  have : (p :: unknownPairs m').Subperm (unknownPairs m) := by
    apply List.subperm_of_subset (List.nodup_cons.2 ⟨hp', unknownPairs_nodup h'⟩)
    intro q hq
    rcases List.mem_cons.1 hq with rfl | hq
    · exact hp
    · exact unknown_mono h hk q hq
  have h3 := this.length_le
  rw [List.length_cons] at h3
  omega

theorem complete_iff_unknown {m : Manager α} (hm : Reachable m) : m.complete = true ↔ unknownPairs m = [] := by
  have h := hm.inv
  rw [C13_completude_exact hm, List.eq_nil_iff_forall_not_mem]
  constructor
  · intro hall p hp
    rw [mem_unknownPairs] at hp
    obtain ⟨h1, h2, -, h4⟩ := hp
    obtain ⟨t, ht⟩ := hall _ h1 _ h2
    rw [ht] at h4; simp at h4
  · intro hno
    have lt_case : ∀ x ∈ m.managed, ∀ y ∈ m.managed, x < y → MustLinked m x y ∨ CannotLinked m x y := by
      intro x hx y hy hlt
      by_contra hc
      push Not at hc
      exact hno (x, y) (mem_unknownPairs.2 ⟨hx, hy, hlt, (inferred_none_iff h hx hy).2 hc⟩)
    intro x hx y hy
    have : MustLinked m x y ∨ CannotLinked m x y := by
      rcases lt_trichotomy x y with hlt | rfl | hlt
      · exact lt_case x hx y hy hlt
      · exact .inl (MustLinked.refl m x)
      · exact (lt_case y hy x hx hlt).imp (MustLinked.symm h) (CannotLinked.symm h)
    rcases this with hl | hl
    · exact ⟨_, (inferred_ml_iff h hx hy).2 hl⟩
    · exact ⟨_, (inferred_cl_iff h hx hy).2 hl⟩

theorem ordered_pairs_card (s : Finset α) :
    2 * ((s ×ˢ s).filter fun p => p.1 < p.2).card = s.card * (s.card - 1) := by
  have h1 : ((s ×ˢ s).filter fun p => p.2 < p.1).card = ((s ×ˢ s).filter fun p => p.1 < p.2).card := by
    apply Finset.card_bij (fun p _ => (p.2, p.1))
    · intro p hp; simp only [Finset.mem_filter, Finset.mem_product] at hp ⊢; exact ⟨⟨hp.1.2, hp.1.1⟩, hp.2⟩
    · rintro ⟨a, b⟩ _ ⟨c, d⟩ _ h; simp only [Prod.mk.injEq] at h ⊢; exact ⟨h.2, h.1⟩
    · rintro ⟨a, b⟩ hp
      simp only [Finset.mem_filter, Finset.mem_product] at hp
      exact ⟨(b, a), by simp only [Finset.mem_filter, Finset.mem_product]; exact ⟨⟨hp.1.2, hp.1.1⟩, hp.2⟩, rfl⟩
  have h2 : s.offDiag = ((s ×ˢ s).filter fun p => p.1 < p.2) ∪ ((s ×ˢ s).filter fun p => p.2 < p.1) := by
    ext p
    simp only [Finset.mem_offDiag, Finset.mem_union, Finset.mem_filter, Finset.mem_product]
    constructor
    · rintro ⟨a, b, c⟩; rcases lt_or_gt_of_ne c with h | h
      · exact .inl ⟨⟨a, b⟩, h⟩
      · exact .inr ⟨⟨a, b⟩, h⟩
    · rintro (⟨⟨a, b⟩, h⟩ | ⟨⟨a, b⟩, h⟩)
      · exact ⟨a, b, h.ne⟩
      · exact ⟨a, b, h.ne'⟩
  have h3 : Disjoint ((s ×ˢ s).filter fun p => p.1 < p.2) ((s ×ˢ s).filter fun p => p.2 < p.1) := by
    rw [Finset.disjoint_left]
    intro p hp hq
    simp only [Finset.mem_filter] at hp hq
    exact lt_asymm hp.2 hq.2
  have h4 := Finset.offDiag_card (s := s)
  rw [h2, Finset.card_union_of_disjoint h3, h1] at h4
  have h5 : s.card * (s.card - 1) = s.card * s.card - s.card := by rw [Nat.mul_sub]; simp
  omega

theorem unknown_bound {m : Manager α} (h : Inv m) :
    2 * (unknownPairs m).length ≤ m.managed.length * (m.managed.length - 1) := by
  have hc : m.managed.toFinset.card = m.managed.length := List.toFinset_card_of_nodup h.d.nodup
  have := ordered_pairs_card m.managed.toFinset
  rw [hc] at this
  rw [← this, ← List.toFinset_card_of_nodup (unknownPairs_nodup h)]
  apply Nat.mul_le_mul_left
  apply Finset.card_le_card
  intro p hp
  rw [List.mem_toFinset, mem_unknownPairs] at hp
  simp only [Finset.mem_filter, Finset.mem_product, List.mem_toFinset]
  exact ⟨⟨hp.1, hp.2.1⟩, hp.2.2.1⟩

/-! ### Sampling and sessions -/

/-- `random.sample` of all the arguments used here. -/
theorem sample_facts {cfg : Sampler} {m : Manager α} (h : Inv m) {nb : Option Int} {cl : Option (Dict α Int)}
    {vs : Option (Dict α V)} {metric : V → V → δ} {pick : List (α × α) → Nat → List (α × α)}
    (hpick : RandomSample pick) {r : List (α × α)} (hr : cfg.sample m nb cl vs metric pick = .ok r) :
    ∃ n : Nat, nb = some (n : Int) ∧ r.Nodup ∧ (∀ p ∈ r, Eligible cfg m cl p) ∧
      ∀ L : List (α × α), L.Nodup → (∀ p, p ∈ L ↔ Eligible cfg m cl p) → r.length = min n L.length := by
  obtain ⟨n, rfl, h0, h1⟩ := sample_ok h hr
  refine ⟨n, rfl, ?_⟩
  rcases Nat.eq_zero_or_pos n with rfl | hpos
  · rw [h0 rfl]; simp
  · obtain ⟨L, l1, l2, -, l4, l5⟩ := h1 hpos
    have key : r.Subperm L ∧ r.length = min n L.length := by
      cases hd : cfg.distance with
      | none =>
        rw [l4 hd]
        obtain ⟨p1, p2⟩ := hpick L (min n L.length) (Nat.min_le_right _ _)
        exact ⟨p2, p1⟩
      | some d =>
        obtain ⟨K, k1, -, k3⟩ := l5 d hd
        have := sorted_take (rev := decide (d = .farthestNeighbors)) (K := K) (n := n) (by rw [k1]; exact l1)
        rw [k3]
        obtain ⟨-, -, -, s4, s5⟩ := this
        rw [k1] at s4
        refine ⟨s4, ?_⟩
        rw [s5, ← k1, List.length_map]
    refine ⟨?_, fun p hp => (l2 p).1 (key.1.subset hp), ?_⟩
    · obtain ⟨l, hl1, hl2⟩ := key.1
      exact hl1.nodup_iff.1 (l1.sublist hl2)
    · intro L' hL' hiff
      have : L'.Perm L := (List.perm_ext_iff_of_nodup hL' l1).2 fun p => by rw [hiff, l2]
      rw [key.2, this.length_eq]

/-- With the default exclusions the eligible pairs are the unknown ones. -/
theorem eligible_iff_unknown {cfg : Sampler} {m : Manager α} (h : Inv m) (hc : cfg.clusters = none)
    (hi : cfg.withoutInferred = true) (cl : Option (Dict α Int)) (p : α × α) :
    Eligible cfg m cl p ↔ p ∈ unknownPairs m := by
  rw [mem_unknownPairs]
  constructor
  · intro he; exact ⟨he.left, he.right, he.ordered, he.notInferred hi⟩
  · rintro ⟨h1, h2, h3, h4⟩
    refine ⟨h1, h2, h3, by rw [hc]; simp, by rw [hc]; simp, ?_, fun _ => h4⟩
    intro _
    rw [getAdded_eq h.d h1 h2, (known_none_iff h).2]
    intro t ha
    obtain ⟨n1, n2⟩ := (inferred_none_iff h h1 h2).1 h4
    cases t with
    | mustLink => exact n1 (Chain.single ha)
    | cannotLink => exact n2 ⟨p.1, p.2, .refl, ha, .refl⟩

theorem sample_nil_iff {cfg : Sampler} {m : Manager α} (hm : Reachable m) (hc : cfg.clusters = none)
    (hi : cfg.withoutInferred = true) {nb : Int} (hnb : 1 ≤ nb) {cl : Option (Dict α Int)}
    {vs : Option (Dict α V)} {metric : V → V → δ} {pick : List (α × α) → Nat → List (α × α)}
    (hpick : RandomSample pick) {r : List (α × α)} (hr : cfg.sample m (some nb) cl vs metric pick = .ok r) :
    r = [] ↔ m.complete = true := by
  obtain ⟨n, hn, -, -, hlen⟩ := sample_facts hm.inv hpick hr
  have := hlen (unknownPairs m) (unknownPairs_nodup hm.inv)
    (fun p => (eligible_iff_unknown hm.inv hc hi cl p).symm)
  rw [complete_iff_unknown hm, ← List.length_eq_zero_iff, ← List.length_eq_zero_iff, this]
  simp only [Option.some.injEq] at hn
  omega

/-- One round of a session. -/
theorem round_step {truth : α → Nat} {m : Manager α} (hm : Reachable m) (hs : Satisfies m truth) {r : Round α V δ}
    (hnb : 0 ≤ r.nb) (hpick : RandomSample r.pick) (hin : InputsGiven r.sampler m r.clustering r.vectors) :
    ∃ batch m', r.sampler.sample m (some r.nb) r.clustering r.vectors r.metric r.pick = .ok batch ∧
      annotate truth m batch = .ok m' ∧ Reachable m' ∧ Satisfies m' truth ∧ KnowsMore m m' ∧
      (r.sampler.withoutInferred = true → batch ≠ [] → (unknownPairs m').length < (unknownPairs m).length) := by
  obtain ⟨n, hn⟩ := Int.eq_ofNat_of_zero_le hnb
  obtain ⟨batch, hb⟩ := sample_total (n := n) hm.inv hin r.metric r.pick
  rw [← show r.nb = (n : Int) from hn] at hb
  obtain ⟨n', hn', b1, b2, b3⟩ := sample_facts hm.inv hpick hb
  obtain ⟨m', a1, a2, a3, a4, a5⟩ := annotate_batch hm hs (batch := batch)
    (fun p hp => ⟨(b2 p hp).left, (b2 p hp).right⟩)
  refine ⟨batch, m', hb, a1, a2, a3, a4, ?_⟩
  · intro hwi hne
    obtain ⟨p, hp⟩ := List.exists_mem_of_ne_nil _ hne
    obtain ⟨t, ht⟩ := a5 p hp
    have he := b2 p hp
    exact unknown_lt hm.inv a2.inv a4 (mem_unknownPairs.2 ⟨he.left, he.right, he.ordered, he.notInferred hwi⟩) ht

theorem InputsGiven.congr {cfg : Sampler} {m m' : Manager α} {cl : Option (Dict α Int)} {vs : Option (Dict α V)}
    (h : InputsGiven cfg m cl vs) (hm : m'.managed = m.managed) : InputsGiven cfg m' cl vs where
  labels := by rw [hm]; exact h.labels
  vectors := by rw [hm]; exact h.vectors

theorem session_ok {truth : α → Nat} {m : Manager α} (hm : Reachable m) (hs : Satisfies m truth)
    {rounds : List (Round α V δ)}
    (hr : ∀ r ∈ rounds, 0 ≤ r.nb ∧ RandomSample r.pick ∧ InputsGiven r.sampler m r.clustering r.vectors) :
    ∃ m', session truth m rounds = .ok m' ∧ Reachable m' ∧ Satisfies m' truth ∧ KnowsMore m m' ∧
      ((∀ r ∈ rounds, 1 ≤ r.nb ∧ r.sampler.clusters = none ∧ r.sampler.withoutInferred = true) →
        m'.complete = true ∨ (unknownPairs m').length + rounds.length ≤ (unknownPairs m).length) := by
  induction rounds generalizing m with
  | nil => exact ⟨m, rfl, hm, hs, .refl m, fun _ => .inr (by simp)⟩
  | cons r rounds ih =>
    obtain ⟨r1, r2, r3⟩ := hr r (by simp)
    obtain ⟨batch, m1, s1, s2, s3, s4, s5, s6⟩ := round_step hm hs r1 r2 r3
    obtain ⟨m2, t1, t2, t3, t4, t5⟩ := ih s3 s4 (fun q hq => by
      obtain ⟨q1, q2, q3⟩ := hr q (by simp [hq])
      exact ⟨q1, q2, q3.congr s5.1⟩)
    refine ⟨m2, ?_, t2, t3, s5.trans t4, ?_⟩
    · show (do
        let batch ← r.sampler.sample m (some r.nb) r.clustering r.vectors r.metric r.pick
        session truth (← annotate truth m batch) rounds) = _
      rw [s1]
      show (do session truth (← annotate truth m batch) rounds) = _
      rw [s2]
      exact t1
    · intro hall
      obtain ⟨c1, c2, c3⟩ := hall r (by simp)
      rcases t5 (fun q hq => hall q (by simp [hq])) with h | h
      · exact .inl h
      · by_cases hb : batch = []
        · left
          have hcomp := (sample_nil_iff hm c2 c3 c1 r2 s1).1 hb
          rw [complete_iff_unknown hm] at hcomp
          rw [complete_iff_unknown t2, ← List.length_eq_zero_iff]
          have := unknown_le hm.inv t2.inv (s5.trans t4)
          rw [hcomp] at this
          simpa using this
        · right
          have := s6 c3 hb
          rw [List.length_cons]
          omega

theorem init_satisfies (ids : List α) (truth : α → Nat) : Satisfies (Manager.init ids) truth := by
  intro x y
  have h := init_inv ids
  constructor
  · rw [addedAs_iff_known h, init_known]
    intro hk
    split at hk
    · rename_i hc; exact congrArg truth hc.1
    · cases hk
  · rw [addedAs_iff_known h, init_known]
    intro hk
    split at hk
    · cases hk
    · cases hk

/-- It is enough to check the managed IDs. -/
theorem satisfies_of_managed {m : Manager α} (h : Inv m) {f : α → Nat}
    (hc : ∀ x ∈ m.managed, ∀ y ∈ m.managed, (match m.getAdded x y with
      | .ok (some (.mustLink, _)) => decide (f x = f y)
      | .ok (some (.cannotLink, _)) => decide (f x ≠ f y)
      | _ => true) = true) : Satisfies m f := by
  intro x y
  refine ⟨fun ha => ?_, fun ha => ?_⟩ <;>
  · obtain ⟨hx, hy⟩ := AddedAs.mem h ha
    have := hc x hx y hy
    obtain ⟨v, hv⟩ := ha
    rw [hv] at this
    exact of_decide_eq_true this

end Verif
