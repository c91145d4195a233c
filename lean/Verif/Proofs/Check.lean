import Mathlib.Logic.Encodable.Basic
import Verif.Proofs.Questions
import Verif.Props.Questions
import Verif.Spec.Check

namespace Verif

variable {α V δ : Type} [LinearOrder α] [LinearOrder δ]

/-! ### Sessions -/

theorem session_append (truth : α → Nat) (m : Manager α) (a b : List (Round α V δ)) :
    session truth m (a ++ b) = (session truth m a >>= fun m' => session truth m' b) := by
  induction a generalizing m with
  | nil => rfl
  | cons r a ih =>
    have hc : ∀ c : List (Round α V δ), session truth m (r :: c) =
        (r.sampler.sample m (some r.nb) r.clustering r.vectors r.metric r.pick >>= fun batch =>
          annotate truth m batch >>= fun m1 => session truth m1 c) := fun _ => rfl
    rw [List.cons_append, hc, hc]
    cases r.sampler.sample m (some r.nb) r.clustering r.vectors r.metric r.pick with
    | error e => rfl
    | ok batch =>
      show (annotate truth m batch >>= fun m1 => session truth m1 (a ++ b)) =
        ((annotate truth m batch >>= fun m1 => session truth m1 a) >>= fun m' => session truth m' b)
      cases annotate truth m batch with
      | error e => rfl
      | ok m1 => exact ih m1

theorem asked_append {truth : α → Nat} {m m' : Manager α} {a b : List (Round α V δ)} {p q : List (α × α)}
    (hs : session truth m a = .ok m') (ha : asked truth m a = .ok p) (hb : asked truth m' b = .ok q) :
    asked truth m (a ++ b) = .ok (p ++ q) := by
  induction a generalizing m p with
  | nil => cases hs; cases ha; exact hb
  | cons r a ih =>
    rw [List.cons_append]
    unfold session at hs
    unfold asked at ha ⊢
    simp only [bind, Except.bind] at hs ha ⊢
    cases h1 : r.sampler.sample m (some r.nb) r.clustering r.vectors r.metric r.pick with
    | error e => rw [h1] at hs; cases hs
    | ok batch =>
      simp only [h1] at hs ha ⊢
      cases h2 : annotate truth m batch with
      | error e => rw [h2] at hs; cases hs
      | ok m1 =>
        simp only [h2] at hs ha ⊢
        cases h3 : asked truth m1 a with
        | error e => rw [h3] at ha; cases ha
        | ok rest =>
          rw [h3] at ha
          cases ha
          rw [ih hs h3]
          simp [pure, Except.pure]

theorem questions_eq_asked (truth : α → Nat) (m : Manager α) (rounds : List (Round α V δ)) :
    questions truth m rounds = (asked truth m rounds).map List.length := by
  induction rounds generalizing m with
  | nil => rfl
  | cons r rounds ih =>
    unfold questions asked
    simp only [bind, Except.bind]
    cases r.sampler.sample m (some r.nb) r.clustering r.vectors r.metric r.pick with
    | error e => rfl
    | ok batch =>
      simp only
      cases annotate truth m batch with
      | error e => rfl
      | ok m1 =>
        simp only [ih m1]
        cases asked truth m1 rounds with
        | error e => rfl
        | ok rest => simp [pure, Except.pure, Except.map]

theorem annotate_congr {truth guess : α → Nat} {batch : List (α × α)}
    (h : ∀ p ∈ batch, (guess p.1 = guess p.2 ↔ truth p.1 = truth p.2)) (m : Manager α) : annotate truth m batch = annotate guess m batch := by
  unfold annotate
  induction batch generalizing m with
  | nil => rfl
  | cons p batch ih =>
    rw [List.foldlM_cons, List.foldlM_cons]
    have : truthAnswer truth p.1 p.2 = truthAnswer guess p.1 p.2 := by
      unfold truthAnswer
      simp only [h p (by simp)]
    rw [this]
    cases Manager.addConstraint p.1 p.2 (truthAnswer guess p.1 p.2) 1 m with
    | ok b m1 => exact ih (fun q hq => h q (by simp [hq])) m1
    | error e m1 => rfl

/-- As long as the answers are those of `guess`, the sessions are the same. -/
theorem asked_congr {truth guess : α → Nat} {m : Manager α} {rounds : List (Round α V δ)} {ps : List (α × α)}
    (hp : asked truth m rounds = .ok ps) (h : ∀ p ∈ ps, (guess p.1 = guess p.2 ↔ truth p.1 = truth p.2)) :
    asked guess m rounds = .ok ps ∧ session guess m rounds = session truth m rounds := by
  induction rounds generalizing m ps with
  | nil => exact ⟨hp, rfl⟩
  | cons r rounds ih =>
    unfold asked at hp ⊢
    unfold session
    simp only [bind, Except.bind] at hp ⊢
    cases h1 : r.sampler.sample m (some r.nb) r.clustering r.vectors r.metric r.pick with
    | error e => rw [h1] at hp; cases hp
    | ok batch =>
      simp only [h1] at hp ⊢
      cases h2 : annotate truth m batch with
      | error e => rw [h2] at hp; cases hp
      | ok m1 =>
        simp only [h2] at hp
        cases h3 : asked truth m1 rounds with
        | error e => rw [h3] at hp; cases hp
        | ok rest =>
          rw [h3] at hp
          cases hp
          rw [← annotate_congr (fun p hp => h p (List.mem_append_left _ hp)) m, h2]
          obtain ⟨i1, i2⟩ := ih h3 (fun p hp => h p (List.mem_append_right _ hp))
          simp only [i1, i2]
          exact ⟨rfl, trivial⟩

/-! ### One question -/

theorem one_sample {m : Manager α} (hm : Reachable m) {r : Round α V δ} (h1 : r.nb = 1) (hpick : RandomSample r.pick)
    (hin : InputsGiven r.sampler m r.clustering r.vectors) :
    (r.sampler.sample m (some r.nb) r.clustering r.vectors r.metric r.pick = .ok [] ∧ ∀ p, ¬ Eligible r.sampler m r.clustering p) ∨
    ∃ p, r.sampler.sample m (some r.nb) r.clustering r.vectors r.metric r.pick = .ok [p] ∧ Eligible r.sampler m r.clustering p := by
  obtain ⟨batch, hb⟩ := sample_total (n := 1) hm.inv hin r.metric r.pick
  rw [show ((1 : Nat) : Int) = r.nb by rw [h1]; rfl] at hb
  obtain ⟨n, hn, -, b2, b3⟩ := sample_facts hm.inv hpick hb
  have hn1 : n = 1 := by simp only [Option.some.injEq] at hn; omega
  subst hn1
  classical
  have hl := b3 ((allPairs m).filter fun p => decide (Eligible r.sampler m r.clustering p)) ((allPairs_nodup hm.inv).filter _) (fun p => by
    rw [List.mem_filter, decide_eq_true_eq]
    exact ⟨fun h => h.2, fun h => ⟨mem_allPairs.2 ⟨h.left, h.right⟩, h⟩⟩)
  match batch, hb, b2, hl with
  | [], hb, _, hl =>
    refine .inl ⟨hb, fun p hp => ?_⟩
    have : p ∈ (allPairs m).filter fun p => decide (Eligible r.sampler m r.clustering p) := by
      rw [List.mem_filter, decide_eq_true_eq]
      exact ⟨mem_allPairs.2 ⟨hp.left, hp.right⟩, hp⟩
    have := List.length_pos_of_mem this
    simp only [List.length_nil] at hl
    omega
  | [p], hb, b2, _ => exact .inr ⟨p, hb, b2 p (by simp)⟩
  | p :: q :: l, _, _, hl =>
    simp only [List.length_cons] at hl
    omega

omit [LinearOrder δ] in
theorem eligible_labels {restriction : ClustersRestriction} {labels : Dict α Int} {m0 m : Manager α} (hm : Reachable m)
    (hk : m.managed = m0.managed) {r : Round α V δ} (hr : OneQuestion restriction labels m0 r) (p : α × α) :
    Eligible r.sampler m r.clustering p ↔ p ∈ unknownPairs m ∧
      (restriction = .sameCluster → dget? labels p.1 = dget? labels p.2) ∧
      (restriction = .differentClusters → dget? labels p.1 ≠ dget? labels p.2) := by
  have hbase := eligible_iff_unknown hm.inv (cfg := { r.sampler with clusters := none }) rfl hr.unknown none p
  obtain ⟨d, hd, hall⟩ := hr.inputs.labels (by rw [hr.restricted]; simp)
  rw [hr.labels] at hd
  cases hd
  constructor
  · intro he
    refine ⟨hbase.1 ⟨he.left, he.right, he.ordered, by simp, by simp, he.notAdded, he.notInferred⟩, fun h => ?_, fun h => ?_⟩
    · obtain ⟨d, a, b, h1, h2, h3, rfl⟩ := he.same (by rw [hr.restricted, h])
      rw [hr.labels] at h1
      cases h1
      rw [h2, h3]
    · obtain ⟨d, a, b, h1, h2, h3, hne⟩ := he.different (by rw [hr.restricted, h])
      rw [hr.labels] at h1
      cases h1
      rw [h2, h3]
      simpa using hne
  · rintro ⟨hp, h1, h2⟩
    have he := hbase.2 hp
    obtain ⟨a, ha⟩ := hall p.1 (hk ▸ he.left)
    obtain ⟨b, hb⟩ := hall p.2 (hk ▸ he.right)
    refine ⟨he.left, he.right, he.ordered, fun h => ⟨labels, a, b, hr.labels, ha, hb, ?_⟩, fun h => ⟨labels, a, b, hr.labels, ha, hb, ?_⟩,
      he.notAdded, he.notInferred⟩
    · rw [hr.restricted] at h
      have := h1 (Option.some.inj h)
      rw [ha, hb] at this
      exact Option.some.inj this
    · rw [hr.restricted] at h
      have := h2 (Option.some.inj h)
      rw [ha, hb] at this
      exact fun h => this (by rw [h])

/-- The clusters as a function into the natural numbers. -/
theorem exists_guess (labels : Dict α Int) : ∃ guess : α → Nat, ∀ x y, guess x = guess y ↔ dget? labels x = dget? labels y := by
  have : ∃ e : Option Int → Nat, Function.Injective e := ⟨Encodable.encode, Encodable.encode_injective⟩
  obtain ⟨e, he⟩ := this
  exact ⟨fun x => e (dget? labels x), fun x y => he.eq_iff⟩

theorem guess_count {guess : α → Nat} {labels : Dict α Int} (hg : ∀ x y, guess x = guess y ↔ dget? labels x = dget? labels y)
    (ids : List α) : classes guess ids = checkCount labels ids := by
  unfold classes checkCount
  apply le_antisymm
  · exact image_card_le fun x _ y _ h => (hg x y).2 h
  · exact image_card_le fun x _ y _ h => (hg x y).1 h

/-! ### The two phases, when the answers are those of the clusters -/

theorem inside_phase {guess : α → Nat} {labels : Dict α Int} (hg : ∀ x y, guess x = guess y ↔ dget? labels x = dget? labels y)
    {m0 m : Manager α} (hm : Reachable m) (hk : m.managed = m0.managed) (hs : Satisfies m guess) {rounds : List (Round α V δ)}
    (hr : ∀ r ∈ rounds, OneQuestion .sameCluster labels m0 r) :
    ∃ m' qs, session guess m rounds = .ok m' ∧ asked guess m rounds = .ok qs ∧ Reachable m' ∧ Satisfies m' guess ∧ KnowsMore m m' ∧
      qs.length + m'.components.length = m.components.length ∧ todoBest guess m' + qs.length ≤ todoBest guess m ∧
      (∀ p ∈ qs, p.1 ∈ m.managed ∧ p.2 ∈ m.managed ∧ guess p.1 = guess p.2) ∧
      qs.length ≤ rounds.length ∧ ((∀ p ∈ unknownPairs m', guess p.1 ≠ guess p.2) ∨ qs.length = rounds.length) := by
  induction rounds generalizing m with
  | nil => exact ⟨m, [], rfl, rfl, hm, hs, .refl m, by simp, by simp, by simp, le_rfl, .inr rfl⟩
  | cons r rounds ih =>
    have hr1 := hr r (by simp)
    have hin : InputsGiven r.sampler m r.clustering r.vectors := hr1.inputs.congr hk
    rcases one_sample hm hr1.one hr1.pick hin with ⟨hb, hnone⟩ | ⟨p, hb, hel⟩
    · obtain ⟨m', qs, t1, t2, t3, t4, t5, t6, t7, t8, t10, -⟩ := ih hm hk hs (fun q hq => hr q (by simp [hq]))
      refine ⟨m', qs, ?_, ?_, t3, t4, t5, t6, t7, t8, t10.trans (Nat.le_succ _), .inl fun p hp he => ?_⟩
      · unfold session
        simp only [bind, Except.bind, hb]
        exact t1
      · unfold asked
        simp only [bind, Except.bind, hb, show annotate guess m [] = .ok m from rfl, t2]
        rfl
      · exact hnone p ((eligible_labels hm hk hr1 p).2 ⟨unknown_mono hm.inv t5 p hp, fun _ => (hg _ _).1 he, by simp⟩)
    · obtain ⟨hp, hsame, -⟩ := (eligible_labels hm hk hr1 p).1 hel
      have he : guess p.1 = guess p.2 := (hg _ _).2 (hsame rfl)
      obtain ⟨m1, a1, a2, a3, a4, ⟨t, a5⟩, a6⟩ := annotate_new hm hs hp
      obtain ⟨m', qs, t1, t2, t3, t4, t5, t6, t7, t8, t10, t9⟩ := ih a2 (a4.1.trans hk) a3 (fun q hq => hr q (by simp [hq]))
      have hc1 := components_lt hm.inv a2.inv a4 hel.left hel.right ((inferred_none_iff hm.inv hel.left hel.right).1 (mem_unknownPairs.1 hp).2.2.2).1
        (mustLinked_of_known a2.inv a3 (a4.1 ▸ hel.left) (a4.1 ▸ hel.right) he a5)
      have hc2 := components_step hm.inv a2.inv a4.1 (x := p.1) (y := p.2) (fun u w h => (a6 _ u w h).imp id fun h => h.2)
      have hb1 := todoBest_lt hm.inv hs a2.inv a3 a4 hp a5 (fun hne => absurd he hne)
      refine ⟨m', p :: qs, ?_, ?_, t3, t4, a4.trans t5, ?_, ?_, ?_, Nat.succ_le_succ t10, ?_⟩
      · unfold session
        simp only [bind, Except.bind, hb, a1]
        exact t1
      · unfold asked
        simp only [bind, Except.bind, hb, a1, t2]
        rfl
      · rw [List.length_cons]; omega
      · rw [List.length_cons]; omega
      · intro q hq
        rcases List.mem_cons.1 hq with rfl | hq
        · exact ⟨hel.left, hel.right, he⟩
        · rw [← a4.1]; exact t8 q hq
      · rcases t9 with h | h
        · exact .inl h
        · exact .inr (by rw [List.length_cons, List.length_cons, h])

theorem across_phase {guess : α → Nat} {labels : Dict α Int} (hg : ∀ x y, guess x = guess y ↔ dget? labels x = dget? labels y)
    {m0 m : Manager α} (hm : Reachable m) (hk : m.managed = m0.managed) (hs : Satisfies m guess)
    (hcross : ∀ p ∈ unknownPairs m, guess p.1 ≠ guess p.2) {rounds : List (Round α V δ)}
    (hr : ∀ r ∈ rounds, OneQuestion .differentClusters labels m0 r) :
    ∃ m' qs, session guess m rounds = .ok m' ∧ asked guess m rounds = .ok qs ∧ Reachable m' ∧ Satisfies m' guess ∧ KnowsMore m m' ∧
      todoBest guess m' + qs.length ≤ todoBest guess m ∧
      (∀ p ∈ qs, p.1 ∈ m.managed ∧ p.2 ∈ m.managed ∧ guess p.1 ≠ guess p.2) ∧ (m'.complete = true ∨ qs.length = rounds.length) := by
  induction rounds generalizing m with
  | nil => exact ⟨m, [], rfl, rfl, hm, hs, .refl m, by simp, by simp, .inr rfl⟩
  | cons r rounds ih =>
    have hr1 := hr r (by simp)
    have hin : InputsGiven r.sampler m r.clustering r.vectors := hr1.inputs.congr hk
    rcases one_sample hm hr1.one hr1.pick hin with ⟨hb, hnone⟩ | ⟨p, hb, hel⟩
    · obtain ⟨m', qs, t1, t2, t3, t4, t5, t6, t7, -⟩ := ih hm hk hs hcross (fun q hq => hr q (by simp [hq]))
      refine ⟨m', qs, ?_, ?_, t3, t4, t5, t6, t7, .inl ?_⟩
      · unfold session
        simp only [bind, Except.bind, hb]
        exact t1
      · unfold asked
        simp only [bind, Except.bind, hb, show annotate guess m [] = .ok m from rfl, t2]
        rfl
      · rw [complete_iff_unknown t3, List.eq_nil_iff_forall_not_mem]
        intro p hp
        have hp := unknown_mono hm.inv t5 p hp
        exact hnone p ((eligible_labels hm hk hr1 p).2 ⟨hp, by simp, fun _ h => hcross p hp ((hg _ _).2 h)⟩)
    · obtain ⟨hp, -, hdiff⟩ := (eligible_labels hm hk hr1 p).1 hel
      have he : guess p.1 ≠ guess p.2 := fun h => hdiff rfl ((hg _ _).1 h)
      obtain ⟨m1, a1, a2, a3, a4, ⟨t, a5⟩, -⟩ := annotate_new hm hs hp
      obtain ⟨m', qs, t1, t2, t3, t4, t5, t6, t7, t8⟩ := ih a2 (a4.1.trans hk) a3 (fun q hq => hcross q (unknown_mono hm.inv a4 q hq))
        (fun q hq => hr q (by simp [hq]))
      have hb1 := todoBest_lt hm.inv hs a2.inv a3 a4 hp a5 (fun _ => hcross)
      refine ⟨m', p :: qs, ?_, ?_, t3, t4, a4.trans t5, ?_, ?_, ?_⟩
      · unfold session
        simp only [bind, Except.bind, hb, a1]
        exact t1
      · unfold asked
        simp only [bind, Except.bind, hb, a1, t2]
        rfl
      · rw [List.length_cons]; omega
      · intro q hq
        rcases List.mem_cons.1 hq with rfl | hq
        · exact ⟨hel.left, hel.right, he⟩
        · rw [← a4.1]; exact t7 q hq
      · rcases t8 with h | h
        · exact .inl h
        · exact .inr (by rw [List.length_cons, List.length_cons, h])

theorem no_inside_left {guess : α → Nat} {m : Manager α} (hm : Reachable m) (hs : Satisfies m guess)
    (hc : m.components.length ≤ classes guess m.managed) : ∀ p ∈ unknownPairs m, guess p.1 ≠ guess p.2 := by
  intro p hp he
  obtain ⟨m1, -, a2, a3, a4, ⟨t, a5⟩, -⟩ := annotate_new hm hs hp
  obtain ⟨h1, h2, -, h4⟩ := mem_unknownPairs.1 hp
  have hc1 := components_lt hm.inv a2.inv a4 h1 h2 ((inferred_none_iff hm.inv h1 h2).1 h4).1
    (mustLinked_of_known a2.inv a3 (a4.1 ▸ h1) (a4.1 ▸ h2) he a5)
  have := classes_le a2.inv a3
  rw [a4.1] at this
  omega

theorem both_phases {guess : α → Nat} {labels : Dict α Int} (hg : ∀ x y, guess x = guess y ↔ dget? labels x = dget? labels y)
    {m : Manager α} (hm : Reachable m) (hs : Satisfies m guess) {inside across : List (Round α V δ)}
    (hi : ∀ r ∈ inside, OneQuestion .sameCluster labels m r) (ha : ∀ r ∈ across, OneQuestion .differentClusters labels m r)
    (hin : m.components.length ≤ inside.length + classes guess m.managed)
    (hac : classes guess m.managed * (classes guess m.managed - 1) / 2 ≤ across.length) :
    ∃ m' qs, session guess m (inside ++ across) = .ok m' ∧ asked guess m (inside ++ across) = .ok qs ∧ Reachable m' ∧
      Satisfies m' guess ∧ KnowsMore m m' ∧ m'.complete = true ∧
      qs.length + classes guess m.managed ≤ m.components.length + classes guess m.managed * (classes guess m.managed - 1) / 2 := by
  obtain ⟨m1, q1, s1, s2, s3, s4, s5, s6, s7, -, -, s9⟩ := inside_phase hg hm rfl hs hi
  have hcross : ∀ p ∈ unknownPairs m1, guess p.1 ≠ guess p.2 := by
    rcases s9 with h | h
    · exact h
    · exact no_inside_left s3 s4 (by rw [s5.1]; omega)
  obtain ⟨m2, q2, t1, t2, t3, t4, t5, t6, -, t8⟩ := across_phase hg s3 s5.1 s4 hcross ha
  have hml := mustLinked_of_closed s3.inv s4 hcross
  have hcc := components_eq_classes s3.inv s4 hml
  have hoc := openClasses_card (truth := guess) (m := m1)
  have hoc0 := openClasses_card (truth := guess) (m := m)
  rw [s5.1] at hcc hoc
  have hfin : classes guess m2.managed ≤ todoBest guess m2 := (classes_le t3.inv t4).trans (Nat.le_add_right _ _)
  rw [t5.1, s5.1] at hfin
  refine ⟨m2, q1 ++ q2, ?_, asked_append s1 s2 t2, t3, t4, s5.trans t5, ?_, ?_⟩
  · rw [session_append, s1]; exact t1
  · rcases t8 with h | h
    · exact h
    · by_contra hc
      have := classes_lt_todoBest t3 t4 hc
      rw [t5.1, s5.1] at this
      have h2 : todoBest guess m1 = classes guess m.managed + (openClasses guess m1).card := by unfold todoBest; rw [hcc]
      omega
  · rw [List.length_append]
    have h2 : todoBest guess m = m.components.length + (openClasses guess m).card := rfl
    omega

/-- The first answer that is not the one of `guess` is given in the session of `guess` at the same place. -/
theorem first_surprise {truth guess : α → Nat} {m : Manager α} {rounds : List (Round α V δ)} {ps qs : List (α × α)}
    (h1 : ∀ r ∈ rounds, r.nb = 1 ∧ RandomSample r.pick)
    (hm : Reachable m)
    (hp : asked truth m rounds = .ok ps) (hq : asked guess m rounds = .ok qs)
    (hne : ∃ p ∈ ps, ¬ (guess p.1 = guess p.2 ↔ truth p.1 = truth p.2)) :
    ∃ a p b, ps = a ++ p :: b ∧ (∀ q ∈ a, (guess q.1 = guess q.2 ↔ truth q.1 = truth q.2)) ∧
      ¬ (guess p.1 = guess p.2 ↔ truth p.1 = truth p.2) ∧ a.length < qs.length := by
  induction rounds generalizing m ps qs with
  | nil => cases hp; simp at hne
  | cons r rounds ih =>
    unfold asked at hp hq
    simp only [bind, Except.bind] at hp hq
    cases hb : r.sampler.sample m (some r.nb) r.clustering r.vectors r.metric r.pick with
    | error e => rw [hb] at hp; cases hp
    | ok batch =>
      simp only [hb] at hp hq
      cases ht : annotate truth m batch with
      | error e => rw [ht] at hp; cases hp
      | ok m1 =>
        simp only [ht] at hp
        cases h3 : asked truth m1 rounds with
        | error e => rw [h3] at hp; cases hp
        | ok rest =>
          rw [h3] at hp
          cases hp
          cases hg : annotate guess m batch with
          | error e => rw [hg] at hq; cases hq
          | ok m2 =>
            simp only [hg] at hq
            cases h4 : asked guess m2 rounds with
            | error e => rw [h4] at hq; cases hq
            | ok rest2 =>
              rw [h4] at hq
              cases hq
              obtain ⟨r1, r2⟩ := h1 r (by simp)
              obtain ⟨n, hn, -, -, hlen⟩ := sample_facts hm.inv r2 hb
              by_cases hagree : ∀ p ∈ batch, (guess p.1 = guess p.2 ↔ truth p.1 = truth p.2)
              · have := annotate_congr hagree m
                rw [ht, hg] at this
                cases this
                obtain ⟨a, p, b, e1, e2, e3, e4⟩ := ih (fun r hr => h1 r (by simp [hr])) (added_batch hm hg).1 h3 h4 (by
                  obtain ⟨p, hp, hpn⟩ := hne
                  rcases List.mem_append.1 hp with h | h
                  · exact absurd (hagree p h) hpn
                  · exact ⟨p, h, hpn⟩)
                refine ⟨batch ++ a, p, b, by rw [e1, List.append_assoc], ?_, e3, by simpa using e4⟩
                intro q hq
                rcases List.mem_append.1 hq with h | h
                · exact hagree q h
                · exact e2 q h
              · have hle : batch.length ≤ 1 := by
                  obtain ⟨L, hL⟩ : ∃ L : List (α × α), L.Nodup ∧ ∀ p, p ∈ L ↔ Eligible r.sampler m r.clustering p := by
                    classical
                    refine ⟨(allPairs m).filter fun p => decide (Eligible r.sampler m r.clustering p), (allPairs_nodup hm.inv).filter _, fun p => ?_⟩
                    rw [List.mem_filter, decide_eq_true_eq]
                    exact ⟨fun h => h.2, fun h => ⟨mem_allPairs.2 ⟨h.left, h.right⟩, h⟩⟩
                  have := hlen L hL.1 hL.2
                  simp only [Option.some.injEq] at hn
                  omega
                match batch, hle, hagree with
                | [], _, hagree => exact absurd (by simp) hagree
                | [p], _, hagree =>
                  refine ⟨[], p, rest, rfl, by simp, fun h => hagree fun q hq => ?_, by simp⟩
                  rw [List.mem_singleton] at hq
                  rw [hq]
                  exact h

theorem asked_total {truth : α → Nat} {m m' : Manager α} {rounds : List (Round α V δ)} (hs : session truth m rounds = .ok m') :
    ∃ ps, asked truth m rounds = .ok ps := by
  induction rounds generalizing m with
  | nil => exact ⟨[], rfl⟩
  | cons r rounds ih =>
    unfold session at hs
    unfold asked
    simp only [bind, Except.bind] at hs ⊢
    cases h1 : r.sampler.sample m (some r.nb) r.clustering r.vectors r.metric r.pick with
    | error e => rw [h1] at hs; cases hs
    | ok batch =>
      simp only [h1] at hs ⊢
      cases h2 : annotate truth m batch with
      | error e => rw [h2] at hs; cases hs
      | ok m1 =>
        simp only [h2] at hs ⊢
        obtain ⟨ps, hps⟩ := ih hs
        exact ⟨batch ++ ps, by rw [hps]; rfl⟩

/-- The asked pairs are managed, and known afterwards. -/
theorem asked_known {truth : α → Nat} {m m' : Manager α} (hm : Reachable m) (hsat : Satisfies m truth) {rounds : List (Round α V δ)}
    (hr : ∀ r ∈ rounds, RandomSample r.pick) (hs : session truth m rounds = .ok m') {ps : List (α × α)}
    (hp : asked truth m rounds = .ok ps) : Reachable m' ∧ Satisfies m' truth ∧ KnowsMore m m' ∧
      ∀ p ∈ ps, p.1 ∈ m.managed ∧ p.2 ∈ m.managed ∧ ∃ t, m'.getInferred p.1 p.2 = .ok (some t) := by
  induction rounds generalizing m ps with
  | nil => cases hs; cases hp; exact ⟨hm, hsat, .refl _, by simp⟩
  | cons r rounds ih =>
    unfold session at hs
    unfold asked at hp
    simp only [bind, Except.bind] at hs hp
    cases h1 : r.sampler.sample m (some r.nb) r.clustering r.vectors r.metric r.pick with
    | error e => rw [h1] at hs; cases hs
    | ok batch =>
      simp only [h1] at hs hp
      obtain ⟨-, -, -, b2, -⟩ := sample_facts hm.inv (hr r (by simp)) h1
      obtain ⟨m1, a1, a2, a3, a4, a5⟩ := annotate_batch hm hsat (batch := batch) (fun p hp => ⟨(b2 p hp).left, (b2 p hp).right⟩)
      simp only [a1] at hs hp
      cases h3 : asked truth m1 rounds with
      | error e => rw [h3] at hp; cases hp
      | ok rest =>
        rw [h3] at hp
        cases hp
        obtain ⟨t1, t2, t3, t4⟩ := ih a2 a3 (fun q hq => hr q (by simp [hq])) hs h3
        refine ⟨t1, t2, a4.trans t3, fun p hp => ?_⟩
        rcases List.mem_append.1 hp with h | h
        · obtain ⟨t, ht⟩ := a5 p h
          exact ⟨(b2 p h).left, (b2 p h).right, t, t3.2 _ _ _ ht⟩
        · rw [← a4.1]
          exact t4 p h

/-- What is known has the same answer for all partitions that satisfy the constraints. -/
theorem known_same {truth guess : α → Nat} {m : Manager α} (h : Inv m) (hs : Satisfies m truth) (hg : Satisfies m guess) {x y : α}
    {t : CType} (ht : m.getInferred x y = .ok (some t)) (hx : x ∈ m.managed) (hy : y ∈ m.managed) :
    guess x = guess y ↔ truth x = truth y := by
  cases t with
  | mustLink =>
    have hl := (inferred_ml_iff h hx hy).1 ht
    exact ⟨fun _ => satisfies_chain hs hl, fun _ => satisfies_chain hg hl⟩
  | cannotLink =>
    have hl := (inferred_cl_iff h hx hy).1 ht
    exact ⟨fun e => absurd e (satisfies_sep hg hl), fun e => absurd e (satisfies_sep hs hl)⟩

end Verif
