import Verif.Proofs.Check

/-
C113: checking a clustering by questions. Specification vocabulary: `Verif/Spec/Check.lean`, `Verif/Spec/Questions.lean`.
-/

namespace Verif

variable {α V δ : Type} [LinearOrder α] [LinearOrder δ]

theorem satisfies_guess {guess : α → Nat} {labels : Dict α Int} (hg : ∀ x y, guess x = guess y ↔ dget? labels x = dget? labels y)
    {m : Manager α} (h : LabelsSatisfy m labels) : Satisfies m guess := fun x y =>
  ⟨fun ha => (hg x y).2 ((h x y).1 ha), fun ha he => (h x y).2 ha ((hg x y).1 he)⟩

theorem RightLabels.satisfy {truth : α → Nat} {m : Manager α} (h : Inv m) {labels : Dict α Int} (hR : RightLabels truth m.managed labels)
    (hs : Satisfies m truth) : LabelsSatisfy m labels := fun x y =>
  ⟨fun ha => (hR x (AddedAs.mem h ha).1 y (AddedAs.mem h ha).2).2 ((hs x y).1 ha),
    fun ha he => (hs x y).2 ha ((hR x (AddedAs.mem h ha).1 y (AddedAs.mem h ha).2).1 he)⟩

theorem RightLabels.count {truth : α → Nat} {ids : List α} {labels : Dict α Int} (hR : RightLabels truth ids labels) :
    checkCount labels ids = classes truth ids := by
  unfold checkCount classes
  apply le_antisymm
  · exact image_card_le fun x hx y hy h => (hR x (List.mem_toFinset.1 hx) y (List.mem_toFinset.1 hy)).2 h
  · exact image_card_le fun x hx y hy h => (hR x (List.mem_toFinset.1 hx) y (List.mem_toFinset.1 hy)).1 h

/-- If the clusters are right, questions about pairs in one cluster are all answered with MUST_LINK, each joins two must-link
groups, and they stop when the groups are the classes. -/
theorem C113_inside {truth : α → Nat} {m : Manager α} (hm : Reachable m) (hs : Satisfies m truth) {labels : Dict α Int}
    (hR : RightLabels truth m.managed labels) {rounds : List (Round α V δ)} (hr : ∀ r ∈ rounds, OneQuestion .sameCluster labels m r) :
    ∃ m' ps, session truth m rounds = .ok m' ∧ asked truth m rounds = .ok ps ∧ (∀ p ∈ ps, truth p.1 = truth p.2) ∧
      ps.length = min rounds.length (m.components.length - classes truth m.managed) ∧
      m'.components.length + ps.length = m.components.length := by
  obtain ⟨guess, hg⟩ := exists_guess labels
  have hsg := satisfies_guess hg (hR.satisfy hm.inv hs)
  obtain ⟨m', qs, t1, t2, t3, t4, t5, t6, -, t8, t10, t9⟩ := inside_phase hg hm rfl hsg hr
  have hag : ∀ p ∈ qs, (truth p.1 = truth p.2 ↔ guess p.1 = guess p.2) := fun p hp => by
    obtain ⟨h1, h2, -⟩ := t8 p hp
    rw [hg, hR _ h1 _ h2]
  obtain ⟨c1, c2⟩ := asked_congr t2 hag
  have hcl : classes guess m.managed = classes truth m.managed := by rw [guess_count hg, hR.count]
  refine ⟨m', qs, by rw [c2, t1], c1, fun p hp => (hag p hp).2 (t8 p hp).2.2, ?_, by omega⟩
  have hlow := classes_le t3.inv t4
  rw [t5.1, hcl] at hlow
  rcases t9 with h | h
  · have := components_eq_classes t3.inv t4 (mustLinked_of_closed t3.inv t4 h)
    rw [t5.1, hcl] at this
    omega
  · omega

/-- Checking a clustering that satisfies the constraints known so far, with `k` clusters, from `c` must-link
groups: at least `c - k` questions about pairs in one cluster, then at least `k(k-1)/2` questions about pairs in
different clusters. The clusters are the true classes exactly when every answer is the one that the clusters predict; otherwise the
first other answer comes among the first `c - k + k(k-1)/2` questions. -/
theorem C113_check {truth : α → Nat} {m : Manager α} (hm : Reachable m) (hs : Satisfies m truth) {labels : Dict α Int}
    (hL : LabelsSatisfy m labels) {inside across : List (Round α V δ)}
    (hi : ∀ r ∈ inside, OneQuestion .sameCluster labels m r) (ha : ∀ r ∈ across, OneQuestion .differentClusters labels m r)
    (hin : m.components.length ≤ inside.length + checkCount labels m.managed)
    (hac : checkCount labels m.managed * (checkCount labels m.managed - 1) / 2 ≤ across.length) :
    ∃ ps, asked truth m (inside ++ across) = .ok ps ∧
      (RightLabels truth m.managed labels ↔ ∀ p ∈ ps, Predicted truth labels p) ∧
      (¬ RightLabels truth m.managed labels → ∃ a p b, ps = a ++ p :: b ∧ (∀ q ∈ a, Predicted truth labels q) ∧
        ¬ Predicted truth labels p ∧ a.length + checkCount labels m.managed <
          m.components.length + checkCount labels m.managed * (checkCount labels m.managed - 1) / 2) := by
  obtain ⟨guess, hg⟩ := exists_guess labels
  have hsg := satisfies_guess hg hL
  rw [← guess_count hg] at hin hac ⊢
  obtain ⟨m', qs, t1, t2, t3, t4, t5, t6, t7⟩ := both_phases hg hm hsg hi ha hin hac
  have hall : ∀ r ∈ inside ++ across, r.nb = 1 ∧ RandomSample r.pick ∧ InputsGiven r.sampler m r.clustering r.vectors := by
    intro r hr
    rcases List.mem_append.1 hr with h | h
    · exact ⟨(hi r h).one, (hi r h).pick, (hi r h).inputs⟩
    · exact ⟨(ha r h).one, (ha r h).pick, (ha r h).inputs⟩
  obtain ⟨m'', s1, -⟩ := session_ok hm hs (fun r hr => ⟨by rw [(hall r hr).1]; decide, (hall r hr).2⟩)
  obtain ⟨ps, hps⟩ := asked_total s1
  have hpred : ∀ p, Predicted truth labels p ↔ (guess p.1 = guess p.2 ↔ truth p.1 = truth p.2) := fun p => by
    unfold Predicted; rw [hg]
  have hiff : RightLabels truth m.managed labels ↔ ∀ p ∈ ps, Predicted truth labels p := by
    constructor
    · intro hR p hp
      obtain ⟨-, -, -, k4⟩ := asked_known hm hs (fun r hr => (hall r hr).2.1) s1 hps
      obtain ⟨h1, h2, -⟩ := k4 p hp
      exact hR _ h1 _ h2
    · intro h
      obtain ⟨c1, c2⟩ := asked_congr hps (guess := guess) fun p hp => (hpred p).1 (h p hp)
      rw [t1, s1] at c2
      cases c2
      obtain ⟨k1, k2, -, -⟩ := asked_known hm hs (fun r hr => (hall r hr).2.1) s1 hps
      intro x hx y hy
      rw [← hg]
      rw [← t5.1] at hx hy
      rcases (complete_iff t3.inv).1 t6 x hx y hy with hl | hl
      · exact ⟨fun _ => satisfies_chain k2 hl, fun _ => satisfies_chain t4 hl⟩
      · exact ⟨fun e => absurd e (satisfies_sep t4 hl), fun e => absurd e (satisfies_sep k2 hl)⟩
  refine ⟨ps, hps, hiff, fun hw => ?_⟩
  rw [hiff] at hw
  push Not at hw
  obtain ⟨p, hp, hpn⟩ := hw
  obtain ⟨a, p, b, e1, e2, e3, e4⟩ := first_surprise (fun r hr => ⟨(hall r hr).1, (hall r hr).2.1⟩) hm hps t2 ⟨p, hp, fun h => hpn ((hpred p).2 h)⟩
  exact ⟨a, p, b, e1, fun q hq => (hpred q).2 (e2 q hq), fun h => e3 ((hpred p).1 h), by omega⟩

/-- From a new manager, and with right clusters, this asks exactly `n - k` questions with the answer MUST_LINK and `k(k-1)/2` with the answer
CANNOT_LINK, and then the constraints are complete: by `C91_least` no other way of asking needs less. -/
theorem C113_right {truth : α → Nat} {ids : List α} {labels : Dict α Int} (hR : RightLabels truth ids labels)
    {inside across : List (Round α V δ)}
    (hi : ∀ r ∈ inside, OneQuestion .sameCluster labels (Manager.init ids) r)
    (ha : ∀ r ∈ across, OneQuestion .differentClusters labels (Manager.init ids) r)
    (hin : ids.toFinset.card ≤ inside.length + classes truth ids)
    (hac : classes truth ids * (classes truth ids - 1) / 2 ≤ across.length) :
    ∃ m' ps, session truth (Manager.init ids) (inside ++ across) = .ok m' ∧ m'.complete = true ∧
      asked truth (Manager.init ids) (inside ++ across) = .ok ps ∧
      ps.length + classes truth ids = ids.toFinset.card + classes truth ids * (classes truth ids - 1) / 2 := by
  have hm := Reachable.init (α := α) ids
  have hs := init_satisfies ids truth
  have hR' : RightLabels truth (Manager.init ids).managed labels := fun x hx y hy => hR x ((init_mem ids x).1 hx) y ((init_mem ids y).1 hy)
  obtain ⟨guess, hg⟩ := exists_guess labels
  have hsg := satisfies_guess hg (hR'.satisfy hm.inv hs)
  have hcl : classes guess (Manager.init ids).managed = classes truth ids := by rw [guess_count hg, hR'.count, init_classes]
  rw [← hcl] at hin hac
  obtain ⟨m', qs, t1, t2, t3, t4, t5, t6, t7⟩ := both_phases hg hm hsg hi ha (by rw [init_components]; exact hin) hac
  have hall : ∀ r ∈ inside ++ across, r.nb = 1 ∧ RandomSample r.pick ∧ InputsGiven r.sampler (Manager.init ids) r.clustering r.vectors := by
    intro r hr
    rcases List.mem_append.1 hr with h | h
    · exact ⟨(hi r h).one, (hi r h).pick, (hi r h).inputs⟩
    · exact ⟨(ha r h).one, (ha r h).pick, (ha r h).inputs⟩
  obtain ⟨-, -, -, k4⟩ := asked_known hm hsg (fun r hr => (hall r hr).2.1) t1 t2
  obtain ⟨c1, c2⟩ := asked_congr t2 (guess := truth) fun p hp => by
    obtain ⟨h1, h2, -⟩ := k4 p hp
    rw [hg, hR' _ h1 _ h2]
  have hq := questions_eq_asked truth (Manager.init ids) (inside ++ across)
  rw [c1] at hq
  have hleast := C91_least ids truth (fun r hr => ⟨by rw [(hall r hr).1]; decide, (hall r hr).2⟩) (by rw [c2]; exact t1) t6 hq
  rw [init_components, hcl] at t7
  exact ⟨m', qs, by rw [c2, t1], t6, c1, by omega⟩

theorem compIdx_satisfies {m : Manager α} (h : Inv m) : Satisfies m (compIdx m) := fun x y =>
  ⟨fun ha => (compIdx_eq_iff h (AddedAs.mem h ha).1 (AddedAs.mem h ha).2).2 (Chain.single ha),
    fun ha he => not_both h ((compIdx_eq_iff h (AddedAs.mem h ha).1 (AddedAs.mem h ha).2).1 he) ⟨x, y, .refl, ha, .refl⟩⟩

/-- Whatever is asked and in whatever way: with fewer questions there is another partition of the IDs with the same questions and the same
answers. -/
theorem C113_needed (ids : List α) (truth : α → Nat) {rounds : List (Round α V δ)}
    (hr : ∀ r ∈ rounds, 0 ≤ r.nb ∧ RandomSample r.pick ∧ InputsGiven r.sampler (Manager.init ids) r.clustering r.vectors)
    {ps : List (α × α)} (hp : asked truth (Manager.init ids) rounds = .ok ps)
    (hfew : ps.length + classes truth ids < ids.toFinset.card + classes truth ids * (classes truth ids - 1) / 2) :
    ∃ other : α → Nat, asked other (Manager.init ids) rounds = .ok ps ∧
      (∀ p ∈ ps, (other p.1 = other p.2 ↔ truth p.1 = truth p.2)) ∧
      ∃ x ∈ ids, ∃ y ∈ ids, ¬ (other x = other y ↔ truth x = truth y) := by
  have hm := Reachable.init (α := α) ids
  have hs := init_satisfies ids truth
  obtain ⟨m', s1, -⟩ := session_ok hm hs hr
  obtain ⟨k1, k2, k3, k4⟩ := asked_known hm hs (fun r hr' => (hr r hr').2.1) s1 hp
  have hq := questions_eq_asked truth (Manager.init ids) rounds
  rw [hp] at hq
  have hnc : m'.complete ≠ true := fun hc => by
    have := C91_least ids truth hr s1 hc hq
    omega
  rw [Ne, complete_iff_unknown k1] at hnc
  obtain ⟨p, hpu⟩ := List.exists_mem_of_ne_nil _ hnc
  obtain ⟨h1, h2, -, h4⟩ := mem_unknownPairs.1 hpu
  obtain ⟨n1, n2⟩ := (inferred_none_iff k1.inv h1 h2).1 h4
  have key : ∃ other : α → Nat, Satisfies m' other ∧ ¬ (other p.1 = other p.2 ↔ truth p.1 = truth p.2) := by
    have hne : compIdx m' p.1 ≠ compIdx m' p.2 := fun he => n1 ((compIdx_eq_iff k1.inv h1 h2).1 he)
    by_cases he : truth p.1 = truth p.2
    · exact ⟨compIdx m', compIdx_satisfies k1.inv, fun h => hne (h.2 he)⟩
    · refine ⟨fun x => if compIdx m' x = compIdx m' p.1 then compIdx m' p.2 else compIdx m' x, fun x y => ⟨fun hadd => ?_, fun hadd heq => ?_⟩, ?_⟩
      · have := (compIdx_satisfies k1.inv x y).1 hadd
        simp only [this]
      · have hxy := (compIdx_satisfies k1.inv x y).2 hadd
        obtain ⟨hx, hy⟩ := AddedAs.mem k1.inv hadd
        simp only at heq
        split at heq
        · rename_i hxp
          split at heq
          · rename_i hyp
            exact hxy (hxp.trans hyp.symm)
          · exact n2 ⟨x, y, (compIdx_eq_iff k1.inv h1 hx).1 hxp.symm, hadd, (compIdx_eq_iff k1.inv hy h2).1 heq.symm⟩
        · split at heq
          · rename_i hyp
            exact n2 (CannotLinked.symm k1.inv ⟨x, y, (compIdx_eq_iff k1.inv h2 hx).1 heq.symm, hadd, (compIdx_eq_iff k1.inv hy h1).1 hyp⟩)
          · exact hxy heq
      · intro h
        apply he
        apply h.1
        simp
  obtain ⟨other, ho, hdiff⟩ := key
  have hag : ∀ q ∈ ps, (other q.1 = other q.2 ↔ truth q.1 = truth q.2) := fun q hq => by
    obtain ⟨g1, g2, t, ht⟩ := k4 q hq
    exact known_same k1.inv k2 ho ht (k3.1 ▸ g1) (k3.1 ▸ g2)
  refine ⟨other, (asked_congr hp hag).1, hag, p.1, ?_, p.2, ?_, hdiff⟩
  · exact (init_mem ids _).1 (k3.1 ▸ h1)
  · exact (init_mem ids _).1 (k3.1 ▸ h2)

/-! ### Each theorem applied to a concrete case -/

/-- Right labels of the six IDs of `Props/Questions.lean`, and wrong ones in which 5 and 6 have changed their places. -/
def checkRight : Dict Nat Int := [(1, 0), (2, 1), (3, 0), (4, 1), (5, 0), (6, 1)]

def checkWrong : Dict Nat Int := [(1, 0), (2, 1), (3, 0), (4, 1), (5, 1), (6, 0)]

def checkRound (c : ClustersRestriction) (labels : Dict Nat Int) : Round Nat Int Nat :=
  { sampler := ⟨some c, none, true, true⟩, nb := 1, clustering := some labels, vectors := none, metric := askMetric, pick := fun l k => l.take k }

theorem checkGiven (c : ClustersRestriction) {labels : Dict Nat Int}
    (h : ∀ x ∈ (Manager.init [1, 2, 3, 4, 5, 6]).managed, ∃ v, dget? labels x = some v) (n : Nat) :
    ∀ r ∈ List.replicate n (checkRound c labels), OneQuestion c labels (Manager.init [1, 2, 3, 4, 5, 6]) r := by
  intro r hr
  cases List.eq_of_mem_replicate hr
  exact ⟨rfl, rfl, rfl, rfl, askPick_random, ⟨fun _ => ⟨_, rfl, h⟩, fun h => absurd rfl h⟩⟩

theorem checkRight_given : ∀ x ∈ (Manager.init [1, 2, 3, 4, 5, 6]).managed, ∃ v, dget? checkRight x = some v := by
  simp only [exists_dget?_iff]; decide +kernel

theorem checkWrong_given : ∀ x ∈ (Manager.init [1, 2, 3, 4, 5, 6]).managed, ∃ v, dget? checkWrong x = some v := by
  simp only [exists_dget?_iff]; decide +kernel

example := C113_inside (m := Manager.init [1, 2, 3, 4, 5, 6]) (.init _) (init_satisfies _ askTruth) (labels := checkRight)
  (by unfold RightLabels; decide +kernel) (checkGiven .sameCluster checkRight_given 3)

example := C113_right (truth := askTruth) (ids := [1, 2, 3, 4, 5, 6]) (labels := checkRight) (by unfold RightLabels; decide +kernel)
  (checkGiven .sameCluster checkRight_given 4) (checkGiven .differentClusters checkRight_given 1) (by decide +kernel) (by decide +kernel)

theorem init_labelsSatisfy (ids : List Nat) (labels : Dict Nat Int) : LabelsSatisfy (Manager.init ids) labels := fun x y => by
  constructor
  · intro h
    have := init_mustLinked ids (Chain.single h)
    rw [this]
  · intro h
    have := (init_satisfies ids (fun _ => 0) x y).2 h
    exact absurd rfl this

example := C113_check (m := Manager.init [1, 2, 3, 4, 5, 6]) (.init _) (init_satisfies _ askTruth) (labels := checkWrong)
  (init_labelsSatisfy _ _) (checkGiven .sameCluster checkWrong_given 4) (checkGiven .differentClusters checkWrong_given 1)
  (by decide +kernel) (by decide +kernel)

/-- The wrong clusters are found out by the second question. -/
example : asked askTruth (Manager.init [1, 2, 3, 4, 5, 6])
      (List.replicate 4 (checkRound .sameCluster checkRight) ++ [checkRound .differentClusters checkRight]) =
        .ok [(1, 3), (1, 5), (2, 4), (2, 6), (1, 2)] ∧
    asked askTruth (Manager.init [1, 2, 3, 4, 5, 6])
      (List.replicate 4 (checkRound .sameCluster checkWrong) ++ [checkRound .differentClusters checkWrong]) =
        .ok [(1, 3), (1, 6), (2, 4), (2, 5), (1, 2)] := ⟨by decide +kernel, by decide +kernel⟩

example := C113_needed (ids := [1, 2, 3, 4, 5, 6]) askTruth
  (rounds := List.replicate 4 (checkRound .sameCluster checkRight))
  (fun r hr => by
    have h := checkGiven .sameCluster checkRight_given 4 r hr
    exact ⟨h.one.ge.trans' (by decide), h.pick, h.inputs⟩)
  (ps := [(1, 3), (1, 5), (2, 4), (2, 6)]) (by decide +kernel) (by decide +kernel)

end Verif
