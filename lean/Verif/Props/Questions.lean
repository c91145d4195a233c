import Verif.Proofs.Questions

/-
C91: the number of questions of an interactive session.
-/

namespace Verif

variable {α V δ : Type} [LinearOrder α] [LinearOrder δ]

/-- As long as something is unknown, one more question can be asked. -/
theorem classes_lt_todo {truth : α → Nat} {m : Manager α} (hm : Reachable m) (hs : Satisfies m truth) (hc : m.complete ≠ true) :
    classes truth m.managed < todo truth m := by
  rw [Ne, complete_iff_unknown hm] at hc
  obtain ⟨p, hp⟩ := List.exists_mem_of_ne_nil _ hc
  obtain ⟨m', -, h2, h3, h4, ⟨t, h5⟩, -⟩ := annotate_new hm hs hp
  have := classes_le_todo h2.inv h3
  rw [h4.1] at this
  exact this.trans_lt (todo_lt hm.inv h2.inv h3 h4 hp h5)

theorem classes_lt_todoBest {truth : α → Nat} {m : Manager α} (hm : Reachable m) (hs : Satisfies m truth) (hc : m.complete ≠ true) :
    classes truth m.managed < todoBest truth m := by
  rw [Ne, complete_iff_unknown hm] at hc
  have key : ∃ p ∈ unknownPairs m, truth p.1 ≠ truth p.2 → ∀ q ∈ unknownPairs m, truth q.1 ≠ truth q.2 := by
    by_cases he : ∃ p ∈ unknownPairs m, truth p.1 = truth p.2
    · obtain ⟨p, hp, e⟩ := he
      exact ⟨p, hp, fun hne => absurd e hne⟩
    · obtain ⟨p, hp⟩ := List.exists_mem_of_ne_nil _ hc
      exact ⟨p, hp, fun _ q hq e => he ⟨q, hq, e⟩⟩
  obtain ⟨p, hp, hbest⟩ := key
  obtain ⟨m', -, h2, h3, h4, ⟨t, h5⟩, -⟩ := annotate_new hm hs hp
  have : classes truth m'.managed ≤ todoBest truth m' := (classes_le h2.inv h3).trans (Nat.le_add_right _ _)
  rw [h4.1] at this
  exact this.trans_lt (todoBest_lt hm.inv hs h2.inv h3 h4 hp h5 hbest)

theorem session_todo {truth : α → Nat} {m : Manager α} (hm : Reachable m) (hs : Satisfies m truth)
    {rounds : List (Round α V δ)}
    (hr : ∀ r ∈ rounds, 1 ≤ r.nb ∧ RandomSample r.pick ∧ InputsGiven r.sampler m r.clustering r.vectors ∧
      r.sampler.clusters = none ∧ r.sampler.withoutInferred = true) :
    ∃ m', session truth m rounds = .ok m' ∧ Reachable m' ∧ Satisfies m' truth ∧ KnowsMore m m' ∧
      (m'.complete = true ∨ todo truth m' + rounds.length ≤ todo truth m) := by
  induction rounds generalizing m with
  | nil => exact ⟨m, rfl, hm, hs, .refl m, .inr le_rfl⟩
  | cons r rounds ih =>
    obtain ⟨r1, r2, r3, r4, r5⟩ := hr r (by simp)
    obtain ⟨n, hn⟩ := Int.eq_ofNat_of_zero_le (show 0 ≤ r.nb by omega)
    obtain ⟨batch, hb⟩ := sample_total (n := n) hm.inv r3 r.metric r.pick
    rw [← show r.nb = (n : Int) from hn] at hb
    obtain ⟨-, -, -, b2, -⟩ := sample_facts hm.inv r2 hb
    obtain ⟨m1, a1, a2, a3, a4, a5⟩ := annotate_batch hm hs (batch := batch) (fun p hp => ⟨(b2 p hp).left, (b2 p hp).right⟩)
    obtain ⟨m2, t1, t2, t3, t4, t5⟩ := ih a2 a3 (fun q hq => by
      obtain ⟨q1, q2, q3, q4⟩ := hr q (by simp [hq])
      exact ⟨q1, q2, q3.congr a4.1, q4⟩)
    refine ⟨m2, ?_, t2, t3, a4.trans t4, ?_⟩
    · unfold session
      rw [hb]
      show (annotate truth m batch >>= fun m => session truth m rounds) = _
      rw [a1]
      exact t1
    · rcases t5 with hc | hc
      · exact .inl hc
      · by_cases hne : batch = []
        · have hcomp := (sample_nil_iff hm r4 r5 r1 r2 hb).1 hne
          left
          rw [complete_iff_unknown hm] at hcomp
          rw [complete_iff_unknown t2, List.eq_nil_iff_forall_not_mem]
          intro p hp
          have := unknown_mono hm.inv (a4.trans t4) p hp
          rw [hcomp] at this
          cases this
        · obtain ⟨p, hp⟩ := List.exists_mem_of_ne_nil _ hne
          obtain ⟨t, ht⟩ := a5 p hp
          have := todo_lt hm.inv a2.inv a3 a4 ((eligible_iff_unknown hm.inv r4 r5 r.clustering p).1 (b2 p hp)) ht
          right
          rw [List.length_cons]
          omega

/-- The number of rounds that complete the constraints, whatever is asked: the number of components in excess of the true
classes, plus the number of unknown pairs of different classes. -/
theorem C91_rounds {truth : α → Nat} {m : Manager α} (hm : Reachable m) (hs : Satisfies m truth)
    {rounds : List (Round α V δ)}
    (hr : ∀ r ∈ rounds, 1 ≤ r.nb ∧ RandomSample r.pick ∧ InputsGiven r.sampler m r.clustering r.vectors ∧
      r.sampler.clusters = none ∧ r.sampler.withoutInferred = true)
    (hlen : m.components.length + (openCross truth m).card ≤ rounds.length + classes truth m.managed) :
    ∃ m', session truth m rounds = .ok m' ∧ m'.complete = true ∧ m'.managed = m.managed := by
  obtain ⟨m', h1, h2, h3, h4, h5⟩ := session_todo hm hs hr
  refine ⟨m', h1, ?_, h4.1⟩
  by_contra hc
  have h6 := classes_lt_todo h2 h3 hc
  have h7 := h5.resolve_left hc
  rw [h4.1] at h6
  unfold todo at h6 h7
  omega

/-- From a new manager: `n - k` must-links and all pairs of different classes, at most. -/
theorem C91_from_scratch (ids : List α) (truth : α → Nat) {rounds : List (Round α V δ)}
    (hr : ∀ r ∈ rounds, 1 ≤ r.nb ∧ RandomSample r.pick ∧ InputsGiven r.sampler (Manager.init ids) r.clustering r.vectors ∧
      r.sampler.clusters = none ∧ r.sampler.withoutInferred = true)
    (hlen : ids.toFinset.card + (crossPairs truth ids).card ≤ rounds.length + classes truth ids) :
    ∃ m', session truth (Manager.init ids) rounds = .ok m' ∧ m'.complete = true := by
  obtain ⟨m', h1, h2, -⟩ := C91_rounds (.init ids) (init_satisfies ids truth) hr (by
    rw [init_components, init_openCross, init_classes]; exact hlen)
  exact ⟨m', h1, h2⟩

/-- If one question is asked at a time, this also bounds the number of questions, whatever restriction by clusters or distances is
used. -/
theorem C91_asked {truth : α → Nat} {m : Manager α} (hm : Reachable m) (hs : Satisfies m truth)
    {rounds : List (Round α V δ)} (hr : ∀ r ∈ rounds, r.nb = 1 ∧ RandomSample r.pick ∧ r.sampler.withoutInferred = true)
    {q : Nat} (hq : questions truth m rounds = .ok q) :
    q + classes truth m.managed ≤ m.components.length + (openCross truth m).card := by
  induction rounds generalizing m q with
  | nil => cases hq; rw [Nat.zero_add]; exact classes_le_todo hm.inv hs
  | cons r rounds ih =>
    obtain ⟨r1, r2, r3⟩ := hr r (by simp)
    unfold questions at hq
    cases hb : r.sampler.sample m (some r.nb) r.clustering r.vectors r.metric r.pick with
    | error e => rw [hb] at hq; cases hq
    | ok batch =>
      rw [hb] at hq
      obtain ⟨n, hn, b1, b2, b3⟩ := sample_facts hm.inv r2 hb
      obtain ⟨m1, a1, a2, a3, a4, a5⟩ := annotate_batch hm hs (batch := batch) (fun p hp => ⟨(b2 p hp).left, (b2 p hp).right⟩)
      change (annotate truth m batch >>= fun m' => questions truth m' rounds >>= fun rest => pure (batch.length + rest)) = _ at hq
      rw [a1] at hq
      change (questions truth m1 rounds >>= fun rest => pure (batch.length + rest)) = _ at hq
      cases hrest : questions truth m1 rounds with
      | error e => rw [hrest] at hq; cases hq
      | ok rest =>
        rw [hrest] at hq
        cases hq
        have h1 := ih a2 a3 (fun q hq => hr q (by simp [hq])) hrest
        rw [a4.1] at h1
        have hlen : batch.length ≤ 1 := by
          rw [r1] at hn
          have : n = 1 := by simp only [Option.some.injEq] at hn; omega
          subst this
          obtain ⟨n', hn', h0', h1'⟩ := sample_ok hm.inv hb
          have : n' = 1 := by rw [r1] at hn'; simp only [Option.some.injEq] at hn'; omega
          subst this
          obtain ⟨L, l1, l2, -⟩ := h1' one_pos
          rw [b3 L l1 l2]
          exact Nat.min_le_left _ _
        change m1.components.length + (openCross truth m1).card ≥ _ at h1
        match batch, hlen with
        | [], _ =>
          have := todo_le (truth := truth) hm.inv a2.inv a4
          unfold todo at this
          simp only [List.length_nil]
          omega
        | [p], _ =>
          obtain ⟨t, ht⟩ := a5 p (by simp)
          have he := b2 p (by simp)
          have := todo_lt hm.inv a2.inv a3 a4 (mem_unknownPairs.2 ⟨he.left, he.right, he.ordered, he.notInferred r3⟩) ht
          unfold todo at this
          simp only [List.length_singleton]
          omega

/-! ### The least number of questions -/

theorem added_step {m m' : Manager α} (hm : Reachable m) {x y : α} {ty : String} {v : Rat} {r : Bool}
    (hc : Manager.addConstraint x y ty v m = .ok r m') :
    (addedPairs m' .mustLink ++ addedPairs m' .cannotLink).length ≤ (addedPairs m .mustLink ++ addedPairs m .cannotLink).length + 1 := by
  have hm' : Reachable m' := by
    have := hm.call (.addConstraint x y ty v)
    simpa only [Op.call, hc, resState] using this
  have h := hm.inv
  have h' := hm'.inv
  obtain ⟨-, -, hman, hframe, -⟩ := C06_add_constraint_frame hm hc
  have hnd : (addedPairs m' .mustLink ++ addedPairs m' .cannotLink).Nodup := by
    refine List.nodup_append.2 ⟨addedPairs_nodup h' _, addedPairs_nodup h' _, ?_⟩
    rintro p hp q hq rfl
    obtain ⟨-, -, -, v1, h1⟩ := mem_addedPairs.1 hp
    obtain ⟨-, -, -, v2, h2⟩ := mem_addedPairs.1 hq
    rw [h1] at h2
    cases h2
  have hold : ∀ t p, p ∈ addedPairs m' t → p = (min x y, max x y) ∨ p ∈ addedPairs m t := by
    intro t p hp
    obtain ⟨h1, h2, h3, w, h4⟩ := mem_addedPairs.1 hp
    rw [hman] at h1 h2
    by_cases hno : p = (x, y) ∨ p = (y, x)
    · left
      rcases hno with rfl | rfl
      · simp only at h3; rw [min_eq_left h3.le, max_eq_right h3.le]
      · simp only at h3; rw [min_eq_right h3.le, max_eq_left h3.le]
    · right
      refine mem_addedPairs.2 ⟨h1, h2, h3, w, ?_⟩
      rw [← hframe p.1 p.2 (fun e => hno (.inl (Prod.ext e.1 e.2))) (fun e => hno (.inr (Prod.ext e.1 e.2)))]
      exact h4
  have : (addedPairs m' .mustLink ++ addedPairs m' .cannotLink).Subperm
      ((min x y, max x y) :: (addedPairs m .mustLink ++ addedPairs m .cannotLink)) := by
    apply List.subperm_of_subset hnd
    intro p hp
    rw [List.mem_cons, List.mem_append]
    rcases List.mem_append.1 hp with hp | hp
    · exact (hold _ p hp).imp id .inl
    · exact (hold _ p hp).imp id .inr
  exact this.length_le

theorem added_batch {truth : α → Nat} {m m' : Manager α} (hm : Reachable m) {batch : List (α × α)}
    (ha : annotate truth m batch = .ok m') : Reachable m' ∧
    (addedPairs m' .mustLink ++ addedPairs m' .cannotLink).length ≤
      (addedPairs m .mustLink ++ addedPairs m .cannotLink).length + batch.length := by
  induction batch generalizing m with
  | nil => cases ha; exact ⟨hm, le_rfl⟩
  | cons p batch ih =>
    unfold annotate at ha
    rw [List.foldlM_cons] at ha
    cases hc : Manager.addConstraint p.1 p.2 (truthAnswer truth p.1 p.2) 1 m with
    | error e s => rw [hc] at ha; cases ha
    | ok b m1 =>
      rw [hc] at ha
      have hm1 : Reachable m1 := by
        have := hm.call (.addConstraint p.1 p.2 (truthAnswer truth p.1 p.2) 1)
        simpa only [Op.call, hc, resState] using this
      have h1 := added_step hm hc
      obtain ⟨h2, h3⟩ := ih hm1 ha
      refine ⟨h2, h3.trans ?_⟩
      rw [List.length_cons]
      omega

theorem added_session {truth : α → Nat} {m m' : Manager α} (hm : Reachable m) {rounds : List (Round α V δ)}
    (hs : session truth m rounds = .ok m') {q : Nat} (hq : questions truth m rounds = .ok q) :
    (addedPairs m' .mustLink ++ addedPairs m' .cannotLink).length ≤
      (addedPairs m .mustLink ++ addedPairs m .cannotLink).length + q := by
  induction rounds generalizing m q with
  | nil => cases hs; cases hq; exact le_rfl
  | cons r rounds ih =>
    unfold session at hs
    unfold questions at hq
    cases hb : r.sampler.sample m (some r.nb) r.clustering r.vectors r.metric r.pick with
    | error e => rw [hb] at hq; cases hq
    | ok batch =>
      rw [hb] at hs hq
      change (annotate truth m batch >>= fun m' => questions truth m' rounds >>= fun rest => pure (batch.length + rest)) = _ at hq
      change (annotate truth m batch >>= fun m' => session truth m' rounds) = _ at hs
      cases ha : annotate truth m batch with
      | error e => rw [ha] at hq; cases hq
      | ok m1 =>
        rw [ha] at hs hq
        change (questions truth m1 rounds >>= fun rest => pure (batch.length + rest)) = _ at hq
        cases hrest : questions truth m1 rounds with
        | error e => rw [hrest] at hq; cases hq
        | ok rest =>
          rw [hrest] at hq
          cases hq
          obtain ⟨h1, h2⟩ := added_batch hm ha
          have := ih h1 hs hrest
          omega

theorem init_added (ids : List α) (t : CType) : addedPairs (Manager.init ids) t = [] := by
  rw [List.eq_nil_iff_forall_not_mem]
  intro p hp
  obtain ⟨-, -, hlt, ha⟩ := mem_addedPairs.1 hp
  rw [addedAs_iff_known (init_inv ids), init_known] at ha
  split at ha
  · rename_i hc; rw [hc.1] at hlt; exact lt_irrefl _ hlt
  · cases ha

/-- No session, whatever its samplers and sizes of batches, can complete the constraints of a new manager with fewer than
`n - k` must-links and one cannot-link for each pair of classes. -/
theorem C91_least (ids : List α) (truth : α → Nat) {rounds : List (Round α V δ)}
    (hr : ∀ r ∈ rounds, 0 ≤ r.nb ∧ RandomSample r.pick ∧ InputsGiven r.sampler (Manager.init ids) r.clustering r.vectors)
    {m' : Manager α} (hsess : session truth (Manager.init ids) rounds = .ok m') (hc : m'.complete = true)
    {q : Nat} (hq : questions truth (Manager.init ids) rounds = .ok q) :
    ids.toFinset.card + classes truth ids * (classes truth ids - 1) / 2 ≤ q + classes truth ids := by
  obtain ⟨m'', g1, g2, g3, g4, -⟩ := session_ok (.init ids) (init_satisfies ids truth) hr
  rw [hsess] at g1
  cases g1
  have h1 := added_session (.init ids) hsess hq
  rw [init_added, init_added, List.length_append] at h1
  have h2 := C68_cost g2 hc g3
  have h3 : m'.managed.length = ids.toFinset.card := by
    rw [← managed_card g2.inv, g4.1, init_toFinset]
  rw [h3, g4.1, init_toFinset] at h2
  have : (ids.toFinset.image truth).card ≤ ids.toFinset.card := Finset.card_image_le
  unfold classes
  simp only [List.append_nil, List.length_nil] at h1
  omega

/-! ### The closest pair first, and the farthest pair first -/

/-- One round of `oneByOne`. -/
theorem oneByOne_step {truth : α → Nat} {m : Manager α} (hm : Reachable m) (hs : Satisfies m truth) {d : DistanceRestriction}
    {vectors : Dict α V} {metric : V → V → δ} {pick : List (α × α) → Nat → List (α × α)} (hpick : RandomSample pick)
    (hne : m.managed ≠ []) (hv : ∀ x ∈ m.managed, ∃ v, dget? vectors x = some v) (rounds : List (Round α V δ)) :
    (m.complete = true ∧ session truth m (oneByOne d vectors metric pick :: rounds) = session truth m rounds) ∨
    ∃ p m', p ∈ unknownPairs m ∧ session truth m (oneByOne d vectors metric pick :: rounds) = session truth m' rounds ∧
      Reachable m' ∧ Satisfies m' truth ∧ KnowsMore m m' ∧ (∃ t, m'.getInferred p.1 p.2 = .ok (some t)) ∧
      (∀ t u w, AddedAs m' t u w →
        AddedAs m t u w ∨ (Agrees truth p.1 p.2 t ∧ ((u = p.1 ∧ w = p.2) ∨ (u = p.2 ∧ w = p.1)))) ∧
      ∀ q ∈ unknownPairs m, q ≠ p → ∀ a b, DistanceIs (some vectors) metric p a → DistanceIs (some vectors) metric q b →
        (d = .closestNeighbors → a ≤ b) ∧ (d = .farthestNeighbors → b ≤ a) := by
  set r := oneByOne d vectors metric pick with hrdef
  have hin : InputsGiven r.sampler m r.clustering r.vectors := ⟨fun h => absurd rfl h, fun _ => ⟨hne, vectors, rfl, hv⟩⟩
  obtain ⟨batch, hb⟩ := sample_total (n := 1) hm.inv hin r.metric r.pick
  obtain ⟨n, hn, b1, b2, b3⟩ := sample_facts hm.inv hpick hb
  have hel := eligible_iff_unknown hm.inv (cfg := r.sampler) rfl rfl r.clustering
  have hlen := b3 (unknownPairs m) (unknownPairs_nodup hm.inv) (fun p => (hel p).symm)
  have hn1 : n = 1 := by simp only [Option.some.injEq] at hn; omega
  subst hn1
  have hsess : session truth m (r :: rounds) = (annotate truth m batch >>= fun m' => session truth m' rounds) := by
    show (r.sampler.sample m (some 1) r.clustering r.vectors r.metric r.pick >>= fun batch =>
      annotate truth m batch >>= fun m' => session truth m' rounds) = _
    rw [show (1 : Int) = ((1 : Nat) : Int) from rfl, hb]
    rfl
  have hb' : batch.length ≤ 1 := hlen ▸ Nat.min_le_left _ _
  match batch, hb' with
  | [], _ =>
    left
    refine ⟨(complete_iff_unknown hm).2 ?_, hsess⟩
    rw [← List.length_eq_zero_iff]
    simp only [List.length_nil] at hlen
    omega
  | [p], _ =>
    right
    have hp := (hel p).1 (b2 p (by simp))
    obtain ⟨m', h1, h2, h3, h4, h5, h6⟩ := annotate_new hm hs hp
    refine ⟨p, m', hp, ?_, h2, h3, h4, h5, h6, ?_⟩
    · rw [hsess, h1]; rfl
    · intro q hq hqp a b ha hb2
      have hq' : q ∉ [p] := by simpa using hqp
      constructor
      · intro hd
        subst hd
        exact (C26_closest_optimal hm hb rfl).2.1 p (by simp) q ((hel q).2 hq) hq' a b ha hb2
      · intro hd
        subst hd
        exact (C27_farthest_optimal hm hb rfl).2.1 p (by simp) q ((hel q).2 hq) hq' a b ha hb2

theorem distance_given {vectors : Dict α V} {metric : V → V → δ} {m : Manager α}
    (hv : ∀ x ∈ m.managed, ∃ v, dget? vectors x = some v) {p : α × α} (hp : p ∈ unknownPairs m) :
    ∃ d, DistanceIs (some vectors) metric p d := by
  obtain ⟨h1, h2, -, -⟩ := mem_unknownPairs.1 hp
  obtain ⟨v, hv1⟩ := hv _ h1
  obtain ⟨w, hw⟩ := hv _ h2
  exact ⟨_, vectors, v, w, rfl, hv1, hw, rfl⟩

/-- If the vectors show the classes, asking for the closest pair needs the least number of questions. -/
theorem C91_closest {ids : List α} (hids : ids ≠ []) {truth : α → Nat} {vectors : Dict α V} {metric : V → V → δ}
    (hv : ∀ x ∈ ids, ∃ v, dget? vectors x = some v) (hapart : ClassesApart truth ids vectors metric)
    {pick : List (α × α) → Nat → List (α × α)} (hpick : RandomSample pick) {N : Nat}
    (hN : ids.toFinset.card + classes truth ids * (classes truth ids - 1) / 2 ≤ N + classes truth ids) :
    ∃ m', session truth (Manager.init ids) (List.replicate N (oneByOne .closestNeighbors vectors metric pick)) = .ok m' ∧
      m'.complete = true := by
  have key : ∀ (N : Nat) (m : Manager α), Reachable m → Satisfies m truth → m.managed = (Manager.init ids).managed →
      todoBest truth m ≤ N + classes truth m.managed →
      ∃ m', session truth m (List.replicate N (oneByOne .closestNeighbors vectors metric pick)) = .ok m' ∧ m'.complete = true := by
    intro N
    induction N with
    | zero =>
      intro m hm hs hman hle
      refine ⟨m, rfl, ?_⟩
      by_contra hc
      have := classes_lt_todoBest hm hs hc
      omega
    | succ N ih =>
      intro m hm hs hman hle
      have hmem : ∀ x, x ∈ m.managed ↔ x ∈ ids := fun x => by rw [hman, init_mem]
      have hvm : ∀ x ∈ m.managed, ∃ v, dget? vectors x = some v := fun x hx => hv x ((hmem x).1 hx)
      have hne : m.managed ≠ [] := by
        obtain ⟨x, hx⟩ := List.exists_mem_of_ne_nil _ hids
        exact List.ne_nil_of_mem ((hmem x).2 hx)
      rw [List.replicate_succ]
      rcases oneByOne_step hm hs (d := .closestNeighbors) (metric := metric) hpick hne hvm
          (List.replicate N (oneByOne .closestNeighbors vectors metric pick)) with ⟨hc, e⟩ | ⟨p, m1, hp, e, h2, h3, h4, ⟨t, h5⟩, -, h7⟩
      · rw [e]
        refine ih m hm hs hman ?_
        have h1 := todo_complete hm hs hc
        have h2 : todoBest truth m ≤ todo truth m := Nat.add_le_add_left Finset.card_image_le _
        omega
      · rw [e]
        refine ih m1 h2 h3 (h4.1.trans hman) ?_
        have := todoBest_lt hm.inv hs h2.inv h3 h4 hp h5 (fun hcross q hq he => by
          have hqp : q ≠ p := fun e => hcross (e ▸ he)
          obtain ⟨a, ha⟩ := distance_given (metric := metric) hvm hp
          obtain ⟨b, hb⟩ := distance_given (metric := metric) hvm hq
          have h8 := (h7 q hq hqp a b ha hb).1 rfl
          obtain ⟨p1, p2, -, -⟩ := mem_unknownPairs.1 hp
          obtain ⟨q1, q2, -, -⟩ := mem_unknownPairs.1 hq
          have h9 := hapart q.1 ((hmem _).1 q1) q.2 ((hmem _).1 q2) p.1 ((hmem _).1 p1) p.2 ((hmem _).1 p2) he hcross b a hb ha
          exact absurd h8 (not_le.2 h9))
        rw [h4.1]
        omega
  refine key N _ (.init ids) (init_satisfies ids truth) rfl ?_
  have h1 := openClasses_card (truth := truth) (m := Manager.init ids)
  rw [init_classes] at h1 ⊢
  unfold todoBest
  rw [init_components]
  omega

/-- And asking for the farthest pair needs the largest number of questions: with fewer, the constraints are not complete. -/
theorem C91_farthest {ids : List α} (hids : ids ≠ []) {truth : α → Nat} {vectors : Dict α V} {metric : V → V → δ}
    (hv : ∀ x ∈ ids, ∃ v, dget? vectors x = some v) (hapart : ClassesApart truth ids vectors metric)
    {pick : List (α × α) → Nat → List (α × α)} (hpick : RandomSample pick) {N : Nat}
    (hN : N + classes truth ids < ids.toFinset.card + (crossPairs truth ids).card) :
    ∃ m', session truth (Manager.init ids) (List.replicate N (oneByOne .farthestNeighbors vectors metric pick)) = .ok m' ∧
      m'.complete = false := by
  have key : ∀ (N : Nat) (m : Manager α), Reachable m → Satisfies m truth → m.managed = (Manager.init ids).managed →
      Unlucky truth m → N + classes truth m.managed < todo truth m →
      ∃ m', session truth m (List.replicate N (oneByOne .farthestNeighbors vectors metric pick)) = .ok m' ∧ m'.complete = false := by
    intro N
    induction N with
    | zero =>
      intro m hm hs hman hu hlt
      refine ⟨m, rfl, ?_⟩
      by_contra hc
      have := todo_complete hm hs (by simpa using hc)
      omega
    | succ N ih =>
      intro m hm hs hman hu hlt
      have hmem : ∀ x, x ∈ m.managed ↔ x ∈ ids := fun x => by rw [hman, init_mem]
      have hvm : ∀ x ∈ m.managed, ∃ v, dget? vectors x = some v := fun x hx => hv x ((hmem x).1 hx)
      have hne : m.managed ≠ [] := by
        obtain ⟨x, hx⟩ := List.exists_mem_of_ne_nil _ hids
        exact List.ne_nil_of_mem ((hmem x).2 hx)
      rw [List.replicate_succ]
      rcases oneByOne_step hm hs (d := .farthestNeighbors) (metric := metric) hpick hne hvm
          (List.replicate N (oneByOne .farthestNeighbors vectors metric pick)) with ⟨hc, e⟩ | ⟨p, m1, hp, e, h2, h3, h4, -, h6, h7⟩
      · have := todo_complete hm hs hc
        omega
      · rw [e]
        obtain ⟨hu1, hle⟩ := todo_step hm hs h2 h4 hu hp (fun hopen he => by
          obtain ⟨q, hq⟩ := Finset.nonempty_iff_ne_empty.2 hopen
          obtain ⟨hq, hcross⟩ := mem_openCross.1 hq
          have hqp : q ≠ p := fun e => hcross (e ▸ he)
          obtain ⟨a, ha⟩ := distance_given (metric := metric) hvm hp
          obtain ⟨b, hb⟩ := distance_given (metric := metric) hvm hq
          have h8 := (h7 q hq hqp a b ha hb).2 rfl
          obtain ⟨p1, p2, -, -⟩ := mem_unknownPairs.1 hp
          obtain ⟨q1, q2, -, -⟩ := mem_unknownPairs.1 hq
          have h9 := hapart p.1 ((hmem _).1 p1) p.2 ((hmem _).1 p2) q.1 ((hmem _).1 q1) q.2 ((hmem _).1 q2) he hcross a b ha hb
          exact absurd h8 (not_le.2 h9)) h6
        refine ih m1 h2 h3 (h4.1.trans hman) hu1 ?_
        rw [h4.1]
        omega
  refine key N _ (.init ids) (init_satisfies ids truth) rfl (.inr fun x y hl => init_mustLinked ids hl) ?_
  rw [init_classes, init_todo]
  exact hN

/-- Such vectors exist for all IDs and all true classes. -/
theorem exists_apart (ids : List α) (truth : α → Nat) : ∃ (vectors : Dict α Nat) (metric : Nat → Nat → Nat),
    (∀ x ∈ ids, ∃ v, dget? vectors x = some v) ∧ ClassesApart truth ids vectors metric := by
  have hget : ∀ x v, dget? (ids.map fun x => (x, truth x)) x = some v → v = truth x := by
    intro x v h
    have := mem_of_dget? h
    obtain ⟨y, -, e⟩ := List.mem_map.1 this
    cases e
    rfl
  refine ⟨ids.map fun x => (x, truth x), fun v w => if v = w then 0 else 1, ?_, ?_⟩
  · intro x hx
    rw [exists_dget?_iff]
    simpa [dkeys] using hx
  · rintro x - y - u - w - he hne d e ⟨vs, v1, v2, e1, h1, h2, rfl⟩ ⟨vs', w1, w2, e2, h3, h4, rfl⟩
    cases e1
    cases e2
    simp only at h1 h2 h3 h4
    rw [hget _ _ h1, hget _ _ h2, hget _ _ h3, hget _ _ h4]
    show (if truth x = truth y then 0 else 1) < if truth u = truth w then 0 else 1
    rw [if_pos he, if_neg hne]
    exact one_pos

/-- So both bounds are attained, for all IDs and all true classes. -/
theorem C91_attained {ids : List α} (hids : ids ≠ []) (truth : α → Nat) {pick : List (α × α) → Nat → List (α × α)}
    (hpick : RandomSample pick) : ∃ (vectors : Dict α Nat) (metric : Nat → Nat → Nat), ∀ N,
    (ids.toFinset.card + classes truth ids * (classes truth ids - 1) / 2 ≤ N + classes truth ids →
      ∃ m', session truth (Manager.init ids) (List.replicate N (oneByOne .closestNeighbors vectors metric pick)) = .ok m' ∧
        m'.complete = true) ∧
    (N + classes truth ids < ids.toFinset.card + (crossPairs truth ids).card →
      ∃ m', session truth (Manager.init ids) (List.replicate N (oneByOne .farthestNeighbors vectors metric pick)) = .ok m' ∧
        m'.complete = false) := by
  obtain ⟨vectors, metric, hv, hapart⟩ := exists_apart ids truth
  exact ⟨vectors, metric, fun N => ⟨C91_closest hids hv hapart hpick, C91_farthest hids hv hapart hpick⟩⟩

/-! Six IDs in two classes of three: at least 5 and at most 13 questions. -/

def askTruth (x : Nat) : Nat := x % 2

def askVectors : Dict Nat Int := [(1, 10), (2, 90), (3, 12), (4, 91), (5, 15), (6, 95)]

def askMetric (a b : Int) : Nat := (a - b).natAbs

def askRound (d : DistanceRestriction) : Round Nat Int Nat := oneByOne d askVectors askMetric fun l k => l.take k

theorem askApart : ClassesApart askTruth [1, 2, 3, 4, 5, 6] askVectors askMetric := by
  have hall : ∀ x ∈ [1, 2, 3, 4, 5, 6], ∀ y ∈ [1, 2, 3, 4, 5, 6], ∀ u ∈ [1, 2, 3, 4, 5, 6], ∀ w ∈ [1, 2, 3, 4, 5, 6],
      askTruth x = askTruth y → askTruth u ≠ askTruth w →
      askMetric ((dget? askVectors x).getD 0) ((dget? askVectors y).getD 0) <
        askMetric ((dget? askVectors u).getD 0) ((dget? askVectors w).getD 0) := by decide +kernel
  rintro x hx y hy u hu w hw he hne d e ⟨vs, v1, v2, e1, h1, h2, rfl⟩ ⟨vs', w1, w2, e2, h3, h4, rfl⟩
  cases e1
  cases e2
  have := hall x hx y hy u hu w hw he hne
  simp only at h1 h2 h3 h4
  rw [h1, h2, h3, h4] at this
  exact this

example : classes askTruth [1, 2, 3, 4, 5, 6] = 2 ∧ (crossPairs askTruth [1, 2, 3, 4, 5, 6]).card = 9 ∧
    (session askTruth (Manager.init [1, 2, 3, 4, 5, 6]) (List.replicate 5 (askRound .closestNeighbors))).map (·.complete) = .ok true ∧
    (session askTruth (Manager.init [1, 2, 3, 4, 5, 6]) (List.replicate 4 (askRound .closestNeighbors))).map (·.complete) = .ok false ∧
    (session askTruth (Manager.init [1, 2, 3, 4, 5, 6]) (List.replicate 12 (askRound .farthestNeighbors))).map (·.complete) = .ok false ∧
    (session askTruth (Manager.init [1, 2, 3, 4, 5, 6]) (List.replicate 13 (askRound .farthestNeighbors))).map (·.complete) = .ok true ∧
    questions askTruth (Manager.init [1, 2, 3, 4, 5, 6]) (List.replicate 20 (askRound .farthestNeighbors)) = .ok 13 :=
  ⟨by decide +kernel, by decide +kernel, by decide +kernel, by decide +kernel, by decide +kernel, by decide +kernel,
    by decide +kernel⟩

/-! ### Each theorem applied to a concrete case -/

theorem askPick_random : RandomSample fun (l : List (Nat × Nat)) k => l.take k :=
  fun l k hk => ⟨by rw [List.length_take]; omega, (List.take_sublist k l).subperm⟩

example := C91_attained (ids := [1, 2, 3, 4, 5, 6]) (by decide) askTruth askPick_random

theorem askGiven (d : DistanceRestriction) : InputsGiven (askRound d).sampler (Manager.init [1, 2, 3, 4, 5, 6]) (askRound d).clustering
    (askRound d).vectors where
  labels h := absurd rfl h
  vectors _ := ⟨by decide +kernel, _, rfl, by simp only [exists_dget?_iff]; decide +kernel⟩

theorem askRounds_ok (n : Nat) : ∀ r ∈ List.replicate n (askRound .farthestNeighbors), r.nb = 1 ∧ RandomSample r.pick ∧
    InputsGiven r.sampler (Manager.init [1, 2, 3, 4, 5, 6]) r.clustering r.vectors ∧ r.sampler.clusters = none ∧
    r.sampler.withoutInferred = true := by
  intro r hr
  cases List.eq_of_mem_replicate hr
  exact ⟨rfl, askPick_random, askGiven _, rfl, rfl⟩

example := C91_from_scratch [1, 2, 3, 4, 5, 6] askTruth (rounds := List.replicate 13 (askRound .farthestNeighbors))
  (fun r hr => by have h := askRounds_ok 13 r hr; exact ⟨h.1.ge, h.2⟩) (by decide +kernel)

example := C91_asked (truth := askTruth) (m := Manager.init [1, 2, 3, 4, 5, 6]) ⟨_, [], rfl⟩
  (satisfies_of_managed (Reachable.inv ⟨_, [], rfl⟩) (by decide +kernel)) (rounds := List.replicate 20 (askRound .farthestNeighbors))
  (fun r hr => by have h := askRounds_ok 20 r hr; exact ⟨h.1, h.2.1, h.2.2.2.2⟩) (q := 13) (by decide +kernel)

example := C91_closest (ids := [1, 2, 3, 4, 5, 6]) (by decide) (by simp only [exists_dget?_iff]; decide +kernel) askApart
  askPick_random (N := 5) (by decide +kernel)

example := C91_farthest (ids := [1, 2, 3, 4, 5, 6]) (by decide) (by simp only [exists_dget?_iff]; decide +kernel) askApart
  askPick_random (N := 12) (by decide +kernel)

end Verif
