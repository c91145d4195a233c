import Verif.Proofs.Session

/-
Properties C24–C29: constraints sampling and interactive sessions.

`RandomSample pick`: `pick` behaves as `random.sample`. `Eligible`, `InputsGiven`, `DistanceIs`,
`session` are defined in `Verif/Spec/Sampling.lean`.
-/

set_option linter.unusedSectionVars false

namespace Verif

variable {α V δ : Type} [LinearOrder α] [LinearOrder δ]

theorem take_randomSample {ι : Type} : RandomSample (fun (l : List ι) k => l.take k) :=
  fun l k hk => ⟨by rw [List.length_take]; omega, (List.take_sublist k l).subperm⟩

theorem takeLast_randomSample {ι : Type} : RandomSample (fun (l : List ι) k => l.reverse.take k) :=
  fun l k hk => ⟨by rw [List.length_take, List.length_reverse]; omega,
    (List.take_sublist k l.reverse).subperm.trans (List.reverse_perm l).subperm⟩

/-! Data of the examples: the unknown pairs of `demo` are (3, 9), (1, 9), (2, 9). -/

def demoClustering : Dict Nat Int := [(3, 0), (1, 0), (2, 1), (9, 0)]
def demoVectors : Dict Nat Int := [(9, 5), (3, 2), (2, 8), (1, 4)]
def demoMetric (a b : Int) : Nat := (a - b).natAbs

/-! ### C24 -/

/-- Whatever the configuration and the random choice, the returned pairs are distinct and
eligible: ordered pairs of managed IDs respecting all the restrictions. -/
theorem C24_samples_well_formed {cfg : Sampler} {m : Manager α} (hm : Reachable m) {nb : Option Int}
    {clustering : Option (Dict α Int)} {vectors : Option (Dict α V)} {metric : V → V → δ}
    {pick : List (α × α) → Nat → List (α × α)} (hpick : RandomSample pick) {r : List (α × α)}
    (hr : cfg.sample m nb clustering vectors metric pick = .ok r) :
    r.Nodup ∧ ∀ p ∈ r, Eligible cfg m clustering p := by
  obtain ⟨n, -, h1, h2, -⟩ := sample_facts hm.inv hpick hr
  exact ⟨h1, h2⟩

/-- The two exclusions, in terms of the closure of the added constraints. -/
theorem C24_no_known_pair {cfg : Sampler} {m : Manager α} (hm : Reachable m) {nb : Option Int}
    {clustering : Option (Dict α Int)} {vectors : Option (Dict α V)} {metric : V → V → δ}
    {pick : List (α × α) → Nat → List (α × α)} (hpick : RandomSample pick) {r : List (α × α)}
    (hr : cfg.sample m nb clustering vectors metric pick = .ok r) :
    (cfg.withoutAdded = true → ∀ p ∈ r, ∀ t, ¬ AddedAs m t p.1 p.2) ∧
    (cfg.withoutInferred = true → ∀ p ∈ r, ¬ MustLinked m p.1 p.2 ∧ ¬ CannotLinked m p.1 p.2) := by
  obtain ⟨-, h2⟩ := C24_samples_well_formed hm hpick hr
  refine ⟨?_, ?_⟩
  · rintro ha p hp t ⟨v, hv⟩
    rw [(h2 p hp).notAdded ha] at hv
    cases hv
  · intro hi p hp
    have he := h2 p hp
    exact (inferred_none_iff hm.inv he.left he.right).1 (he.notInferred hi)

example : (⟨some .sameCluster, none, true, true⟩ : Sampler).sample demo (some 5) (some demoClustering)
      (none : Option (Dict Nat Int)) demoMetric (fun l k => l.take k) = .ok [(3, 9), (1, 9)] ∧
    (⟨some .differentClusters, none, false, false⟩ : Sampler).sample demo (some 5) (some demoClustering)
      (none : Option (Dict Nat Int)) demoMetric (fun l k => l.reverse.take k) = .ok [(2, 9), (2, 3), (1, 2)] ∧
    (⟨none, none, true, false⟩ : Sampler).sample demo (some 5) none
      (none : Option (Dict Nat Int)) demoMetric (fun l k => l.take k) = .ok [(3, 9), (1, 3), (1, 9), (2, 9)] := by
  decide +kernel

/-! ### C25 -/

/-- The number of pairs is the requested one, or the number of eligible pairs when there are
fewer (`L` is any enumeration of them). -/
theorem C25_sample_size {cfg : Sampler} {m : Manager α} (hm : Reachable m) {n : Nat}
    {clustering : Option (Dict α Int)} {vectors : Option (Dict α V)} {metric : V → V → δ}
    {pick : List (α × α) → Nat → List (α × α)} (hpick : RandomSample pick) {r : List (α × α)}
    (hr : cfg.sample m (some n) clustering vectors metric pick = .ok r)
    {L : List (α × α)} (hL : L.Nodup) (hiff : ∀ p, p ∈ L ↔ Eligible cfg m clustering p) :
    r.length = min n L.length := by
  obtain ⟨n', hn, -, -, h3⟩ := sample_facts hm.inv hpick hr
  have : n' = n := by
    have := Option.some.inj hn
    omega
  rw [← this]
  exact h3 L hL hiff

/-- The call succeeds whenever its inputs are given and the number is not negative. -/
theorem C25_sample_succeeds {cfg : Sampler} {m : Manager α} (hm : Reachable m) (n : Nat)
    {clustering : Option (Dict α Int)} {vectors : Option (Dict α V)}
    (hin : InputsGiven cfg m clustering vectors) (metric : V → V → δ)
    (pick : List (α × α) → Nat → List (α × α)) :
    ∃ r, cfg.sample m (some (n : Int)) clustering vectors metric pick = .ok r :=
  sample_total hm.inv hin metric pick

/-- The limit cases, for any manager and any other argument. -/
theorem C25_limit_cases (cfg : Sampler) (m : Manager α) (clustering : Option (Dict α Int))
    (vectors : Option (Dict α V)) (metric : V → V → δ) (pick : List (α × α) → Nat → List (α × α)) :
    cfg.sample m (some 0) clustering vectors metric pick = .ok [] ∧
    (∀ n : Int, n < 0 → cfg.sample m (some n) clustering vectors metric pick = .error (.valueError "nb_to_select")) ∧
    cfg.sample m none clustering vectors metric pick = .error (.valueError "nb_to_select") ∧
    (∀ n : Int, 0 < n → cfg.clusters ≠ none → clustering = none →
      cfg.sample m (some n) clustering vectors metric pick = .error (.valueError "clustering_result")) := by
  refine ⟨by simp [Sampler.sample], ?_, rfl, ?_⟩
  · intro n hn
    unfold Sampler.sample
    simp only [if_pos hn]
  · intro n hn hc hcl
    unfold Sampler.sample
    have h1 : ¬ n < 0 := by omega
    have h2 : ¬ n = 0 := by omega
    simp [h1, h2, hcl, Option.isSome_iff_ne_none, hc]

example : InputsGiven (V := Int) ⟨some .sameCluster, some .farthestNeighbors, true, true⟩ demo
    (some demoClustering) (some demoVectors) where
  labels _ := ⟨_, rfl, by simp only [exists_dget?_iff]; decide⟩
  vectors _ := ⟨by decide, _, rfl, by simp only [exists_dget?_iff]; decide⟩

/-! ### C26, C27 -/

/-- Common part of C26 and C27. -/
theorem ranked_sample {cfg : Sampler} {m : Manager α} (hm : Reachable m) {nb : Option Int}
    {clustering : Option (Dict α Int)} {vectors : Option (Dict α V)} {metric : V → V → δ}
    {pick : List (α × α) → Nat → List (α × α)} {r : List (α × α)}
    (hr : cfg.sample m nb clustering vectors metric pick = .ok r) {dr : DistanceRestriction}
    (hd : cfg.distance = some dr) :
    r.Pairwise (fun p q => ∀ d e, DistanceIs vectors metric p d → DistanceIs vectors metric q e →
      ranked (decide (dr = .farthestNeighbors)) d e) ∧
    (∀ p ∈ r, ∀ q, Eligible cfg m clustering q → q ∉ r → ∀ d e, DistanceIs vectors metric p d →
      DistanceIs vectors metric q e → ranked (decide (dr = .farthestNeighbors)) d e) ∧
    (∀ p q, Eligible cfg m clustering p → [p, q].Sublist (m.managed.flatMap fun x => m.managed.map fun y => (x, y)) →
      ∀ d, DistanceIs vectors metric p d → DistanceIs vectors metric q d → q ∈ r → [p, q].Sublist r) := by
  have uniq : ∀ {p : α × α} {d e : δ}, DistanceIs vectors metric p d → DistanceIs vectors metric p e → d = e := by
    rintro p d e ⟨vs, v, w, rfl, h1, h2, rfl⟩ ⟨vs', v', w', h0, h1', h2', rfl⟩
    cases h0
    rw [h1] at h1'; rw [h2] at h2'
    cases h1'; cases h2'; rfl
  obtain ⟨n, rfl, h0, h1⟩ := sample_ok hm.inv hr
  rcases Nat.eq_zero_or_pos n with rfl | hpos
  · rw [h0 rfl]
    simp
  · obtain ⟨L, l1, l2, l3, -, l5⟩ := h1 hpos
    obtain ⟨K, k1, k2, k3⟩ := l5 dr hd
    have hst := sorted_take (rev := decide (dr = .farthestNeighbors)) (K := K) (n := n) (by rw [k1]; exact l1)
    simp only at hst
    rw [← k3] at hst
    obtain ⟨s1, s2, s3, s4, -⟩ := hst
    rw [k1] at s4
    have memK : ∀ p, Eligible cfg m clustering p → ∃ d, (d, p) ∈ K := by
      intro p hp
      have := (l2 p).2 hp
      rw [← k1, List.mem_map] at this
      obtain ⟨⟨d, p'⟩, hd, rfl⟩ := this
      exact ⟨d, hd⟩
    have keyK : ∀ p d, Eligible cfg m clustering p → DistanceIs vectors metric p d → (d, p) ∈ K := by
      intro p d hp hdist
      obtain ⟨e, he⟩ := memK p hp
      rw [uniq hdist (k2 _ he)]; exact he
    have hel : ∀ p ∈ r, Eligible cfg m clustering p := fun p hp => (l2 p).1 (s4.subset hp)
    refine ⟨?_, ?_, ?_⟩
    · refine s1.imp_of_mem ?_
      intro p q hp hq hpq d e hdp hdq
      exact hpq d e (keyK p d (hel p hp) hdp) (keyK q e (hel q hq) hdq)
    · intro p hp q heq hq d e hdp hdq
      exact s2 p hp q hq d e (keyK p d (hel p hp) hdp) (keyK q e heq hdq)
    · intro p q hp hsub d hdp hdq hq
      have hqe := hel q hq
      refine s3 d p q ?_ hq
      obtain ⟨f, hf⟩ := l3
      have hfL : ∀ x ∈ L, f x = true := by
        intro x hx
        rw [hf] at hx
        exact (List.mem_filter.1 hx).2
      have hsubL : [p, q].Sublist L := by
        rw [hf]
        have : [p, q] = [p, q].filter f := by
          simp [hfL p ((l2 p).2 hp), hfL q ((l2 q).2 hqe)]
        rw [this]
        exact hsub.filter f
      rw [← k1, List.sublist_map_iff] at hsubL
      obtain ⟨l', hl1, hl2⟩ := hsubL
      match l', hl1, hl2 with
      | [a, b], hl1, hl2 =>
        simp only [List.map_cons, List.map_nil, List.cons.injEq, and_true] at hl2
        obtain ⟨rfl, rfl⟩ := hl2
        have ha := k2 a (hl1.subset (by simp))
        have hb := k2 b (hl1.subset (by simp))
        rw [uniq hdp ha]
        have hb' := uniq hdq hb
        rw [← uniq hdp ha]
        have e1 : a = (d, a.2) := by rw [uniq hdp ha]
        have e2 : b = (d, b.2) := by rw [hb']
        rw [e1, e2] at hl1
        exact hl1

/-- Closest pairs first: the returned pairs are in non-decreasing distance order; no eligible pair
left out is strictly closer than a returned one; between two eligible pairs at the same distance,
the one met first by the double loop over the managed IDs has priority and comes first. -/
theorem C26_closest_optimal {cfg : Sampler} {m : Manager α} (hm : Reachable m) {nb : Option Int}
    {clustering : Option (Dict α Int)} {vectors : Option (Dict α V)} {metric : V → V → δ}
    {pick : List (α × α) → Nat → List (α × α)} {r : List (α × α)}
    (hr : cfg.sample m nb clustering vectors metric pick = .ok r)
    (hd : cfg.distance = some .closestNeighbors) :
    r.Pairwise (fun p q => ∀ d e, DistanceIs vectors metric p d → DistanceIs vectors metric q e → d ≤ e) ∧
    (∀ p ∈ r, ∀ q, Eligible cfg m clustering q → q ∉ r → ∀ d e, DistanceIs vectors metric p d →
      DistanceIs vectors metric q e → d ≤ e) ∧
    (∀ p q, Eligible cfg m clustering p → [p, q].Sublist (m.managed.flatMap fun x => m.managed.map fun y => (x, y)) →
      ∀ d, DistanceIs vectors metric p d → DistanceIs vectors metric q d → q ∈ r → [p, q].Sublist r) :=
  ranked_sample hm hr hd

/-- Farthest pairs first. -/
theorem C27_farthest_optimal {cfg : Sampler} {m : Manager α} (hm : Reachable m) {nb : Option Int}
    {clustering : Option (Dict α Int)} {vectors : Option (Dict α V)} {metric : V → V → δ}
    {pick : List (α × α) → Nat → List (α × α)} {r : List (α × α)}
    (hr : cfg.sample m nb clustering vectors metric pick = .ok r)
    (hd : cfg.distance = some .farthestNeighbors) :
    r.Pairwise (fun p q => ∀ d e, DistanceIs vectors metric p d → DistanceIs vectors metric q e → e ≤ d) ∧
    (∀ p ∈ r, ∀ q, Eligible cfg m clustering q → q ∉ r → ∀ d e, DistanceIs vectors metric p d →
      DistanceIs vectors metric q e → e ≤ d) ∧
    (∀ p q, Eligible cfg m clustering p → [p, q].Sublist (m.managed.flatMap fun x => m.managed.map fun y => (x, y)) →
      ∀ d, DistanceIs vectors metric p d → DistanceIs vectors metric q d → q ∈ r → [p, q].Sublist r) :=
  ranked_sample hm hr hd

/-- Every eligible pair has a distance, so the two theorems above speak of all eligible pairs. -/
theorem C26_every_eligible_pair_has_a_distance {cfg : Sampler} {m : Manager α}
    {clustering : Option (Dict α Int)} {vectors : Option (Dict α V)} (hin : InputsGiven cfg m clustering vectors)
    (hd : cfg.distance ≠ none) (metric : V → V → δ) {p : α × α} (hp : Eligible cfg m clustering p) :
    ∃ d, DistanceIs vectors metric p d := by
  obtain ⟨-, vs, rfl, hv⟩ := hin.vectors hd
  obtain ⟨v, h1⟩ := hv _ hp.left
  obtain ⟨w, h2⟩ := hv _ hp.right
  exact ⟨_, vs, v, w, rfl, h1, h2, rfl⟩

example : (⟨none, some .closestNeighbors, true, true⟩ : Sampler).sample demo (some 2) none
      (some demoVectors) demoMetric (fun l k => l.take k) = .ok [(1, 9), (3, 9)] ∧
    (⟨none, some .farthestNeighbors, true, true⟩ : Sampler).sample demo (some 2) none
      (some demoVectors) demoMetric (fun l k => l.take k) = .ok [(3, 9), (2, 9)] := by
  decide +kernel

/-! ### C28 -/

/-- The default configuration. -/
theorem C28_default_configuration : Sampler.init none none (some true) (some true) = .ok defaultSampler := rfl

/-- Nothing is left to sample exactly when the constraints are complete. Holds for the default
options, with any distance restriction and whether or not added pairs are excluded. -/
theorem C28_nothing_left_iff_complete {cfg : Sampler} {m : Manager α} (hm : Reachable m)
    (hc : cfg.clusters = none) (hi : cfg.withoutInferred = true) {nb : Int} (hnb : 1 ≤ nb)
    {clustering : Option (Dict α Int)} {vectors : Option (Dict α V)} {metric : V → V → δ}
    {pick : List (α × α) → Nat → List (α × α)} (hpick : RandomSample pick) {r : List (α × α)}
    (hr : cfg.sample m (some nb) clustering vectors metric pick = .ok r) :
    r = [] ↔ m.complete = true :=
  sample_nil_iff hm hc hi hnb hpick hr

/-- With the default configuration the call always succeeds, without any clustering or vector. -/
theorem C28_default_sample {m : Manager α} (hm : Reachable m) (n : Nat) (metric : V → V → δ)
    {pick : List (α × α) → Nat → List (α × α)} (hpick : RandomSample pick) :
    ∃ r, defaultSampler.sample m (some ((n : Int) + 1)) none none metric pick = .ok r ∧
      (r = [] ↔ m.complete = true) := by
  obtain ⟨r, hr⟩ := sample_total (cfg := defaultSampler) (n := n + 1) hm.inv (cl := none) (vs := none)
    ⟨fun h => absurd rfl h, fun h => absurd rfl h⟩ metric pick
  exact ⟨r, hr, sample_nil_iff hm rfl rfl (by omega) hpick hr⟩

/-- A complete manager and an incomplete one. -/
example : (runOps (Manager.init [1, 2, 3]) [.addConstraint 1 2 "MUST_LINK" 1, .addConstraint 3 1 "CANNOT_LINK" 1]).complete = true ∧
    defaultSampler.sample (runOps (Manager.init [1, 2, 3]) [.addConstraint 1 2 "MUST_LINK" 1, .addConstraint 3 1 "CANNOT_LINK" 1])
      (some 4) none (none : Option (Dict Nat Int)) demoMetric (fun l k => l.take k) = .ok [] ∧
    demo.complete = false ∧
    defaultSampler.sample demo (some 1) none (none : Option (Dict Nat Int)) demoMetric (fun l k => l.reverse.take k) =
      .ok [(2, 9)] := by decide +kernel

/-! ### C29 -/

/-- A session with a truthful annotator never raises, whatever the samplers, batch sizes and
random choices of its rounds, and the truth satisfies the final constraints. `m` is any reachable
manager the truth satisfies, e.g. a new one. -/
theorem C29_truthful_session_never_raises {truth : α → Nat} {m : Manager α} (hm : Reachable m)
    (hs : Satisfies m truth) {rounds : List (Round α V δ)}
    (hr : ∀ r ∈ rounds, 0 ≤ r.nb ∧ RandomSample r.pick ∧ InputsGiven r.sampler m r.clustering r.vectors) :
    ∃ m', session truth m rounds = .ok m' ∧ Reachable m' ∧ Satisfies m' truth ∧ m'.managed = m.managed := by
  obtain ⟨m', h1, h2, h3, h4, -⟩ := session_ok hm hs hr
  exact ⟨m', h1, h2, h3, h4.1⟩

/-- Each round that annotates at least one pair of unknown relation decreases the number of
unknown pairs. -/
theorem C29_round_decreases {truth : α → Nat} {m m' : Manager α} (hm : Reachable m) (hs : Satisfies m truth)
    {r : Round α V δ} (hnb : 0 ≤ r.nb) (hpick : RandomSample r.pick)
    (hin : InputsGiven r.sampler m r.clustering r.vectors) (hi : r.sampler.withoutInferred = true)
    {batch : List (α × α)}
    (hb : r.sampler.sample m (some r.nb) r.clustering r.vectors r.metric r.pick = .ok batch)
    (hne : batch ≠ []) (ha : annotate truth m batch = .ok m') :
    (unknownPairs m').length < (unknownPairs m).length := by
  obtain ⟨batch', m'', h1, h2, -, -, -, h6⟩ := round_step hm hs hnb hpick hin
  rw [hb] at h1; cases h1
  rw [ha] at h2; cases h2
  exact h6 hi hne

/-- Starting from any manager the truth satisfies, `n(n-1)/2` rounds (of at least one pair each,
default exclusions, no cluster restriction) are enough to complete the constraints. -/
theorem C29_session_completes {truth : α → Nat} {m : Manager α} (hm : Reachable m) (hs : Satisfies m truth)
    {rounds : List (Round α V δ)}
    (hr : ∀ r ∈ rounds, 1 ≤ r.nb ∧ RandomSample r.pick ∧ InputsGiven r.sampler m r.clustering r.vectors ∧
      r.sampler.clusters = none ∧ r.sampler.withoutInferred = true)
    (hlen : m.managed.length * (m.managed.length - 1) / 2 ≤ rounds.length) :
    ∃ m', session truth m rounds = .ok m' ∧ m'.complete = true ∧ m'.managed = m.managed ∧
      ∀ x ∈ m.managed, ∀ y ∈ m.managed,
        (truth x = truth y → m'.getInferred x y = .ok (some .mustLink)) ∧
        (truth x ≠ truth y → m'.getInferred x y = .ok (some .cannotLink)) := by
  obtain ⟨m', h1, h2, h3, h4, h5⟩ := session_ok hm hs (rounds := rounds)
    (fun r hr' => ⟨by have := (hr r hr').1; omega, (hr r hr').2.1, (hr r hr').2.2.1⟩)
  have hcomp : m'.complete = true := by
    rcases h5 (fun r hr' => ⟨(hr r hr').1, (hr r hr').2.2.2⟩) with h | h
    · exact h
    · rw [complete_iff_unknown h2, ← List.length_eq_zero_iff]
      have := unknown_bound hm.inv
      omega
  refine ⟨m', h1, hcomp, h4.1, ?_⟩
  intro x hx y hy
  have hx' : x ∈ m'.managed := h4.1 ▸ hx
  have hy' : y ∈ m'.managed := h4.1 ▸ hy
  rcases (complete_iff h2.inv).1 hcomp x hx' y hy' with hl | hl
  · exact ⟨fun _ => (inferred_ml_iff h2.inv hx' hy').2 hl, fun hne => absurd (satisfies_chain h3 hl) hne⟩
  · exact ⟨fun he => absurd he (satisfies_sep h3 hl), fun _ => (inferred_cl_iff h2.inv hx' hy').2 hl⟩

/-- Once complete, the connected components are exactly the true clusters. -/
theorem C29_components_are_true_clusters {truth : α → Nat} {m : Manager α} (hm : Reachable m)
    (hs : Satisfies m truth) (hcomp : m.complete = true) :
    (∀ c ∈ m.components, ∀ x ∈ c, ∀ y, y ∈ c ↔ y ∈ m.managed ∧ truth y = truth x) ∧
    (∀ x ∈ m.managed, ∃ c ∈ m.components, x ∈ c) := by
  have h := hm.inv
  refine ⟨?_, fun x hx => exists_component h hx⟩
  intro c hc x hx y
  obtain ⟨hxm, hiff⟩ := mem_component_iff h hc hx
  rw [hiff]
  constructor
  · intro hl; exact ⟨hl.mem h hxm, (satisfies_chain hs hl).symm⟩
  · rintro ⟨hym, he⟩
    rcases (complete_iff h).1 hcomp x hxm y hym with hl | hl
    · exact hl
    · exact absurd he.symm (satisfies_sep hs hl)

/-- The whole story, from a new manager: `n(n-1)/2` rounds complete the constraints and the
components are the true clusters. -/
theorem C29_from_scratch (ids : List α) (truth : α → Nat) {rounds : List (Round α V δ)}
    (hr : ∀ r ∈ rounds, 1 ≤ r.nb ∧ RandomSample r.pick ∧
      InputsGiven r.sampler (Manager.init ids) r.clustering r.vectors ∧
      r.sampler.clusters = none ∧ r.sampler.withoutInferred = true)
    (hlen : ids.length * (ids.length - 1) / 2 ≤ rounds.length) :
    ∃ m', session truth (Manager.init ids) rounds = .ok m' ∧ m'.complete = true ∧
      (∀ x, x ∈ m'.managed ↔ x ∈ ids) ∧
      (∀ c ∈ m'.components, ∀ x ∈ c, ∀ y, y ∈ c ↔ y ∈ ids ∧ truth y = truth x) ∧
      (∀ x ∈ ids, ∃ c ∈ m'.components, x ∈ c) := by
  have hm := Reachable.init (α := α) ids
  have hs := init_satisfies ids truth
  have hkeys : (Manager.init ids).managed = ounion [] ids := init_keys ids
  have hle : (Manager.init ids).managed.length ≤ ids.length := by rw [hkeys]; exact ounion_nil_length_le ids
  have hlen' : (Manager.init ids).managed.length * ((Manager.init ids).managed.length - 1) / 2 ≤ rounds.length :=
    le_trans (Nat.div_le_div_right (Nat.mul_le_mul hle (by omega))) hlen
  have hmem : ∀ x, x ∈ (Manager.init ids).managed ↔ x ∈ ids := by
    intro x; rw [hkeys, mem_ounion]; simp
  obtain ⟨m', h1, h2, h3, -⟩ := C29_session_completes hm hs hr hlen'
  obtain ⟨m'', g1, g2, g3, -⟩ := C29_truthful_session_never_raises hm hs (rounds := rounds)
    (fun r hr' => ⟨by have := (hr r hr').1; omega, (hr r hr').2.1, (hr r hr').2.2.1⟩)
  rw [h1] at g1; cases g1
  obtain ⟨c1, c2⟩ := C29_components_are_true_clusters g2 g3 h2
  refine ⟨m', h1, h2, ?_, ?_, ?_⟩
  · intro x; rw [h3, hmem]
  · intro c hc x hx y; rw [c1 c hc x hx y, h3, hmem]
  · intro x hx; exact c2 x (by rw [h3, hmem]; exact hx)

/-- Three IDs, two true clusters, three rounds of one pair each. -/
def demoRounds : List (Round Nat Int Nat) :=
  List.replicate 3 ⟨defaultSampler, 1, none, none, demoMetric, fun l k => l.reverse.take k⟩

example : ∀ r ∈ demoRounds, 1 ≤ r.nb ∧ RandomSample r.pick ∧
      InputsGiven r.sampler (Manager.init [5, 1, 2]) r.clustering r.vectors ∧
      r.sampler.clusters = none ∧ r.sampler.withoutInferred = true := by
  intro r hr
  rw [List.eq_of_mem_replicate hr]
  exact ⟨by decide, takeLast_randomSample, ⟨fun h => absurd rfl h, fun h => absurd rfl h⟩, rfl, rfl⟩

example : (session (fun x => x % 2) (Manager.init [5, 1, 2]) demoRounds).map (fun m => (m.complete, m.components)) =
    .ok (true, [[1, 5], [2]]) := by decide +kernel

end Verif
