import Verif.Proofs.Random
import Verif.Props.KMeans
import Verif.Props.Sampling

/-
C96: python's `random.sample` and `random.shuffle` as this code uses them (random sampling of pairs, initial centroids of COP-KMeans).
The lists `js` are the numbers that `randbelow` returned; `SampleDraws` and `ShuffleDraws` tell which lists are possible. `randbelow`
gives each number below its bound equally often, so that counting lists is computing chances.
-/

namespace Verif

section
variable {ι : Type}

/-- Whatever is drawn, `random.sample(l, k)` returns `k` elements of `l` from different positions. -/
theorem C96_sample {pool : Nat → Nat → Bool} {draws : Nat → Nat → List Nat}
    (h : ∀ n k, k ≤ n → SampleDraws (pool n k) n k (draws n k)) :
    RandomSample fun (l : List ι) k => pyPick (pool l.length k) (draws l.length k) l k := by
  intro l k hk
  obtain ⟨r, hr, h1, h2⟩ := pySample_perm hk (h l.length k hk)
  simp only [pyPick, hr]
  exact ⟨h1, h2⟩

/-- More elements than there are: `ValueError`. -/
theorem C96_sample_too_many {pool : Bool} {js : List Nat} {l : List ι} (h : l.length < js.length) :
    pySample pool js l = .error (.valueError "k") := by
  unfold pySample
  rw [if_pos h]

/-- Whatever is drawn, `random.shuffle` permutes the list. -/
theorem C96_shuffle {draws : Nat → List Nat} (h : ∀ n, ShuffleDraws n (draws n)) :
    Shuffles fun l : List ι => pyShuffled (draws l.length) l := by
  intro l
  obtain ⟨r, hr, hp⟩ := pyShuffle_perm (h l.length)
  simp only [pyShuffled, hr]
  exact hp

/-- Every ordered choice of `k` elements is drawn in exactly one way by `random.sample`, and every order of the list in exactly one way
by `random.shuffle`. -/
theorem C96_each_order {l : List ι} (hl : l.Nodup) :
    (∀ (pool : Bool) (k : Nat) (r : List ι), Arrangement l k r →
      ∃! js, SampleDraws pool l.length k js ∧ pySample pool js l = .ok r) ∧
    ∀ r : List ι, r.Perm l → ∃! js, ShuffleDraws l.length js ∧ pyShuffle js l = .ok r :=
  ⟨fun _ _ _ hr => pySample_unique hl hr, fun _ hr => pyShuffle_unique hl hr⟩

end

section
variable {α V δ : Type} [LinearOrder α] [LinearOrder δ]

theorem subperm_nodup {ι : Type} {r l : List ι} (h : r.Subperm l) (hl : l.Nodup) : r.Nodup := by
  obtain ⟨s, hs, hsub⟩ := h
  exact hs.nodup (hl.sublist hsub)

theorem sample_drawn {cfg : Sampler} {m : Manager α} (hd : cfg.distance = none) {n : Nat} (hn : 0 < n) {cl : Option (Dict α Int)}
    {vs : Option (Dict α V)} (hin : InputsGiven cfg m cl vs) {metric : V → V → δ} {L : List (α × α)}
    (hL : cfg.possiblePairs m (cl.getD []) = .ok L) (pool : Bool) (js : List Nat) {r : List (α × α)} (hjs : ∃ r, pySample pool js L = .ok r) :
    cfg.sample m (some (n : Int)) cl vs metric (pyPick pool js) = .ok r ↔ pySample pool js L = .ok r := by
  obtain ⟨r', hr'⟩ := hjs
  have h1 : ¬ (cfg.clusters.isSome = true ∧ cl.isNone = true) := by
    rintro ⟨g1, g2⟩
    obtain ⟨d, rfl, -⟩ := hin.labels (by rintro e; rw [e] at g1; cases g1)
    cases g2
  have h2 : ¬ (cfg.distance.isSome = true ∧ vs.isNone = true) := by
    rintro ⟨g1, -⟩
    rw [hd] at g1; cases g1
  unfold Sampler.sample
  simp only
  rw [if_neg (by omega), if_neg (by omega), if_neg h1, if_neg h2]
  unfold Sampler.select
  rw [hL, hd]
  show Except.ok (pyPick pool js L _) = _ ↔ _
  unfold pyPick
  rw [hr']

theorem eligible_ncard {cfg : Sampler} {m : Manager α} {cl : Option (Dict α Int)} {L : List (α × α)} (h1 : L.Nodup)
    (h2 : ∀ p, p ∈ L ↔ Eligible cfg m cl p) : {p | Eligible cfg m cl p}.ncard = L.length := by
  classical
  rw [← List.toFinset_card_of_nodup h1, ← Set.ncard_coe_finset]
  congr 1
  ext p
  simp [h2]

/-- Random sampling of pairs: `N` eligible pairs, `n` of them wanted. Each ordered choice of `min n N` of them is drawn in exactly one way. -/
theorem C96_sampler {cfg : Sampler} {m : Manager α} (hm : Reachable m) (hd : cfg.distance = none) {n : Nat} (hn : 0 < n)
    {cl : Option (Dict α Int)} {vs : Option (Dict α V)} (hin : InputsGiven cfg m cl vs) (metric : V → V → δ) (pool : Bool) {N : Nat}
    (hN : {p | Eligible cfg m cl p}.ncard = N) :
    (∀ js, SampleDraws pool N (min n N) js → ∃ r, cfg.sample m (some (n : Int)) cl vs metric (pyPick pool js) = .ok r ∧
      r.Nodup ∧ r.length = min n N ∧ ∀ p ∈ r, Eligible cfg m cl p) ∧
    ∀ r : List (α × α), r.Nodup → r.length = min n N → (∀ p ∈ r, Eligible cfg m cl p) →
      ∃! js, SampleDraws pool N (min n N) js ∧ cfg.sample m (some (n : Int)) cl vs metric (pyPick pool js) = .ok r := by
  obtain ⟨L, hL⟩ := possiblePairs_total hm.inv hin
  obtain ⟨h1, h2, -⟩ := possiblePairs_ok hm.inv (fun hc => by
    obtain ⟨d, rfl, -⟩ := hin.labels (by rintro e; rw [e] at hc; cases hc)
    rfl) hL
  rw [eligible_ncard h1 h2] at hN
  subst hN
  have hlen : min n L.length ≤ L.length := by omega
  constructor
  · intro js hjs
    obtain ⟨r, hr, g1, g2⟩ := pySample_perm hlen hjs
    refine ⟨r, (sample_drawn hd hn hin hL pool js ⟨r, hr⟩).2 hr, subperm_nodup g2 h1, g1, fun p hp => (h2 p).1 (g2.subset hp)⟩
  · intro r g1 g2 g3
    obtain ⟨js, ⟨k1, k2⟩, hu⟩ := pySample_unique (pool := pool) h1 (k := min n L.length) (r := r) ⟨g1, g2, fun p hp => (h2 p).2 (g3 p hp)⟩
    refine ⟨js, ⟨k1, (sample_drawn hd hn hin hL pool js ⟨r, k2⟩).2 k2⟩, ?_⟩
    rintro js' ⟨l1, l2⟩
    obtain ⟨r', hr', -⟩ := pySample_perm hlen l1
    exact hu js' ⟨l1, (sample_drawn hd hn hin hL pool js' ⟨r', hr'⟩).1 l2⟩

/-- Every eligible pair is sampled with chance `min n N / N`: that part of the draws returns it. -/
theorem C96_chance {cfg : Sampler} {m : Manager α} (hm : Reachable m) (hd : cfg.distance = none) {n : Nat} (hn : 0 < n)
    {cl : Option (Dict α Int)} {vs : Option (Dict α V)} (hin : InputsGiven cfg m cl vs) (metric : V → V → δ) (pool : Bool) {N : Nat}
    (hN : {p | Eligible cfg m cl p}.ncard = N) {p : α × α} (hp : Eligible cfg m cl p) :
    N * {js | SampleDraws pool N (min n N) js ∧
        ∃ r, cfg.sample m (some (n : Int)) cl vs metric (pyPick pool js) = .ok r ∧ p ∈ r}.ncard =
      min n N * {js | SampleDraws pool N (min n N) js}.ncard ∧
    0 < {js | SampleDraws pool N (min n N) js}.ncard := by
  obtain ⟨L, hL⟩ := possiblePairs_total hm.inv hin
  obtain ⟨h1, h2, -⟩ := possiblePairs_ok hm.inv (fun hc => by
    obtain ⟨d, rfl, -⟩ := hin.labels (by rintro e; rw [e] at hc; cases hc)
    rfl) hL
  rw [eligible_ncard h1 h2] at hN
  subst hN
  have hlen : min n L.length ≤ L.length := by omega
  have hA : ∀ js, SampleDraws pool L.length (min n L.length) js → ∃ r, pySample pool js L = .ok r ∧ Arrangement L (min n L.length) r := by
    intro js hjs
    obtain ⟨r, hr, g1, g2⟩ := pySample_perm hlen hjs
    exact ⟨r, hr, subperm_nodup g2 h1, g1, fun p hp => g2.subset hp⟩
  have hU := fun r hr => pySample_unique (pool := pool) h1 (k := min n L.length) (r := r) hr
  have e1 : {js | SampleDraws pool L.length (min n L.length) js ∧
      ∃ r, cfg.sample m (some (n : Int)) cl vs metric (pyPick pool js) = .ok r ∧ p ∈ r} =
      {js | SampleDraws pool L.length (min n L.length) js ∧ ∃ r, pySample pool js L = .ok r ∧ p ∈ r} := by
    ext js
    refine and_congr_right fun hjs => exists_congr fun r => and_congr_left fun _ => ?_
    obtain ⟨r', hr', -⟩ := hA js hjs
    exact sample_drawn hd hn hin hL pool js ⟨r', hr'⟩
  have e2 : {js | SampleDraws pool L.length (min n L.length) js}.ncard = {r | Arrangement L (min n L.length) r}.ncard := by
    have := draws_ncard hA hU (fun _ => True)
    simp only [and_true] at this
    rw [← this]
    congr 1
    ext js
    refine ⟨fun h => ⟨h, ?_⟩, fun h => h.1⟩
    obtain ⟨r', hr', -⟩ := hA js h
    exact ⟨r', hr'⟩
  refine ⟨?_, ?_⟩
  · rw [e1, e2, draws_ncard hA hU]
    exact arrangement_chance h1 ((h2 p).2 hp)
  · rw [e2, Set.ncard_pos (arrangements_finite _ _)]
    exact ⟨L.take (min n L.length), h1.sublist (List.take_sublist _ _), by rw [List.length_take]; omega,
      fun x hx => List.mem_of_mem_take hx⟩

omit [LinearOrder δ] in
theorem kmInitialize_get {m : Manager α} {vectors : Dict α V} (hv : HasVectors m vectors) (env : KMeansEnv α V δ) {nb : Nat} {r : List α}
    (hr : Arrangement m.managed nb r) (he : (env.shuffle m.managed).take nb = r) :
    ∃ cs, kmInitialize env m.managed vectors nb = .ok cs ∧ ∀ c : Nat, dget? cs (c : Int) = (r[c]?).bind (dget? vectors ·) := by
  obtain ⟨-, hlen, hmem⟩ := hr
  have hf : ∀ c : Nat, c < nb → ∃ w, kmInitEntry vectors r c = .ok ((c : Int), w) ∧ (r[c]?).bind (dget? vectors ·) = some w := by
    intro c hc
    have hc' : c < r.length := by omega
    obtain ⟨v, hv⟩ := hv _ (hmem _ (List.getElem_mem hc'))
    refine ⟨v, ?_, ?_⟩
    · unfold kmInitEntry
      rw [List.getElem?_eq_getElem hc']
      simp only [dget_of_dget? hv]; rfl
    · rw [List.getElem?_eq_getElem hc']; exact hv
  have hall : ∀ n, n ≤ nb → ∃ items : List (Int × V), (List.range n).mapM (kmInitEntry vectors r) = .ok items ∧
      dkeys items = (List.range n).map (fun c : Nat => (c : Int)) ∧ ∀ c : Nat, c < n → ∀ w, (r[c]?).bind (dget? vectors ·) = some w → ((c : Int), w) ∈ items := by
    intro n
    induction n with
    | zero => exact fun _ => ⟨[], rfl, rfl, fun c hc => absurd hc (by omega)⟩
    | succ n ih =>
      intro hn
      obtain ⟨items, g1, g2, g3⟩ := ih (by omega)
      obtain ⟨w, hw, hw'⟩ := hf n (by omega)
      refine ⟨items ++ [((n : Int), w)], ?_, ?_, ?_⟩
      · rw [List.range_succ, List.mapM_append, g1]
        show (do let b ← [n].mapM (kmInitEntry vectors r); pure (items ++ b)) = _
        rw [List.mapM_cons, hw]; rfl
      · rw [List.range_succ, List.map_append, ← g2]
        simp [dkeys]
      · intro c hc w' hcw
        rcases Nat.lt_succ_iff_lt_or_eq.1 hc with h | rfl
        · exact List.mem_append_left _ (g3 c h w' hcw)
        · rw [hw'] at hcw; cases hcw
          simp
  obtain ⟨items, g1, g2, g3⟩ := hall nb le_rfl
  have hnd : (dkeys items).Nodup := by
    rw [g2]
    refine List.Nodup.map ?_ List.nodup_range
    intro a b hab
    simp only at hab; omega
  refine ⟨items, ?_, fun c => ?_⟩
  · unfold kmInitialize
    simp only
    rw [he, g1]
    show Except.ok (dofList items) = _
    rw [dofList_of_nodup hnd]
  · by_cases hc : c < nb
    · obtain ⟨w, -, hw⟩ := hf c hc
      rw [hw]
      exact dget?_of_mem hnd (g3 c hc w hw)
    · rw [List.getElem?_eq_none (by omega)]
      refine dget?_eq_none_iff.2 ?_
      rw [g2]
      simpa using hc

omit [LinearOrder δ] in
/-- The initial centroids of COP-KMeans: whatever is drawn, they are the vectors of `nb` different IDs; and each ordered choice of `nb` IDs
comes from equally many draws, `(N - nb)!` of the `N!`. -/
theorem C96_initial_centroids {m : Manager α} (hm : Reachable m) {vectors : Dict α V} (hv : HasVectors m vectors) (env : KMeansEnv α V δ)
    {nb : Nat} (hnb : nb ≤ m.managed.length) :
    (∀ js, ShuffleDraws m.managed.length js → ∃ r cs, Arrangement m.managed nb r ∧ (pyShuffled js m.managed).take nb = r ∧
      kmInitialize { env with shuffle := pyShuffled js } m.managed vectors nb = .ok cs ∧
      ∀ c : Nat, dget? cs (c : Int) = (r[c]?).bind (dget? vectors ·)) ∧
    {js | ShuffleDraws m.managed.length js}.ncard = m.managed.length.factorial ∧
    ∀ r, Arrangement m.managed nb r →
      {js | ShuffleDraws m.managed.length js ∧ (pyShuffled js m.managed).take nb = r}.ncard = (m.managed.length - nb).factorial := by
  have hnd : m.managed.Nodup := hm.inv.d.nodup
  have hP : ∀ js, ShuffleDraws m.managed.length js → ∃ s, pyShuffle js m.managed = .ok s ∧ s.Perm m.managed := fun js h => pyShuffle_perm h
  have hU := fun (s : List α) (hs : s.Perm m.managed) => pyShuffle_unique hnd hs
  refine ⟨?_, ?_, ?_⟩
  · intro js hjs
    obtain ⟨s, hs, hp⟩ := hP js hjs
    have hsh : pyShuffled js m.managed = s := by unfold pyShuffled; rw [hs]
    have hA : Arrangement m.managed nb (s.take nb) :=
      ⟨(hp.symm.nodup hnd).sublist (List.take_sublist _ _), by rw [List.length_take, hp.length_eq]; omega,
        fun x hx => hp.mem_iff.1 (List.mem_of_mem_take hx)⟩
    obtain ⟨cs, h1, h2⟩ := kmInitialize_get hv { env with shuffle := pyShuffled js } hA (by show (pyShuffled js m.managed).take nb = _; rw [hsh])
    exact ⟨_, cs, hA, by rw [hsh], h1, h2⟩
  · have := draws_ncard hP hU (fun _ => True)
    simp only [and_true] at this
    rw [← perms_ncard hnd, ← this]
    congr 1
    ext js
    refine ⟨fun h => ⟨h, ?_⟩, fun h => h.1⟩
    obtain ⟨s, hs, -⟩ := hP js h
    exact ⟨s, hs⟩
  · intro r hr
    rw [← perms_take_ncard hnd hr, ← draws_ncard hP hU (fun s => s.take nb = r)]
    congr 1
    ext js
    refine and_congr_right fun hjs => ?_
    obtain ⟨s, hs, -⟩ := hP js hjs
    have hsh : pyShuffled js m.managed = s := by unfold pyShuffled; rw [hs]
    rw [hsh]
    constructor
    · exact fun h => ⟨s, hs, h⟩
    · rintro ⟨s', hs', h⟩
      rw [hs] at hs'; cases hs'; exact h

end

/-! ### Each theorem applied to a concrete case -/

/-! ### Concrete cases -/

theorem sampleDraws_demo : SampleDraws true 5 3 [4, 0, 2] ∧ SampleDraws false 5 3 [4, 0, 3] := by
  refine ⟨⟨rfl, ?_⟩, rfl, by decide, by decide⟩
  rintro (_ | _ | _ | i) j h <;> cases h <;> decide

example : pySample true [4, 0, 2] ["a", "b", "c", "d", "e"] = .ok ["e", "a", "c"] ∧
    pySample true [0, 0, 0] ["a", "b", "c", "d", "e"] = .ok ["a", "e", "d"] ∧
    pySample false [4, 0, 3] ["a", "b", "c", "d", "e"] = .ok ["e", "a", "d"] ∧
    pyShuffle [0, 0, 2, 0] ["a", "b", "c", "d", "e"] = .ok ["b", "d", "c", "e", "a"] := by decide +kernel

/-- Draws always exist: zeros for the pool, `0, 1, …` for the other branch. -/
example : RandomSample fun (l : List String) k => pyPick (decide (l.length ≤ 21)) (if l.length ≤ 21 then List.replicate k 0 else List.range k) l k :=
  C96_sample (pool := fun n _ => decide (n ≤ 21)) (draws := fun n k => if n ≤ 21 then List.replicate k 0 else List.range k) fun n k hk => by
    by_cases h : n ≤ 21
    · simp only [h, if_true, decide_true]
      refine ⟨List.length_replicate, ?_⟩
      intro i j hj
      obtain ⟨h1, h2⟩ := List.getElem?_eq_some_iff.1 hj
      rw [List.getElem_replicate] at h2
      rw [List.length_replicate] at h1
      omega
    · simp only [h, if_false, decide_false]
      exact ⟨List.length_range, List.nodup_range, fun j hj => lt_of_lt_of_le (List.mem_range.1 hj) hk⟩

example : Shuffles fun l : List String => pyShuffled (List.replicate (l.length - 1) 0) l :=
  C96_shuffle (draws := fun n => List.replicate (n - 1) 0) fun n => ⟨List.length_replicate, fun i j hj => by
    obtain ⟨h1, h2⟩ := List.getElem?_eq_some_iff.1 hj
    rw [List.getElem_replicate] at h2
    rw [List.length_replicate] at h1
    omega⟩

example : pySample true [0, 0, 0] ["a", "b"] = .error (.valueError "k") := C96_sample_too_many (by decide)

example : (∃! js, SampleDraws true 5 3 js ∧ pySample true js ["a", "b", "c", "d", "e"] = .ok ["d", "e", "a"]) ∧
    ∃! js, ShuffleDraws 5 js ∧ pyShuffle js ["a", "b", "c", "d", "e"] = .ok ["b", "a", "e", "d", "c"] :=
  ⟨(C96_each_order (l := ["a", "b", "c", "d", "e"]) (by decide)).1 true 3 ["d", "e", "a"] ⟨by decide, rfl, by decide⟩,
    (C96_each_order (l := ["a", "b", "c", "d", "e"]) (by decide)).2 ["b", "a", "e", "d", "c"] (by decide)⟩

theorem demo_inputs : InputsGiven defaultSampler demo none (none : Option (Dict Nat Int)) := ⟨fun h => absurd rfl h, fun h => absurd rfl h⟩

theorem demo_eligible : {p | Eligible defaultSampler demo none p}.ncard = 3 := by
  have hL : defaultSampler.possiblePairs demo ((none : Option (Dict Nat Int)).getD []) = .ok [(3, 9), (1, 9), (2, 9)] := by decide +kernel
  obtain ⟨h1, h2, -⟩ := possiblePairs_ok demo_reachable.inv (cl := none) (fun h => by cases h) hL
  exact eligible_ncard h1 h2

/-- Two of the three unknown pairs of `demo`: `[(2, 9), (3, 9)]` is drawn in exactly one way, and two thirds of the draws give `(3, 9)`. -/
example : (∃! js, SampleDraws true 3 2 js ∧ defaultSampler.sample demo (some 2) none (none : Option (Dict Nat Int)) demoMetric (pyPick true js) =
      .ok [(2, 9), (3, 9)]) ∧
    3 * {js | SampleDraws true 3 2 js ∧ ∃ r, defaultSampler.sample demo (some 2) none (none : Option (Dict Nat Int)) demoMetric (pyPick true js) = .ok r ∧
      (3, 9) ∈ r}.ncard = 2 * {js | SampleDraws true 3 2 js}.ncard := by
  have hL : defaultSampler.possiblePairs demo ((none : Option (Dict Nat Int)).getD []) = .ok [(3, 9), (1, 9), (2, 9)] := by decide +kernel
  obtain ⟨h1, h2, -⟩ := possiblePairs_ok demo_reachable.inv (cl := none) (fun h => by cases h) hL
  refine ⟨(C96_sampler demo_reachable rfl (n := 2) (by omega) demo_inputs demoMetric true demo_eligible).2 [(2, 9), (3, 9)] (by decide) rfl ?_,
    (C96_chance demo_reachable rfl (n := 2) (by omega) demo_inputs demoMetric true demo_eligible (p := (3, 9)) ((h2 _).1 (by simp))).1⟩
  intro p hp
  refine (h2 p).1 ?_
  rcases List.mem_cons.1 hp with rfl | hp
  · simp
  · rw [List.mem_singleton.1 hp]; simp

/-- Two of the five IDs as initial centroids: 6 of the 120 draws start from 5 and 1. -/
example : {js | ShuffleDraws 5 js}.ncard = 120 ∧ {js | ShuffleDraws 5 js ∧ (pyShuffled js [3, 1, 2, 9, 5]).take 2 = [5, 1]}.ncard = 6 := by
  have h : kmDemo.managed = [3, 1, 2, 9, 5] := by decide +kernel
  have := (C96_initial_centroids (m := kmDemo) (show Reachable kmDemo from ⟨_, _, rfl⟩) kmDemo_hasVectors kmDemoEnv (nb := 2) (by rw [h]; decide)).2
  rw [h] at this
  exact ⟨this.1, this.2 [5, 1] ⟨by decide, rfl, by decide⟩⟩

end Verif
