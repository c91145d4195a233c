import Verif.Proofs.Twister
import Verif.Props.KMeans
import Verif.Props.Random
import Verif.Props.Sampling

/-
C101: the random choices of the library with python's own generator: its numbers, the meaning of `random_seed`, and the effect on the
generator of the process.
-/

namespace Verif

/-- C101. Python's generator, whatever the seed: 624 words of 32 bits, kept by every call, and `getrandbits(k)` is below `2 ^ k`. -/
theorem C101_generator :
    (∀ z, (mtRng.seed z).mt.length = 624 ∧ ∀ w ∈ (mtRng.seed z).mt, w < 2 ^ 32) ∧
    (∀ os, (mtRng.fromOS os).mt.length = 624 ∧ ∀ w ∈ (mtRng.fromOS os).mt, w < 2 ^ 32) ∧
    ∀ (s : Twister), (s.mt.length = 624 ∧ ∀ w ∈ s.mt, w < 2 ^ 32) → ∀ k, (mtRng.bits k s).1 < 2 ^ k ∧
      (mtRng.bits k s).2.mt.length = 624 ∧ ∀ w ∈ (mtRng.bits k s).2.mt, w < 2 ^ 32 := by
  refine ⟨fun z => words_iff.1 (seed_words z), fun os => words_iff.1 (fromOS_words os), fun s h k => ?_⟩
  obtain ⟨h1, h2⟩ := rng_bits_ok k (words_iff.2 h)
  exact ⟨h1, words_iff.1 h2⟩

section
variable {S ι κ : Type} (R : Rng S)

/-- C101. With any generator, `random.sample(l, k)` for `k ≤ len(l)` and `random.shuffle(l)` do what is assumed of them elsewhere, unless
they draw for ever (in the model: out of fuel). -/
theorem C101_sample (fuel : Nat) (l : List ι) (k : Nat) (s : S) (hk : k ≤ l.length) :
    (∃ r s', rngSample R fuel l k s = .ok (r, s') ∧ r.length = k ∧ r.Subperm l) ∨ rngSample R fuel l k s = .error .outOfFuel := by
  rcases rngSample_eq (R := R) (fuel := fuel) hk s with ⟨js, s', -, h2, r, h3, h4⟩ | h
  · left
    obtain ⟨r', hr', k1, k2⟩ := pySample_perm hk h2
    rw [h4] at hr'
    cases hr'
    exact ⟨r, s', h3, k1, k2⟩
  · exact .inr h

theorem C101_shuffle (fuel : Nat) (l : List ι) (s : S) :
    (∃ r s', rngShuffle R fuel l s = .ok (r, s') ∧ r.Perm l) ∨ rngShuffle R fuel l s = .error .outOfFuel := by
  rcases rngShuffle_eq (R := R) (fuel := fuel) l s with ⟨js, s', -, h2, r, h3, h4⟩ | h
  · left
    obtain ⟨r', hr', k1⟩ := pyShuffle_perm h2
    rw [h4] at hr'
    cases hr'
    exact ⟨r, s', h3, k1⟩
  · exact .inr h

/-! ### The elements do not matter -/

theorem pyItem_map (f : ι → κ) (l : List ι) (i : Nat) : pyItem (l.map f) i = (pyItem l i).map f := by
  unfold pyItem
  rw [List.getElem?_map]
  cases l[i]? <;> rfl

theorem pyPool_map (f : ι → κ) (n : Nat) : ∀ (js : List Nat) (i : Nat) (pool : List ι),
    pyPool n i (pool.map f) js = (pyPool n i pool js).map (List.map f)
  | [], _, _ => rfl
  | j :: js, i, pool => by
    rw [pyPool, pyPool, pyItem_map, pyItem_map]
    cases pyItem pool j with
    | error e => rfl
    | ok x =>
      cases pyItem pool (n - i - 1) with
      | error e => rfl
      | ok y =>
        simp only [Except.map, bind, Except.bind]
        rw [← List.map_set, pyPool_map f n js (i + 1) (pool.set j y)]
        cases pyPool n (i + 1) (pool.set j y) js <;> rfl

theorem pySample_map (f : ι → κ) (pool : Bool) (js : List Nat) (l : List ι) :
    pySample pool js (l.map f) = (pySample pool js l).map (List.map f) := by
  unfold pySample
  rw [List.length_map]
  split
  · rfl
  · split
    · exact pyPool_map f _ js 0 l
    · clear * -
      induction js with
      | nil => rfl
      | cons j js ih =>
        rw [List.mapM_cons, List.mapM_cons, pyItem_map, ih]
        cases pyItem l j with
        | error e => rfl
        | ok x => cases List.mapM (pyItem l) js <;> rfl

theorem pyShuffleFrom_map (f : ι → κ) : ∀ (i : Nat) (js : List Nat) (x : List ι),
    pyShuffleFrom i js (x.map f) = (pyShuffleFrom i js x).map (List.map f)
  | 0, _, _ => rfl
  | _ + 1, [], _ => rfl
  | i + 1, j :: js, x => by
    rw [pyShuffleFrom, pyShuffleFrom, pyItem_map, pyItem_map]
    cases pyItem x j with
    | error e => rfl
    | ok a =>
      cases pyItem x (i + 1) with
      | error e => rfl
      | ok b =>
        simp only [Except.map, bind, Except.bind]
        rw [← List.map_set, ← List.map_set]
        exact pyShuffleFrom_map f i js _

theorem rngSample_map (f : ι → κ) (fuel : Nat) (l : List ι) (k : Nat) (s : S) :
    rngSample R fuel (l.map f) k s = (rngSample R fuel l k s).map fun p => (p.1.map f, p.2) := by
  unfold rngSample
  rw [List.length_map]
  split
  · rfl
  · cases sampleNumbers R fuel l.length k s with
    | error e => rfl
    | ok p =>
      simp only [bind, Except.bind]
      rw [pySample_map]
      cases pySample (decide (l.length ≤ setSize k)) p.1 l <;> rfl

theorem rngShuffle_map (f : ι → κ) (fuel : Nat) (l : List ι) (s : S) :
    rngShuffle R fuel (l.map f) s = (rngShuffle R fuel l s).map fun p => (p.1.map f, p.2) := by
  unfold rngShuffle
  rw [List.length_map]
  cases shuffleNumbers R fuel (l.length - 1) s with
  | error e => rfl
  | ok p =>
    simp only [bind, Except.bind, pyShuffle]
    rw [List.length_map, pyShuffleFrom_map]
    cases pyShuffleFrom (l.length - 1) p.1 l <;> rfl

/-- The positions chosen by `random.sample` depend on the generator and the two sizes only. -/
theorem rngSample_positions (fuel n k : Nat) (s : S) (hk : k ≤ n) :
    (∃ (p : List (Fin n)) (s' : S), p.length = k ∧ p.Nodup ∧ ∀ {ι : Type} (f : Fin n → ι),
      rngSample R fuel ((List.finRange n).map f) k s = .ok (p.map f, s')) ∨
    ∀ {ι : Type} (f : Fin n → ι), rngSample R fuel ((List.finRange n).map f) k s = .error .outOfFuel := by
  rcases C101_sample R fuel (List.finRange n) k s (by simpa using hk) with ⟨p, s', h1, h2, h3⟩ | h
  · left
    refine ⟨p, s', h2, ?_, ?_⟩
    · obtain ⟨q, hq, hs⟩ := h3
      exact hq.nodup_iff.1 (hs.nodup (List.nodup_finRange n))
    · intro ι f
      rw [rngSample_map, h1]
      rfl
  · right
    intro ι f
    rw [rngSample_map, h]
    rfl

theorem rngShuffle_positions (fuel n : Nat) (s : S) :
    (∃ (p : List (Fin n)) (s' : S), p.Perm (List.finRange n) ∧ ∀ {ι : Type} (f : Fin n → ι),
      rngShuffle R fuel ((List.finRange n).map f) s = .ok (p.map f, s')) ∨
    ∀ {ι : Type} (f : Fin n → ι), rngShuffle R fuel ((List.finRange n).map f) s = .error .outOfFuel := by
  rcases C101_shuffle R fuel (List.finRange n) s with ⟨p, s', h1, h2⟩ | h
  · left
    refine ⟨p, s', h2, ?_⟩
    intro ι f
    rw [rngShuffle_map, h1]
    rfl
  · right
    intro ι f
    rw [rngShuffle_map, h]
    rfl

end

/-! ### Sampling -/

section
variable {S α V δ : Type} (R : Rng S) [LinearOrder α] [LinearOrder δ]

/-- A function for `random.sample` with a given value at one place. -/
theorem exists_pick {ι : Type} {l : List ι} {k : Nat} {r : List ι} (h1 : r.length = k) (h2 : r.Subperm l) :
    ∃ pick : List ι → Nat → List ι, RandomSample pick ∧ pick l k = r := by
  classical
  refine ⟨fun l' k' => if l' = l ∧ k' = k then r else l'.take k', ?_, by simp⟩
  intro l' k' hk
  by_cases h : l' = l ∧ k' = k
  · obtain ⟨rfl, rfl⟩ := h
    simpa using ⟨h1, h2⟩
  · simp only [if_neg h]
    exact ⟨by simpa using hk, (List.take_sublist _ _).subperm⟩

theorem exists_shuffle {ι : Type} {l r : List ι} (h : r.Perm l) : ∃ f : List ι → List ι, Shuffles f ∧ f l = r := by
  classical
  refine ⟨fun l' => if l' = l then r else l', ?_, by simp⟩
  intro l'
  by_cases e : l' = l
  · subst e
    simpa using h
  · simp [e]

/-- C101. Sampling with the generator is sampling in the sense of C23 to C30, for some admissible `random.sample` (or it draws for ever):
all properties proved for every admissible choice hold for the generator. -/
theorem C101_sampler (cfg : Sampler) (seed : Option Int) (os : List Nat) (fuel : Nat) (m : Manager α) (nb : Option Int)
    (clustering : Option (Dict α Int)) (vectors : Option (Dict α V)) (metric : V → V → δ) (g : S) :
    (∃ pick, RandomSample pick ∧
      (cfg.sampleG R seed os fuel m nb clustering vectors metric g).1 = cfg.sample m nb clustering vectors metric pick) ∨
    (cfg.sampleG R seed os fuel m nb clustering vectors metric g).1 = .error .outOfFuel := by
  have dflt : RandomSample (fun (l : List (α × α)) k => l.take k) :=
    fun l k hk => ⟨by simpa using hk, (List.take_sublist _ _).subperm⟩
  unfold Sampler.sampleG Sampler.sample
  cases nb with
  | none => exact .inl ⟨_, dflt, rfl⟩
  | some n =>
    dsimp only
    split
    · exact .inl ⟨_, dflt, rfl⟩
    split
    · exact .inl ⟨_, dflt, rfl⟩
    split
    · exact .inl ⟨_, dflt, rfl⟩
    split
    · exact .inl ⟨_, dflt, rfl⟩
    unfold Sampler.select
    cases hp : cfg.possiblePairs m (clustering.getD []) with
    | error e => exact .inl ⟨_, dflt, rfl⟩
    | ok pairs =>
      dsimp only [bind, Except.bind]
      cases cfg.distance with
      | none =>
        dsimp only
        rcases C101_sample R fuel pairs (min n.toNat pairs.length) (reseed R seed os) (Nat.min_le_right _ _) with
          ⟨r, s', h1, h2, h3⟩ | h
        · obtain ⟨pick, k1, k2⟩ := exists_pick h2 h3
          refine .inl ⟨pick, k1, ?_⟩
          rw [h1, k2]
          rfl
        · right
          rw [h]
      | some d =>
        dsimp only
        refine .inl ⟨_, dflt, ?_⟩
        cases distanceTable m (vectors.getD []) metric with
        | error e => rfl
        | ok table =>
          dsimp only
          generalize (pairs.mapM fun p => _ : Except PyErr (List (δ × (α × α)))) = x
          cases x <;> rfl

/-- C101. The result of a call of `sample` does not depend on the generator of the process, with a seed or without one. The generator
afterwards does not depend on it either, or the call has left it alone. -/
theorem C101_sampler_seed (cfg : Sampler) (seed : Option Int) (os : List Nat) (fuel : Nat) (m : Manager α) (nb : Option Int)
    (clustering : Option (Dict α Int)) (vectors : Option (Dict α V)) (metric : V → V → δ) :
    ∃ res, (∀ g, (cfg.sampleG R seed os fuel m nb clustering vectors metric g).1 = res) ∧
      ((∀ g, (cfg.sampleG R seed os fuel m nb clustering vectors metric g).2 = g) ∨
        ∃ g', ∀ g, (cfg.sampleG R seed os fuel m nb clustering vectors metric g).2 = g') := by
  unfold Sampler.sampleG
  cases nb with
  | none => exact ⟨_, fun _ => rfl, .inl fun _ => rfl⟩
  | some n =>
    dsimp only
    split
    · exact ⟨_, fun _ => rfl, .inl fun _ => rfl⟩
    split
    · exact ⟨_, fun _ => rfl, .inl fun _ => rfl⟩
    split
    · exact ⟨_, fun _ => rfl, .inl fun _ => rfl⟩
    split
    · exact ⟨_, fun _ => rfl, .inl fun _ => rfl⟩
    cases cfg.possiblePairs m (clustering.getD []) with
    | error e => exact ⟨_, fun _ => rfl, .inl fun _ => rfl⟩
    | ok pairs =>
      dsimp only
      cases cfg.distance with
      | none =>
        dsimp only
        cases rngSample R fuel pairs (min n.toNat pairs.length) (reseed R seed os) with
        | error e => exact ⟨_, fun _ => rfl, .inr ⟨_, fun _ => rfl⟩⟩
        | ok p => exact ⟨_, fun _ => rfl, .inr ⟨_, fun _ => rfl⟩⟩
      | some d =>
        dsimp only
        cases distanceTable m (vectors.getD []) metric with
        | error e => exact ⟨_, fun _ => rfl, .inl fun _ => rfl⟩
        | ok table =>
          dsimp only
          generalize (pairs.mapM fun p => _ : Except PyErr (List (δ × (α × α)))) = x
          cases x with
          | error e => exact ⟨_, fun _ => rfl, .inr ⟨_, fun _ => rfl⟩⟩
          | ok keyed => exact ⟨_, fun _ => rfl, .inr ⟨_, fun _ => rfl⟩⟩

/-! ### KMeans -/

theorem kmLoop_shuffle (env : KMeansEnv α V δ) (f f' : List α → List α) (m : Manager α) (vs : Dict α V) (nb : Nat) :
    ∀ (n : Nat) (clusters : Dict α Int) (centroids : Dict Int V),
      kmLoop { env with shuffle := f } m vs nb n clusters centroids = kmLoop { env with shuffle := f' } m vs nb n clusters centroids
  | 0, _, _ => rfl
  | n + 1, clusters, centroids => by
    have ih := kmLoop_shuffle env f f' m vs nb n
    rw [kmLoop, kmLoop]
    have e1 : kmPass { env with shuffle := f } m vs nb centroids = kmPass { env with shuffle := f' } m vs nb centroids := rfl
    rw [e1]
    cases kmPass { env with shuffle := f' } m vs nb centroids with
    | error e => rfl
    | ok q =>
      obtain ⟨new, c'⟩ := q
      dsimp only [bind, Except.bind]
      have e2 : kmConverged { env with shuffle := f } clusters new centroids c' =
        kmConverged { env with shuffle := f' } clusters new centroids c' := rfl
      rw [e2, ih]

theorem kmCOP_shuffle (env : KMeansEnv α V δ) {f f' : List α → List α} {m : Manager α} (h : f m.managed = f' m.managed)
    (vs : Dict α V) (nb n : Nat) :
    kmCOP { env with shuffle := f } m vs nb n = kmCOP { env with shuffle := f' } m vs nb n := by
  unfold kmCOP
  have e1 : kmInitialize { env with shuffle := f } m.managed vs nb = kmInitialize { env with shuffle := f' } m.managed vs nb := by
    unfold kmInitialize
    dsimp only
    rw [h]
  rw [e1]
  cases kmInitialize { env with shuffle := f' } m.managed vs nb with
  | error e => rfl
  | ok c =>
    dsimp only [bind, Except.bind]
    rw [kmLoop_shuffle env f f']
    cases kmLoop { env with shuffle := f' } m vs nb n (dofList (m.managed.map fun x => (x, -1))) c with
    | error e => rfl
    | ok q => rfl

/-- C101. COP-KMeans with the generator is the one of C31 to C34 for some permutation in place of `random.shuffle` (or it draws for
ever). -/
theorem C101_kmeans (env : KMeansEnv α V δ) (seed : Option Int) (os : List Nat) (fuel maxIteration : Nat) (m : Manager α)
    (vectors : Option (Dict α V)) (nb : Option Int) (g : S) :
    (∃ shuffle, Shuffles shuffle ∧ (kmClusterG R env seed os fuel maxIteration m vectors nb g).1 =
      kmCluster { env with shuffle := shuffle } maxIteration m vectors nb) ∨
    (kmClusterG R env seed os fuel maxIteration m vectors nb g).1 = .error .outOfFuel := by
  have dflt : Shuffles (fun l : List α => l) := fun l => .refl l
  unfold kmClusterG kmCluster
  cases vectors with
  | none => exact .inl ⟨_, dflt, rfl⟩
  | some vs =>
    cases nb with
    | none => exact .inl ⟨_, dflt, rfl⟩
    | some n =>
      dsimp only
      split
      · exact .inl ⟨_, dflt, rfl⟩
      · rcases C101_shuffle R fuel m.managed (reseed R seed os) with ⟨r, s', h1, h2⟩ | h
        · obtain ⟨f, k1, k2⟩ := exists_shuffle h2
          refine .inl ⟨f, k1, ?_⟩
          rw [h1]
          exact kmCOP_shuffle env (by exact k2.symm) vs _ _
        · right
          rw [h]

/-- C101. The same for COP-KMeans: the generator of the process does not influence the result, and is left alone or replaced. -/
theorem C101_kmeans_seed (env : KMeansEnv α V δ) (seed : Option Int) (os : List Nat) (fuel maxIteration : Nat) (m : Manager α)
    (vectors : Option (Dict α V)) (nb : Option Int) :
    ∃ res, (∀ g, (kmClusterG R env seed os fuel maxIteration m vectors nb g).1 = res) ∧
      ((∀ g, (kmClusterG R env seed os fuel maxIteration m vectors nb g).2 = g) ∨
        ∃ g', ∀ g, (kmClusterG R env seed os fuel maxIteration m vectors nb g).2 = g') := by
  unfold kmClusterG
  cases vectors with
  | none => exact ⟨_, fun _ => rfl, .inl fun _ => rfl⟩
  | some vs =>
    cases nb with
    | none => exact ⟨_, fun _ => rfl, .inl fun _ => rfl⟩
    | some n =>
      dsimp only
      split
      · exact ⟨_, fun _ => rfl, .inl fun _ => rfl⟩
      · cases rngShuffle R fuel m.managed (reseed R seed os) with
        | error e => exact ⟨_, fun _ => rfl, .inr ⟨_, fun _ => rfl⟩⟩
        | ok p => exact ⟨_, fun _ => rfl, .inr ⟨_, fun _ => rfl⟩⟩

end

/-! ### Positions -/

section
variable {S : Type} (R : Rng S)

theorem map_finRange_get {ι : Type} (l : List ι) : (List.finRange l.length).map l.get = l := by
  simp

/-- C101. With a fixed seed, which positions of the list of candidates are selected is settled by the seed and the two numbers: the same
for all managers, IDs, constraints and clusterings with that many candidates, and for all states of the generator. -/
theorem C101_positions (z : Int) (os : List Nat) (fuel n N : Nat) (hn : 0 < n) :
    (∃ p : List (Fin N), p.length = min n N ∧ p.Nodup ∧
      ∀ {α V δ : Type} [LinearOrder α] [LinearOrder δ] (cfg : Sampler) (m : Manager α) (clustering : Option (Dict α Int))
        (vectors : Option (Dict α V)) (metric : V → V → δ) (g : S) (l : List (α × α)) (hl : l.length = N),
        cfg.distance = none → (cfg.clusters.isSome = true → clustering.isSome = true) →
        cfg.possiblePairs m (clustering.getD []) = .ok l →
        (cfg.sampleG R (some z) os fuel m (some n) clustering vectors metric g).1 = .ok (p.map fun i => l.get (i.cast hl.symm))) ∨
    ∀ {α V δ : Type} [LinearOrder α] [LinearOrder δ] (cfg : Sampler) (m : Manager α) (clustering : Option (Dict α Int))
      (vectors : Option (Dict α V)) (metric : V → V → δ) (g : S) (l : List (α × α)), l.length = N →
      cfg.distance = none → (cfg.clusters.isSome = true → clustering.isSome = true) →
      cfg.possiblePairs m (clustering.getD []) = .ok l →
      (cfg.sampleG R (some z) os fuel m (some n) clustering vectors metric g).1 = .error .outOfFuel := by
  have main : ∀ {α V δ : Type} [LinearOrder α] [LinearOrder δ] (cfg : Sampler) (m : Manager α) (clustering : Option (Dict α Int))
      (vectors : Option (Dict α V)) (metric : V → V → δ) (g : S) (l : List (α × α)),
      cfg.distance = none → (cfg.clusters.isSome = true → clustering.isSome = true) →
      cfg.possiblePairs m (clustering.getD []) = .ok l →
      (cfg.sampleG R (some z) os fuel m (some n) clustering vectors metric g).1 =
        (rngSample R fuel l (min n l.length) (R.seed z)).map Prod.fst := by
    intro α V δ _ _ cfg m clustering vectors metric g l h1 h2 h3
    unfold Sampler.sampleG
    dsimp only
    have a1 : ¬ ((n : Int) < 0) := by omega
    have a2 : ¬ ((n : Int) = 0) := by omega
    have a3 : ¬ (cfg.clusters.isSome = true ∧ clustering.isNone = true) := by
      rintro ⟨b1, b2⟩
      have := h2 b1
      cases clustering <;> simp_all
    have a4 : ¬ (cfg.distance.isSome = true ∧ vectors.isNone = true) := by simp [h1]
    rw [if_neg a1, if_neg a2, if_neg a3, if_neg a4, h3, h1]
    dsimp only [reseed]
    rw [Int.toNat_natCast]
    cases rngSample R fuel l (min n l.length) (R.seed z) <;> rfl
  rcases rngSample_positions R fuel N (min n N) (R.seed z) (Nat.min_le_right _ _) with ⟨p, s', h1, h2, h3⟩ | h
  · refine .inl ⟨p, h1, h2, ?_⟩
    intro α V δ _ _ cfg m clustering vectors metric g l hl k1 k2 k3
    subst hl
    rw [main cfg m clustering vectors metric g l k1 k2 k3]
    have := h3 l.get
    rw [map_finRange_get] at this
    rw [this]
    rfl
  · right
    intro α V δ _ _ cfg m clustering vectors metric g l hl k1 k2 k3
    subst hl
    rw [main cfg m clustering vectors metric g l k1 k2 k3]
    have := h l.get
    rw [map_finRange_get] at this
    rw [this]
    rfl

/-- C101. The initial centroids of COP-KMeans with a fixed seed: the vectors of the IDs at positions that depend only on the seed and the
number of managed IDs. -/
theorem C101_centroids (z : Int) (os : List Nat) (fuel N : Nat) :
    (∃ p : List (Fin N), p.Perm (List.finRange N) ∧
      ∀ {α V δ : Type} [LinearOrder α] [LinearOrder δ] (env : KMeansEnv α V δ) (maxIteration : Nat) (m : Manager α)
        (vs : Dict α V) (nb : Int) (g : S) (hl : m.managed.length = N), 2 ≤ nb →
        (kmClusterG R env (some z) os fuel maxIteration m (some vs) (some nb) g).1 =
          kmCluster { env with shuffle := fun _ => p.map fun i => m.managed.get (i.cast hl.symm) } maxIteration m (some vs) (some nb)) ∨
    ∀ {α V δ : Type} [LinearOrder α] [LinearOrder δ] (env : KMeansEnv α V δ) (maxIteration : Nat) (m : Manager α)
      (vs : Dict α V) (nb : Int) (g : S), m.managed.length = N → 2 ≤ nb →
      (kmClusterG R env (some z) os fuel maxIteration m (some vs) (some nb) g).1 = .error .outOfFuel := by
  rcases rngShuffle_positions R fuel N (R.seed z) with ⟨p, s', h1, h2⟩ | h
  · refine .inl ⟨p, h1, ?_⟩
    intro α V δ _ _ env maxIteration m vs nb g hl hnb
    subst hl
    have := h2 m.managed.get
    rw [map_finRange_get] at this
    unfold kmClusterG kmCluster
    dsimp only [reseed]
    rw [if_neg (by omega), if_neg (by omega), this]
    rfl
  · right
    intro α V δ _ _ env maxIteration m vs nb g hl hnb
    subst hl
    have := h m.managed.get
    rw [map_finRange_get] at this
    unfold kmClusterG
    dsimp only [reseed]
    rw [if_neg (by omega), this]

end

/-! ### Consequences, examples and witnesses -/

/-- C101. Repeating a call of `sample` with the same arguments and the same seed gives the same pairs, whatever happened to the
generator in between. -/
theorem C101_repeat {S α V δ : Type} (R : Rng S) [LinearOrder α] [LinearOrder δ] (cfg : Sampler) (z : Int) (os os' : List Nat)
    (fuel : Nat) (m : Manager α) (nb : Option Int) (clustering : Option (Dict α Int)) (vectors : Option (Dict α V))
    (metric : V → V → δ) (g g' : S) :
    (cfg.sampleG R (some z) os fuel m nb clustering vectors metric g).1 =
      (cfg.sampleG R (some z) os' fuel m nb clustering vectors metric g').1 := by
  obtain ⟨res, h, -⟩ := C101_sampler_seed R cfg (some z) os fuel m nb clustering vectors metric
  have e : cfg.sampleG R (some z) os' fuel m nb clustering vectors metric g' =
      cfg.sampleG R (some z) os fuel m nb clustering vectors metric g' := rfl
  rw [e, h g, h g']

/-- The sampler without restriction. -/
def twisterSampler : Sampler := ⟨none, none, false, false⟩

/-- Five IDs without constraints. -/
def twisterDemo : Manager Nat := Manager.init [3, 1, 4, 0, 5]

/-- A call of the sampler of the example. -/
def twisterCall (seed : Option Int) (os : List Nat) (g : Twister) : Except PyErr (List (Nat × Nat)) × Twister :=
  twisterSampler.sampleG (V := Nat) mtRng seed os 1000 twisterDemo (some 3) none none (fun a b => max a b) g

/-- Without a seed the library takes one from the operating system: the seed a program has given to `random` has no effect on the
sampling, and two runs of the program differ. -/
theorem C101_unseeded : ∃ os os', ∀ z, (twisterCall none os (mtRng.seed z)).1 ≠ (twisterCall none os' (mtRng.seed z)).1 := by
  refine ⟨[1], [2], fun z => ?_⟩
  obtain ⟨r, h, -⟩ := C101_sampler_seed (V := Nat) mtRng twisterSampler none [1] 1000 twisterDemo (some 3) none none fun a b => max a b
  obtain ⟨r', h', -⟩ := C101_sampler_seed (V := Nat) mtRng twisterSampler none [2] 1000 twisterDemo (some 3) none none fun a b => max a b
  have d : (twisterCall none [1] ⟨[], 0⟩).1 ≠ (twisterCall none [2] ⟨[], 0⟩).1 := by decide +kernel
  unfold twisterCall at *
  rw [h, h'] at *
  exact d

/-- A call with a seed replaces the generator of the program: a program that had seeded `random` with 1 or with 2 draws the same number
afterwards, which it would not have done without the call. -/
theorem C101_replaced : ∃ x, (∀ z, (mtRng.bits 32 (twisterCall (some 42) [] (mtRng.seed z)).2).1 = x) ∧
    (mtRng.bits 32 (mtRng.seed 1)).1 ≠ x ∧ (mtRng.bits 32 (mtRng.seed 1)).1 ≠ (mtRng.bits 32 (mtRng.seed 2)).1 := by
  refine ⟨(mtRng.bits 32 (twisterCall (some 42) [] ⟨[], 0⟩).2).1, fun z => ?_, by decide +kernel, by decide +kernel⟩
  obtain ⟨r, -, h | ⟨g', h⟩⟩ := C101_sampler_seed (V := Nat) mtRng twisterSampler (some 42) [] 1000 twisterDemo (some 3) none none
    fun a b => max a b
  · exfalso
    have d : (twisterCall (some 42) [] ⟨[], 0⟩).2.pos ≠ (⟨[], 0⟩ : Twister).pos := by decide +kernel
    unfold twisterCall at d
    rw [h] at d
    exact d rfl
  · unfold twisterCall
    rw [h, h]

/-- `random.seed(1); random.getrandbits(32)`, and a negative seed. -/
example : (mtRng.bits 32 (mtRng.seed 1)).1 = 577090037 ∧ (mtRng.bits 40 (mtRng.seed (-7))).1 < 2 ^ 40 :=
  ⟨by decide +kernel, (C101_generator.2.2 _ (C101_generator.1 _) 40).1⟩

/-- `random.seed(5); random.sample(range(30), 7)` and `random.seed(2); random.shuffle(x)` for six elements. -/
example : (rngSample mtRng 100 (List.range 30) 7 (mtRng.seed 5)).map Prod.fst = .ok [19, 8, 23, 11, 25, 22, 27] ∧
    (rngShuffle mtRng 100 (List.range 6) (mtRng.seed 2)).map Prod.fst = .ok [2, 3, 1, 4, 5, 0] :=
  ⟨by decide +kernel, by decide +kernel⟩

/-- The first cases of `C101_sample`, `C101_shuffle`, `C101_sampler` and `C101_positions` occur: ten candidates, three selected. -/
example : (twisterCall (some 42) [] (mtRng.seed 1)).1 = .ok [(3, 5), (3, 4), (1, 5)] ∧
    (twisterSampler.possiblePairs twisterDemo []).map List.length = .ok 10 := ⟨by decide +kernel, by decide +kernel⟩

/-- KMeans with the generator, on the example of C31. -/
example : (kmClusterG mtRng kmDemoEnv (some 42) [] 1000 150 kmDemo (some kmDemoVectors) (some 2) (mtRng.seed 1)).1.isOk = true ∧
    kmDemo.managed.length = 5 := ⟨by decide +kernel, by decide +kernel⟩

end Verif
