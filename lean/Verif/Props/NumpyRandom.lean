import Verif.Proofs.NumpyRandom
import Verif.Props.MpcMove

/-
C119: the generator of numpy in MPC-KMeans: its numbers, the chances of the groups, the runs it leads to, and `random_seed`.
-/

namespace Verif

section
variable {S : Type} {next : S → Nat × S}

/-- C119. `np.random.shuffle(l)` gives a permutation of `l`, unless it draws for ever (in the model: out of fuel). -/
theorem C119_shuffle {ι : Type} (fuel : Nat) (l : List ι) (s : S) :
    (∃ r s', npShuffle next fuel l s = .ok (r, s') ∧ r.Perm l) ∨ npShuffle next fuel l s = .error .outOfFuel := by
  rcases npShuffle_eq (next := next) (fuel := fuel) l s with ⟨-, s', -, -, r, h, -, hp⟩ | h
  · exact .inl ⟨r, s', h, hp⟩
  · exact .inr h

/-- C119. `np.random.choice(n, k, replace=False)` gives `k` different numbers below `n`. -/
theorem C119_choice (fuel : Nat) {n k : Nat} (hk : k ≤ n) (s : S) :
    (∃ l s', npChoice next fuel n k s = .ok (l, s') ∧ l.length = k ∧ l.Nodup ∧ ∀ i ∈ l, i < n) ∨ npChoice next fuel n k s = .error .outOfFuel :=
  npChoice_eq hk s

end

/-- C119. The draws are uniform: for a bound below `2^32`, every number up to the bound comes from equally many words of 32 bits, and more
than half of the words are accepted. -/
theorem C119_uniform {max : Nat} (h0 : 0 < max) (hm : max < 2 ^ 32) :
    (∀ v ≤ max, ((Finset.range (2 ^ 32)).filter fun w => w &&& npMask max = v).card * (npMask max + 1) = 2 ^ 32) ∧
    2 ^ 31 < ((Finset.range (2 ^ 32)).filter fun w => w &&& npMask max ≤ max).card :=
  ⟨fun _ hv => npMask_words h0 hm hv, npMask_accepted h0 hm⟩

/-- C119. Every order of a list comes from exactly one list of numbers drawn by `shuffle`. -/
theorem C119_orders {ι : Type} {l r : List ι} (hl : l.Nodup) (hr : r.Perm l) : ∃! js, ShuffleDraws l.length js ∧ pyShuffle js l = .ok r :=
  pyShuffle_unique hl hr

/-- C119. The first centre, line 368: the index is valid, for exact numbers and for doubles. -/
theorem C119_pick {rnd : ℚ → ℚ} (hr : KeepsOne rnd) {sizes : List Nat} (hne : sizes ≠ []) (hs : ∀ c ∈ sizes, 0 < c) {u : Nat} (hu : u < 2 ^ 53) :
    npPick rnd sizes u < sizes.length :=
  npPick_lt hr hne hs hu

/-- C119. The chance of a group is its share of the data: of the `2^53` numbers that `random_sample` can give, the group of index `i` gets
`2^53 * size / total` up to less than 1. -/
theorem C119_chance {sizes : List Nat} (hs : ∀ c ∈ sizes, 0 < c) {i : Nat} (hi : i < sizes.length) :
    |(((Finset.range (2 ^ 53)).filter fun (u : Nat) => npPick id sizes u = i).card : ℚ) - 2 ^ 53 * ((sizes[i] : ℚ) / (sizes.sum : Nat))| < 1 :=
  pick_exact hs hi

/-- C119. The same with the roundings of the weights, of their sums and of the division by the last sum: the share is kept up to
`(16 n + 33) / 2^53` for `n` groups. -/
theorem C119_chance_rounded {sizes : List Nat} (hs : ∀ c ∈ sizes, 0 < c) (hn : sizes.length + 2 ≤ 2 ^ 50) {i : Nat} (hi : i < sizes.length) :
    |(((Finset.range (2 ^ 53)).filter fun (u : Nat) => npPick fl sizes u = i).card : ℚ) - 2 ^ 53 * ((sizes[i] : ℚ) / (sizes.sum : Nat))| <
      16 * (sizes.length : ℚ) + 33 :=
  pick_rounded hs hn hi

section
variable {S V κ θ α : Type} [LinearOrder κ] [LinearOrder α] {next : S → Nat × S} {Good : S → Prop} {rnd : ℚ → ℚ}

/-- C119. A call of MPC-KMeans with the generator of numpy is one of the calls that the theorems on MPC-KMeans speak about: there are
choices, as assumed there, with which the model without generator gives the same result or error. So C62-C66, C79-C81, C117 and C118 hold for it.
Afterwards the generator is again in a good state. -/
theorem C119_run (hg : WordSource next Good) (hr : KeepsOne rnd) (fuel : Nat) {env : MpcEnv V κ θ} (henum : SetOrder env.enum) (p : MpcParams)
    {m : Manager α} (h : Reachable m) (vectors : Option (Dict α V)) (nb : Option Int) {s : S} (hs : Good s) :
    (mpcClusterG next rnd fuel env p m vectors nb s = .error .outOfFuel ∨
      ∃ shuffle pick choice, MpcAssumptions { env with shuffle := shuffle, pick := pick, choice := choice } ∧
        (mpcClusterG next rnd fuel env p m vectors nb s).map Prod.fst =
          mpcCluster { env with shuffle := shuffle, pick := pick, choice := choice } p m vectors nb) ∧
    ∀ d s', mpcClusterG next rnd fuel env p m vectors nb s = .ok (d, s') → Good s' :=
  ⟨mpcClusterG_eq hg hr henum p h.inv vectors nb hs, fun _ _ e => mpcClusterG_good hg hs e⟩

end

/-- C119. The generator of numpy is such a source, from every seed, and so are exact numbers and doubles such roundings. -/
theorem C119_numpy : WordSource Twister.next (fun s => s.mt.length = 624 ∧ ∀ w ∈ s.mt, w < 2 ^ 32) ∧
    (∀ z < 2 ^ 32, (npSeed z).mt.length = 624 ∧ ∀ w ∈ (npSeed z).mt, w < 2 ^ 32) ∧ KeepsOne id ∧ KeepsOne fl := by
  refine ⟨fun s hs => ?_, fun z hz => ?_, ⟨rfl, fun _ h => h⟩, ⟨fl_one, fun _ h => fl_pos h⟩⟩
  · obtain ⟨h1, h2⟩ := next_ok (words_iff.2 hs)
    exact ⟨h1, words_iff.1 h2⟩
  · exact words_iff.1 (mtInit_ok z)

/-! ### `random_seed` -/

def seedIds : List Nat := [1, 2, 3]

def seedVec (x : Nat) : Fin 1 → ℚ := fun _ => if x = 1 then 0 else if x = 2 then 2 else 4

/-- A call on the three vectors, with the generator of numpy. -/
def seedCall (s : Twister) : Except PyErr (Dict Nat Int × Twister) :=
  mpcClusterG Twister.next fl 100 (mpcExact (mpcFirstChoices ratRoot 1) 1) ⟨150⟩ (Manager.init seedIds) (some (seedIds.map fun x => (x, seedVec x)))
    (some 2) s

/-- Finding: `random_seed`, "the random seed to use to redo the same clustering", has no effect. After `np.random.seed(7)`, two calls with the same
arguments give different clusters. -/
theorem C119_seed : (seedCall (npSeed 7) >>= fun r => (seedCall r.2).map fun r' => (r.1, r'.1)) =
    .ok ([(1, 0), (2, 0), (3, 1)], [(1, 0), (2, 1), (3, 1)]) := by
  decide +kernel

/-! ### Each theorem applied to a concrete case -/

/-- The numbers of numpy itself: `np.random.seed(42); np.random.permutation(10)`, … -/
example : (npShuffle Twister.next 100 (List.range 10) (npSeed 42)).map Prod.fst = .ok [8, 1, 5, 0, 7, 2, 9, 4, 3, 6] ∧
    (npChoice Twister.next 100 5 3 (npSeed 0)).map Prod.fst = .ok [2, 0, 1] ∧
    fl ((npUniform Twister.next (npSeed 42)).1 / 2 ^ 53) = fl 0.3745401188473625 :=
  ⟨by decide +kernel, by decide +kernel, by decide +kernel⟩

example : (∃ r s', npShuffle Twister.next 100 ["a", "b", "c"] (npSeed 3) = .ok (r, s') ∧ r.Perm ["a", "b", "c"]) ∨
    npShuffle Twister.next 100 ["a", "b", "c"] (npSeed 3) = .error .outOfFuel := C119_shuffle 100 _ _

example := C119_choice (next := Twister.next) 100 (n := 5) (k := 3) (by decide) (npSeed 0)

example := C119_uniform (max := 9) (by decide) (by decide)

example := C119_orders (l := [0, 1, 2]) (r := [2, 0, 1]) (by decide) (by decide)

/-- Groups of 1, 1 and 2 data with doubles: half of the numbers lead to the last group. -/
example : npPick fl [1, 1, 2] (2 ^ 52) = 2 ∧ npPick fl [1, 1, 2] (2 ^ 52 - 1) = 1 ∧ npPick fl [1, 1, 2] (2 ^ 51 - 1) = 0 ∧
    npPick fl [1, 1, 2] (2 ^ 53 - 1) < 3 :=
  ⟨by decide +kernel, by decide +kernel, by decide +kernel,
    C119_pick C119_numpy.2.2.2 (sizes := [1, 1, 2]) (by decide) (by decide) (by decide)⟩

example := C119_chance (sizes := [3, 1, 4]) (by decide) (i := 1) (by decide)

example := C119_chance_rounded (sizes := [3, 1, 4]) (by decide) (by decide) (i := 1) (by decide)

/-- The two calls of `C119_seed` are such runs. -/
example := C119_run C119_numpy.1 C119_numpy.2.2.2 100 (env := mpcExact (mpcFirstChoices ratRoot 1) 1) (mpcFirst_ok _ _ _).enum ⟨150⟩
  (m := Manager.init seedIds) ⟨_, [], rfl⟩ (some (seedIds.map fun x => (x, seedVec x))) (some 2) (C119_numpy.2.1 7 (by decide))

end Verif
