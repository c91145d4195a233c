import Mathlib.Data.Nat.Bitwise
import Mathlib.Data.Nat.Log
import Verif.Model.KMeans
import Verif.Model.Random
import Verif.Model.Sampling

/-
The generator behind python's module `random` (Mersenne Twister), and the calls of the library that use it:
/repo/src/cognitivefactory/interactive_clustering/sampling/clusters_based.py, lines 226-247, and
/repo/src/cognitivefactory/interactive_clustering/clustering/kmeans.py, lines 411-416.

The generator is `Modules/_randommodule.c` of CPython (functions `init_genrand`, `init_by_array`, `genrand_uint32`,
`getrandbits`, `random_seed`); `randbelow` is `_randbelow_with_getrandbits` of `Lib/random.py`. `random` has one generator for the
whole process.

Simplified: the seed is below 2^19968 in absolute value (624 words); the loops that draw again take fuel.
-/

namespace Verif

/-! ### Mersenne Twister -/

/-- Words have 32 bits. -/
def word : Nat := 0x100000000

/-- The same as `k x`. Matching on `x` makes the kernel compute it before it goes on. -/
def strict {β : Type} (x : Nat) (k : Nat → β) : β :=
  match x with
  | 0 => k 0
  | n + 1 => k (n + 1)

/-- `prev ^ (prev >> 30)` -/
def mtMix (x : Nat) : Nat := x ^^^ (x >>> 30)

/-- `init_genrand`, from word `i` on; the words are collected in reverse. -/
def mtInitFrom : Nat → Nat → Nat → List Nat → List Nat
  | 0, _, _, acc => acc.reverse
  | n + 1, i, prev, acc => strict ((1812433253 * mtMix prev + i) % word) fun v => mtInitFrom n (i + 1) v (v :: acc)

/-- `init_genrand(s)`: 624 words. -/
def mtInit (s : Nat) : List Nat := strict (s % word) fun v => mtInitFrom 623 1 v [v]

/-- A pass over some words: each new word is computed from its number, the word before it (already new) and its old value. The new words
are collected in reverse. -/
def mtPass (f : Nat → Nat → Nat → Nat) : Nat → Nat → List Nat → List Nat → List Nat
  | _, _, [], acc => acc
  | i, prev, x :: l, acc => strict (f i prev x) fun v => mtPass f (i + 1) v l (v :: acc)

/-- First loop of `init_by_array`, round `j`. -/
def mtKeyStep (key : List Nat) (j prev x : Nat) : Nat :=
  ((x ^^^ (mtMix prev * 1664525)) + key.getD (j % key.length) 0 + j % key.length) % word

/-- Second loop of `init_by_array`, word `i`. -/
def mtLastStep (i prev x : Nat) : Nat := ((x ^^^ (mtMix prev * 1566083941)) % word + word - i) % word

/-- `init_by_array(key)` for at most 624 words. The first loop treats the words 1 to 623 and word 1 again, the second one the words 2 to
623 and word 1. Word 0 gets the value of word 623 in between, so that it is the word before word 1. -/
def mtInitByArray (key : List Nat) : List Nat :=
  match mtInit 19650218 with
  | [] => []
  | first :: l =>
    match mtPass (mtKeyStep key) 0 first l [] with
    | [] => []
    | last :: back =>
      match (last :: back).reverse with
      | [] => []
      | x :: rest =>
        strict (mtKeyStep key 623 last x) fun v =>
          match mtPass mtLastStep 2 v rest [] with
          | [] => []
          | last' :: back' => strict (mtLastStep 1 last' v) fun w => 0x80000000 :: w :: (last' :: back').reverse

/-- `genrand_uint32`: a new word from the word at its place, the following one and the one 397 places later. -/
def mtTwistWord (a b c : Nat) : Nat :=
  c ^^^ (((a &&& 0x80000000) ||| (b &&& 0x7fffffff)) >>> 1) ^^^ (if b % 2 = 1 then 0x9908b0df else 0)

/-- The last 227 new words, in order; the first of them is 397 places after the current place, counted around. -/
def mtAround (back : List Nat) : List Nat := back.reverse.drop (back.length - 227)

/-- `genrand_uint32`, the 624 new words: the old words from the current place on, the words 397 places later as far as they are
listed, and the new words in reverse. After the last old word the places start again with the new words. -/
def mtTwistFrom : List Nat → List Nat → List Nat → List Nat
  | a :: b :: l, c :: far, back => strict (mtTwistWord a b c) fun v => mtTwistFrom (b :: l) far (v :: back)
  | a :: b :: l, [], back =>
    strict (mtTwistWord a b ((mtAround back).getD 0 0)) fun v => mtTwistFrom (b :: l) (mtAround back).tail (v :: back)
  | [a], far, back =>
    strict (mtTwistWord a (back.reverse.getD 0 0) ((far ++ mtAround back).getD 0 0)) fun v => (v :: back).reverse
  | [], _, back => back.reverse

def mtTwist (mt : List Nat) : List Nat := mtTwistFrom mt (mt.drop 397) []

/-- `genrand_uint32`, tempering. -/
def mtTemper (y : Nat) : Nat :=
  let y := y ^^^ (y >>> 11)
  let y := y ^^^ ((y <<< 7) &&& 0x9d2c5680)
  let y := y ^^^ ((y <<< 15) &&& 0xefc60000)
  y ^^^ (y >>> 18)

/-- State of the generator: 624 words and the number of words already used. -/
structure Twister where
  mt : List Nat
  pos : Nat
  deriving DecidableEq, Repr

/-- `genrand_uint32` -/
def Twister.next (s : Twister) : Nat × Twister :=
  if 624 ≤ s.pos then
    match mtTwist s.mt with
    | [] => (0, ⟨[], 1⟩)
    | w :: l => (mtTemper w, ⟨w :: l, 1⟩)
  else (mtTemper (s.mt.getD s.pos 0), ⟨s.mt, s.pos + 1⟩)

/-- `getrandbits(k)`: whole words first, then the rest of the bits. -/
def Twister.bits : Nat → Twister → Nat × Twister := fun k s =>
  if k = 0 then (0, s)
  else if k ≤ 32 then (s.next.1 >>> (32 - k), s.next.2)
  else
    let r := Twister.bits (k - 32) s.next.2
    (s.next.1 + word * r.1, r.2)
termination_by k => k
decreasing_by omega

/-- `random_seed`: the words of `abs(seed)`, lowest first, at least one. -/
def seedWords (n : Nat) : List Nat := if n < word then [n] else n % word :: seedWords (n / word)
termination_by n
decreasing_by exact Nat.div_lt_self (by unfold word at *; omega) (by decide)

/-! ### The generator of the process -/

/-- What `random` needs of its generator. -/
structure Rng (S : Type) where
  /-- `random.seed(z)` for an integer -/
  seed : Int → S
  /-- `random.seed(None)`: from numbers given by the operating system -/
  fromOS : List Nat → S
  /-- `getrandbits(k)` -/
  bits : Nat → S → Nat × S

/-- Python's generator. -/
def mtRng : Rng Twister where
  seed z := ⟨mtInitByArray (seedWords z.natAbs), 624⟩
  fromOS os := ⟨mtInitByArray os, 624⟩
  bits := Twister.bits

section
variable {S : Type} (R : Rng S)

/-- `n.bit_length()` -/
def bitLength (n : Nat) : Nat := if n = 0 then 0 else n.log2 + 1

/-- `_randbelow_with_getrandbits(n)` -/
def randBelow : Nat → Nat → S → Except PyErr (Nat × S)
  | 0, _, _ => .error .outOfFuel
  | fuel + 1, n, s =>
    let r := R.bits (bitLength n) s
    if r.1 < n then .ok r else randBelow fuel n r.2

/-- The numbers drawn by `random.shuffle`, `Lib/random.py` lines 380-382, from index `i` down to 1. -/
def shuffleNumbers (fuel : Nat) : Nat → S → Except PyErr (List Nat × S)
  | 0, s => .ok ([], s)
  | i + 1, s => do
    let (j, s) ← randBelow R fuel (i + 2) s
    let (js, s) ← shuffleNumbers fuel i s
    return (j :: js, s)

/-- The numbers drawn by `random.sample` in the first branch, `Lib/random.py` lines 464-465: `k` numbers, below `n`, `n - 1`, …. -/
def poolNumbers (fuel : Nat) : Nat → Nat → S → Except PyErr (List Nat × S)
  | _, 0, s => .ok ([], s)
  | n, k + 1, s => do
    let (j, s) ← randBelow R fuel n s
    let (js, s) ← poolNumbers fuel (n - 1) k s
    return (j :: js, s)

/-- `Lib/random.py` lines 473-475: draw until the number is new. The first fuel is for `randbelow`. -/
def newBelow (fuel : Nat) (n : Nat) (selected : List Nat) : Nat → S → Except PyErr (Nat × S)
  | 0, _ => .error .outOfFuel
  | f + 1, s => do
    let (j, s) ← randBelow R fuel n s
    if j ∈ selected then newBelow fuel n selected f s else return (j, s)

/-- The new numbers drawn by `random.sample` in the second branch, `Lib/random.py` lines 470-477. -/
def setNumbers (fuel : Nat) (n : Nat) : List Nat → Nat → S → Except PyErr (List Nat × S)
  | _, 0, s => .ok ([], s)
  | selected, k + 1, s => do
    let (j, s) ← newBelow R fuel n selected fuel s
    let (js, s) ← setNumbers fuel n (j :: selected) k s
    return (j :: js, s)

/-- `Lib/random.py` lines 456-458: `setsize`, with an exact logarithm. -/
def setSize (k : Nat) : Nat := if k ≤ 5 then 21 else 21 + 4 ^ Nat.clog 4 (3 * k)

/-- The numbers drawn by `random.sample` for `k` of `n` elements. -/
def sampleNumbers (fuel n k : Nat) (s : S) : Except PyErr (List Nat × S) :=
  if n ≤ setSize k then poolNumbers R fuel n k s else setNumbers R fuel n [] k s

variable {ι : Type}

/-- `random.sample(l, k)`: result and generator afterwards. -/
def rngSample (fuel : Nat) (l : List ι) (k : Nat) (s : S) : Except PyErr (List ι × S) :=
  if l.length < k then .error (.valueError "k")
  else do
    let (js, s) ← sampleNumbers R fuel l.length k s
    let r ← pySample (decide (l.length ≤ setSize k)) js l
    return (r, s)

/-- `random.shuffle(l)`: the list and the generator afterwards. -/
def rngShuffle (fuel : Nat) (l : List ι) (s : S) : Except PyErr (List ι × S) := do
  let (js, s) ← shuffleNumbers R fuel (l.length - 1) s
  let r ← pyShuffle js l
  return (r, s)

/-- `random.seed(self.random_seed)`, clusters_based.py line 227 and kmeans.py line 415; `os` are the numbers of the operating system.
The state of the generator before the call does not occur. -/
def reseed (seed : Option Int) (os : List Nat) : S :=
  match seed with
  | some z => R.seed z
  | none => R.fromOS os

end

section
variable {S α V δ : Type} (R : Rng S) [LinearOrder α] [LinearOrder δ]

/-- `sample` of clusters_based.py, lines 115-247, with the generator of the process: result and generator afterwards. An exception
raised before line 227 leaves the generator alone. -/
def Sampler.sampleG (cfg : Sampler) (seed : Option Int) (os : List Nat) (fuel : Nat) (m : Manager α) (nb : Option Int)
    (clustering : Option (Dict α Int)) (vectors : Option (Dict α V)) (metric : V → V → δ) (g : S) : Except PyErr (List (α × α)) × S :=
  match nb with
  | none => (.error (.valueError "nb_to_select"), g)
  | some n =>
    if n < 0 then (.error (.valueError "nb_to_select"), g)
    else if n = 0 then (.ok [], g)
    else if cfg.clusters.isSome = true ∧ clustering.isNone = true then (.error (.valueError "clustering_result"), g)
    else if cfg.distance.isSome = true ∧ vectors.isNone = true then (.error (.valueError "vectors"), g)
    else
      match cfg.possiblePairs m (clustering.getD []) with
      | .error e => (.error e, g)
      | .ok pairs =>
        match cfg.distance with
        | none =>
          match rngSample R fuel pairs (min n.toNat pairs.length) (reseed R seed os) with
          | .ok (r, g') => (.ok r, g')
          | .error e => (.error e, reseed R seed os)
        | some d =>
          match distanceTable m (vectors.getD []) metric with
          | .error e => (.error e, g)
          | .ok table =>
            match (pairs.mapM fun p => do return (← pairDistance table p, p) : Except PyErr (List (δ × (α × α)))) with
            | .error e => (.error e, reseed R seed os)
            | .ok keyed => (.ok ((sortedByKey (decide (d = .farthestNeighbors)) keyed).take n.toNat), reseed R seed os)

/-- `cluster` of kmeans.py, lines 141-201, with the generator of the process: result and generator afterwards. Only
`initialize_centroids` (lines 411-416) uses it. -/
def kmClusterG (env : KMeansEnv α V δ) (seed : Option Int) (os : List Nat) (fuel : Nat) (maxIteration : Nat) (m : Manager α)
    (vectors : Option (Dict α V)) (nb : Option Int) (g : S) : Except PyErr (Dict α Int × Dict Int V) × S :=
  match vectors, nb with
  | none, _ => (.error (.valueError "vectors"), g)
  | some _, none => (.error (.valueError "nb_clusters"), g)
  | some vs, some n =>
    if n < 2 then (.error (.valueError "nb_clusters"), g)
    else
      match rngShuffle R fuel m.managed (reseed R seed os) with
      | .error e => (.error e, reseed R seed os)
      | .ok (l, g') => (kmCOP { env with shuffle := fun _ => l } m vs (min n.toNat m.managed.length) maxIteration, g')

end

end Verif
