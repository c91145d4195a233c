import Verif.Model.MPC
import Verif.Model.Twister
import Verif.Py.Float

/-
The generator behind `np.random` and the calls of
/repo/src/cognitivefactory/interactive_clustering/clustering/mpckmeans.py that use it (lines 368, 499 and 543).

The functions of numpy are those of the legacy generator: `mt19937_seed` (`numpy/random/src/mt19937/mt19937.c`), `random_interval`
(`numpy/random/src/distributions/distributions.c`), `RandomState.random_sample`, `shuffle`, `permutation` and `choice`
(`numpy/random/mtrand.pyx`). `np.random` has one generator for the whole process; its words are those of the Mersenne Twister of
`Verif/Model/Twister.lean`.

Simplified: lists have less than 2^32 entries; the loop that draws again takes fuel. `choice` with probabilities refuses probabilities that do not
sum to 1 up to `1.5e-8`; the weights of line 476 are divided by their sum.
-/

namespace Verif

/-- `np.random.seed(z)` for `0 ≤ z < 2^32`: `mt19937_seed`. -/
def npSeed (z : Nat) : Twister := ⟨mtInit z, 624⟩

/-- "Smallest bit mask >= max" -/
def npMask (max : Nat) : Nat := 2 ^ bitLength max - 1

section
variable {S : Type} (next : S → Nat × S)

/-- `random_interval(max)` for `max < 2^32`: words of 32 bits are drawn until the masked word is at most `max`. -/
def npInterval : (fuel max : Nat) → S → Except PyErr (Nat × S)
  | 0, _, _ => .error .outOfFuel
  | fuel + 1, max, s =>
    if max = 0 then .ok (0, s)
    else if (next s).1 &&& npMask max ≤ max then .ok ((next s).1 &&& npMask max, (next s).2)
    else npInterval fuel max (next s).2

/-- The numbers drawn by `shuffle`, from index `i` down to 1. -/
def npShuffleNumbers (fuel : Nat) : Nat → S → Except PyErr (List Nat × S)
  | 0, s => .ok ([], s)
  | i + 1, s => do
    let (j, s) ← npInterval next fuel (i + 1) s
    let (js, s) ← npShuffleNumbers fuel i s
    return (j :: js, s)

/-- `np.random.shuffle(l)`: the list and the generator afterwards. The items `i` and `j` are exchanged, as in `random.shuffle`. -/
def npShuffle {ι : Type} (fuel : Nat) (l : List ι) (s : S) : Except PyErr (List ι × S) := do
  let (js, s) ← npShuffleNumbers next fuel (l.length - 1) s
  let r ← pyShuffle js l
  return (r, s)

/-- `np.random.choice(n, k, replace=False)`: the first `k` entries of `permutation(n)`. -/
def npChoice (fuel n k : Nat) (s : S) : Except PyErr (List Nat × S) :=
  if n < k then .error (.valueError "choice")
  else do
    let (l, s) ← npShuffle next fuel (List.range n) s
    return (l.take k, s)

/-- `random_sample()` is `npUniform / 2^53`. -/
def npUniform (s : S) : Nat × S :=
  (((next s).1 >>> 5) * 2 ^ 26 + ((next (next s).2).1 >>> 6), (next (next s).2).2)

end

/-- `cumsum`; `rnd` is the rounding. -/
def npCumsum (rnd : ℚ → ℚ) : ℚ → List ℚ → List ℚ
  | _, [] => []
  | acc, p :: ps => rnd (acc + p) :: npCumsum rnd (rnd (acc + p)) ps

/-- `cdf = p.cumsum(); cdf /= cdf[-1]` -/
def npCdf (rnd : ℚ → ℚ) (ps : List ℚ) : List ℚ :=
  (npCumsum rnd 0 ps).map fun c => rnd (c / ((npCumsum rnd 0 ps).getLast?).getD 0)

/-- Line 476: the sizes divided by their sum. -/
def npWeights (rnd : ℚ → ℚ) (sizes : List Nat) : List ℚ := sizes.map fun (c : Nat) => rnd ((c : ℚ) / (sizes.sum : Nat))

/-- `cdf.searchsorted(u, side="right")` in a sorted array: how many entries are at most `u`. -/
def npSearch (cdf : List ℚ) (u : ℚ) : Nat := cdf.countP fun c => decide (c ≤ u)

/-- `np.random.choice(len(points), size=1, p=weights)[0]`, line 368, with the weights of line 476; `u` is the number of 53 bits that is drawn. -/
def npPick (rnd : ℚ → ℚ) (sizes : List Nat) (u : Nat) : Nat := npSearch (npCdf rnd (npWeights rnd sizes)) ((u : ℚ) / 2 ^ 53)

section
variable {S V κ θ : Type} [LinearOrder κ] (next : S → Nat × S) (rnd : ℚ → ℚ) (fuel : Nat)

/-- `_initialize_cluster_centers`, lines 469-503: centres and generator afterwards. The draws come after the means of line 475 and before
the centres are looked up; apart from that they raise nothing. -/
def mpcInitG (env : MpcEnv V κ θ) (X : List V) (nbhs : List (List Nat)) (nb : Nat) (s : S) : Except PyErr (List V × S) :=
  if nb < nbhs.length then do
    let u := npUniform next s
    return (← mpcInit { env with pick := fun sizes => npPick rnd sizes u.1 } X nbhs nb, u.2)
  else if nbhs.length < nb ∧ nb - nbhs.length ≤ X.length then do
    let (l, s) ← npChoice next fuel X.length (nb - nbhs.length) s
    return (← mpcInit { env with choice := fun _ _ => l } X nbhs nb, s)
  else do return (← mpcInit env X nbhs nb, s)

/-- Lines 252-277: labels and generator afterwards. Line 543 shuffles the indices before the assignment. -/
def mpcLoopG (env : MpcEnv V κ θ) (X : List V) (ml cl : Graph) (nb : Nat) :
    (left it : Nat) → List V → θ → List Int → S → Except PyErr (List Int × S)
  | 0, _, _, _, labels, s => .ok (labels, s)
  | left + 1, it, centers, A, _, s => do
    let far ← mpcFarPair env A X
    let (order, s) ← npShuffle next fuel (List.range X.length) s
    let labels ← mpcAssign { env with shuffle := fun _ _ => order } A far.2.2 X centers ml cl nb it
    let centers' := mpcCenters env X labels nb
    if env.close centers centers' = true then return (labels, s)
    else mpcLoopG env X ml cl nb left (it + 1) centers' (env.metric X labels centers' far ml cl) labels s

/-- Lines 243-277. -/
def mpcLabelsG (env : MpcEnv V κ θ) (p : MpcParams) (n nb : Nat) (ml cl : List (Nat × Nat)) (X : List V) (s : S) :
    Except PyErr (List Int × S) := do
  let g ← mpcPreprocess env.enum env.depth n ml cl
  let (centers, s) ← mpcInitG next rnd fuel env X g.2.2 nb s
  mpcLoopG next fuel env X g.1 g.2.1 nb p.maxIteration 0 centers env.identity [] s

/-- `cluster`, lines 159-287, with the generator of `np.random`: result and generator afterwards. `random_seed` (lines 100 and 143) is not
read. -/
def mpcClusterG {α : Type} [LinearOrder α] (env : MpcEnv V κ θ) (p : MpcParams) (m : Manager α) (vectors : Option (Dict α V)) (nb : Option Int) (s : S) :
    Except PyErr (Dict α Int × S) :=
  match vectors, nb with
  | none, _ => .error (.valueError "vectors")
  | some _, none => .error (.valueError "nb_clusters")
  | some vectors, some nb => do
    if nb < 2 then throw (.valueError "nb_clusters")
    let k := min nb.toNat m.managed.length
    let ml ← mpcPairs m .mustLink
    let cl ← mpcPairs m .cannotLink
    let (labels, s) ← mpcLabelsG next rnd fuel env p m.managed.length k ml cl (dvals vectors) s
    let items ← (labels.zipIdx.filter fun q => decide (q.1 ≠ -1)).mapM fun q => do return (← lget (dkeys vectors) q.2, q.1)
    let renamed ← renameClusters (dofList items)
    return (m.managed.foldl (fun d x => if x ∈ dkeys d then d else dset d x (-1)) renamed, s)

end

end Verif
