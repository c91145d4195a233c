import Mathlib.Data.String.Basic
import Mathlib.Algebra.Order.Ring.Rat
import Verif.Model.Affinity
import Verif.Model.Bounds
import Verif.Model.DBScan
import Verif.Model.Factory
import Verif.Model.Frequency
import Verif.Model.HierExport
import Verif.Model.Hierarchical
import Verif.Model.KMeans
import Verif.Model.MPCExact
import Verif.Model.Messages
import Verif.Model.Rename
import Verif.Model.Sampling
import Verif.Model.Serialize
import Verif.Model.Spectral
import Verif.Model.Twister

/-
Conformance checks. The modules `Verif/Tests/*.lean` are the tests of the repository, /repo/tests, run on
the model: each test function is translated statement by statement (same IDs, vectors, options, calls and
expected values) to a Boolean, which the kernel evaluates to `true`. They are checks of the model against
values the authors recorded from the code. They are not theorems about all inputs and no claim rests on them.

Where the model has a parameter, this module fixes it: vectors are lists of rationals (the decimals of the
test), the distance is the square root to twelve decimals, `random.shuffle` and `random.sample` are the
permutations that the generator of the standard library of python gives for the seed of the test
(Model/Twister.lean), a set is enumerated in the order of first insertion.
-/

namespace Verif.Tests

/-! ### Assertions -/

/-- `assert call == v` -/
def returns {β : Type} [DecidableEq β] (r : Except PyErr β) (v : β) : Bool :=
  match r with
  | .ok b => decide (b = v)
  | .error _ => false

/-- The call raises nothing. -/
def returnsSome {β : Type} (r : Except PyErr β) : Bool :=
  match r with
  | .ok _ => true
  | .error _ => false

/-- `assert call`, for a dictionary. -/
def returnsNonempty {β : Type} (r : Except PyErr (List β)) : Bool :=
  match r with
  | .ok b => !b.isEmpty
  | .error _ => false

/-- `assert not call`, for a list. -/
def returnsEmpty {β : Type} (r : Except PyErr (List β)) : Bool :=
  match r with
  | .ok b => b.isEmpty
  | .error _ => false

/-- `assert call1 == call2` -/
def sameReturn {β : Type} [DecidableEq β] (r s : Except PyErr β) : Bool :=
  match r, s with
  | .ok b, .ok c => decide (b = c)
  | _, _ => false

/-- Equality of dictionaries: the order of the keys does not matter. -/
def sameDict {κ ν : Type} [DecidableEq κ] [DecidableEq ν] (d e : Dict κ ν) : Bool :=
  decide (d.length = e.length) && d.all fun p => decide (dget? e p.1 = some p.2)

/-- `assert call == {…}` -/
def returnsDict {κ ν : Type} [DecidableEq κ] [DecidableEq ν] (r : Except PyErr (Dict κ ν)) (v : Dict κ ν) : Bool :=
  match r with
  | .ok b => sameDict b v
  | .error _ => false

/-- `with pytest.raises(ValueError, match="`tag`")` -/
def raisesValue {β : Type} (r : Except PyErr β) (tag : String) : Bool :=
  match r with
  | .ok _ => false
  | .error e => decide (e = .valueError tag)

/-- The same for the tag `constraint_type` and `add_constraint`: the model has two tags for two messages that
name the parameter (constraints/binary.py, lines 254 and 270). -/
def raisesType {β : Type} (r : Except PyErr β) : Bool := raisesValue r "constraint_type" || raisesValue r "conflict"

/-- `with pytest.raises(KeyError, …)` -/
def raisesKeyError {β : Type} (r : Except PyErr β) : Bool :=
  match r with
  | .ok _ => false
  | .error e => decide (e = .keyError)

/-- `assert object.name == v` -/
def hasAttr (r : Except PyErr PyObject) (name : String) (v : PyVal) : Bool :=
  match r with
  | .ok o => decide (dget? o.attrs name = some v)
  | .error _ => false

/-- `assert isinstance(object, class)` -/
def isClass (r : Except PyErr (ClusteringClass × PyObject)) (c : ClusteringClass) : Bool :=
  match r with
  | .ok o => decide (o.1 = c)
  | .error _ => false

/-! ### Numbers -/

/-- A row of a matrix. -/
abbrev Vec := List Rat

/-- Newton's method for the integer square root, from above. -/
def isqrtFrom (n : Nat) : Nat → Nat → Nat
  | 0, x => x
  | fuel + 1, x => let y := (x + n / x) / 2; if y < x then isqrtFrom n fuel y else x

def isqrt (n : Nat) : Nat := if n = 0 then 0 else isqrtFrom n 200 (2 ^ (n.log2 / 2 + 1))

/-- Square root, to twelve decimals. -/
def ratSqrt (q : Rat) : Rat := mkRat (isqrt (q * 10 ^ 24).floor.toNat) (10 ^ 12)

/-- Euclidean distance. -/
def euclid (v w : Vec) : Rat := ratSqrt ((v.zipWith (fun a b => (a - b) * (a - b)) w).foldl (· + ·) 0)

def vecAdd : Vec → Vec → Vec
  | a :: v, b :: w => (a + b) :: vecAdd v w
  | [], w => w
  | v, [] => v

/-- Mean of rows. -/
def vecMean (l : List Vec) : Vec := (l.foldl vecAdd []).map (· / l.length)

/-! ### Parameters of the models -/

def listOrders (nodes : List (String ⊕ Nat)) (_ : String ⊕ Nat → String ⊕ Nat → Bool) : Orders String :=
  ⟨nodes, nodes, nodes, nodes, nodes⟩

/-- `random.seed(seed); random.sample(l, k)` -/
def pickSeed (seed : Nat) {β : Type} (l : List β) (k : Nat) : List β :=
  match rngSample mtRng 1000 l k (mtRng.seed seed) with
  | .ok (r, _) => r
  | .error _ => []

/-- `random.seed(seed); random.shuffle(l)` -/
def shuffleSeed (seed : Nat) {β : Type} (l : List β) : List β :=
  match rngShuffle mtRng 1000 l (mtRng.seed seed) with
  | .ok (r, _) => r
  | .error _ => []

/-- COP-KMeans with `tolerance = 1e-4`; the shift is the sum of the distances, kmeans.py, lines 355-361. -/
def testKM (seed : Nat) : KMeansEnv String Vec Rat where
  metric := euclid
  mean := vecMean
  small l := decide ((l.map fun p => euclid p.1 p.2).foldl (· + ·) 0 < 1 / 10000)
  enum := List.dedup
  shuffle := shuffleSeed seed

def testHier : HierEnv Vec Rat where
  metric := euclid
  mean := vecMean
  ward l n k := l.foldl (· + ·) 0 / ((n : Rat) * k)

def testDb : DbEnv String Vec Rat where
  metric := euclid
  enum := List.dedup
  none := "NONE"

def testDbParams (eps : Rat) (minSamples : Nat) : DbParams Rat := ⟨eps, fun n => decide (eps ≤ n), minSamples⟩

/-- Affinity propagation without the noise of line 316. -/
def testAp : ApEnv Vec Rat (ApMessages Rat) (Nat × List (Mat Rat × Mat Rat)) := apExact euclid 0 0 fun _ _ => 0

/-- A row as a function. -/
def toFin (D : Nat) (v : Vec) (d : Fin D) : Rat := (v[d.val]?).getD 0

/-- MPC-KMeans in exact arithmetic (Model/MPCExact.lean) on rows of `D` numbers, with weight 1. The random
choices are the first ones; the logarithm of the determinant is the same for all clusters and is left out. -/
def testMpcChoices (D : Nat) : MpcChoices Rat D :=
  ⟨List.dedup, 1000, fun _ n => List.range n, fun _ => 0, fun _ k => List.range k, ratSqrt, fun _ => 0⟩

def testMpc (D : Nat) : MpcEnv Vec Rat Vec :=
  let e := mpcExact (testMpcChoices D) 1
  { enum := e.enum, depth := e.depth, shuffle := e.shuffle, pick := e.pick, choice := e.choice, mean := vecMean,
    zero := e.zero, add := e.add, dist := fun v w => e.dist (toFin D v) (toFin D w), weigh := e.weigh,
    identity := List.replicate D 1, mdist := fun a v w => e.mdist (toFin D a) (toFin D v) (toFin D w),
    termD := fun a v w => e.termD (toFin D a) (toFin D v) (toFin D w),
    termM := fun a v w => e.termM (toFin D a) (toFin D v) (toFin D w),
    termC := fun a far v w => e.termC (toFin D a) far (toFin D v) (toFin D w),
    metric := fun X labels centers far ml cl =>
      List.ofFn (e.metric (X.map (toFin D)) labels (centers.map (toFin D)) far ml cl),
    close := fun old new => e.close (old.map (toFin D)) (new.map (toFin D)) }

/-- Spectral clustering is only checked where scikit-learn is not reached. -/
def testSpec : SpecEnv Vec Rat := ⟨fun _ _ => 0, 1, 0, fun _ _ => .error .runtimeError⟩

end Verif.Tests
