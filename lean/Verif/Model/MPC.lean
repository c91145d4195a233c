import Verif.Py.Extremum
import Verif.Model.Matrix
import Verif.Model.Rename

/-
Model of `clustering/mpckmeans.py`, class `MPCKMeansConstrainedClustering`.
All line numbers refer to
/repo/src/cognitivefactory/interactive_clustering/clustering/mpckmeans.py

Simplifications:
* Distances are elements of a linear order `κ` (floats without NaN); the arithmetic (means,
  Mahalanobis distances, penalties, the metric update of lines 588-612, the convergence test) are
  arbitrary functions. What is modelled is which points, clusters and constraints they are given.
* A `set` of indices is a list without repetition; a `for` loop over it uses any order (`enum`).
* `np.random` is a parameter: any shuffle, first centre and choice of points.
* `depth` is the number of nested calls of `_dfs` that fit on Python's stack.
* `verbose`, `y`, the warning and the type check of the manager are not modelled; the vectors are
  rows of equal length.
-/

namespace Verif

/-- What the code takes from numpy, scipy, `random` and the interpreter. -/
structure MpcEnv (V κ θ : Type) where
  /-- iteration over a `set` -/
  enum : List Nat → List Nat
  /-- calls of `_dfs` that fit on the stack -/
  depth : Nat
  /-- `np.random.shuffle(list(range(n)))` in some iteration, lines 542-543 -/
  shuffle : Nat → Nat → List Nat
  /-- `np.random.choice(len(points), size=1, p=weights)[0]`, line 368 -/
  pick : List Nat → Nat
  /-- `np.random.choice(n, k, replace=False)`, line 499 -/
  choice : Nat → Nat → List Nat
  /-- `mean(axis=0)` -/
  mean : List V → V
  zero : κ
  add : κ → κ → κ
  /-- euclidean distance, line 306 -/
  dist : V → V → κ
  /-- `weights[j] * dst`: size of the neighbourhood, sum of the sizes, distance; lines 483 and 379 -/
  weigh : Nat → Nat → κ → κ
  /-- `np.identity`, line 250 -/
  identity : θ
  /-- `_dist`, line 323 -/
  mdist : θ → V → V → κ
  /-- `_dist(x, center) - log_det_a`, lines 518-524 -/
  termD : θ → V → V → κ
  /-- `2 * w * _f_m`, line 529 -/
  termM : θ → V → V → κ
  /-- `2 * w * _f_c`, line 535; the third argument is `farthest[2]` -/
  termC : θ → κ → V → V → κ
  /-- `_update_metrics`, lines 588-612: points, labels, centres, farthest pair, graphs -/
  metric : List V → List Int → List V → Nat × Nat × κ → Dict Nat (List Nat) → Dict Nat (List Nat) → θ
  /-- `np.allclose`, lines 272-273 -/
  close : List V → List V → Bool

/-- The parameters kept by `__init__`; the weight is part of `termM`, `termC` and `metric`. -/
structure MpcParams where
  maxIteration : Nat
  deriving DecidableEq, Repr

/-- `__init__`, lines 127-140; `negative` says whether `w < 0`. -/
def MpcParams.init (model : String) (maxIteration : Int) (negative : Bool) : Except PyErr MpcParams :=
  if model ≠ "MPC" then .error (.valueError "model")
  else if maxIteration < 1 then .error (.valueError "max_iteration")
  else if negative = true then .error (.valueError "weight")
  else .ok ⟨maxIteration.toNat⟩

/-! ### Constraints -/

section
variable {α : Type} [LinearOrder α]

/-- Lines 216-241: the list of pairs of positions with an inferred constraint of some type. -/
def mpcPairs (m : Manager α) (t : CType) : Except PyErr (List (Nat × Nat)) := do
  let pairs := m.managed.zipIdx.flatMap fun p => m.managed.zipIdx.map fun q => (p, q)
  let kept ← pairs.filterM fun r => do return decide ((← m.getInferred r.2.1 r.1.1) = some t)
  return kept.map fun r => (r.1.2, r.2.2)

/-- Adjacency sets. -/
abbrev Graph := Dict Nat (List Nat)

/-- `d[i].add(j)` -/
def gAdd (g : Graph) (i j : Nat) : Except PyErr Graph := do return dset g i (oinsert (← dget g i) j)

/-- `_add_both`, lines 392-394. -/
def gAddBoth (g : Graph) (i j : Nat) : Except PyErr Graph := do gAdd (← gAdd g i j) j i

/-- Lines 424-429. -/
def gEmpty (n : Nat) : Graph := dofList ((List.range n).map fun k => (k, []))

/-- Lines 431-433 and 435-437. -/
def gOfPairs (n : Nat) (pairs : List (Nat × Nat)) : Except PyErr Graph :=
  pairs.foldlM (fun g p => gAddBoth g p.1 p.2) (gEmpty n)

/-- `_dfs`, lines 396-401; the state is `(visited, component)`. -/
def mpcDfs (enum : List Nat → List Nat) (g : Graph) : (depth : Nat) → Nat → List Bool × List Nat →
    Except PyErr (List Bool × List Nat)
  | 0, _, _ => .error .recursionError
  | depth + 1, i, s => do
    let visited ← lset s.1 i true
    let t ← (enum (← dget g i)).foldlM
      (fun t j => do if (← lget t.1 j) = true then return t else mpcDfs enum g depth j t) (visited, s.2)
    return (t.1, t.2 ++ [i])

/-- Lines 445-448. -/
def gClose (g : Graph) (component : List Nat) : Except PyErr Graph :=
  component.foldlM (fun g x1 => component.foldlM (fun g x2 => if x1 ≠ x2 then gAdd g x1 x2 else pure g) g) g

/-- The state of the loop of lines 441-449. -/
structure MpcNbh where
  graph : Graph
  visited : List Bool
  neighborhoods : List (List Nat)

/-- Lines 442-449, one index. -/
def mpcNbhStep (enum : List Nat → List Nat) (depth : Nat) (s : MpcNbh) (index : Nat) : Except PyErr MpcNbh := do
  if (← lget s.visited index) = true then return s
  else if (← dget s.graph index) = [] then return s
  else
    let t ← mpcDfs enum s.graph depth index (s.visited, [])
    return ⟨← gClose s.graph t.2, t.1, s.neighborhoods ++ [t.2]⟩

/-- Lines 439-449. -/
def mpcNbhs (enum : List Nat → List Nat) (depth n : Nat) (ml : Graph) : Except PyErr MpcNbh :=
  (List.range n).foldlM (mpcNbhStep enum depth) ⟨ml, List.replicate n false, []⟩

/-- Lines 452-460, one cannot-link. -/
def mpcSpread (enum : List Nat → List Nat) (ml : Graph) (cl : Graph) (p : Nat × Nat) : Except PyErr Graph := do
  let cl ← (enum (← dget ml p.1)).foldlM (fun g x => gAddBoth g x p.2) cl
  let cl ← (enum (← dget ml p.2)).foldlM (fun g y => gAddBoth g p.1 y) cl
  (enum (← dget ml p.1)).foldlM (fun g a => do (enum (← dget ml p.2)).foldlM (fun g b => gAddBoth g a b) g) cl

/-- Lines 462-465, one pair. -/
def mpcCheck (cl : Graph) (p : Nat × Nat) : Except PyErr Unit := do
  if p.2 ≠ p.1 then
    if p.2 ∈ (← dget cl p.1) then throw (.valueError "inconsistent")

/-- `preprocess_constraints`, lines 403-467. -/
def mpcPreprocess (enum : List Nat → List Nat) (depth n : Nat) (ml cl : List (Nat × Nat)) :
    Except PyErr (Graph × Graph × List (List Nat)) := do
  let mlg ← gOfPairs n ml
  let clg ← gOfPairs n cl
  let s ← mpcNbhs enum depth n mlg
  let clg ← cl.foldlM (mpcSpread enum s.graph) clg
  (s.graph.flatMap fun e => (enum e.2).map fun j => (e.1, j)).forM (mpcCheck clg)
  return (s.graph, clg, s.neighborhoods)

end

/-! ### Centres and labels -/

section
variable {V κ θ : Type} [LinearOrder κ]

/-- `np.argmin`: the first smallest entry; `ValueError` for an empty list. -/
def npArgmin (l : List κ) : Except PyErr Nat :=
  match pyMinBy Prod.fst l.zipIdx with
  | some p => .ok p.2
  | none => .error (.valueError "argmin")

/-- `dist`, lines 306-307. -/
def mpcSetDist (env : MpcEnv V κ θ) (points : List V) (i : Nat) (S : List Nat) : Except PyErr κ := do
  let ds ← S.mapM fun j => do return env.dist (← lget points i) (← lget points j)
  match ds.min? with
  | some d => return d
  | none => throw (.valueError "min")

/-- Lines 376-383, one index. -/
def mpcFarStep (env : MpcEnv V κ θ) (points : List V) (sizes traversed : List Nat) (s : κ × Option Nat) (j : Nat) :
    Except PyErr (κ × Option Nat) := do
  if j ∈ traversed then return s
  else
    let d := env.weigh (← lget sizes j) sizes.sum (← mpcSetDist env points j traversed)
    if s.1 < d then return (d, some j) else return s

/-- Lines 372-385, one more point. When no point is found `None` is appended; whatever the remaining
iterations append, indexing with a list that contains `None` (line 489) is an `IndexError`, which is
raised here at once. -/
def mpcFarthest (env : MpcEnv V κ θ) (points : List V) (sizes traversed : List Nat) : Except PyErr (List Nat) := do
  let s ← (List.range points.length).foldlM (mpcFarStep env points sizes traversed) (env.zero, none)
  match s.2 with
  | some j => return traversed ++ [j]
  | none => throw .indexError

/-- `weighted_farthest_first_traversal`, lines 353-387. -/
def mpcTraversal (env : MpcEnv V κ θ) (points : List V) (sizes : List Nat) (k : Nat) : Except PyErr (List Nat) :=
  (List.range (k - 1)).foldlM (fun traversed _ => mpcFarthest env points sizes traversed) [env.pick sizes]

/-- `_initialize_cluster_centers`, lines 469-503. -/
def mpcInit (env : MpcEnv V κ θ) (X : List V) (nbhs : List (List Nat)) (nb : Nat) : Except PyErr (List V) := do
  let centers ← nbhs.mapM fun P => do return env.mean (← P.mapM fun i => lget X i)
  if nb < nbhs.length then
    (← mpcTraversal env centers (nbhs.map List.length) nb).mapM fun i => lget centers i
  -- line 495: `X.shape[1]` when there is no vector at all
  else if nbhs = [] ∧ X = [] then throw .indexError
  else if nbhs.length < nb then
    -- line 499: `replace=False`
    if X.length < nb - nbhs.length then throw (.valueError "choice")
    return centers ++ (← (env.choice X.length (nb - nbhs.length)).mapM fun i => lget X i)
  else return centers

/-- Lines 344-347, one pair. -/
def mpcPairStep (env : MpcEnv V κ θ) (A : θ) (X : List V) (s : κ × Option (Nat × Nat × κ)) (p : Nat × Nat) :
    Except PyErr (κ × Option (Nat × Nat × κ)) := do
  let d := env.mdist A (← lget X p.1) (← lget X p.2)
  if s.1 < d then return (d, some (p.1, p.2, d)) else return s

/-- `_find_farthest_pairs_of_points`, lines 325-351. -/
def mpcFarPair (env : MpcEnv V κ θ) (A : θ) (X : List V) : Except PyErr (Nat × Nat × κ) := do
  let pairs := (List.range X.length).flatMap fun i => (List.range i).map fun j => (i, j)
  let s ← pairs.foldlM (mpcPairStep env A X) (env.zero, none)
  match s.2 with
  | some f => return f
  | none => throw .assertionError

/-- Lines 527-529, one must-linked point. -/
def mpcTermM (env : MpcEnv V κ θ) (A : θ) (X : List V) (labels : List Int) (i c : Nat) (t : κ) (j : Nat) :
    Except PyErr κ := do
  let l ← lget labels j
  if 0 ≤ l ∧ l ≠ (c : Int) then return env.add t (env.termM A (← lget X i) (← lget X j)) else return t

/-- Lines 532-535, one cannot-linked point. -/
def mpcTermC (env : MpcEnv V κ θ) (A : θ) (far : κ) (X : List V) (labels : List Int) (i c : Nat) (t : κ) (k : Nat) :
    Except PyErr κ := do
  if (← lget labels k) = (c : Int) then return env.add t (env.termC A far (← lget X i) (← lget X k)) else return t

/-- `_objective_fn`, lines 515-537. -/
def mpcObjective (env : MpcEnv V κ θ) (A : θ) (far : κ) (X centers : List V) (ml cl : Graph) (labels : List Int) (i c : Nat) :
    Except PyErr κ := do
  let d := env.termD A (← lget X i) (← lget centers c)
  let tm ← (env.enum (← dget ml i)).foldlM (mpcTermM env A X labels i c) env.zero
  let tc ← (env.enum (← dget cl i)).foldlM (mpcTermC env A far X labels i c) env.zero
  return env.add (env.add d tm) tc

/-- Lines 544-550, one point. -/
def mpcAssignStep (env : MpcEnv V κ θ) (A : θ) (far : κ) (X centers : List V) (ml cl : Graph) (labels : List Int) (i : Nat) :
    Except PyErr (List Int) := do
  let values ← (List.range centers.length).mapM (mpcObjective env A far X centers ml cl labels i)
  lset labels i ((← npArgmin values : Nat) : Int)

/-- `np.bincount(labels, minlength)`: `ValueError` for negative numbers. -/
def bincount (labels : List Int) (minlength : Nat) : Except PyErr (List Nat) :=
  if (labels.any fun l => decide (l < 0)) = true then .error (.valueError "bincount")
  else
    let size := max minlength (labels.foldl (fun s l => max s (l.toNat + 1)) 0)
    .ok ((List.range size).map fun (c : Nat) => labels.countP fun l => decide (l = (c : Int)))

/-- `np.where(counts == 0)[0]` -/
def emptyClusters (counts : List Nat) : List Nat :=
  (List.range counts.length).filter fun c => decide (counts[c]? = some 0)

/-- Lines 558-566: the points of the clusters with several points, with the distance to the centre;
`dist` is `_dist(X[point], cluster_centers[cluster_id], A)`. -/
def mpcDonors (dist : Nat → Nat → Except PyErr κ) (labels : List Int) (counts : List Nat) : Except PyErr (Dict Nat κ) := do
  let filled := (List.range counts.length).filter fun c => decide (1 < (counts[c]?).getD 0)
  let pairs := filled.flatMap fun (c : Nat) =>
    ((List.range labels.length).filter fun p => decide (labels[p]? = some (c : Int))).map fun p => (p, c)
  let items ← pairs.mapM fun q => do return (q.1, ← dist q.1 q.2)
  return dofList items

/-- Lines 556-572, one empty cluster. -/
def mpcFillStep (dist : Nat → Nat → Except PyErr κ) (s : List Int × List Nat) (c : Nat) : Except PyErr (List Int × List Nat) := do
  let donors ← mpcDonors dist s.1 s.2
  match pyMaxBy Prod.snd donors with
  | none => throw (.valueError "max")
  | some d =>
    let labels ← lset s.1 d.1 (c : Int)
    return (labels, ← bincount labels 10)

/-- Lines 552-579. -/
def mpcRepair (dist : Nat → Nat → Except PyErr κ) (nb : Nat) (labels : List Int) : Except PyErr (List Int) := do
  let counts ← bincount labels nb
  let s ← (emptyClusters counts).foldlM (mpcFillStep dist) (labels, counts)
  if emptyClusters s.2 ≠ [] then throw (.valueError "Empty Clusters Exception")
  return s.1

/-- `_assign_clusters`, lines 539-579. -/
def mpcAssign (env : MpcEnv V κ θ) (A : θ) (far : κ) (X centers : List V) (ml cl : Graph) (nb it : Nat) :
    Except PyErr (List Int) := do
  let labels ← (env.shuffle it X.length).foldlM (mpcAssignStep env A far X centers ml cl) (List.replicate X.length (-1))
  mpcRepair (fun p c => do return env.mdist A (← lget X p) (← lget centers c)) nb labels

/-- `_get_cluster_centers`, lines 581-582. -/
def mpcCenters (env : MpcEnv V κ θ) (X : List V) (labels : List Int) (nb : Nat) : List V :=
  (List.range nb).map fun (c : Nat) => env.mean ((X.zip labels).filterMap fun q => if q.2 = (c : Int) then some q.1 else none)

/-- Lines 252-277: the loop, with `left` iterations left; the result is the last `labels`. (Before the
first iteration `labels` is unbound; `max_iteration` is at least 1.) -/
def mpcLoop (env : MpcEnv V κ θ) (X : List V) (ml cl : Graph) (nb : Nat) :
    (left it : Nat) → List V → θ → List Int → Except PyErr (List Int)
  | 0, _, _, _, labels => .ok labels
  | left + 1, it, centers, A, _ => do
    let far ← mpcFarPair env A X
    let labels ← mpcAssign env A far.2.2 X centers ml cl nb it
    let centers' := mpcCenters env X labels nb
    if env.close centers centers' = true then return labels
    else mpcLoop env X ml cl nb left (it + 1) centers' (env.metric X labels centers' far ml cl) labels

end

section
variable {α V κ θ : Type} [LinearOrder α] [LinearOrder κ]

/-- Lines 243-277: the labels of the rows of `X`. -/
def mpcLabels (env : MpcEnv V κ θ) (p : MpcParams) (n nb : Nat) (ml cl : List (Nat × Nat)) (X : List V) :
    Except PyErr (List Int) := do
  let g ← mpcPreprocess env.enum env.depth n ml cl
  let centers ← mpcInit env X g.2.2 nb
  mpcLoop env X g.1 g.2.1 nb p.maxIteration 0 centers env.identity []

/-- `cluster`, lines 159-287. `vectors = none` stands for an argument that is not a `dict`. -/
def mpcCluster (env : MpcEnv V κ θ) (p : MpcParams) (m : Manager α) (vectors : Option (Dict α V)) (nb : Option Int) :
    Except PyErr (Dict α Int) :=
  match vectors, nb with
  | none, _ => .error (.valueError "vectors")
  | some _, none => .error (.valueError "nb_clusters")
  | some vectors, some nb => do
    -- lines 201-204
    if nb < 2 then throw (.valueError "nb_clusters")
    let k := min nb.toNat m.managed.length
    -- lines 215-241
    let ml ← mpcPairs m .mustLink
    let cl ← mpcPairs m .cannotLink
    -- lines 243-277
    let labels ← mpcLabels env p m.managed.length k ml cl (dvals vectors)
    -- line 279
    let items ← (labels.zipIdx.filter fun q => decide (q.1 ≠ -1)).mapM fun q => do return (← lget (dkeys vectors) q.2, q.1)
    -- line 281
    let renamed ← renameClusters (dofList items)
    -- lines 283-285
    return m.managed.foldl (fun d x => if x ∈ dkeys d then d else dset d x (-1)) renamed

end

end Verif
