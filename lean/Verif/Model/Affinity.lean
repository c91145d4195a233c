import Mathlib.Data.List.Dedup
import Mathlib.Data.List.Sort
import Verif.Py.Extremum
import Verif.Model.Matrix
import Verif.Model.Rename

/-
Model of `clustering/affinity_propagation.py`, class `AffinityPropagationConstrainedClustering` and
the functions `_equal_similarities_and_preferences` and `_affinity_propagation_constrained`.
All line numbers refer to
/repo/src/cognitivefactory/interactive_clustering/clustering/affinity_propagation.py

Simplifications:
* Similarities are elements of a linear order `κ` (floats without NaN).
* The arithmetic of the messages is a parameter: `update` computes the new responsibilities and
  availabilities and the vector `E` of line 417 from the similarities and the old messages (any
  type `μ`); `stepQ` computes the messages `Q1`, `Q2` of lines 379-383 (any type `θ`). What is
  modelled is what they are given, when the loop stops, and what becomes of `E`.
* `random_seed`, `verbose`, the warning and the type check of the manager are not modelled; the
  random noise of line 316 is any function on matrices.
-/

namespace Verif

/-- What the code takes from numpy / scikit-learn. -/
structure ApEnv (V κ μ θ : Type) where
  /-- euclidean distance of two rows -/
  dist : V → V → κ
  /-- unary minus, line 209 -/
  neg : κ → κ
  /-- `np.median` -/
  median : Mat κ → κ
  /-- line 316 -/
  noise : Mat κ → Mat κ
  zero : κ
  add : κ → κ → κ
  /-- `2 * x`, line 343 -/
  double : κ → κ
  /-- messages `A`, `R`, lines 351-352 -/
  initM : Nat → μ
  /-- messages `Q1`, `Q2`, lines 355-356: number of points, number of cannot-links -/
  initQ : Nat → Nat → θ
  /-- lines 379-383 -/
  stepQ : μ → θ → θ
  /-- `Q2[m, :, n]`, line 376 -/
  q2 : θ → Nat → Nat → List κ
  /-- lines 386-417: new messages and `E`, from `Sp` and the messages -/
  update : Mat κ → μ → μ × List Bool
  /-- `np.sum(S[ii[:, np.newaxis], ii], axis=0)`, line 439 -/
  colsum : Mat κ → List Nat → List κ

/-- The parameters kept by `__init__`, lines 94-146. -/
structure ApParams where
  maxIteration : Nat
  convergenceIteration : Nat
  absolute : Bool
  deriving DecidableEq, Repr

/-- `__init__`, lines 127-137. -/
def ApParams.init (maxIteration convergenceIteration : Int) (absolute : Bool) : Except PyErr ApParams :=
  if maxIteration < 1 then .error (.valueError "max_iteration")
  else if convergenceIteration < 1 then .error (.valueError "convergence_iteration")
  else .ok ⟨maxIteration.toNat, convergenceIteration.toNat, absolute⟩

section
variable {κ : Type} [LinearOrder κ]

/-- `np.argmax`: the first greatest entry; `ValueError` for an empty array. -/
def npArgmax (l : List κ) : Except PyErr Nat :=
  match pyMaxBy Prod.fst l.zipIdx with
  | some p => .ok p.2
  | none => .error (.valueError "argmax")

/-- `max(...)` of a generator; `ValueError` when it is empty. -/
def apMax (l : List κ) : Except PyErr κ :=
  match l.max? with
  | some a => .ok a
  | none => .error (.valueError "max")

/-- `np.min` -/
def npMin (l : List κ) : Except PyErr κ :=
  match l.min? with
  | some a => .ok a
  | none => .error (.valueError "min")

/-- The entries outside the diagonal, row by row: `S[mask]`, lines 255-256. -/
def offDiagonal (S : Mat κ) : List κ := (S.mapIdx fun i row => row.eraseIdx i).flatten

/-- `_equal_similarities_and_preferences`, lines 249-260; the preference is a single number. -/
def apEqual (S : Mat κ) : Except PyErr Bool :=
  match offDiagonal S with
  | [] => .error .indexError
  | a :: l => .ok ((a :: l).all fun b => decide (b = a))

/-- The greatest similarity between the points of two lists, lines 323-325. -/
def apMaxLink (S : Mat κ) (P Q : List Nat) : Except PyErr κ := do
  apMax (← (P.product Q).mapM fun p => mget S p.1 p.2)

/-- `S.flat[::(n + 1)] = preference`, line 346. -/
def setDiagonal (S : Mat κ) (v : κ) : Mat κ := S.mapIdx fun i row => row.set i v

end

section
variable {V κ μ θ : Type} [LinearOrder κ]

/-- Lines 334-340: the entry of `MPS` for a point and a closure. -/
def apMeta (env : ApEnv V κ μ θ) (S : Mat κ) (i : Nat) (P : List Nat) : Except PyErr κ :=
  if i ∈ P then .ok env.zero else do apMax (← P.mapM fun j => mget S i j)

/-- Lines 334-343: the matrix over points and closures (the entries of `MPS.T` are computed again). -/
def apBlock (env : ApEnv V κ μ θ) (S : Mat κ) (mls : List (List Nat)) : Except PyErr (Mat κ) := do
  let low := env.double (← npMin S.flatten)
  let top ← S.zipIdx.mapM fun p => do return p.1 ++ (← mls.mapM fun P => apMeta env S p.2 P)
  let bottom ← mls.mapM fun P => do
    return (← (List.range S.length).mapM fun i => apMeta env S i P) ++ List.replicate mls.length low
  return top ++ bottom

/-- Lines 369-376: `Sp`, when must-links are not absolute. `n` is the number of data points. -/
def apSp (env : ApEnv V κ μ θ) (S : Mat κ) (n : Nat) (cls : List (Nat × Nat)) (q : θ) : Mat κ :=
  S.mapIdx fun m row =>
    if m < n then row
    else
      let links := cls.zipIdx.filter fun c => decide (m = c.1.1 ∨ m = c.1.2)
      let total := links.foldl (fun t c => List.zipWith env.add t (env.q2 q m c.2)) (List.replicate row.length env.zero)
      List.zipWith env.add row total

/-- The state of the loop: messages and the table `e` of line 363 (the list of its columns). -/
structure ApState (μ θ : Type) where
  messages : μ
  q : θ
  hist : List (List Bool)

/-- Lines 421-424: whether the loop stops. -/
def apStops (conv N : Nat) (hist : List (List Bool)) (it : Nat) (E : List Bool) : Bool :=
  decide (conv ≤ it) &&
    decide (((List.range N).filter fun i =>
      let se := hist.countP fun col => decide (col[i]? = some true)
      decide (se = conv ∨ se = 0)).length = N) &&
    decide (0 < E.countP fun b => b)

/-- Lines 368-418, one iteration: the new state, `Sp` and `E`. -/
def apIter (env : ApEnv V κ μ θ) (p : ApParams) (S : Mat κ) (n : Nat) (cls : List (Nat × Nat)) (it : Nat)
    (s : ApState μ θ) : ApState μ θ × Mat κ × List Bool :=
  let Sp := if p.absolute = true then S else apSp env S n cls s.q
  let q := if p.absolute = true then s.q else env.stepQ s.messages s.q
  let u := env.update Sp s.messages
  (⟨u.1, q, s.hist.set (it % p.convergenceIteration) u.2⟩, Sp, u.2)

/-- Lines 367-428: the loop, with `left` iterations left. The result is `E` and `Sp` when the loop is
left by `break`, `none` for `never_converged`. -/
def apLoop (env : ApEnv V κ μ θ) (p : ApParams) (S : Mat κ) (n : Nat) (cls : List (Nat × Nat)) :
    (left it : Nat) → ApState μ θ → Option (List Bool × Mat κ)
  | 0, _, _ => none
  | left + 1, it, s =>
    let r := apIter env p S n cls it s
    if apStops p.convergenceIteration S.length r.1.hist it r.2.2 = true then some (r.2.2, r.2.1)
    else apLoop env p S n cls left (it + 1) r.1

/-- The state before the loop, lines 351-363. -/
def apInit (env : ApEnv V κ μ θ) (p : ApParams) (N : Nat) (cls : List (Nat × Nat)) : ApState μ θ :=
  ⟨env.initM N, env.initQ N cls.length, List.replicate p.convergenceIteration (List.replicate N false)⟩

/-- `np.flatnonzero(E)`, line 430. -/
def apExemplars (E : List Bool) : List Nat := (List.range E.length).filter fun i => decide (E[i]? = some true)

/-- Line 434, one point: the exemplar of greatest similarity. -/
def apNearest (row : List κ) (I : List Nat) : Except PyErr Nat := do npArgmax (← I.mapM fun i => lget row i)

/-- Lines 434-435 and 442-443. -/
def apAssign (Sp : Mat κ) (I : List Nat) : Except PyErr (List Nat) := do
  let c ← Sp.mapM fun row => apNearest row I
  return I.zipIdx.foldl (fun c q => c.set q.1 q.2) c

/-- Lines 438-440, one cluster. -/
def apRefine (env : ApEnv V κ μ θ) (S : Mat κ) (c : List Nat) (k : Nat) : Except PyErr Nat := do
  let ii := (List.range c.length).filter fun i => decide (c[i]? = some k)
  lget ii (← npArgmax (env.colsum S ii))

/-- Lines 434-444. -/
def apLabels (env : ApEnv V κ μ θ) (S Sp : Mat κ) (I : List Nat) : Except PyErr (List Nat) := do
  let c ← apAssign Sp I
  let I' ← (List.range I.length).mapM (apRefine env S c)
  let c' ← apAssign Sp I'
  c'.mapM (lget I')

/-- Lines 447-451: the labels of the meta-points are given to their members. -/
def apSpread (n : Nat) (labels : List Nat) (mls : List (List Nat)) : List Int :=
  (labels.zip mls).foldl (fun r q => q.2.foldl (fun r i => r.set i (q.1 : Int)) r) (List.replicate n (-1))

/-- Lines 456-457: `np.unique` and `np.searchsorted`. -/
def apCompact (labels : List Int) : List Int :=
  let unique := labels.dedup.insertionSort (· ≤ ·)
  labels.map fun l => ((unique.countP fun u => decide (u < l) : Nat) : Int)

/-- Lines 318-464, after the noise: `pref` is the preference of line 302. -/
def apFinish (env : ApEnv V κ μ θ) (p : ApParams) (pref : κ) (S : Mat κ) (mls : List (List Nat))
    (cls : List (Nat × Nat)) : Except PyErr (List Int) := do
  let n := S.length
  -- lines 319-346
  let S' ←
    if p.absolute = true then do
      let Saml ← mls.mapM fun P => mls.mapM fun Q => apMaxLink S P Q
      pure (setDiagonal Saml (env.median Saml))
    else do
      let B ← apBlock env S mls
      pure (setDiagonal B pref)
  -- lines 367-464
  match apLoop env p S' n cls p.maxIteration 0 (apInit env p S'.length cls) with
  | none => return List.replicate n (-1)
  | some (E, Sp) =>
    if 0 < (apExemplars E).length then
      let labels ← apLabels env S' Sp (apExemplars E)
      if p.absolute = true then return apCompact (apSpread n labels mls)
      else return apCompact ((labels.take n).map fun l => (l : Int))
    else return List.replicate n (-1)

/-- The condition of line 304. -/
def apSkips (S : Mat κ) : Except PyErr Bool :=
  if S.length = 1 then .ok true else apEqual S

/-- `_affinity_propagation_constrained`, lines 263-464. -/
def apRun (env : ApEnv V κ μ θ) (p : ApParams) (S : Mat κ) (mls : List (List Nat)) (cls : List (Nat × Nat)) :
    Except PyErr (List Int) := do
  let n := S.length
  -- line 302
  let pref := env.median S
  -- lines 304-309
  if (← apSkips S) = true then
    if (← mget S 0 (n - 1)) ≤ pref then return (List.range n).map fun (i : Nat) => (i : Int)
    else return List.replicate n 0
  else apFinish env p pref (env.noise S) mls cls

end

section
variable {α V κ μ θ : Type} [LinearOrder α] [LinearOrder κ]

/-- Lines 216-222: the added cannot-links, as pairs of positions. -/
def apCannotLinks (m : Manager α) : Except PyErr (List (Nat × Nat)) := do
  let pairs := (List.range m.managed.length).flatMap fun i =>
    ((List.range m.managed.length).filter fun j => decide (i < j)).map fun j => (i, j)
  pairs.filterM fun q => do
    let c ← m.getAdded (← lget m.managed q.1) (← lget m.managed q.2)
    return decide (c.map Prod.fst = some .cannotLink)

/-- Lines 237-239, one entry. -/
def apEntry (ids : List α) (q : Int × Nat) : Except PyErr (α × Int) := do return (← lget ids q.2, q.1)

/-- `cluster`, lines 152-241. `vectors = none` stands for an argument that is not a `dict`. -/
def apCluster (env : ApEnv V κ μ θ) (p : ApParams) (m : Manager α) (vectors : Option (Dict α V)) (nb : Option Int) :
    Except PyErr (Dict α Int) :=
  match vectors, nb with
  | none, _ => .error (.valueError "vectors")
  | some _, some _ => .error (.valueError "nb_clusters")
  | some vectors, none => do
    -- line 205
    let idx := dofList m.managed.zipIdx
    -- line 209
    let rows ← stackRows m vectors
    let S := rows.map fun v => rows.map fun w => env.neg (env.dist v w)
    -- lines 212-222
    let mls ← m.components.mapM fun c => c.mapM fun x => dget idx x
    let cls ← apCannotLinks m
    -- lines 225-239
    let labels ← apRun env p S mls cls
    let items ← labels.zipIdx.mapM (apEntry m.managed)
    renameClusters (dofList items)

end

end Verif
