import Verif.Model.FloatTfidf

/-
The computations of `Verif.Model.FloatDot` and `Verif.Model.FloatTfidf` with the range of binary64: results below `2^(-1022)` lose bits, and
results from `2^1024` on are not finite. `none` stands for a result that is not finite, and for what is computed from it.
/repo/src/cognitivefactory/interactive_clustering/utils/vectorization.py, lines 83-94
/repo/src/cognitivefactory/interactive_clustering/clustering/hierarchical.py, lines 168-171
/repo/src/cognitivefactory/interactive_clustering/clustering/kmeans.py, lines 255-262, 343-361, 459
/repo/src/cognitivefactory/interactive_clustering/clustering/dbscan.py, lines 205-218
/repo/src/cognitivefactory/interactive_clustering/sampling/clusters_based.py, lines 212-224
-/

namespace Verif

/-- Rounding of IEEE 754 binary64 (to nearest, ties to even): 53 significant bits, but no finer than `2^(-1074)`, and finite below `2^1024`. -/
def rnd64 (q : ℚ) : Option ℚ :=
  let r := if |q| < 1 / 2 ^ 1022 then (roundEven (q * 2 ^ 1074) : ℚ) / 2 ^ 1074 else fl q
  if |r| < 2 ^ 1024 then some r else none

/-- As `FlDot`. -/
inductive FlDot64 : List (ℚ × ℚ) → Option ℚ → Prop
  | nil : FlDot64 [] (some 0)
  | prod (x y : ℚ) : FlDot64 [(x, y)] (rnd64 (x * y))
  | add {l r t : List (ℚ × ℚ)} {a b : Option ℚ} : FlDot64 l a → FlDot64 r b → t.Perm (l ++ r) → FlDot64 t (do rnd64 ((← a) + (← b)))
  | fma {l t : List (ℚ × ℚ)} {a : Option ℚ} {x y : ℚ} : FlDot64 l a → t.Perm ((x, y) :: l) → FlDot64 t (do rnd64 ((← a) + x * y))

/-- As `FlEuclid`. (The root of a number of binary64 is in the range.) -/
def FlEuclid64 {D : Nat} (x y : Fin D → ℚ) (s : Option ℚ) : Prop :=
  (x = y ∧ s = some 0) ∨ ∃ p a b, FlDot64 (entries x y) p ∧ FlDot64 (entries x x) a ∧ FlDot64 (entries y y) b ∧ s = (do
    let u ← rnd64 (-2 * (← p))
    let u ← rnd64 (u + (← a))
    let u ← rnd64 (u + (← b))
    return flSqrt (max 0 u))

/-- As `flSum`. -/
def flSum64 (l : List ℚ) : Option ℚ := l.foldlM (fun s x => rnd64 (s + x)) 0

/-- As `flMean`. -/
def flMean64 (l : List ℚ) : Option ℚ := do
  let s ← flSum64 l
  let i ← rnd64 (1 / l.length)
  rnd64 (s * i)

/-- As `FlCalc`. -/
structure FlCalc64 where
  log : ℚ → ℚ
  dot : List (ℚ × ℚ) → Option ℚ

/-- As `flIdf`. -/
def flIdf64 (c : FlCalc64) (n df : Nat) : Option ℚ := do
  let a ← rnd64 (1 + n)
  let b ← rnd64 df
  let b ← rnd64 (b + 1)
  let q ← rnd64 (a / b)
  rnd64 (c.log q + 1)

/-- As `flWeights`. -/
def flWeights64 (c : FlCalc64) (docs : List (List (List Char))) (d : List (List Char)) : Option (List ℚ) :=
  (vocabulary docs).mapM fun t => do
    let k ← rnd64 (d.count t)
    let i ← flIdf64 c docs.length (docFreq docs t)
    rnd64 (k * i)

/-- As `flNormalize`. -/
def flNormalize64 (c : FlCalc64) (v : List ℚ) : Option (List ℚ) := do
  let s ← c.dot (v.map fun x => (x, x))
  if s = 0 then return v else v.mapM fun x => rnd64 (x / flSqrt s)

/-- As `flTfidf`; `none` if an entry is not finite. -/
def flTfidf64 (c : FlCalc64) (e : TfidfEnv) (texts : List (List Char)) : Except PyErr (Option (List (List ℚ))) :=
  let docs := texts.map (tfTerms e)
  if docs.flatten = [] then .error (.valueError "empty vocabulary")
  else if texts.length < 2 then .error (.valueError "min_df")
  else if vocabulary docs = [] then .error (.valueError "no terms remain")
  else .ok (docs.mapM fun d => do flNormalize64 c (← flWeights64 c docs d))

/-- `f` is `fit_transform`, wherever its entries are finite. -/
def Tfidf64 (c : FlCalc64) (e : TfidfEnv) (f : List (List Char) → Except PyErr (List (List ℚ))) : Prop :=
  ∀ texts, (∀ err, flTfidf64 c e texts = .error err → f texts = .error err) ∧
    ∀ rows, flTfidf64 c e texts = .ok (some rows) → f texts = .ok rows

/-- `d` gives computed distances of rows of equal length, wherever they are finite. -/
def ComputedRows64 (d : List ℚ → List ℚ → ℝ) : Prop :=
  ∀ D v w, v.length = D → w.length = D → ∃ o, FlEuclid64 (rowVec D v) (rowVec D w) o ∧ ∀ s, o = some s → d v w = s

/-- As `FlRowKmeans`, wherever the results are finite. -/
structure FlRowKmeans64 {α : Type} (tolerance : ℚ) (env : KMeansEnv α (List ℚ) ℝ) : Prop where
  metric : ComputedRows64 env.metric
  mean : ∀ (l : List (List ℚ)) (r : List ℚ), r.map some = (List.range ((l.head?.map List.length).getD 0)).map
    (fun i => flMean64 (l.map fun r => (r[i]?).getD 0)) → env.mean l = r
  small : ∀ l : List (List ℚ × List ℚ), (∀ p ∈ l, p.1.length = p.2.length) → ∃ os : List (Option ℚ),
    List.Forall₂ (fun p o => FlEuclid64 (rowVec p.1.length p.1) (rowVec p.1.length p.2) o) l os ∧
    ∀ ds t, os = ds.map some → flSum64 ds = some t → (env.small l = true ↔ t < tolerance)

end Verif
