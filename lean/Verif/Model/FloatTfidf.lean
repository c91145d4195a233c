import Verif.Model.FloatDot
import Verif.Model.Tfidf

/-
The TF-IDF vectors of `Verif.Model.Tfidf` in binary64: `TfidfVectorizer(...).fit_transform(texts)`, the call of
/repo/src/cognitivefactory/interactive_clustering/utils/vectorization.py, lines 83-94. The code of scikit-learn (`TfidfTransformer`,
`inplace_csr_row_normalize_l2`) is not in the repository; the model follows it operation by operation, with a rounding after each one.
The entries that are 0 are not stored in the sparse matrix; here they are entries 0 (for sums this makes no difference, `C122_sparse`).
-/

namespace Verif

/-- What is taken from the libraries: `np.log`, and the sum of products of a row (in some order, see `FlDot`). -/
structure FlCalc where
  log : ℚ → ℚ
  dot : List (ℚ × ℚ) → ℚ

/-- `np.log(n_samples / df) + 1` with `n_samples = n + 1` (an integer) and `df = df + 1` (a float). -/
def flIdf (c : FlCalc) (n df : Nat) : ℚ := fl (c.log (fl (fl (1 + n) / fl (fl df + 1))) + 1)

/-- Counts (converted to floats) multiplied by `idf`. -/
def flWeights (c : FlCalc) (docs : List (List (List Char))) (d : List (List Char)) : List ℚ :=
  (vocabulary docs).map fun t => fl (fl (d.count t) * flIdf c docs.length (docFreq docs t))

/-- `normalize(norm="l2")`: rows of norm 0 stay as they are. -/
def flNormalize (c : FlCalc) (v : List ℚ) : List ℚ :=
  if c.dot (v.map fun x => (x, x)) = 0 then v else v.map fun x => fl (x / flSqrt (c.dot (v.map fun x => (x, x))))

/-- `fit_transform`. -/
def flTfidf (c : FlCalc) (e : TfidfEnv) (texts : List (List Char)) : Except PyErr (List (List ℚ)) :=
  let docs := texts.map (tfTerms e)
  if docs.flatten = [] then .error (.valueError "empty vocabulary")
  else if texts.length < 2 then .error (.valueError "min_df")
  else if vocabulary docs = [] then .error (.valueError "no terms remain")
  else .ok (docs.map fun d => flNormalize c (flWeights c docs d))

/-- The row as a vector with `D` entries. -/
def rowVec (D : Nat) (l : List ℚ) : Fin D → ℚ := fun i => (l[i.1]?).getD 0

/-- `d` gives computed distances of rows of equal length. -/
def ComputedRows (d : List ℚ → List ℚ → ℝ) : Prop :=
  ∀ D v w, v.length = D → w.length = D → ∃ s : ℚ, FlEuclid (rowVec D v) (rowVec D w) s ∧ d v w = s

/-- One number for each position, from the entries of the rows at this position. -/
def colwise {κ : Type} [Zero κ] (f : List κ → κ) (l : List (List κ)) : List κ :=
  (List.range ((l.head?.map List.length).getD 0)).map fun i => f (l.map fun r => (r[i]?).getD 0)

/-- `env` is an environment of COP-KMeans that computes in binary64 with rows (see `FlKmeans`). -/
structure FlRowKmeans {α : Type} (tolerance : ℚ) (env : KMeansEnv α (List ℚ) ℝ) : Prop where
  metric : ComputedRows env.metric
  mean : env.mean = colwise flMean
  small : ∀ l : List (List ℚ × List ℚ), (∀ p ∈ l, p.1.length = p.2.length) → ∃ ds : List ℚ,
    List.Forall₂ (fun p s => FlEuclid (rowVec p.1.length p.1) (rowVec p.1.length p.2) s) l ds ∧ (env.small l = true ↔ flSum ds < tolerance)

end Verif
