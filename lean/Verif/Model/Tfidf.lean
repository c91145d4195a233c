import Mathlib.Analysis.SpecialFunctions.Log.Basic
import Mathlib.Data.List.Sort
import Mathlib.Data.Char
import Mathlib.Data.List.Lex
import Verif.Model.Text

/-
Model of `TfidfVectorizer(analyzer="word", ngram_range=(1, 3), min_df=2).fit_transform(texts)`, the call of
/repo/src/cognitivefactory/interactive_clustering/utils/vectorization.py, lines 83-94. The code of scikit-learn is not in the
repository; the model follows its documented behaviour with the other options at their defaults (`lowercase`, token pattern
`\b\w\w+\b`, no stop words, `max_df=1.0`, `smooth_idf`, `norm="l2"`). Real numbers, no rounding.
-/

namespace Verif

structure TfidfEnv where
  /-- `str.lower` -/
  lower : List Char → List Char
  /-- the characters matched by `\w` -/
  isWord : Char → Bool

/-- The pieces of a text between the characters that are not matched by `\w`. -/
def wordPieces (isWord : Char → Bool) : List Char → List (List Char)
  | [] => [[]]
  | c :: s => if isWord c then
      match wordPieces isWord s with
      | w :: ws => (c :: w) :: ws
      | [] => [[c]]
    else [] :: wordPieces isWord s

/-- `re.findall(r"\b\w\w+\b", text.lower())` -/
def tfTokens (e : TfidfEnv) (s : List Char) : List (List Char) :=
  (wordPieces e.isWord (e.lower s)).filter fun w => decide (2 ≤ w.length)

/-- The `n` consecutive tokens from each position, joined by spaces. -/
def ngrams (n : Nat) (l : List (List Char)) : List (List Char) :=
  (List.range (l.length + 1 - n)).map fun i => joinSpace ((l.drop i).take n)

/-- `_word_ngrams` with `ngram_range=(1, 3)`. -/
def tfTerms (e : TfidfEnv) (s : List Char) : List (List Char) :=
  let l := tfTokens e s
  l ++ ngrams 2 l ++ ngrams 3 l

/-- In how many documents a term occurs. -/
def docFreq (docs : List (List (List Char))) (t : List Char) : Nat := docs.countP fun d => decide (t ∈ d)

/-- The sorted terms that occur in at least `min_df=2` documents. -/
def vocabulary (docs : List (List (List Char))) : List (List Char) :=
  (docs.flatten.dedup.filter fun t => decide (2 ≤ docFreq docs t)).insertionSort (· ≤ ·)

/-- `idf` with `smooth_idf=True`. -/
noncomputable def idf (n df : Nat) : ℝ := Real.log ((1 + n) / (1 + df)) + 1

/-- Counts multiplied by `idf`. -/
noncomputable def tfWeights (docs : List (List (List Char))) (d : List (List Char)) : List ℝ :=
  (vocabulary docs).map fun t => d.count t * idf docs.length (docFreq docs t)

/-- The euclidean norm of a row. -/
noncomputable def rowNorm (v : List ℝ) : ℝ := √((v.map fun x => x ^ 2).sum)

/-- `normalize(norm="l2")`: rows of norm 0 stay as they are. -/
noncomputable def normalizeRow (v : List ℝ) : List ℝ := if rowNorm v = 0 then v else v.map (· / rowNorm v)

/-- `fit_transform`. -/
noncomputable def tfidf (e : TfidfEnv) (texts : List (List Char)) : Except PyErr (List (List ℝ)) :=
  let docs := texts.map (tfTerms e)
  if docs.flatten = [] then .error (.valueError "empty vocabulary")
  -- `max_df=1.0` corresponds to `len(texts)` documents
  else if texts.length < 2 then .error (.valueError "min_df")
  else if vocabulary docs = [] then .error (.valueError "no terms remain")
  else .ok (docs.map fun d => normalizeRow (tfWeights docs d))

end Verif
