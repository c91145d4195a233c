import Verif.Py.Basic

/-
Model of `preprocess`, /repo/src/cognitivefactory/interactive_clustering/utils/preprocessing.py, lines 26-201, and of
`vectorize`, utils/vectorization.py, lines 25-132.

Strings are lists of characters (lone surrogates are not modelled). spaCy, scikit-learn, `str.lower`, `str.strip` and
`unicodedata` are parameters.
-/

namespace Verif

/-- A value of `dict_of_texts`: a string, or an object without a method `lower`, with the result of `str` on it. -/
inductive PyText
  | str (s : List Char)
  | other (repr : List Char)
  deriving DecidableEq, Repr

/-- `str(text)` -/
def PyText.toStr : PyText → List Char
  | .str s => s
  | .other r => r

/-- What is read from a spaCy token, lines 161-191. -/
structure Token where
  text : List Char
  lemma_ : List Char
  isSpace : Bool
  isPunct : Bool
  isQuote : Bool
  isStop : Bool
  /-- `len(list(token.ancestors))` -/
  ancestors : Nat
  deriving DecidableEq, Repr

structure TextEnv (V : Type) where
  /-- `str.lower` -/
  lower : List Char → List Char
  /-- `str.strip` -/
  strip : List Char → List Char
  /-- `unicodedata.normalize("NFKD", …)` -/
  nfkd : List Char → List Char
  /-- `unicodedata.combining(char) != 0` -/
  combining : Char → Bool
  /-- whether `spacy.load` finds the language model (otherwise `OSError`) -/
  installed : String → Bool
  /-- `spacy_nlp(text)` of a language model, which may raise -/
  nlp : String → List Char → Except PyErr (List Token)
  /-- `csr_matrix(spacy_nlp(text).vector)` of a language model -/
  vector : String → List Char → Except PyErr V
  /-- rows of `TfidfVectorizer(…).fit_transform(texts)`, which may raise -/
  tfidf : List (List Char) → Except PyErr (List V)

/-- The options of `preprocess`. -/
structure PreOptions where
  stopwords : Bool := false
  parsing : Bool := false
  lemmatization : Bool := false
  model : String := "fr_core_news_md"
  deriving DecidableEq, Repr

/-- The characters of lines 96-126. -/
def punctuation : List Char :=
  ['.', ',', ';', ':', '!', '¡', '?', '¿', '…', '•', '(', ')', '{', '}', '[', ']', '«', '»', '^', '`', '\'', '"', '\\',
   '/', '|', '-', '_', '#', '&', '~', '@']

/-- `translate(punctuation_translator)`, line 158. -/
def translate (s : List Char) : List Char := s.map fun c => if c ∈ punctuation then ' ' else c

/-- The condition of the comprehension of lines 161-183. -/
def keepToken (o : PreOptions) (t : Token) : Bool :=
  !t.isSpace && (!t.isPunct && !t.isQuote) && (!o.stopwords || !t.isStop) && (!o.parsing || decide (t.ancestors ≤ 1))

/-- `" ".join(l)` -/
def joinSpace : List (List Char) → List Char
  | [] => []
  | [w] => w
  | w :: ws => w ++ ' ' :: joinSpace ws

section
variable {α V : Type} [DecidableEq α]

/-- The body of the loop, lines 151-196: the preprocessed text. -/
def preprocessText (env : TextEnv V) (o : PreOptions) (text : PyText) : Except PyErr (List Char) :=
  match text with
  -- line 155: `text.lower()`, not `preprocessed_text.lower()`
  | .other _ => .error .attributeError
  | .str s => do
    -- lines 155-158
    let s := translate (env.lower s)
    -- lines 161-183
    let tokens := (← env.nlp o.model s).filter (keepToken o)
    -- lines 186-191
    let s := if o.lemmatization then joinSpace (tokens.map fun t => env.strip t.lemma_)
      else joinSpace (tokens.map fun t => env.strip t.text)
    -- lines 194-196
    return (env.nfkd s).filter fun c => !env.combining c

/-- `preprocess`, lines 26-201. -/
def preprocess (env : TextEnv V) (o : PreOptions) (texts : Dict α PyText) : Except PyErr (Dict α (List Char)) := do
  -- lines 132-144
  if env.installed o.model = false then throw (.valueError "spacy_language_model")
  -- lines 150-199
  texts.foldlM (fun d p => do return dset d p.1 (← preprocessText env o p.2)) []

/-- `data_ID: tfidf_vectorization[i]`, line 97. -/
def rowOf (rows : List V) (p : α × Nat) : Except PyErr (α × V) :=
  match rows[p.2]? with
  | some v => .ok (p.1, v)
  | none => .error .indexError

/-- `vectorize`, lines 25-132. -/
def vectorize (env : TextEnv V) (texts : Dict α PyText) (type : String) (model : String) : Except PyErr (Dict α V) := do
  if type = "tfidf" then
    -- lines 92-94
    let rows ← env.tfidf (← (dkeys texts).mapM fun x => do return (← dget texts x).toStr)
    -- line 97
    return dofList (← (dkeys texts).zipIdx.mapM (rowOf rows))
  else if type = "spacy" then
    -- lines 107-121
    if env.installed model = false then throw (.valueError "spacy_language_model")
    -- line 124
    return dofList (← texts.mapM fun p => do return (p.1, ← env.vector model p.2.toStr))
  -- line 132
  else throw (.valueError "vectorizer_type")

end

end Verif
