import Verif.Model.Text
import Verif.Tests.Prelude

/-
Tests of the repository run on the model (see Tests/Prelude.lean): /repo/tests/utils/test_preprocessing.py and
/repo/tests/utils/test_vectorization.py, translated by hand. spaCy is replaced by splitting at spaces (an empty
piece is a space token), with the stop words of the French model among the words of the tests; the tests of the
parsing filter and of the lemmatizer only depend on the answers of spaCy and are left out.
-/

namespace Verif.Tests

/-- `unicodedata.normalize("NFKD", …)` on the accented letter of the tests. -/
def testNfkd (s : List Char) : List Char := s.flatMap fun c => if c = 'é' then ['e', '́'] else [c]

/-- Pieces between spaces. -/
def testSplit : List Char → List (List Char)
  | [] => [[]]
  | c :: s =>
    if c = ' ' then [] :: testSplit s
    else match testSplit s with
      | [] => [[c]]
      | w :: ws => (c :: w) :: ws

def testStopwords : List (List Char) :=
  ["comment".toList, "une".toList, "de".toList, "quelle".toList, "est".toList, "la".toList, "pour".toList, "ma".toList,
   "a".toList, "un".toList, "bas".toList, "puis".toList, "je".toList]

def testText : TextEnv Vec where
  lower s := s.map Char.toLower
  strip s := s
  nfkd := testNfkd
  combining c := decide (c = '́')
  installed model := decide (model = "fr_core_news_md") || decide (model = "en_core_web_md")
  nlp _ s := .ok ((testSplit s).map fun w => ⟨w, w, w.isEmpty, false, false, decide (w ∈ testStopwords), 0⟩)
  vector _ s := .ok [(s.length : Rat)]
  tfidf l := .ok (l.map fun s => [(s.length : Rat)])

def frenchTexts : Dict String PyText :=
  [("0", .str "Comment signaler une perte de carte de paiement ?".toList),
   ("1", .str "Quelle est la procédure pour chercher une carte de crédit avalée ?".toList),
   ("2", .str "Ma carte Visa a un plafond de paiment trop bas, puis-je l'augmenter ?".toList)]

def preprocessedTexts : Dict String PyText :=
  [("0", .str "comment signaler une perte de carte de paiement".toList),
   ("1", .str "quelle est la procedure pour chercher une carte de credit avalee".toList),
   ("2", .str "ma carte visa a un plafond de paiment trop bas puis je l augmenter".toList)]

/-- tests/utils/test_preprocessing.py, line 23. -/
def test_preprocess_for_uninstalled_spacy_language_model : Bool :=
  raisesValue (preprocess testText { model := "uninstalled" } frenchTexts) "spacy_language_model"

example : test_preprocess_for_uninstalled_spacy_language_model = true := by decide +kernel

/-- tests/utils/test_preprocessing.py, line 43. -/
def test_preprocess_for_installed_spacy_language_model : Bool :=
  returnsNonempty (preprocess testText { model := "en_core_web_md" }
    ([("0", .str "Hello. How are you ??".toList), ("1", .str "Hello, how old are you ?".toList),
      ("2", .str "Hello ! Where do you live ?".toList)] : Dict String PyText))

example : test_preprocess_for_installed_spacy_language_model = true := by decide +kernel

/-- tests/utils/test_preprocessing.py, line 65. -/
def test_preprocess_for_simple_preprocessing : Bool :=
  returnsDict (preprocess testText {} frenchTexts)
    [("0", "comment signaler une perte de carte de paiement".toList),
     ("1", "quelle est la procedure pour chercher une carte de credit avalee".toList),
     ("2", "ma carte visa a un plafond de paiment trop bas puis je l augmenter".toList)]

example : test_preprocess_for_simple_preprocessing = true := by decide +kernel

/-- tests/utils/test_preprocessing.py, line 90. -/
def test_preprocess_for_stopwords_deletion : Bool :=
  returnsDict (preprocess testText { stopwords := true } frenchTexts)
    [("0", "signaler perte carte paiement".toList),
     ("1", "procedure chercher carte credit avalee".toList),
     ("2", "carte visa plafond paiment trop l augmenter".toList)]

example : test_preprocess_for_stopwords_deletion = true := by decide +kernel

/-- tests/utils/test_vectorization.py, line 24. -/
def test_vectorize_for_unimplemented_vectorizer : Bool :=
  raisesValue (vectorize testText preprocessedTexts "unimplemented" "fr_core_news_md") "vectorizer_type"

example : test_vectorize_for_unimplemented_vectorizer = true := by decide +kernel

/-- tests/utils/test_vectorization.py, line 44. -/
def test_vectorize_for_tfidf_vectorizer : Bool :=
  returns ((vectorize testText preprocessedTexts "tfidf" "fr_core_news_md").map dkeys) ["0", "1", "2"]

example : test_vectorize_for_tfidf_vectorizer = true := by decide +kernel

/-- tests/utils/test_vectorization.py, line 70. -/
def test_vectorize_for_uninstalled_spacy_language_model : Bool :=
  raisesValue (vectorize testText preprocessedTexts "spacy" "uninstalled") "spacy_language_model"

example : test_vectorize_for_uninstalled_spacy_language_model = true := by decide +kernel

/-- tests/utils/test_vectorization.py, line 91. -/
def test_vectorize_for_installed_spacy_language_model : Bool :=
  returnsNonempty (vectorize testText
    ([("0", .str "hello how are you".toList), ("1", .str "hello how old are you".toList),
      ("2", .str "hello where do you live".toList)] : Dict String PyText) "spacy" "en_core_web_md")

example : test_vectorize_for_installed_spacy_language_model = true := by decide +kernel

/-- tests/utils/test_vectorization.py, line 114. -/
def test_vectorize_for_spacy_vectorizer : Bool :=
  returns ((vectorize testText preprocessedTexts "spacy" "fr_core_news_md").map dkeys) ["0", "1", "2"]

example : test_vectorize_for_spacy_vectorizer = true := by decide +kernel

end Verif.Tests
