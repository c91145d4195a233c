import Mathlib.Analysis.SpecialFunctions.Sqrt
import Verif.Model.Tfidf
import Verif.Spec.Text
import Verif.Spec.Usage

/-
Specification vocabulary for the TF-IDF vectors (C102).
-/

namespace Verif

/-- `ws` are the maximal runs of word characters of a text, in their order. -/
inductive WordRuns (isWord : Char → Bool) : List Char → List (List Char) → Prop
  | nil : WordRuns isWord [] []
  | skip {c s ws} : isWord c = false → WordRuns isWord s ws → WordRuns isWord (c :: s) ws
  | run {w s ws} : w ≠ [] → (∀ c ∈ w, isWord c = true) → (∀ c ∈ s.head?, isWord c = false) → WordRuns isWord s ws →
      WordRuns isWord (w ++ s) (w :: ws)

/-- `w` is a word of the text `s`: a maximal run of at least two word characters of the text in lower case. -/
def WordOf (e : TfidfEnv) (s w : List Char) : Prop := ∃ ws, WordRuns e.isWord (e.lower s) ws ∧ w ∈ ws ∧ 2 ≤ w.length

/-- The two texts have a word in common. -/
def ShareWord (e : TfidfEnv) (s s' : List Char) : Prop := ∃ w, WordOf e s w ∧ WordOf e s' w

/-- The text at position `i` has a word in common with another one of the texts. -/
def Related (e : TfidfEnv) (texts : List (List Char)) (i : Nat) : Prop :=
  ∃ j s s', j ≠ i ∧ texts[i]? = some s ∧ texts[j]? = some s' ∧ ShareWord e s s'

/-- Euclidean distance of two rows. -/
noncomputable def rowDist (v w : List ℝ) : ℝ := √((List.zipWith (fun x y => (x - y) ^ 2) v w).sum)

/-- The program of `/repo/docs/usage.md`, lines 17-153: preprocessing, TF-IDF vectorization, then the rest as in C72. -/
def usageTexts {α V δ : Type} [LinearOrder α] [LinearOrder δ] (tenv : TextEnv V) (texts : Dict α PyText)
    (answer : Manager α → α → α → CType) (first : KMeansEnv α V δ) (chances : List (Chance α V δ)) :
    Except PyErr (Manager α × Dict α Int) := do
  let pre ← preprocess tenv {} texts
  let vectors ← vectorize tenv (pre.map fun p => (p.1, PyText.str p.2)) "tfidf" "fr_core_news_md"
  usage (dkeys texts) vectors answer first chances

end Verif
