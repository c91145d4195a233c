import Verif.Model.Text
import Verif.Model.Constraints
import Mathlib.Data.List.Forall2

/-
Specification vocabulary for the text utilities.
-/

namespace Verif

/-- The punctuation characters that `preprocess` removes. -/
def Listed (c : Char) : Prop := c ∈ ".,;:!¡?¿…•(){}[]«»^`'\"\\/|-_#&~@".toList

/-- The text `s` contains no listed punctuation character. -/
def PunctFree (s : List Char) : Prop := ∀ c ∈ s, ¬ Listed c

/-- `s'` is `s` with every listed punctuation character replaced by a space. -/
def Cleaned (s s' : List Char) : Prop :=
  List.Forall₂ (fun c c' => Listed c ∧ c' = ' ' ∨ ¬ Listed c ∧ c' = c) s s'

/-- The tokens that the options keep. -/
structure Kept (o : PreOptions) (t : Token) : Prop where
  noSpace : t.isSpace = false
  noPunct : t.isPunct = false
  noQuote : t.isQuote = false
  noStop : o.stopwords = true → t.isStop = false
  shallow : o.parsing = true → t.ancestors ≤ 1

/-- `o'` has at least the filters of `o`, and the same rendering of the tokens. -/
def Stricter (o o' : PreOptions) : Prop :=
  (o.stopwords = true → o'.stopwords = true) ∧ (o.parsing = true → o'.parsing = true) ∧
    o.lemmatization = o'.lemmatization ∧ o.model = o'.model

/-- `l` is the list `ws` of words separated by one space. -/
inductive Joined : List (List Char) → List Char → Prop
  | nil : Joined [] []
  | single (w) : Joined [w] w
  | cons (w w' ws l) : Joined (w' :: ws) l → Joined (w :: w' :: ws) (w ++ ' ' :: l)

/-- The words of a list of tokens: the stripped texts (or lemmas) of the kept tokens, in their order. -/
inductive Words {V : Type} (env : TextEnv V) (o : PreOptions) : List Token → List (List Char) → Prop
  | nil : Words env o [] []
  | keep (t tokens words) : Kept o t → Words env o tokens words →
      Words env o (t :: tokens) (env.strip (if o.lemmatization = true then t.lemma_ else t.text) :: words)
  | drop (t tokens words) : ¬ Kept o t → Words env o tokens words → Words env o (t :: tokens) words

end Verif
