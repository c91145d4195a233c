import Verif.Model.File

/-
Vocabulary for files.
-/

namespace Verif

/-- Line feed or a printable ASCII character. -/
def Printable (s : PyStr) : Prop := ∀ c ∈ s, c = 10 ∨ (32 ≤ c ∧ c ≤ 126)

/-- The encoding contains ASCII (UTF-8, Latin-1, the Windows code pages, …; not UTF-16). -/
structure AsciiCompatible (codec : Codec) : Prop where
  enc : ∀ s : PyStr, (∀ c ∈ s, c < 128) → codec.enc s = some s
  dec : ∀ b : List Nat, (∀ c ∈ b, c < 128) → codec.dec b = some b

/-- The line separators of the systems python runs on. -/
def LineSep (linesep : PyStr) : Prop := linesep = [10] ∨ linesep = [13, 10]

end Verif
