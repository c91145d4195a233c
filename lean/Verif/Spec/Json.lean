import Mathlib.Data.List.Chain
import Verif.Model.Json

/-
Which strings python's JSON text preserves.
-/

namespace Verif

/-- High surrogate. -/
def High (c : Nat) : Prop := 0xd800 ≤ c ∧ c ≤ 0xdbff
/-- Low surrogate. -/
def Low (c : Nat) : Prop := 0xdc00 ≤ c ∧ c ≤ 0xdfff

instance : DecidablePred High := fun _ => inferInstanceAs (Decidable (_ ∧ _))
instance : DecidablePred Low := fun _ => inferInstanceAs (Decidable (_ ∧ _))

/-- Strings that python's JSON round trip preserves: no lone high surrogate directly followed by a
lone low one. Every well-formed unicode text is of this kind. -/
structure Unicode (s : PyStr) : Prop where
  range : ∀ c ∈ s, c < 0x110000
  pairs : s.IsChain fun a b => ¬ (High a ∧ Low b)

end Verif
