/-
Python run-time notions shared by all models: exceptions as values, ordered dictionaries and
"ordered sets" (`Dict[str, None]`).
-/

namespace Verif

/-- Python exceptions that the modelled code can raise. The string of `valueError` is a short
tag for the raising site (the real messages are longer and are not modelled). -/
inductive PyErr where
  | valueError (tag : String)
  | keyError
  | indexError
  | typeError
  | attributeError
  | assertionError
  | zeroDivisionError
  | recursionError
  | runtimeError         -- a dictionary changed size during iteration
  | outOfFuel            -- not a python exception: fuel of a modelled `while` loop exhausted
  deriving DecidableEq, Repr, Inhabited

/-- Python `dict`: association list in insertion order (uniqueness of keys is a separate
invariant, preserved by all operations below). -/
abbrev Dict (κ ν : Type) := List (κ × ν)

section
variable {κ ν : Type} [DecidableEq κ]

/-- `list(d.keys())` -/
def dkeys (d : Dict κ ν) : List κ := d.map Prod.fst

/-- `list(d.values())` -/
def dvals (d : Dict κ ν) : List ν := d.map Prod.snd

/-- `d.get(k)` as an option; `none` is a missing key. -/
def dget? : Dict κ ν → κ → Option ν
  | [], _ => none
  | (k', v) :: d, k => if k' = k then some v else dget? d k

/-- `d[k]`, raising `KeyError` on a missing key. -/
def dget (d : Dict κ ν) (k : κ) : Except PyErr ν :=
  match dget? d k with
  | some v => .ok v
  | none => .error .keyError

/-- `d[k] = v`: an existing key keeps its position, a new key is appended. -/
def dset : Dict κ ν → κ → ν → Dict κ ν
  | [], k, v => [(k, v)]
  | (k', v') :: d, k, v => if k' = k then (k', v) :: d else (k', v') :: dset d k v

/-- `d.pop(k, None)` (the dictionary afterwards). -/
def dpop (d : Dict κ ν) (k : κ) : Dict κ ν := d.filter (fun p => decide (p.1 ≠ k))

/-- Dict comprehension `{k: v for (k, v) in l}`. -/
def dofList (l : List (κ × ν)) : Dict κ ν := l.foldl (fun d p => dset d p.1 p.2) []

/-- Adding one key to an ordered set (`Dict[str, None]` seen as the list of its keys). -/
def oinsert (s : List κ) (k : κ) : List κ := if k ∈ s then s else s ++ [k]

/-- `{**a, **b}` on ordered sets. -/
def ounion (a b : List κ) : List κ := b.foldl oinsert a

end

end Verif
