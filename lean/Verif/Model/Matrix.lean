import Verif.Model.Constraints

/-
Lists and two-dimensional arrays, read and written at non-negative indices, and the stacking of
the vectors of the managed IDs, as used by `clustering/spectral.py` and
`clustering/affinity_propagation.py`.
-/

namespace Verif

/-- `l[i]` -/
def lget {ι : Type} (l : List ι) (i : Nat) : Except PyErr ι :=
  match l[i]? with
  | some x => .ok x
  | none => .error .indexError

/-- `l[i] = v` -/
def lset {ι : Type} (l : List ι) (i : Nat) (v : ι) : Except PyErr (List ι) :=
  if i < l.length then .ok (l.set i v) else .error .indexError

/-- A two-dimensional array: the list of its rows. -/
abbrev Mat (κ : Type) := List (List κ)

section
variable {κ : Type}

/-- The entry `M[i, j]`; `none` when an index is out of bounds. -/
def mget? (M : Mat κ) (i j : Nat) : Option κ := M[i]?.bind fun row => row[j]?

/-- `M[i, j]` -/
def mget (M : Mat κ) (i j : Nat) : Except PyErr κ :=
  match mget? M i j with
  | some v => .ok v
  | none => .error .indexError

/-- `M[i, j] = v` -/
def mset (M : Mat κ) (i j : Nat) (v : κ) : Except PyErr (Mat κ) :=
  match mget? M i j with
  | some _ => .ok (M.modify i fun row => row.set j v)
  | none => .error .indexError

end

section
variable {α V : Type} [LinearOrder α]

/-- `vstack(vectors[x] for x in ids)`: `KeyError` for a missing ID; scipy's `vstack` raises
`ValueError` when there is no row. -/
def stackRows (m : Manager α) (vectors : Dict α V) : Except PyErr (List V) := do
  let rows ← m.managed.mapM fun x => dget vectors x
  if rows.isEmpty then throw (.valueError "vstack")
  return rows

end

end Verif
