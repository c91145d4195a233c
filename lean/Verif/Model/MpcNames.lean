import Mathlib.Data.List.Lex
import Verif.Model.MPC
import Verif.Model.Json

/-
Model of the numpy string array `id_names` of MPC-KMeans,
/repo/src/cognitivefactory/interactive_clustering/clustering/mpckmeans.py, lines 207 and 279-285.

`np.array(list(vectors.keys()))` has a fixed-width unicode type: every string is padded with NUL
characters, and reading an entry drops all NUL characters at its end. The keys of the dictionary of line
279 are read from this array. Everything else is as in `Model/MPC.lean`. Not modelled: keys of `vectors`
that are not strings.
-/

namespace Verif

/-- A string read back from a numpy string array. -/
def npStr (s : PyStr) : PyStr := (s.reverse.dropWhile fun c => decide (c = 0)).reverse

section
variable {α V κ θ : Type} [LinearOrder α] [LinearOrder κ]

/-- `cluster`, lines 159-287, where `store x` is read from `id_names` for the key `x` of `vectors`. -/
def mpcClusterStored (store : α → α) (env : MpcEnv V κ θ) (p : MpcParams) (m : Manager α) (vectors : Option (Dict α V))
    (nb : Option Int) : Except PyErr (Dict α Int) :=
  match vectors, nb with
  | none, _ => .error (.valueError "vectors")
  | some _, none => .error (.valueError "nb_clusters")
  | some vectors, some nb => do
    -- lines 201-204
    if nb < 2 then throw (.valueError "nb_clusters")
    let k := min nb.toNat m.managed.length
    -- line 207
    let idNames := (dkeys vectors).map store
    -- lines 215-241
    let ml ← mpcPairs m .mustLink
    let cl ← mpcPairs m .cannotLink
    -- lines 243-277
    let labels ← mpcLabels env p m.managed.length k ml cl (dvals vectors)
    -- line 279
    let items ← (labels.zipIdx.filter fun q => decide (q.1 ≠ -1)).mapM fun q => do return (← lget idNames q.2, q.1)
    -- line 281
    let renamed ← renameClusters (dofList items)
    -- lines 283-285
    return m.managed.foldl (fun d x => if x ∈ dkeys d then d else dset d x (-1)) renamed

/-- `cluster` with numpy's strings. -/
def mpcClusterNp (env : MpcEnv V κ θ) (p : MpcParams) (m : Manager PyStr) (vectors : Option (Dict PyStr V)) (nb : Option Int) :
    Except PyErr (Dict PyStr Int) := mpcClusterStored npStr env p m vectors nb

end

end Verif
