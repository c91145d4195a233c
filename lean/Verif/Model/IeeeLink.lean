import Verif.Model.FloatLink
import Verif.Model.Ieee

/-
The numerical functions of the hierarchical clustering with the range of binary64, for rows and for all versions of Python.
`none` stands for a result that is not finite, and for what is computed from it.
/repo/src/cognitivefactory/interactive_clustering/clustering/hierarchical.py, lines 167-181, 472-514, 783
-/

namespace Verif

/-- As `neuStep`. -/
def neuStep64 (p : ℚ × ℚ) (x : ℚ) : Option (ℚ × ℚ) := do
  let t ← rnd64 (p.1 + x)
  let d ← if |x| ≤ |p.1| then rnd64 (p.1 - t) else rnd64 (x - t)
  let d ← if |x| ≤ |p.1| then rnd64 (d + x) else rnd64 (d + p.1)
  let c ← rnd64 (p.2 + d)
  return (t, c)

/-- As `neuSum`. -/
def neuSum64 (l : List ℚ) : Option ℚ := do
  let p ← l.foldlM neuStep64 (0, 0)
  rnd64 (p.1 + p.2)

/-- As `PySum`. -/
def PySum64 (l : List ℚ) (o : Option ℚ) : Prop := o = flSum64 l ∨ o = neuSum64 l

/-- `env` is an environment of the hierarchical clustering of rows that computes in binary64, wherever the results are finite. -/
structure FlRowHier64 (env : HierEnv (List ℚ) ℝ) : Prop where
  metric : ComputedRows64 env.metric
  mean : ∀ (l : List (List ℚ)) (r : List ℚ), r.map some = (List.range ((l.head?.map List.length).getD 0)).map
    (fun i => flMean64 (l.map fun r => (r[i]?).getD 0)) → env.mean l = r
  ward : ∀ (l : List ℚ) i j, ∃ o, PySum64 l o ∧ ∀ t s, o = some t → rnd64 (t / (i * j : Nat)) = some s →
    env.ward (l.map fun s : ℚ => (s : ℝ)) i j = s

end Verif
