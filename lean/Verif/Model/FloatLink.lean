import Verif.Model.FloatDot
import Verif.Model.Hierarchical

/-
The numerical functions of the hierarchical clustering in binary64, for vectors with any number of entries and for all versions of Python.
/repo/src/cognitivefactory/interactive_clustering/clustering/hierarchical.py, lines 167-181, 472-514, 783
The distances are Python floats (line 176), so that the sum of the linkage "ward" (lines 507-514) is Python's `sum` of floats: until Python 3.11
from left to right, since Python 3.12 with a compensation of the rounding errors. The project supports both (`pyproject.toml`, line 13).
-/

namespace Verif

/-- One step of `sum` of floats since Python 3.12 (`cs_add` in `Python/bltinmodule.c`): the sum and the compensation. -/
def neuStep (p : ℚ × ℚ) (x : ℚ) : ℚ × ℚ :=
  let t := fl (p.1 + x)
  (t, fl (p.2 + if |x| ≤ |p.1| then fl (fl (p.1 - t) + x) else fl (fl (x - t) + p.1)))

/-- `sum` of floats since Python 3.12. -/
def neuSum (l : List ℚ) : ℚ :=
  let p := l.foldl neuStep (0, 0)
  fl (p.1 + p.2)

/-- `t` is the `sum` of floats, with some version of Python. -/
def PySum (l : List ℚ) (t : ℚ) : Prop := t = flSum l ∨ t = neuSum l

variable {D : Nat}

/-- `env` is an environment of the hierarchical clustering that computes in binary64. -/
structure FlHier (env : HierEnv (Fin D → ℚ) ℝ) : Prop where
  metric : ComputedDistance env.metric
  mean : env.mean = flMeanVec
  ward : ∀ (l : List ℚ) i j, ∃ t, PySum l t ∧ env.ward (l.map fun s : ℚ => (s : ℝ)) i j = (fl (t / (i * j : Nat)) : ℚ)

/-- The numerical functions for vectors with one entry since Python 3.12. -/
def neuHierEnv : HierEnv ℚ ℚ where
  metric := flDist
  mean := flMean
  ward l i j := fl (neuSum l / (i * j : Nat))

end Verif
