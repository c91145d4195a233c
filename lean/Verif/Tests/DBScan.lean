import Verif.Tests.Prelude

/-
Tests of the repository run on the model (see Tests/Prelude.lean): /repo/tests/clustering/test_dbscan.py.
-/

set_option linter.unusedVariables false

namespace Verif.Tests

/-- tests/clustering/test_dbscan.py, line 28. -/
def test_DBScanConstrainedClustering_for_inconsistent_eps : Bool :=
  raisesValue (construct dbOpts ([("eps", (.int (-1)))] : Kwargs)) "eps"

example : test_DBScanConstrainedClustering_for_inconsistent_eps = true := by decide +kernel

/-- tests/clustering/test_dbscan.py, line 43. -/
def test_DBScanConstrainedClustering_for_inconsistent_min_samples : Bool :=
  raisesValue (construct dbOpts ([("min_samples", (.int (-1)))] : Kwargs)) "min_samples"

example : test_DBScanConstrainedClustering_for_inconsistent_min_samples = true := by decide +kernel

/-- tests/clustering/test_dbscan.py, line 58. -/
def test_DBScanConstrainedClustering_for_correct_settings : Bool :=
  let c1 := (construct dbOpts ([("eps", (.float (1 / 2))), ("min_samples", (.int 3))] : Kwargs))
  returnsSome c1 &&
    returnsSome c1 &&
    hasAttr c1 "eps" (.float (1 / 2)) &&
    hasAttr c1 "min_samples" (.int 3)

example : test_DBScanConstrainedClustering_for_correct_settings = true := by decide +kernel

/-- tests/clustering/test_dbscan.py, line 95. -/
def test_DBScanConstrainedClustering_cluster_for_inconsistent_vectors : Bool :=
  let c1 := (construct dbOpts ([] : Kwargs))
  let p2 := ((dbCluster testDb (testDbParams (1 / 2) 5) (Manager.init (["first", "second", "third"] : List String)) (none : Option (Dict String Vec)) none).bind fun o => o.predicted.elim (.error .attributeError) .ok)
  returnsSome c1 &&
    raisesValue p2 "vectors"

example : test_DBScanConstrainedClustering_cluster_for_inconsistent_vectors = true := by decide +kernel

/-- tests/clustering/test_dbscan.py, line 114. -/
def test_DBScanConstrainedClustering_cluster_for_inconsistent_nb_clusters : Bool :=
  let c1 := (construct dbOpts ([] : Kwargs))
  let p2 := ((dbCluster testDb (testDbParams (1 / 2) 5) (Manager.init (["first", "second", "third"] : List String)) (some ([("first", [1, 2, 3]), ("second", [4, 5, 6]), ("third", [7, 8, 9])] : Dict String Vec)) (some 4)).bind fun o => o.predicted.elim (.error .attributeError) .ok)
  returnsSome c1 &&
    raisesValue p2 "nb_clusters"

example : test_DBScanConstrainedClustering_cluster_for_inconsistent_nb_clusters = true := by decide +kernel

/-- tests/clustering/test_dbscan.py, line 134. -/
def test_DBScanConstrainedClustering_cluster_with_no_constraints_1 : Bool :=
  let vs1 := ([("0", [1, 0, 0, 0]), ("1", [0, (43 / 100), 0, 0]), ("2", [0, 0, (29 / 100), 0]), ("3", [0, 0, (1 / 2), 0]), ("4", [0, 0, 0, (49 / 50)]), ("5", [0, 0, (33 / 100), 0]), ("6", [0, 0, 0, (7 / 5)]), ("7", [(4 / 5), 0, 0, 0]), ("8", [0, (27 / 50), 0, 0]), ("9", [0, 0, 0, (11 / 10)]), ("10", [(11 / 10), 0, 0, 0]), ("11", [0, (49 / 100), 0, 0])] : Dict String Vec)
  let m2 := (Manager.init ((dkeys vs1) : List String))
  let c3 := (construct dbOpts ([("eps", (.float (1 / 2))), ("min_samples", (.int 3))] : Kwargs))
  let p4 := ((dbCluster testDb (testDbParams (1 / 2) 3) m2 (some vs1) none).bind fun o => o.predicted.elim (.error .attributeError) .ok)
  let p5 := p4
  returnsSome c3 &&
    returnsNonempty p4 &&
    returnsDict p5 ([("0", 0), ("1", 1), ("2", 2), ("3", 2), ("4", 3), ("5", 2), ("6", 3), ("7", 0), ("8", 1), ("9", 3), ("10", 0), ("11", 1)] : Dict String Int)

example : test_DBScanConstrainedClustering_cluster_with_no_constraints_1 = true := by decide +kernel

/-- tests/clustering/test_dbscan.py, line 186. -/
def test_DBScanConstrainedClustering_cluster_with_no_constraints_2 : Bool :=
  let vs1 := ([("0", [2, 0, 0, 0]), ("1", [0, (43 / 100), 0, 0]), ("2", [0, 0, (29 / 100), 0]), ("3", [0, 0, (1 / 2), 0]), ("4", [0, 0, 0, (49 / 50)]), ("5", [0, 0, (33 / 100), 0]), ("6", [0, 0, 0, (7 / 5)]), ("7", [(4 / 5), 0, 0, 0]), ("8", [0, (27 / 50), 0, 0]), ("9", [0, 0, 0, (11 / 10)]), ("10", [(11 / 10), 0, 0, 0]), ("11", [0, (49 / 100), 0, 0])] : Dict String Vec)
  let m2 := (Manager.init ((dkeys vs1) : List String))
  let c3 := (construct dbOpts ([("eps", (.float (1 / 2))), ("min_samples", (.int 3))] : Kwargs))
  let p4 := ((dbCluster testDb (testDbParams (1 / 2) 3) m2 (some vs1) none).bind fun o => o.predicted.elim (.error .attributeError) .ok)
  let p5 := p4
  returnsSome c3 &&
    returnsNonempty p4 &&
    returnsDict p5 ([("0", (-1)), ("1", 0), ("2", 1), ("3", 1), ("4", 2), ("5", 1), ("6", 2), ("7", (-2)), ("8", 0), ("9", 2), ("10", (-3)), ("11", 0)] : Dict String Int)

example : test_DBScanConstrainedClustering_cluster_with_no_constraints_2 = true := by decide +kernel

/-- tests/clustering/test_dbscan.py, line 248. -/
def test_DBScanConstrainedClustering_cluster_with_some_constraints : Bool :=
  let vs1 := ([("0", [2, 0, 0, 0]), ("1", [0, (43 / 100), 0, 0]), ("2", [0, 0, (29 / 100), 0]), ("3", [0, 0, (1 / 2), 0]), ("4", [0, 0, 0, (49 / 50)]), ("5", [0, 0, (33 / 100), 0]), ("6", [0, 0, 0, (7 / 5)]), ("7", [(4 / 5), 0, 0, 0]), ("8", [0, (27 / 50), 0, 0]), ("9", [0, 0, 0, (11 / 10)]), ("10", [(11 / 10), 0, 0, 0]), ("11", [0, (49 / 100), 0, 0])] : Dict String Vec)
  let m2 := (Manager.init ((dkeys vs1) : List String))
  let r3 := Manager.addConstraint "0" "7" "MUST_LINK" 1 m2
  let m4 := resState r3
  let r5 := Manager.addConstraint "0" "10" "MUST_LINK" 1 m4
  let m6 := resState r5
  let r7 := Manager.addConstraint "0" "4" "CANNOT_LINK" 1 m6
  let m8 := resState r7
  let c9 := (construct dbOpts ([("eps", (.float (1 / 2))), ("min_samples", (.int 3))] : Kwargs))
  let p10 := ((dbCluster testDb (testDbParams (1 / 2) 3) m8 (some vs1) none).bind fun o => o.predicted.elim (.error .attributeError) .ok)
  let p11 := p10
  returnsSome (resVal r3) &&
    returnsSome (resVal r5) &&
    returnsSome (resVal r7) &&
    returnsSome c9 &&
    returnsNonempty p10 &&
    returnsDict p11 ([("0", 0), ("1", 1), ("2", 2), ("3", 2), ("4", 3), ("5", 2), ("6", 3), ("7", 0), ("8", 1), ("9", 3), ("10", 0), ("11", 1)] : Dict String Int)

example : test_DBScanConstrainedClustering_cluster_with_some_constraints = true := by decide +kernel

end Verif.Tests
