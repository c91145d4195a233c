import Verif.Tests.Prelude

/-
Tests of the repository run on the model (see Tests/Prelude.lean): /repo/tests/clustering/test_mpckmeans.py.
-/

set_option linter.unusedVariables false

namespace Verif.Tests

/-- tests/clustering/test_mpckmeans.py, line 28. -/
def test_MPCKMeansConstrainedClustering_for_inconsistent_model : Bool :=
  raisesValue (construct mpcOpts ([("model", (.str "as_you_want"))] : Kwargs)) "model"

example : test_MPCKMeansConstrainedClustering_for_inconsistent_model = true := by decide +kernel

/-- tests/clustering/test_mpckmeans.py, line 43. -/
def test_MPCKMeansConstrainedClustering_for_inconsistent_max_iteration : Bool :=
  raisesValue (construct mpcOpts ([("max_iteration", (.int (-1)))] : Kwargs)) "max_iteration"

example : test_MPCKMeansConstrainedClustering_for_inconsistent_max_iteration = true := by decide +kernel

/-- tests/clustering/test_mpckmeans.py, line 58. -/
def test_MPCKMeansConstrainedClustering_for_inconsistent_w : Bool :=
  raisesValue (construct mpcOpts ([("w", (.int (-1)))] : Kwargs)) "weight"

example : test_MPCKMeansConstrainedClustering_for_inconsistent_w = true := by decide +kernel

/-- tests/clustering/test_mpckmeans.py, line 73. -/
def test_MPCKMeansConstrainedClustering_for_correct_settings : Bool :=
  let c1 := (construct mpcOpts ([("model", (.str "MPC")), ("max_iteration", (.int 100)), ("w", (.float (1 / 2))), ("random_seed", (.int 3))] : Kwargs))
  returnsSome c1 &&
    returnsSome c1 &&
    hasAttr c1 "model" (.str "MPC") &&
    hasAttr c1 "max_iteration" (.int 100) &&
    hasAttr c1 "w" (.float (1 / 2)) &&
    hasAttr c1 "random_seed" (.int 3)

example : test_MPCKMeansConstrainedClustering_for_correct_settings = true := by decide +kernel

/-- tests/clustering/test_mpckmeans.py, line 115. -/
def test_MPCKMeansConstrainedClustering_cluster_for_inconsistent_vectors : Bool :=
  let c1 := (construct mpcOpts ([] : Kwargs))
  let p2 := (mpcCluster (testMpc 3) ⟨150⟩ (Manager.init (["first", "second", "third"] : List String)) (none : Option (Dict String Vec)) (some 2))
  returnsSome c1 &&
    raisesValue p2 "vectors"

example : test_MPCKMeansConstrainedClustering_cluster_for_inconsistent_vectors = true := by decide +kernel

/-- tests/clustering/test_mpckmeans.py, line 135. -/
def test_MPCKMeansConstrainedClustering_cluster_for_inconsistent_nb_clusters_1 : Bool :=
  let c1 := (construct mpcOpts ([] : Kwargs))
  let p2 := (mpcCluster (testMpc 3) ⟨150⟩ (Manager.init (["first", "second", "third"] : List String)) (some ([("first", [1, 2, 3]), ("second", [4, 5, 6]), ("third", [7, 8, 9])] : Dict String Vec)) none)
  returnsSome c1 &&
    raisesValue p2 "nb_clusters"

example : test_MPCKMeansConstrainedClustering_cluster_for_inconsistent_nb_clusters_1 = true := by decide +kernel

/-- tests/clustering/test_mpckmeans.py, line 155. -/
def test_MPCKMeansConstrainedClustering_cluster_for_inconsistent_nb_clusters_2 : Bool :=
  let c1 := (construct mpcOpts ([] : Kwargs))
  let p2 := (mpcCluster (testMpc 3) ⟨150⟩ (Manager.init (["first", "second", "third"] : List String)) (some ([("first", [1, 2, 3]), ("second", [4, 5, 6]), ("third", [7, 8, 9])] : Dict String Vec)) (some (-1)))
  returnsSome c1 &&
    raisesValue p2 "nb_clusters"

example : test_MPCKMeansConstrainedClustering_cluster_for_inconsistent_nb_clusters_2 = true := by decide +kernel

/-- tests/clustering/test_mpckmeans.py, line 175. -/
def test_MPCKMeansConstrainedClustering_cluster_with_no_constraints_1 : Bool :=
  let vs1 := ([("0", [1, 0, 0, 0]), ("1", [0, (43 / 100), 0, 0]), ("2", [0, 0, (29 / 100), 0]), ("3", [0, 0, (1 / 2), 0]), ("4", [0, 0, 0, (49 / 50)]), ("5", [0, 0, (33 / 100), 0]), ("6", [0, 0, 0, (7 / 5)]), ("7", [(4 / 5), 0, 0, 0]), ("8", [0, (27 / 50), 0, 0]), ("9", [0, 0, 0, (11 / 10)]), ("10", [(11 / 10), 0, 0, 0]), ("11", [0, (49 / 100), 0, 0])] : Dict String Vec)
  let m2 := (Manager.init ((dkeys vs1) : List String))
  let c3 := (construct mpcOpts ([] : Kwargs))
  let p4 := (mpcCluster (testMpc 4) ⟨150⟩ m2 (some vs1) (some 4))
  let p5 := p4
  returnsSome c3 &&
    returnsNonempty p4 &&
    returnsDict p5 ([("0", 0), ("1", 1), ("2", 2), ("3", 2), ("4", 3), ("5", 2), ("6", 3), ("7", 0), ("8", 1), ("9", 3), ("10", 0), ("11", 1)] : Dict String Int)

example : test_MPCKMeansConstrainedClustering_cluster_with_no_constraints_1 = true := by decide +kernel

/-- tests/clustering/test_mpckmeans.py, line 228. -/
def test_MPCKMeansConstrainedClustering_cluster_with_no_constraints_2 : Bool :=
  let vs1 := ([("0", [2, 0, 0, 0]), ("1", [0, (43 / 100), 0, 0]), ("2", [0, 0, (29 / 100), 0]), ("3", [0, 0, (1 / 2), 0]), ("4", [0, 0, 0, (49 / 50)]), ("5", [0, 0, (33 / 100), 0]), ("6", [0, 0, 0, (7 / 5)]), ("7", [(4 / 5), 0, 0, 0]), ("8", [0, (27 / 50), 0, 0]), ("9", [0, 0, 0, (11 / 10)]), ("10", [(11 / 10), 0, 0, 0]), ("11", [0, (49 / 100), 0, 0])] : Dict String Vec)
  let m2 := (Manager.init ((dkeys vs1) : List String))
  let c3 := (construct mpcOpts ([("eps", (.float (1 / 2))), ("min_samples", (.int 3))] : Kwargs))
  let p4 := (mpcCluster (testMpc 4) ⟨150⟩ m2 (some vs1) (some 4))
  let p5 := p4
  returnsSome c3 &&
    returnsNonempty p4 &&
    returnsDict p5 ([("0", 0), ("1", 1), ("2", 1), ("3", 1), ("4", 3), ("5", 1), ("6", 3), ("7", 2), ("8", 1), ("9", 3), ("10", 2), ("11", 1)] : Dict String Int)

example : test_MPCKMeansConstrainedClustering_cluster_with_no_constraints_2 = true := by decide +kernel

/-- tests/clustering/test_mpckmeans.py, line 288. -/
def test_MPCKMeansConstrainedClustering_cluster_with_some_constraints : Bool :=
  let vs1 := ([("0", [2, 0, 0, 0]), ("1", [0, (43 / 100), 0, 0]), ("2", [0, 0, (29 / 100), 0]), ("3", [0, 0, (1 / 2), 0]), ("4", [0, 0, 0, (49 / 50)]), ("5", [0, 0, (33 / 100), 0]), ("6", [0, 0, 0, (7 / 5)]), ("7", [(4 / 5), 0, 0, 0]), ("8", [0, (27 / 50), 0, 0]), ("9", [0, 0, 0, (11 / 10)]), ("10", [(11 / 10), 0, 0, 0]), ("11", [0, (49 / 100), 0, 0])] : Dict String Vec)
  let m2 := (Manager.init ((dkeys vs1) : List String))
  let r3 := Manager.addConstraint "0" "7" "MUST_LINK" 1 m2
  let m4 := resState r3
  let r5 := Manager.addConstraint "0" "10" "MUST_LINK" 1 m4
  let m6 := resState r5
  let r7 := Manager.addConstraint "0" "4" "CANNOT_LINK" 1 m6
  let m8 := resState r7
  let c9 := (construct mpcOpts ([] : Kwargs))
  let p10 := (mpcCluster (testMpc 4) ⟨150⟩ m8 (some vs1) (some 4))
  let p11 := p10
  returnsSome (resVal r3) &&
    returnsSome (resVal r5) &&
    returnsSome (resVal r7) &&
    returnsSome c9 &&
    returnsNonempty p10 &&
    returnsDict p11 ([("0", 0), ("1", 1), ("2", 2), ("3", 2), ("4", 3), ("5", 2), ("6", 3), ("7", 0), ("8", 1), ("9", 3), ("10", 0), ("11", 1)] : Dict String Int)

example : test_MPCKMeansConstrainedClustering_cluster_with_some_constraints = true := by decide +kernel

end Verif.Tests
