import Verif.Tests.Prelude

/-
Tests of the repository run on the model (see Tests/Prelude.lean): /repo/tests/clustering/test_kmeans.py.
-/

set_option linter.unusedVariables false

namespace Verif.Tests

/-- tests/clustering/test_kmeans.py, line 28. -/
def test_KMeansConstrainedClustering_for_inconsistent_model : Bool :=
  raisesValue (construct kmOpts ([("model", (.str "as_you_want"))] : Kwargs)) "model"

example : test_KMeansConstrainedClustering_for_inconsistent_model = true := by decide +kernel

/-- tests/clustering/test_kmeans.py, line 43. -/
def test_KMeansConstrainedClustering_for_inconsistent_max_iteration : Bool :=
  raisesValue (construct kmOpts ([("max_iteration", (.int (-1)))] : Kwargs)) "max_iteration"

example : test_KMeansConstrainedClustering_for_inconsistent_max_iteration = true := by decide +kernel

/-- tests/clustering/test_kmeans.py, line 58. -/
def test_KMeansConstrainedClustering_for_inconsistent_tolerance : Bool :=
  raisesValue (construct kmOpts ([("tolerance", (.int (-1)))] : Kwargs)) "tolerance"

example : test_KMeansConstrainedClustering_for_inconsistent_tolerance = true := by decide +kernel

/-- tests/clustering/test_kmeans.py, line 73. -/
def test_KMeansConstrainedClustering_for_correct_settings : Bool :=
  let c1 := (construct kmOpts ([("model", (.str "COP")), ("max_iteration", (.int 100)), ("tolerance", (.float (1 / 1000))), ("random_seed", (.int 3))] : Kwargs))
  returnsSome c1 &&
    returnsSome c1 &&
    hasAttr c1 "model" (.str "COP") &&
    hasAttr c1 "max_iteration" (.int 100) &&
    hasAttr c1 "tolerance" (.float (1 / 1000)) &&
    hasAttr c1 "random_seed" (.int 3)

example : test_KMeansConstrainedClustering_for_correct_settings = true := by decide +kernel

/-- tests/clustering/test_kmeans.py, line 115. -/
def test_KMeansConstrainedClustering_cluster_for_inconsistent_vectors : Bool :=
  let c1 := (construct kmOpts ([] : Kwargs))
  let p2 := ((kmCluster (testKM 0) 150 (Manager.init (["first", "second", "third"] : List String)) (none : Option (Dict String Vec)) (some 2)).map Prod.fst)
  returnsSome c1 &&
    raisesValue p2 "vectors"

example : test_KMeansConstrainedClustering_cluster_for_inconsistent_vectors = true := by decide +kernel

/-- tests/clustering/test_kmeans.py, line 135. -/
def test_KMeansConstrainedClustering_cluster_for_inconsistent_nb_clusters_1 : Bool :=
  let c1 := (construct kmOpts ([] : Kwargs))
  let p2 := ((kmCluster (testKM 0) 150 (Manager.init (["first", "second", "third"] : List String)) (some ([("first", [1, 2, 3]), ("second", [4, 5, 6]), ("third", [7, 8, 9])] : Dict String Vec)) none).map Prod.fst)
  returnsSome c1 &&
    raisesValue p2 "nb_clusters"

example : test_KMeansConstrainedClustering_cluster_for_inconsistent_nb_clusters_1 = true := by decide +kernel

/-- tests/clustering/test_kmeans.py, line 155. -/
def test_KMeansConstrainedClustering_cluster_for_inconsistent_nb_clusters_2 : Bool :=
  let c1 := (construct kmOpts ([] : Kwargs))
  let p2 := ((kmCluster (testKM 0) 150 (Manager.init (["first", "second", "third"] : List String)) (some ([("first", [1, 2, 3]), ("second", [4, 5, 6]), ("third", [7, 8, 9])] : Dict String Vec)) (some (-1))).map Prod.fst)
  returnsSome c1 &&
    raisesValue p2 "nb_clusters"

example : test_KMeansConstrainedClustering_cluster_for_inconsistent_nb_clusters_2 = true := by decide +kernel

/-- tests/clustering/test_kmeans.py, line 175. -/
def test_KMeansConstrainedClustering_cluster_with_no_constraints_1 : Bool :=
  let vs1 := ([("0", [1, 0, 0, 0]), ("1", [(19 / 20), (1 / 50), (1 / 50), (1 / 100)]), ("2", [(49 / 50), 0, (1 / 50), 0]), ("3", [(99 / 100), 0, (1 / 100), 0]), ("4", [(1 / 2), (11 / 50), (21 / 100), (7 / 100)]), ("5", [(1 / 2), (21 / 100), (11 / 50), (7 / 100)]), ("6", [(1 / 100), (1 / 100), (1 / 100), (97 / 100)]), ("7", [0, (1 / 100), 0, (99 / 100)]), ("8", [0, 0, 0, 1])] : Dict String Vec)
  let m2 := (Manager.init ((dkeys vs1) : List String))
  let c3 := (construct kmOpts ([("random_seed", (.int 2))] : Kwargs))
  let p4 := ((kmCluster (testKM 2) 150 m2 (some vs1) (some 2)).map Prod.fst)
  let p5 := p4
  returnsSome c3 &&
    returnsNonempty p4 &&
    returnsDict p5 ([("0", 0), ("1", 0), ("2", 0), ("3", 0), ("4", 0), ("5", 0), ("6", 1), ("7", 1), ("8", 1)] : Dict String Int)

example : test_KMeansConstrainedClustering_cluster_with_no_constraints_1 = true := by decide +kernel

/-- tests/clustering/test_kmeans.py, line 213. -/
def test_KMeansConstrainedClustering_cluster_with_no_constraints_2 : Bool :=
  let vs1 := ([("0", [1, 0, 0]), ("1", [(19 / 20), (1 / 50), (1 / 100)]), ("2", [(49 / 50), 0, 0]), ("3", [(99 / 100), 0, 0]), ("4", [(1 / 100), (99 / 100), (7 / 100)]), ("5", [(1 / 50), (99 / 100), (7 / 100)]), ("6", [(1 / 100), (99 / 100), (1 / 50)]), ("7", [(1 / 100), (1 / 100), (97 / 100)]), ("8", [0, (1 / 100), (99 / 100)]), ("9", [0, 0, 1])] : Dict String Vec)
  let m2 := (Manager.init ((dkeys vs1) : List String))
  let c3 := (construct kmOpts ([("random_seed", (.int 2))] : Kwargs))
  let p4 := ((kmCluster (testKM 2) 150 m2 (some vs1) (some 3)).map Prod.fst)
  let p5 := p4
  returnsSome c3 &&
    returnsNonempty p4 &&
    returnsDict p5 ([("0", 0), ("1", 0), ("2", 0), ("3", 0), ("4", 1), ("5", 1), ("6", 1), ("7", 2), ("8", 2), ("9", 2)] : Dict String Int)

example : test_KMeansConstrainedClustering_cluster_with_no_constraints_2 = true := by decide +kernel

/-- tests/clustering/test_kmeans.py, line 262. -/
def test_KMeansConstrainedClustering_cluster_with_some_constraints : Bool :=
  let vs1 := ([("0", [1, 0, 0, 0]), ("1", [(19 / 20), (1 / 50), (1 / 50), (1 / 100)]), ("2", [(49 / 50), 0, (1 / 50), 0]), ("3", [(99 / 100), 0, (1 / 100), 0]), ("4", [(1 / 2), (11 / 50), (21 / 100), (7 / 100)]), ("5", [(1 / 2), (21 / 100), (11 / 50), (7 / 100)]), ("6", [(1 / 100), (1 / 100), (1 / 100), (97 / 100)]), ("7", [0, (1 / 100), 0, (99 / 100)]), ("8", [0, 0, 0, 1])] : Dict String Vec)
  let m2 := (Manager.init (["0", "1", "2", "3", "4", "5", "6", "7", "8"] : List String))
  let r3 := Manager.addConstraint "0" "1" "MUST_LINK" 1 m2
  let m4 := resState r3
  let r5 := Manager.addConstraint "0" "7" "MUST_LINK" 1 m4
  let m6 := resState r5
  let r7 := Manager.addConstraint "0" "8" "MUST_LINK" 1 m6
  let m8 := resState r7
  let r9 := Manager.addConstraint "4" "5" "MUST_LINK" 1 m8
  let m10 := resState r9
  let r11 := Manager.addConstraint "0" "4" "CANNOT_LINK" 1 m10
  let m12 := resState r11
  let r13 := Manager.addConstraint "2" "4" "CANNOT_LINK" 1 m12
  let m14 := resState r13
  let c15 := (construct kmOpts ([("random_seed", (.int 2))] : Kwargs))
  let p16 := ((kmCluster (testKM 2) 150 m14 (some vs1) (some 3)).map Prod.fst)
  let p17 := p16
  returnsSome (resVal r3) &&
    returnsSome (resVal r5) &&
    returnsSome (resVal r7) &&
    returnsSome (resVal r9) &&
    returnsSome (resVal r11) &&
    returnsSome (resVal r13) &&
    returnsSome c15 &&
    returnsNonempty p16 &&
    returnsDict p17 ([("0", 0), ("1", 0), ("2", 1), ("3", 1), ("4", 2), ("5", 2), ("6", 0), ("7", 0), ("8", 0)] : Dict String Int)

example : test_KMeansConstrainedClustering_cluster_with_some_constraints = true := by decide +kernel

/-- tests/clustering/test_kmeans.py, line 315. -/
def test_KMeansConstrainedClustering_cluster_with_full_constraints : Bool :=
  let vs1 := ([("0", [1, 0, 0, 0]), ("1", [(19 / 20), (1 / 50), (1 / 50), (1 / 100)]), ("2", [(49 / 50), 0, (1 / 50), 0]), ("3", [(99 / 100), 0, (1 / 100), 0]), ("4", [(1 / 2), (11 / 50), (21 / 100), (7 / 100)]), ("5", [(1 / 2), (21 / 100), (11 / 50), (7 / 100)]), ("6", [(1 / 100), (1 / 100), (1 / 100), (97 / 100)]), ("7", [0, (1 / 100), 0, (99 / 100)]), ("8", [0, 0, 0, 1])] : Dict String Vec)
  let m2 := (Manager.init (["0", "1", "2", "3", "4", "5", "6", "7", "8"] : List String))
  let r3 := Manager.addConstraint "0" "4" "MUST_LINK" 1 m2
  let m4 := resState r3
  let r5 := Manager.addConstraint "0" "8" "MUST_LINK" 1 m4
  let m6 := resState r5
  let r7 := Manager.addConstraint "1" "5" "MUST_LINK" 1 m6
  let m8 := resState r7
  let r9 := Manager.addConstraint "2" "6" "MUST_LINK" 1 m8
  let m10 := resState r9
  let r11 := Manager.addConstraint "3" "7" "MUST_LINK" 1 m10
  let m12 := resState r11
  let r13 := Manager.addConstraint "0" "1" "CANNOT_LINK" 1 m12
  let m14 := resState r13
  let r15 := Manager.addConstraint "0" "2" "CANNOT_LINK" 1 m14
  let m16 := resState r15
  let r17 := Manager.addConstraint "0" "3" "CANNOT_LINK" 1 m16
  let m18 := resState r17
  let r19 := Manager.addConstraint "1" "2" "CANNOT_LINK" 1 m18
  let m20 := resState r19
  let r21 := Manager.addConstraint "1" "3" "CANNOT_LINK" 1 m20
  let m22 := resState r21
  let r23 := Manager.addConstraint "2" "3" "CANNOT_LINK" 1 m22
  let m24 := resState r23
  let c25 := (construct kmOpts ([] : Kwargs))
  let p26 := ((kmCluster (testKM 0) 150 m24 (some vs1) (some 4)).map Prod.fst)
  let p27 := p26
  returnsSome (resVal r3) &&
    returnsSome (resVal r5) &&
    returnsSome (resVal r7) &&
    returnsSome (resVal r9) &&
    returnsSome (resVal r11) &&
    returnsSome (resVal r13) &&
    returnsSome (resVal r15) &&
    returnsSome (resVal r17) &&
    returnsSome (resVal r19) &&
    returnsSome (resVal r21) &&
    returnsSome (resVal r23) &&
    returnsSome c25 &&
    returnsNonempty p26 &&
    returnsDict p27 ([("0", 0), ("1", 1), ("2", 2), ("3", 3), ("4", 0), ("5", 1), ("6", 2), ("7", 3), ("8", 0)] : Dict String Int)

example : test_KMeansConstrainedClustering_cluster_with_full_constraints = true := by decide +kernel

/-- tests/clustering/test_kmeans.py, line 371. -/
def test_KMeansConstrainedClustering_cluster_with_no_possible_cluster : Bool :=
  let vs1 := ([("0", [1, 0, 0, 0]), ("1", [(19 / 20), (1 / 50), (1 / 50), (1 / 100)]), ("2", [(49 / 50), 0, (1 / 50), 0]), ("3", [(99 / 100), 0, (1 / 100), 0]), ("4", [(1 / 2), (11 / 50), (21 / 100), (7 / 100)]), ("5", [(1 / 2), (21 / 100), (11 / 50), (7 / 100)]), ("6", [(1 / 100), (1 / 100), (1 / 100), (97 / 100)]), ("7", [0, (1 / 100), 0, (99 / 100)]), ("8", [0, 0, 0, 1])] : Dict String Vec)
  let m2 := (Manager.init (["0", "1", "2", "3", "4", "5", "6", "7", "8"] : List String))
  let r3 := Manager.addConstraint "0" "1" "CANNOT_LINK" 1 m2
  let m4 := resState r3
  let r5 := Manager.addConstraint "0" "2" "CANNOT_LINK" 1 m4
  let m6 := resState r5
  let r7 := Manager.addConstraint "0" "3" "CANNOT_LINK" 1 m6
  let m8 := resState r7
  let r9 := Manager.addConstraint "0" "4" "CANNOT_LINK" 1 m8
  let m10 := resState r9
  let r11 := Manager.addConstraint "0" "5" "CANNOT_LINK" 1 m10
  let m12 := resState r11
  let r13 := Manager.addConstraint "0" "6" "CANNOT_LINK" 1 m12
  let m14 := resState r13
  let r15 := Manager.addConstraint "0" "7" "CANNOT_LINK" 1 m14
  let m16 := resState r15
  let r17 := Manager.addConstraint "0" "8" "CANNOT_LINK" 1 m16
  let m18 := resState r17
  let r19 := Manager.addConstraint "1" "2" "CANNOT_LINK" 1 m18
  let m20 := resState r19
  let r21 := Manager.addConstraint "1" "3" "CANNOT_LINK" 1 m20
  let m22 := resState r21
  let r23 := Manager.addConstraint "1" "4" "CANNOT_LINK" 1 m22
  let m24 := resState r23
  let r25 := Manager.addConstraint "1" "5" "CANNOT_LINK" 1 m24
  let m26 := resState r25
  let r27 := Manager.addConstraint "1" "6" "CANNOT_LINK" 1 m26
  let m28 := resState r27
  let r29 := Manager.addConstraint "1" "7" "CANNOT_LINK" 1 m28
  let m30 := resState r29
  let r31 := Manager.addConstraint "1" "8" "CANNOT_LINK" 1 m30
  let m32 := resState r31
  let r33 := Manager.addConstraint "2" "3" "CANNOT_LINK" 1 m32
  let m34 := resState r33
  let r35 := Manager.addConstraint "2" "4" "CANNOT_LINK" 1 m34
  let m36 := resState r35
  let r37 := Manager.addConstraint "2" "5" "CANNOT_LINK" 1 m36
  let m38 := resState r37
  let r39 := Manager.addConstraint "2" "6" "CANNOT_LINK" 1 m38
  let m40 := resState r39
  let r41 := Manager.addConstraint "2" "7" "CANNOT_LINK" 1 m40
  let m42 := resState r41
  let r43 := Manager.addConstraint "2" "8" "CANNOT_LINK" 1 m42
  let m44 := resState r43
  let r45 := Manager.addConstraint "3" "4" "CANNOT_LINK" 1 m44
  let m46 := resState r45
  let r47 := Manager.addConstraint "3" "5" "CANNOT_LINK" 1 m46
  let m48 := resState r47
  let r49 := Manager.addConstraint "3" "6" "CANNOT_LINK" 1 m48
  let m50 := resState r49
  let r51 := Manager.addConstraint "3" "7" "CANNOT_LINK" 1 m50
  let m52 := resState r51
  let r53 := Manager.addConstraint "3" "8" "CANNOT_LINK" 1 m52
  let m54 := resState r53
  let r55 := Manager.addConstraint "4" "5" "CANNOT_LINK" 1 m54
  let m56 := resState r55
  let r57 := Manager.addConstraint "4" "6" "CANNOT_LINK" 1 m56
  let m58 := resState r57
  let r59 := Manager.addConstraint "4" "7" "CANNOT_LINK" 1 m58
  let m60 := resState r59
  let r61 := Manager.addConstraint "4" "8" "CANNOT_LINK" 1 m60
  let m62 := resState r61
  let r63 := Manager.addConstraint "5" "6" "CANNOT_LINK" 1 m62
  let m64 := resState r63
  let r65 := Manager.addConstraint "5" "7" "CANNOT_LINK" 1 m64
  let m66 := resState r65
  let r67 := Manager.addConstraint "5" "8" "CANNOT_LINK" 1 m66
  let m68 := resState r67
  let r69 := Manager.addConstraint "6" "7" "CANNOT_LINK" 1 m68
  let m70 := resState r69
  let r71 := Manager.addConstraint "6" "8" "CANNOT_LINK" 1 m70
  let m72 := resState r71
  let r73 := Manager.addConstraint "7" "8" "CANNOT_LINK" 1 m72
  let m74 := resState r73
  let c75 := (construct kmOpts ([("random_seed", (.int 3))] : Kwargs))
  let p76 := ((kmCluster (testKM 3) 150 m74 (some vs1) (some 5)).map Prod.fst)
  let p77 := p76
  returnsSome (resVal r3) &&
    returnsSome (resVal r5) &&
    returnsSome (resVal r7) &&
    returnsSome (resVal r9) &&
    returnsSome (resVal r11) &&
    returnsSome (resVal r13) &&
    returnsSome (resVal r15) &&
    returnsSome (resVal r17) &&
    returnsSome (resVal r19) &&
    returnsSome (resVal r21) &&
    returnsSome (resVal r23) &&
    returnsSome (resVal r25) &&
    returnsSome (resVal r27) &&
    returnsSome (resVal r29) &&
    returnsSome (resVal r31) &&
    returnsSome (resVal r33) &&
    returnsSome (resVal r35) &&
    returnsSome (resVal r37) &&
    returnsSome (resVal r39) &&
    returnsSome (resVal r41) &&
    returnsSome (resVal r43) &&
    returnsSome (resVal r45) &&
    returnsSome (resVal r47) &&
    returnsSome (resVal r49) &&
    returnsSome (resVal r51) &&
    returnsSome (resVal r53) &&
    returnsSome (resVal r55) &&
    returnsSome (resVal r57) &&
    returnsSome (resVal r59) &&
    returnsSome (resVal r61) &&
    returnsSome (resVal r63) &&
    returnsSome (resVal r65) &&
    returnsSome (resVal r67) &&
    returnsSome (resVal r69) &&
    returnsSome (resVal r71) &&
    returnsSome (resVal r73) &&
    returnsSome c75 &&
    returnsNonempty p76 &&
    returnsDict p77 ([("0", 0), ("1", 1), ("2", 2), ("3", 3), ("4", 4), ("5", 5), ("6", 6), ("7", 7), ("8", 8)] : Dict String Int)

example : test_KMeansConstrainedClustering_cluster_with_no_possible_cluster = true := by decide +kernel

/-- tests/clustering/test_kmeans.py, line 454. -/
def test_KMeansConstrainedClustering_cluster_with_max_iteration_ending : Bool :=
  let vs1 := ([("0", [1, 0, 0, 0]), ("1", [(19 / 20), (1 / 50), (1 / 50), (1 / 100)]), ("2", [(49 / 50), 0, (1 / 50), 0]), ("3", [(99 / 100), 0, (1 / 100), 0]), ("4", [(1 / 2), (11 / 50), (21 / 100), (7 / 100)]), ("5", [(1 / 2), (21 / 100), (11 / 50), (7 / 100)]), ("6", [(1 / 100), (1 / 100), (1 / 100), (97 / 100)]), ("7", [0, (1 / 100), 0, (99 / 100)]), ("8", [0, 0, 0, 1])] : Dict String Vec)
  let m2 := (Manager.init ((dkeys vs1) : List String))
  let c3 := (construct kmOpts ([("max_iteration", (.int 1))] : Kwargs))
  let p4 := ((kmCluster (testKM 0) 1 m2 (some vs1) (some 2)).map Prod.fst)
  let p5 := p4
  returnsSome c3 &&
    returnsNonempty p4 &&
    returnsNonempty p5

example : test_KMeansConstrainedClustering_cluster_with_max_iteration_ending = true := by decide +kernel

end Verif.Tests
