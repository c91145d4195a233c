import Verif.Tests.Prelude

/-
Tests of the repository run on the model (see Tests/Prelude.lean): /repo/tests/clustering/test_hierarchical.py.
-/

set_option linter.unusedVariables false

namespace Verif.Tests

/-! The tests of the class `Cluster`, translated by hand: clusters are made by the methods of the clustering
object that make them. (Line 838: giving both or none of `children` and `members` does not arise in the model.) -/

/-- `vectors` of lines 889-895 and 942-948. -/
def clusterVectors : Dict String Vec :=
  [("0", [1, 0]), ("1", [99 / 100, 1 / 100]), ("2", [2 / 100, 98 / 100]), ("3", [1 / 100, 99 / 100]), ("4", [0, 1])]

/-- The clusters 0 and 1, and the cluster 2 made from `children`. -/
def clusterStorage (children : List Nat) : Except PyErr (Dict Nat (HCluster String Vec)) := do
  let s : HState String Vec Rat := ⟨[], [], [], 0⟩
  let s1 ← hAddLeaf testHier clusterVectors s ["0", "1"]
  let s2 ← hAddLeaf testHier clusterVectors s1 ["2", "3", "4"]
  let r ← hAddMerge testHier clusterVectors { s2 with iteration := 1 } children
  return r.2.storage

/-- Members, iteration and size of a cluster. -/
def clusterIs (st : Dict Nat (HCluster String Vec)) (i : Nat) (members : List String) (iteration size : Nat) : Bool :=
  match dget? st i with
  | some n => decide (n.members = members) && decide (n.iteration = iteration) && decide (n.members.length = size)
  | none => false

/-- tests/clustering/test_hierarchical.py, line 883. -/
def test_Cluster_add_new_children : Bool :=
  match clusterStorage [0] with
  | .ok st =>
    let r := hAddChildren testHier clusterVectors st 2 [1] 2
    clusterIs st 2 ["0", "1"] 1 2 && returnsSome r.2 && clusterIs r.1 2 ["0", "1", "2", "3", "4"] 2 5
  | .error _ => false

example : test_Cluster_add_new_children = true := by decide +kernel

/-- tests/clustering/test_hierarchical.py, line 936. -/
def test_Cluster_to_dict : Bool :=
  match (clusterStorage [0, 1]).bind fun st => hToDict st 2 2 with
  | .ok (.node 2 1 [.node 0 0 [] 0 m0, .node 1 0 [] 0 m1] 1 m) =>
    decide (m0 = ["0", "1"]) && decide (m1 = ["2", "3", "4"]) && decide (m = ["0", "1", "2", "3", "4"])
  | _ => false

example : test_Cluster_to_dict = true := by decide +kernel


/-- tests/clustering/test_hierarchical.py, line 26. -/
def test_HierarchicalConstrainedClustering_for_inconsistent_linkage : Bool :=
  raisesValue (construct hierOpts ([("linkage", (.str "as_you_want"))] : Kwargs)) "linkage"

example : test_HierarchicalConstrainedClustering_for_inconsistent_linkage = true := by decide +kernel

/-- tests/clustering/test_hierarchical.py, line 41. -/
def test_HierarchicalConstrainedClustering_for_correct_settings : Bool :=
  let c1 := (construct hierOpts ([("linkage", (.str "average")), ("random_seed", (.int 2))] : Kwargs))
  returnsSome c1 &&
    returnsSome c1 &&
    hasAttr c1 "linkage" (.str "average") &&
    hasAttr c1 "random_seed" (.int 2)

example : test_HierarchicalConstrainedClustering_for_correct_settings = true := by decide +kernel

/-- tests/clustering/test_hierarchical.py, line 79. -/
def test_HierarchicalConstrainedClustering_cluster_for_inconsistent_vectors : Bool :=
  let c1 := (construct hierOpts ([] : Kwargs))
  let r2 := HObject.cluster testHier (⟨.ward, [], none, []⟩ : HObject String Vec) (Manager.init (["first", "second", "third"] : List String)) (none : Option (Dict String Vec)) (some 2)
  let o3 := r2.1
  let p4 := r2.2
  returnsSome c1 &&
    raisesValue p4 "vectors"

example : test_HierarchicalConstrainedClustering_cluster_for_inconsistent_vectors = true := by decide +kernel

/-- tests/clustering/test_hierarchical.py, line 99. -/
def test_HierarchicalConstrainedClustering_cluster_for_inconsistent_nb_clusters_1 : Bool :=
  let c1 := (construct hierOpts ([] : Kwargs))
  let r2 := HObject.cluster testHier (⟨.ward, [], none, []⟩ : HObject String Vec) (Manager.init (["first", "second", "third"] : List String)) (some ([("first", [1, 2, 3]), ("second", [4, 5, 6]), ("third", [7, 8, 9])] : Dict String Vec)) none
  let o3 := r2.1
  let p4 := r2.2
  returnsSome c1 &&
    raisesValue p4 "nb_clusters"

example : test_HierarchicalConstrainedClustering_cluster_for_inconsistent_nb_clusters_1 = true := by decide +kernel

/-- tests/clustering/test_hierarchical.py, line 119. -/
def test_HierarchicalConstrainedClustering_cluster_for_inconsistent_nb_clusters_2 : Bool :=
  let c1 := (construct hierOpts ([] : Kwargs))
  let r2 := HObject.cluster testHier (⟨.ward, [], none, []⟩ : HObject String Vec) (Manager.init (["first", "second", "third"] : List String)) (some ([("first", [1, 2, 3]), ("second", [4, 5, 6]), ("third", [7, 8, 9])] : Dict String Vec)) (some (-1))
  let o3 := r2.1
  let p4 := r2.2
  returnsSome c1 &&
    raisesValue p4 "nb_clusters"

example : test_HierarchicalConstrainedClustering_cluster_for_inconsistent_nb_clusters_2 = true := by decide +kernel

/-- tests/clustering/test_hierarchical.py, line 139. -/
def test_HierarchicalConstrainedClustering_cluster_with_ward_linkage : Bool :=
  let vs1 := ([("0", [1, 0, 0]), ("1", [(19 / 20), (1 / 50), (1 / 100)]), ("2", [(49 / 50), 0, 0]), ("3", [(99 / 100), 0, 0]), ("4", [(1 / 100), (99 / 100), (7 / 100)]), ("5", [(1 / 50), (99 / 100), (7 / 100)]), ("6", [(1 / 100), (99 / 100), (1 / 50)]), ("7", [(1 / 100), (1 / 100), (97 / 100)]), ("8", [0, (1 / 100), (99 / 100)]), ("9", [0, 0, 1])] : Dict String Vec)
  let m2 := (Manager.init (["0", "1", "2", "3", "4", "5", "6", "7", "8", "9"] : List String))
  let r3 := Manager.addConstraint "0" "1" "MUST_LINK" 1 m2
  let m4 := resState r3
  let r5 := Manager.addConstraint "5" "7" "CANNOT_LINK" 1 m4
  let m6 := resState r5
  let c7 := (construct hierOpts ([("linkage", (.str "ward")), ("random_seed", (.int 1))] : Kwargs))
  let r8 := HObject.cluster testHier (⟨.ward, [], none, []⟩ : HObject String Vec) m6 (some vs1) (some 3)
  let o9 := r8.1
  let p10 := r8.2
  let p11 := p10
  returnsSome (resVal r3) &&
    returnsSome (resVal r5) &&
    returnsSome c7 &&
    returnsNonempty p10 &&
    returnsDict p11 ([("0", 0), ("1", 0), ("2", 0), ("3", 0), ("4", 1), ("5", 1), ("6", 1), ("7", 2), ("8", 2), ("9", 2)] : Dict String Int)

example : test_HierarchicalConstrainedClustering_cluster_with_ward_linkage = true := by decide +kernel

/-- tests/clustering/test_hierarchical.py, line 192. -/
def test_HierarchicalConstrainedClustering_cluster_with_average_linkage : Bool :=
  let vs1 := ([("0", [1, 0, 0]), ("1", [(19 / 20), (1 / 50), (1 / 100)]), ("2", [(49 / 50), 0, 0]), ("3", [(99 / 100), 0, 0]), ("4", [(1 / 100), (99 / 100), (7 / 100)]), ("5", [(1 / 50), (99 / 100), (7 / 100)]), ("6", [(1 / 100), (99 / 100), (1 / 50)]), ("7", [(1 / 100), (1 / 100), (97 / 100)]), ("8", [0, (1 / 100), (99 / 100)]), ("9", [0, 0, 1])] : Dict String Vec)
  let m2 := (Manager.init (["0", "1", "2", "3", "4", "5", "6", "7", "8", "9"] : List String))
  let r3 := Manager.addConstraint "0" "1" "MUST_LINK" 1 m2
  let m4 := resState r3
  let r5 := Manager.addConstraint "5" "7" "CANNOT_LINK" 1 m4
  let m6 := resState r5
  let c7 := (construct hierOpts ([("linkage", (.str "average")), ("random_seed", (.int 1))] : Kwargs))
  let r8 := HObject.cluster testHier (⟨.average, [], none, []⟩ : HObject String Vec) m6 (some vs1) (some 3)
  let o9 := r8.1
  let p10 := r8.2
  let p11 := p10
  returnsSome (resVal r3) &&
    returnsSome (resVal r5) &&
    returnsSome c7 &&
    returnsNonempty p10 &&
    returnsDict p11 ([("0", 0), ("1", 0), ("2", 0), ("3", 0), ("4", 1), ("5", 1), ("6", 1), ("7", 2), ("8", 2), ("9", 2)] : Dict String Int)

example : test_HierarchicalConstrainedClustering_cluster_with_average_linkage = true := by decide +kernel

/-- tests/clustering/test_hierarchical.py, line 245. -/
def test_HierarchicalConstrainedClustering_cluster_with_single_linkage : Bool :=
  let vs1 := ([("0", [1, 0, 0]), ("1", [(19 / 20), (1 / 50), (1 / 100)]), ("2", [(49 / 50), 0, 0]), ("3", [(99 / 100), 0, 0]), ("4", [(1 / 100), (99 / 100), (7 / 100)]), ("5", [(1 / 50), (99 / 100), (7 / 100)]), ("6", [(1 / 100), (99 / 100), (1 / 50)]), ("7", [(1 / 100), (1 / 100), (97 / 100)]), ("8", [0, (1 / 100), (99 / 100)]), ("9", [0, 0, 1])] : Dict String Vec)
  let m2 := (Manager.init (["0", "1", "2", "3", "4", "5", "6", "7", "8", "9"] : List String))
  let r3 := Manager.addConstraint "0" "1" "MUST_LINK" 1 m2
  let m4 := resState r3
  let r5 := Manager.addConstraint "5" "7" "CANNOT_LINK" 1 m4
  let m6 := resState r5
  let c7 := (construct hierOpts ([("linkage", (.str "single")), ("random_seed", (.int 1))] : Kwargs))
  let r8 := HObject.cluster testHier (⟨.single, [], none, []⟩ : HObject String Vec) m6 (some vs1) (some 3)
  let o9 := r8.1
  let p10 := r8.2
  let p11 := p10
  returnsSome (resVal r3) &&
    returnsSome (resVal r5) &&
    returnsSome c7 &&
    returnsNonempty p10 &&
    returnsDict p11 ([("0", 0), ("1", 0), ("2", 0), ("3", 0), ("4", 1), ("5", 1), ("6", 1), ("7", 2), ("8", 2), ("9", 2)] : Dict String Int)

example : test_HierarchicalConstrainedClustering_cluster_with_single_linkage = true := by decide +kernel

/-- tests/clustering/test_hierarchical.py, line 298. -/
def test_HierarchicalConstrainedClustering_cluster_with_complete_linkage : Bool :=
  let vs1 := ([("0", [1, 0, 0]), ("1", [(19 / 20), (1 / 50), (1 / 100)]), ("2", [(49 / 50), 0, 0]), ("3", [(99 / 100), 0, 0]), ("4", [(1 / 100), (99 / 100), (7 / 100)]), ("5", [(1 / 50), (99 / 100), (7 / 100)]), ("6", [(1 / 100), (99 / 100), (1 / 50)]), ("7", [(1 / 100), (1 / 100), (97 / 100)]), ("8", [0, (1 / 100), (99 / 100)]), ("9", [0, 0, 1])] : Dict String Vec)
  let m2 := (Manager.init (["0", "1", "2", "3", "4", "5", "6", "7", "8", "9"] : List String))
  let r3 := Manager.addConstraint "0" "1" "MUST_LINK" 1 m2
  let m4 := resState r3
  let r5 := Manager.addConstraint "5" "7" "CANNOT_LINK" 1 m4
  let m6 := resState r5
  let c7 := (construct hierOpts ([("linkage", (.str "complete")), ("random_seed", (.int 1))] : Kwargs))
  let r8 := HObject.cluster testHier (⟨.complete, [], none, []⟩ : HObject String Vec) m6 (some vs1) (some 3)
  let o9 := r8.1
  let p10 := r8.2
  let p11 := p10
  returnsSome (resVal r3) &&
    returnsSome (resVal r5) &&
    returnsSome c7 &&
    returnsNonempty p10 &&
    returnsDict p11 ([("0", 0), ("1", 0), ("2", 0), ("3", 0), ("4", 1), ("5", 1), ("6", 1), ("7", 2), ("8", 2), ("9", 2)] : Dict String Int)

example : test_HierarchicalConstrainedClustering_cluster_with_complete_linkage = true := by decide +kernel

/-- tests/clustering/test_hierarchical.py, line 351. -/
def test_HierarchicalConstrainedClustering_cluster_with_no_constraints_1 : Bool :=
  let vs1 := ([("0", [1, 0, 0, 0]), ("1", [(19 / 20), (1 / 50), (1 / 50), (1 / 100)]), ("2", [(49 / 50), 0, (1 / 50), 0]), ("3", [(99 / 100), 0, (1 / 100), 0]), ("4", [(1 / 2), (11 / 50), (21 / 100), (7 / 100)]), ("5", [(1 / 2), (21 / 100), (11 / 50), (7 / 100)]), ("6", [(1 / 100), (1 / 100), (1 / 100), (97 / 100)]), ("7", [0, (1 / 100), 0, (99 / 100)]), ("8", [0, 0, 0, 1])] : Dict String Vec)
  let m2 := (Manager.init ((dkeys vs1) : List String))
  let c3 := (construct hierOpts ([("random_seed", (.int 2))] : Kwargs))
  let r4 := HObject.cluster testHier (⟨.ward, [], none, []⟩ : HObject String Vec) m2 (some vs1) (some 2)
  let o5 := r4.1
  let p6 := r4.2
  let p7 := p6
  returnsSome c3 &&
    returnsNonempty p6 &&
    returnsDict p7 ([("0", 0), ("1", 0), ("2", 0), ("3", 0), ("4", 0), ("5", 0), ("6", 1), ("7", 1), ("8", 1)] : Dict String Int)

example : test_HierarchicalConstrainedClustering_cluster_with_no_constraints_1 = true := by decide +kernel

/-- tests/clustering/test_hierarchical.py, line 389. -/
def test_HierarchicalConstrainedClustering_cluster_with_no_constraints_2 : Bool :=
  let vs1 := ([("0", [1, 0, 0]), ("1", [(19 / 20), (1 / 50), (1 / 100)]), ("2", [(49 / 50), 0, 0]), ("3", [(99 / 100), 0, 0]), ("4", [(1 / 100), (99 / 100), (7 / 100)]), ("5", [(1 / 50), (99 / 100), (7 / 100)]), ("6", [(1 / 100), (99 / 100), (1 / 50)]), ("7", [(1 / 100), (1 / 100), (97 / 100)]), ("8", [0, (1 / 100), (99 / 100)]), ("9", [0, 0, 1])] : Dict String Vec)
  let m2 := (Manager.init ((dkeys vs1) : List String))
  let c3 := (construct hierOpts ([("random_seed", (.int 2))] : Kwargs))
  let r4 := HObject.cluster testHier (⟨.ward, [], none, []⟩ : HObject String Vec) m2 (some vs1) (some 3)
  let o5 := r4.1
  let p6 := r4.2
  let p7 := p6
  returnsSome c3 &&
    returnsNonempty p6 &&
    returnsDict p7 ([("0", 0), ("1", 0), ("2", 0), ("3", 0), ("4", 1), ("5", 1), ("6", 1), ("7", 2), ("8", 2), ("9", 2)] : Dict String Int)

example : test_HierarchicalConstrainedClustering_cluster_with_no_constraints_2 = true := by decide +kernel

/-- tests/clustering/test_hierarchical.py, line 438. -/
def test_HierarchicalConstrainedClustering_cluster_with_some_constraints : Bool :=
  let vs1 := ([("0", [1, 0, 0, 0]), ("1", [(19 / 20), (1 / 50), (1 / 50), (1 / 100)]), ("2", [(49 / 50), 0, (1 / 50), 0]), ("3", [(99 / 100), 0, (1 / 100), 0]), ("4", [(1 / 2), (11 / 50), (21 / 100), (7 / 100)]), ("5", [(1 / 2), (21 / 100), (11 / 50), (7 / 100)]), ("6", [(1 / 100), (1 / 100), (1 / 100), (97 / 100)]), ("7", [0, (1 / 100), 0, (99 / 100)]), ("8", [0, 0, 0, 1])] : Dict String Vec)
  let m2 := (Manager.init (["0", "1", "2", "3", "4", "5", "6", "7", "8"] : List String))
  let r3 := Manager.addConstraint "0" "1" "MUST_LINK" 1 m2
  let m4 := resState r3
  let r5 := Manager.addConstraint "0" "6" "MUST_LINK" 1 m4
  let m6 := resState r5
  let r7 := Manager.addConstraint "0" "7" "MUST_LINK" 1 m6
  let m8 := resState r7
  let r9 := Manager.addConstraint "0" "8" "MUST_LINK" 1 m8
  let m10 := resState r9
  let r11 := Manager.addConstraint "4" "5" "MUST_LINK" 1 m10
  let m12 := resState r11
  let r13 := Manager.addConstraint "0" "4" "CANNOT_LINK" 1 m12
  let m14 := resState r13
  let r15 := Manager.addConstraint "2" "4" "CANNOT_LINK" 1 m14
  let m16 := resState r15
  let c17 := (construct hierOpts ([("random_seed", (.int 2))] : Kwargs))
  let r18 := HObject.cluster testHier (⟨.ward, [], none, []⟩ : HObject String Vec) m16 (some vs1) (some 3)
  let o19 := r18.1
  let p20 := r18.2
  let p21 := p20
  returnsSome (resVal r3) &&
    returnsSome (resVal r5) &&
    returnsSome (resVal r7) &&
    returnsSome (resVal r9) &&
    returnsSome (resVal r11) &&
    returnsSome (resVal r13) &&
    returnsSome (resVal r15) &&
    returnsSome c17 &&
    returnsNonempty p20 &&
    returnsDict p21 ([("0", 0), ("1", 0), ("2", 1), ("3", 1), ("4", 2), ("5", 2), ("6", 0), ("7", 0), ("8", 0)] : Dict String Int)

example : test_HierarchicalConstrainedClustering_cluster_with_some_constraints = true := by decide +kernel

/-- tests/clustering/test_hierarchical.py, line 492. -/
def test_HierarchicalConstrainedClustering_cluster_with_full_constraints : Bool :=
  let vs1 := ([("0", [1, 0, 0, 0]), ("1", [(19 / 20), (1 / 50), (1 / 50), (1 / 100)]), ("2", [(49 / 50), 0, (1 / 50), 0]), ("3", [(99 / 100), 0, (1 / 100), 0]), ("4", [(1 / 2), (11 / 50), (21 / 100), (7 / 100)]), ("5", [(1 / 2), (21 / 100), (11 / 50), (7 / 100)]), ("6", [(1 / 100), (1 / 100), (1 / 100), (97 / 100)]), ("7", [0, (1 / 100), 0, (99 / 100)]), ("8", [0, 0, 0, 1])] : Dict String Vec)
  let m2 := (Manager.init (["0", "1", "2", "3", "4", "5", "6", "7", "8"] : List String))
  let r3 := Manager.addConstraint "0" "4" "MUST_LINK" 1 m2
  let m4 := resState r3
  let r5 := Manager.addConstraint "0" "8" "MUST_LINK" 1 m4
  let m6 := resState r5
  let r7 := Manager.addConstraint "1" "5" "MUST_LINK" 1 m6
  let m8 := resState r7
  let r9 := Manager.addConstraint "2" "6" "MUST_LINK" 1 m8
  let m10 := resState r9
  let r11 := Manager.addConstraint "3" "7" "MUST_LINK" 1 m10
  let m12 := resState r11
  let r13 := Manager.addConstraint "0" "1" "CANNOT_LINK" 1 m12
  let m14 := resState r13
  let r15 := Manager.addConstraint "0" "2" "CANNOT_LINK" 1 m14
  let m16 := resState r15
  let r17 := Manager.addConstraint "0" "3" "CANNOT_LINK" 1 m16
  let m18 := resState r17
  let r19 := Manager.addConstraint "1" "2" "CANNOT_LINK" 1 m18
  let m20 := resState r19
  let r21 := Manager.addConstraint "1" "3" "CANNOT_LINK" 1 m20
  let m22 := resState r21
  let r23 := Manager.addConstraint "2" "3" "CANNOT_LINK" 1 m22
  let m24 := resState r23
  let c25 := (construct hierOpts ([] : Kwargs))
  let r26 := HObject.cluster testHier (⟨.ward, [], none, []⟩ : HObject String Vec) m24 (some vs1) (some 4)
  let o27 := r26.1
  let p28 := r26.2
  let p29 := p28
  returnsSome (resVal r3) &&
    returnsSome (resVal r5) &&
    returnsSome (resVal r7) &&
    returnsSome (resVal r9) &&
    returnsSome (resVal r11) &&
    returnsSome (resVal r13) &&
    returnsSome (resVal r15) &&
    returnsSome (resVal r17) &&
    returnsSome (resVal r19) &&
    returnsSome (resVal r21) &&
    returnsSome (resVal r23) &&
    returnsSome c25 &&
    returnsNonempty p28 &&
    returnsDict p29 ([("0", 0), ("1", 1), ("2", 2), ("3", 3), ("4", 0), ("5", 1), ("6", 2), ("7", 3), ("8", 0)] : Dict String Int)

example : test_HierarchicalConstrainedClustering_cluster_with_full_constraints = true := by decide +kernel

/-- tests/clustering/test_hierarchical.py, line 548. -/
def test_HierarchicalConstrainedClustering_compute_predicted_clusters_without_clustering_tree : Bool :=
  let c1 := (construct hierOpts ([("linkage", (.str "single")), ("random_seed", (.int 1))] : Kwargs))
  returnsSome c1 &&
    raisesValue ((⟨.single, [], none, []⟩ : HObject String Vec).cut 2 .size) "clustering_root"

example : test_HierarchicalConstrainedClustering_compute_predicted_clusters_without_clustering_tree = true := by decide +kernel

/-- tests/clustering/test_hierarchical.py, line 570. -/
def test_HierarchicalConstrainedClustering_compute_predicted_clusters_travelling_by_size : Bool :=
  let vs1 := ([("00", [1, 0, 0]), ("01", [(99 / 100), 0, 0]), ("02", [(97 / 100), 0, 0]), ("03", [(24 / 25), 0, 0]), ("04", [(47 / 50), 0, 0]), ("05", [(93 / 100), 0, 0]), ("06", [(4 / 5), (4 / 5), 0]), ("07", [(4 / 5), (81 / 100), 0]), ("08", [0, 0, (7 / 10)]), ("09", [0, 0, (71 / 100)]), ("10", [0, 0, (99 / 100)]), ("11", [0, 0, 1])] : Dict String Vec)
  let m2 := (Manager.init ((dkeys vs1) : List String))
  let c3 := (construct hierOpts ([("linkage", (.str "single")), ("random_seed", (.int 1))] : Kwargs))
  let r4 := HObject.cluster testHier (⟨.single, [], none, []⟩ : HObject String Vec) m2 (some vs1) (some 2)
  let o5 := r4.1
  let p6 := r4.2
  let p7 := (o5.cut 4 .size)
  returnsSome c3 &&
    returnsSome p6 &&
    returnsDict p7 ([("00", 0), ("01", 0), ("02", 0), ("03", 0), ("04", 1), ("05", 1), ("06", 2), ("07", 2), ("08", 3), ("09", 3), ("10", 3), ("11", 3)] : Dict String Int)

example : test_HierarchicalConstrainedClustering_compute_predicted_clusters_travelling_by_size = true := by decide +kernel

/-- tests/clustering/test_hierarchical.py, line 629. -/
def test_HierarchicalConstrainedClustering_compute_predicted_clusters_travelling_by_iteration : Bool :=
  let vs1 := ([("00", [1, 0, 0]), ("01", [(99 / 100), 0, 0]), ("02", [(97 / 100), 0, 0]), ("03", [(24 / 25), 0, 0]), ("04", [(47 / 50), 0, 0]), ("05", [(93 / 100), 0, 0]), ("06", [(4 / 5), (4 / 5), 0]), ("07", [(4 / 5), (81 / 100), 0]), ("08", [0, 0, (7 / 10)]), ("09", [0, 0, (71 / 100)]), ("10", [0, 0, (99 / 100)]), ("11", [0, 0, 1])] : Dict String Vec)
  let m2 := (Manager.init ((dkeys vs1) : List String))
  let c3 := (construct hierOpts ([("linkage", (.str "single")), ("random_seed", (.int 1))] : Kwargs))
  let r4 := HObject.cluster testHier (⟨.single, [], none, []⟩ : HObject String Vec) m2 (some vs1) (some 2)
  let o5 := r4.1
  let p6 := r4.2
  let p7 := (o5.cut 4 .iteration)
  let p8 := (o5.cut 99 .iteration)
  returnsSome c3 &&
    returnsSome p6 &&
    returnsDict p7 ([("00", 0), ("01", 0), ("02", 0), ("03", 0), ("04", 0), ("05", 0), ("06", 1), ("07", 1), ("08", 2), ("09", 2), ("10", 3), ("11", 3)] : Dict String Int) &&
    returnsDict p8 ([("00", 0), ("01", 1), ("02", 2), ("03", 3), ("04", 4), ("05", 5), ("06", 6), ("07", 7), ("08", 8), ("09", 9), ("10", 10), ("11", 11)] : Dict String Int)

example : test_HierarchicalConstrainedClustering_compute_predicted_clusters_travelling_by_iteration = true := by decide +kernel

/-- tests/clustering/test_hierarchical.py, line 708. -/
def test_HierarchicalConstrainedClustering_cluster_with_break_loop : Bool :=
  let vs1 := ([("0", [1, 0, 0, 0]), ("1", [(19 / 20), (1 / 50), (1 / 50), (1 / 100)]), ("2", [(49 / 50), 0, (1 / 50), 0]), ("3", [(99 / 100), 0, (1 / 100), 0]), ("4", [(1 / 2), (11 / 50), (21 / 100), (7 / 100)]), ("5", [(1 / 2), (21 / 100), (11 / 50), (7 / 100)]), ("6", [(1 / 100), (1 / 100), (1 / 100), (97 / 100)]), ("7", [0, (1 / 100), 0, (99 / 100)]), ("8", [0, 0, 0, 1])] : Dict String Vec)
  let m2 := (Manager.init (["0", "1", "2", "3", "4", "5", "6", "7", "8"] : List String))
  let r3 := Manager.addConstraint "0" "1" "CANNOT_LINK" 1 m2
  let m4 := resState r3
  let r5 := Manager.addConstraint "0" "2" "CANNOT_LINK" 1 m4
  let m6 := resState r5
  let r7 := Manager.addConstraint "0" "3" "CANNOT_LINK" 1 m6
  let m8 := resState r7
  let r9 := Manager.addConstraint "0" "4" "CANNOT_LINK" 1 m8
  let m10 := resState r9
  let r11 := Manager.addConstraint "0" "5" "CANNOT_LINK" 1 m10
  let m12 := resState r11
  let r13 := Manager.addConstraint "0" "6" "CANNOT_LINK" 1 m12
  let m14 := resState r13
  let r15 := Manager.addConstraint "0" "7" "CANNOT_LINK" 1 m14
  let m16 := resState r15
  let r17 := Manager.addConstraint "0" "8" "CANNOT_LINK" 1 m16
  let m18 := resState r17
  let r19 := Manager.addConstraint "1" "2" "CANNOT_LINK" 1 m18
  let m20 := resState r19
  let r21 := Manager.addConstraint "1" "3" "CANNOT_LINK" 1 m20
  let m22 := resState r21
  let r23 := Manager.addConstraint "1" "4" "CANNOT_LINK" 1 m22
  let m24 := resState r23
  let r25 := Manager.addConstraint "1" "5" "CANNOT_LINK" 1 m24
  let m26 := resState r25
  let r27 := Manager.addConstraint "1" "6" "CANNOT_LINK" 1 m26
  let m28 := resState r27
  let r29 := Manager.addConstraint "1" "7" "CANNOT_LINK" 1 m28
  let m30 := resState r29
  let r31 := Manager.addConstraint "1" "8" "CANNOT_LINK" 1 m30
  let m32 := resState r31
  let r33 := Manager.addConstraint "2" "3" "CANNOT_LINK" 1 m32
  let m34 := resState r33
  let r35 := Manager.addConstraint "2" "4" "CANNOT_LINK" 1 m34
  let m36 := resState r35
  let r37 := Manager.addConstraint "2" "5" "CANNOT_LINK" 1 m36
  let m38 := resState r37
  let r39 := Manager.addConstraint "2" "6" "CANNOT_LINK" 1 m38
  let m40 := resState r39
  let r41 := Manager.addConstraint "2" "7" "CANNOT_LINK" 1 m40
  let m42 := resState r41
  let r43 := Manager.addConstraint "2" "8" "CANNOT_LINK" 1 m42
  let m44 := resState r43
  let r45 := Manager.addConstraint "3" "4" "CANNOT_LINK" 1 m44
  let m46 := resState r45
  let r47 := Manager.addConstraint "3" "5" "CANNOT_LINK" 1 m46
  let m48 := resState r47
  let r49 := Manager.addConstraint "3" "6" "CANNOT_LINK" 1 m48
  let m50 := resState r49
  let r51 := Manager.addConstraint "3" "7" "CANNOT_LINK" 1 m50
  let m52 := resState r51
  let r53 := Manager.addConstraint "3" "8" "CANNOT_LINK" 1 m52
  let m54 := resState r53
  let r55 := Manager.addConstraint "4" "5" "CANNOT_LINK" 1 m54
  let m56 := resState r55
  let r57 := Manager.addConstraint "4" "6" "CANNOT_LINK" 1 m56
  let m58 := resState r57
  let r59 := Manager.addConstraint "4" "7" "CANNOT_LINK" 1 m58
  let m60 := resState r59
  let r61 := Manager.addConstraint "4" "8" "CANNOT_LINK" 1 m60
  let m62 := resState r61
  let r63 := Manager.addConstraint "5" "6" "CANNOT_LINK" 1 m62
  let m64 := resState r63
  let r65 := Manager.addConstraint "5" "7" "CANNOT_LINK" 1 m64
  let m66 := resState r65
  let r67 := Manager.addConstraint "5" "8" "CANNOT_LINK" 1 m66
  let m68 := resState r67
  let r69 := Manager.addConstraint "6" "7" "CANNOT_LINK" 1 m68
  let m70 := resState r69
  let r71 := Manager.addConstraint "6" "8" "CANNOT_LINK" 1 m70
  let m72 := resState r71
  let r73 := Manager.addConstraint "7" "8" "CANNOT_LINK" 1 m72
  let m74 := resState r73
  let c75 := (construct hierOpts ([("linkage", (.str "average"))] : Kwargs))
  let r76 := HObject.cluster testHier (⟨.average, [], none, []⟩ : HObject String Vec) m74 (some vs1) (some 5)
  let o77 := r76.1
  let p78 := r76.2
  returnsSome (resVal r3) &&
    returnsSome (resVal r5) &&
    returnsSome (resVal r7) &&
    returnsSome (resVal r9) &&
    returnsSome (resVal r11) &&
    returnsSome (resVal r13) &&
    returnsSome (resVal r15) &&
    returnsSome (resVal r17) &&
    returnsSome (resVal r19) &&
    returnsSome (resVal r21) &&
    returnsSome (resVal r23) &&
    returnsSome (resVal r25) &&
    returnsSome (resVal r27) &&
    returnsSome (resVal r29) &&
    returnsSome (resVal r31) &&
    returnsSome (resVal r33) &&
    returnsSome (resVal r35) &&
    returnsSome (resVal r37) &&
    returnsSome (resVal r39) &&
    returnsSome (resVal r41) &&
    returnsSome (resVal r43) &&
    returnsSome (resVal r45) &&
    returnsSome (resVal r47) &&
    returnsSome (resVal r49) &&
    returnsSome (resVal r51) &&
    returnsSome (resVal r53) &&
    returnsSome (resVal r55) &&
    returnsSome (resVal r57) &&
    returnsSome (resVal r59) &&
    returnsSome (resVal r61) &&
    returnsSome (resVal r63) &&
    returnsSome (resVal r65) &&
    returnsSome (resVal r67) &&
    returnsSome (resVal r69) &&
    returnsSome (resVal r71) &&
    returnsSome (resVal r73) &&
    returnsSome c75 &&
    returnsSome p78 &&
    returnsNonempty p78 &&
    returnsDict p78 ([("0", 0), ("1", 1), ("2", 2), ("3", 3), ("4", 4), ("5", 5), ("6", 6), ("7", 7), ("8", 8)] : Dict String Int)

example : test_HierarchicalConstrainedClustering_cluster_with_break_loop = true := by decide +kernel

/-- tests/clustering/test_hierarchical.py, line 791. -/
def test_HierarchicalConstrainedClustering_cluster_end_cases_with_too_many_clusters : Bool :=
  let vs1 := ([("0", [1, 0, 0, 0]), ("1", [(19 / 20), (1 / 50), (1 / 50), (1 / 100)]), ("2", [(49 / 50), 0, (1 / 50), 0]), ("3", [(99 / 100), 0, (1 / 100), 0]), ("4", [(1 / 2), (11 / 50), (21 / 100), (7 / 100)]), ("5", [(1 / 2), (21 / 100), (11 / 50), (7 / 100)]), ("6", [(1 / 100), (1 / 100), (1 / 100), (97 / 100)]), ("7", [0, (1 / 100), 0, (99 / 100)]), ("8", [0, 0, 0, 1])] : Dict String Vec)
  let m2 := (Manager.init ((dkeys vs1) : List String))
  let c3 := (construct hierOpts ([("linkage", (.str "average"))] : Kwargs))
  let r4 := HObject.cluster testHier (⟨.average, [], none, []⟩ : HObject String Vec) m2 (some vs1) (some 99)
  let o5 := r4.1
  let p6 := r4.2
  let p7 := p6
  returnsSome c3 &&
    returnsNonempty p6 &&
    returnsDict p7 ([("0", 0), ("1", 1), ("2", 2), ("3", 3), ("4", 4), ("5", 5), ("6", 6), ("7", 7), ("8", 8)] : Dict String Int)

example : test_HierarchicalConstrainedClustering_cluster_end_cases_with_too_many_clusters = true := by decide +kernel

end Verif.Tests
