import Verif.Tests.Prelude

/-
Tests of the repository run on the model (see Tests/Prelude.lean): /repo/tests/sampling/test_cluster_based.py, /repo/tests/sampling/test_factory.py, /repo/tests/sampling/test_factory_random.py, /repo/tests/sampling/test_factory_random_in_same_cluster.py, /repo/tests/sampling/test_factory_farthest_in_same_cluster.py, /repo/tests/sampling/test_factory_closest_in_different_clusters.py.
-/

set_option linter.unusedVariables false

namespace Verif.Tests

/-- tests/sampling/test_cluster_based.py, line 23. -/
def test_cluster_based_for_incorrect_clusters_restriction_parameter : Bool :=
  raisesValue (construct samplerOpts ([("clusters_restriction", (.str "unknown"))] : Kwargs)) "clusters_restriction"

example : test_cluster_based_for_incorrect_clusters_restriction_parameter = true := by decide +kernel

/-- tests/sampling/test_cluster_based.py, line 38. -/
def test_cluster_based_for_incorrect_distance_restriction_parameter : Bool :=
  raisesValue (construct samplerOpts ([("distance_restriction", (.str "unknown"))] : Kwargs)) "distance_restriction"

example : test_cluster_based_for_incorrect_distance_restriction_parameter = true := by decide +kernel

/-- tests/sampling/test_cluster_based.py, line 53. -/
def test_cluster_based_for_incorrect_without_added_constraints_parameter : Bool :=
  raisesValue (construct samplerOpts ([("without_added_constraints", (.str "unknown"))] : Kwargs)) "without_added_constraints"

example : test_cluster_based_for_incorrect_without_added_constraints_parameter = true := by decide +kernel

/-- tests/sampling/test_cluster_based.py, line 68. -/
def test_cluster_based_for_incorrect_without_inferred_constraints_parameter : Bool :=
  raisesValue (construct samplerOpts ([("without_inferred_constraints", (.str "unknown"))] : Kwargs)) "without_inferred_constraints"

example : test_cluster_based_for_incorrect_without_inferred_constraints_parameter = true := by decide +kernel

/-- tests/sampling/test_factory.py, line 24. -/
def test_sampling_factory_for_not_implemented_clustering : Bool :=
  raisesValue (samplingFactory "unknown" ([] : Kwargs)) "algorithm"

example : test_sampling_factory_for_not_implemented_clustering = true := by decide +kernel

/-- tests/sampling/test_factory.py, line 39. -/
def test_sampling_factory_for_random_sampling : Bool :=
  let c1 := (samplingFactory "random" ([] : Kwargs))
  returnsSome c1 &&
    hasAttr c1 "clusters_restriction" .none &&
    hasAttr c1 "distance_restriction" .none

example : test_sampling_factory_for_random_sampling = true := by decide +kernel

/-- tests/sampling/test_factory.py, line 56. -/
def test_sampling_factory_for_random_in_same_cluster_sampling : Bool :=
  let c1 := (samplingFactory "random_in_same_cluster" ([] : Kwargs))
  returnsSome c1 &&
    hasAttr c1 "clusters_restriction" (.str "same_cluster") &&
    hasAttr c1 "distance_restriction" .none

example : test_sampling_factory_for_random_in_same_cluster_sampling = true := by decide +kernel

/-- tests/sampling/test_factory.py, line 73. -/
def test_sampling_factory_for_farthest_in_same_cluster_sampling : Bool :=
  let c1 := (samplingFactory "farthest_in_same_cluster" ([] : Kwargs))
  returnsSome c1 &&
    hasAttr c1 "clusters_restriction" (.str "same_cluster") &&
    hasAttr c1 "distance_restriction" (.str "farthest_neighbors")

example : test_sampling_factory_for_farthest_in_same_cluster_sampling = true := by decide +kernel

/-- tests/sampling/test_factory.py, line 90. -/
def test_sampling_factory_for_closest_in_different_clusters_sampling : Bool :=
  let c1 := (samplingFactory "closest_in_different_clusters" ([] : Kwargs))
  returnsSome c1 &&
    hasAttr c1 "clusters_restriction" (.str "different_clusters") &&
    hasAttr c1 "distance_restriction" (.str "closest_neighbors")

example : test_sampling_factory_for_closest_in_different_clusters_sampling = true := by decide +kernel

/-- tests/sampling/test_factory_random.py, line 24. -/
def test_factory_random_sampler_for_correct_settings : Bool :=
  let c1 := (construct samplerOpts ([("random_seed", (.int 1))] : Kwargs))
  returnsSome c1 &&
    returnsSome c1 &&
    hasAttr c1 "random_seed" (.int 1)

example : test_factory_random_sampler_for_correct_settings = true := by decide +kernel

/-- tests/sampling/test_factory_random.py, line 58. -/
def test_factory_random_sampler_sample_for_incorrect_nb_to_select : Bool :=
  let c1 := (construct samplerOpts ([("random_seed", (.int 1))] : Kwargs))
  returnsSome c1 &&
    raisesValue ((c1.toOption.bind PyObject.sampler).elim (.error .attributeError) fun cfg => cfg.sample (Manager.init (["bonjour", "salut", "coucou", "au revoir", "a bientôt"] : List String)) none none (none : Option (Dict String Vec)) euclid (pickSeed 1)) "nb_to_select" &&
    raisesValue ((c1.toOption.bind PyObject.sampler).elim (.error .attributeError) fun cfg => cfg.sample (Manager.init (["bonjour", "salut", "coucou", "au revoir", "a bientôt"] : List String)) (some (-99)) none (none : Option (Dict String Vec)) euclid (pickSeed 1)) "nb_to_select"

example : test_factory_random_sampler_sample_for_incorrect_nb_to_select = true := by decide +kernel

/-- tests/sampling/test_factory_random.py, line 100. -/
def test_factory_random_sampler_sample_for_zero_nb_to_select : Bool :=
  let c1 := (construct samplerOpts ([("random_seed", (.int 1))] : Kwargs))
  returnsSome c1 &&
    returnsEmpty ((c1.toOption.bind PyObject.sampler).elim (.error .attributeError) fun cfg => cfg.sample (Manager.init (["bonjour", "salut", "coucou", "au revoir", "a bientôt"] : List String)) (some 0) none (none : Option (Dict String Vec)) euclid (pickSeed 1))

example : test_factory_random_sampler_sample_for_zero_nb_to_select = true := by decide +kernel

/-- tests/sampling/test_factory_random.py, line 126. -/
def test_factory_random_sampler_sample_for_empty_constraints_manager : Bool :=
  let c1 := (construct samplerOpts ([("random_seed", (.int 1))] : Kwargs))
  returnsSome c1 &&
    returns ((c1.toOption.bind PyObject.sampler).elim (.error .attributeError) fun cfg => cfg.sample (Manager.init (["bonjour", "salut", "coucou", "au revoir", "a bientôt"] : List String)) (some 3) none (none : Option (Dict String Vec)) euclid (pickSeed 1)) [("coucou", "salut"), ("bonjour", "coucou"), ("au revoir", "salut")]

example : test_factory_random_sampler_sample_for_empty_constraints_manager = true := by decide +kernel

/-- tests/sampling/test_factory_random.py, line 152. -/
def test_factory_random_sampler_sample_for_correct_constraints_manager : Bool :=
  let c1 := (construct samplerOpts ([("random_seed", (.int 1))] : Kwargs))
  let m2 := (Manager.init (["bonjour", "salut", "coucou", "au revoir", "a bientôt"] : List String))
  let r3 := Manager.addConstraint "bonjour" "salut" "MUST_LINK" 1 m2
  let m4 := resState r3
  let r5 := Manager.addConstraint "au revoir" "a bientôt" "MUST_LINK" 1 m4
  let m6 := resState r5
  returnsSome c1 &&
    returnsSome (resVal r3) &&
    returnsSome (resVal r5) &&
    returns ((c1.toOption.bind PyObject.sampler).elim (.error .attributeError) fun cfg => cfg.sample m6 (some 3) none (none : Option (Dict String Vec)) euclid (pickSeed 1)) [("au revoir", "bonjour"), ("au revoir", "coucou"), ("bonjour", "coucou")]

example : test_factory_random_sampler_sample_for_correct_constraints_manager = true := by decide +kernel

/-- tests/sampling/test_factory_random.py, line 183. -/
def test_factory_random_sampler_sample_for_full_annotated_constraints_manager : Bool :=
  let c1 := (construct samplerOpts ([("random_seed", (.int 1))] : Kwargs))
  let m2 := (Manager.init (["bonjour", "salut", "coucou", "au revoir", "a bientôt"] : List String))
  let r3 := Manager.addConstraint "bonjour" "salut" "MUST_LINK" 1 m2
  let m4 := resState r3
  let r5 := Manager.addConstraint "bonjour" "coucou" "MUST_LINK" 1 m4
  let m6 := resState r5
  let r7 := Manager.addConstraint "bonjour" "au revoir" "CANNOT_LINK" 1 m6
  let m8 := resState r7
  let r9 := Manager.addConstraint "au revoir" "a bientôt" "MUST_LINK" 1 m8
  let m10 := resState r9
  returnsSome c1 &&
    returnsSome (resVal r3) &&
    returnsSome (resVal r5) &&
    returnsSome (resVal r7) &&
    returnsSome (resVal r9) &&
    returnsEmpty ((c1.toOption.bind PyObject.sampler).elim (.error .attributeError) fun cfg => cfg.sample m10 (some 3) none (none : Option (Dict String Vec)) euclid (pickSeed 1))

example : test_factory_random_sampler_sample_for_full_annotated_constraints_manager = true := by decide +kernel

/-- tests/sampling/test_factory_random_in_same_cluster.py, line 24. -/
def test_factory_random_in_same_cluster_sampler_for_correct_settings : Bool :=
  let c1 := (construct samplerOpts ([("clusters_restriction", (.str "same_cluster")), ("random_seed", (.int 1))] : Kwargs))
  returnsSome c1 &&
    returnsSome c1 &&
    hasAttr c1 "random_seed" (.int 1)

example : test_factory_random_in_same_cluster_sampler_for_correct_settings = true := by decide +kernel

/-- tests/sampling/test_factory_random_in_same_cluster.py, line 64. -/
def test_factory_random_in_same_cluster_sampler_sample_for_incorrect_nb_to_select : Bool :=
  let c1 := (construct samplerOpts ([("clusters_restriction", (.str "same_cluster")), ("random_seed", (.int 1))] : Kwargs))
  returnsSome c1 &&
    raisesValue ((c1.toOption.bind PyObject.sampler).elim (.error .attributeError) fun cfg => cfg.sample (Manager.init (["bonjour", "salut", "coucou", "au revoir", "a bientôt"] : List String)) none none (none : Option (Dict String Vec)) euclid (pickSeed 1)) "nb_to_select" &&
    raisesValue ((c1.toOption.bind PyObject.sampler).elim (.error .attributeError) fun cfg => cfg.sample (Manager.init (["bonjour", "salut", "coucou", "au revoir", "a bientôt"] : List String)) (some (-99)) none (none : Option (Dict String Vec)) euclid (pickSeed 1)) "nb_to_select"

example : test_factory_random_in_same_cluster_sampler_sample_for_incorrect_nb_to_select = true := by decide +kernel

/-- tests/sampling/test_factory_random_in_same_cluster.py, line 109. -/
def test_factory_random_in_same_cluster_sampler_sample_for_zero_nb_to_select : Bool :=
  let c1 := (construct samplerOpts ([("clusters_restriction", (.str "same_cluster")), ("random_seed", (.int 1))] : Kwargs))
  returnsSome c1 &&
    returnsEmpty ((c1.toOption.bind PyObject.sampler).elim (.error .attributeError) fun cfg => cfg.sample (Manager.init (["bonjour", "salut", "coucou", "au revoir", "a bientôt"] : List String)) (some 0) none (none : Option (Dict String Vec)) euclid (pickSeed 1))

example : test_factory_random_in_same_cluster_sampler_sample_for_zero_nb_to_select = true := by decide +kernel

/-- tests/sampling/test_factory_random_in_same_cluster.py, line 138. -/
def test_factory_random_in_same_cluster_sampler_sample_for_incorrect_clustering_result : Bool :=
  let c1 := (construct samplerOpts ([("clusters_restriction", (.str "same_cluster")), ("random_seed", (.int 1))] : Kwargs))
  returnsSome c1 &&
    raisesValue ((c1.toOption.bind PyObject.sampler).elim (.error .attributeError) fun cfg => cfg.sample (Manager.init (["bonjour", "salut", "coucou", "au revoir", "a bientôt"] : List String)) (some 3) none (none : Option (Dict String Vec)) euclid (pickSeed 1)) "clustering_result" &&
    raisesKeyError ((c1.toOption.bind PyObject.sampler).elim (.error .attributeError) fun cfg => cfg.sample (Manager.init (["bonjour", "salut", "coucou", "au revoir", "a bientôt"] : List String)) (some 3) (some ([("first", 1), ("second", 2)] : Dict String Int)) (none : Option (Dict String Vec)) euclid (pickSeed 1))

example : test_factory_random_in_same_cluster_sampler_sample_for_incorrect_clustering_result = true := by decide +kernel

/-- tests/sampling/test_factory_random_in_same_cluster.py, line 188. -/
def test_factory_random_in_same_cluster_sampler_sample_for_empty_constraints_manager : Bool :=
  let c1 := (construct samplerOpts ([("clusters_restriction", (.str "same_cluster")), ("random_seed", (.int 1))] : Kwargs))
  returnsSome c1 &&
    returns ((c1.toOption.bind PyObject.sampler).elim (.error .attributeError) fun cfg => cfg.sample (Manager.init (["bonjour", "salut", "coucou", "au revoir", "a bientôt"] : List String)) (some 3) (some ([("bonjour", 0), ("salut", 0), ("coucou", 0), ("au revoir", 1), ("a bientôt", 1)] : Dict String Int)) (none : Option (Dict String Vec)) euclid (pickSeed 1)) [("bonjour", "coucou"), ("coucou", "salut"), ("bonjour", "salut")]

example : test_factory_random_in_same_cluster_sampler_sample_for_empty_constraints_manager = true := by decide +kernel

/-- tests/sampling/test_factory_random_in_same_cluster.py, line 224. -/
def test_factory_random_in_same_cluster_sampler_sample_for_correct_constraints_manager : Bool :=
  let c1 := (construct samplerOpts ([("clusters_restriction", (.str "same_cluster")), ("random_seed", (.int 1))] : Kwargs))
  let m2 := (Manager.init (["bonjour", "salut", "coucou", "au revoir", "a bientôt"] : List String))
  let r3 := Manager.addConstraint "bonjour" "salut" "MUST_LINK" 1 m2
  let m4 := resState r3
  let r5 := Manager.addConstraint "au revoir" "a bientôt" "MUST_LINK" 1 m4
  let m6 := resState r5
  returnsSome c1 &&
    returnsSome (resVal r3) &&
    returnsSome (resVal r5) &&
    returns ((c1.toOption.bind PyObject.sampler).elim (.error .attributeError) fun cfg => cfg.sample m6 (some 3) (some ([("bonjour", 0), ("salut", 0), ("coucou", 0), ("au revoir", 1), ("a bientôt", 1)] : Dict String Int)) (none : Option (Dict String Vec)) euclid (pickSeed 1)) [("bonjour", "coucou"), ("coucou", "salut")]

example : test_factory_random_in_same_cluster_sampler_sample_for_correct_constraints_manager = true := by decide +kernel

/-- tests/sampling/test_factory_random_in_same_cluster.py, line 265. -/
def test_factory_random_in_same_cluster_sampler_sample_for_full_annotated_constraints_manager : Bool :=
  let c1 := (construct samplerOpts ([("clusters_restriction", (.str "same_cluster")), ("random_seed", (.int 1))] : Kwargs))
  let m2 := (Manager.init (["bonjour", "salut", "coucou", "au revoir", "a bientôt"] : List String))
  let r3 := Manager.addConstraint "bonjour" "salut" "MUST_LINK" 1 m2
  let m4 := resState r3
  let r5 := Manager.addConstraint "bonjour" "coucou" "MUST_LINK" 1 m4
  let m6 := resState r5
  let r7 := Manager.addConstraint "bonjour" "au revoir" "CANNOT_LINK" 1 m6
  let m8 := resState r7
  let r9 := Manager.addConstraint "au revoir" "a bientôt" "MUST_LINK" 1 m8
  let m10 := resState r9
  returnsSome c1 &&
    returnsSome (resVal r3) &&
    returnsSome (resVal r5) &&
    returnsSome (resVal r7) &&
    returnsSome (resVal r9) &&
    returnsEmpty ((c1.toOption.bind PyObject.sampler).elim (.error .attributeError) fun cfg => cfg.sample m10 (some 3) (some ([("bonjour", 0), ("salut", 0), ("coucou", 0), ("au revoir", 1), ("a bientôt", 1)] : Dict String Int)) (none : Option (Dict String Vec)) euclid (pickSeed 1))

example : test_factory_random_in_same_cluster_sampler_sample_for_full_annotated_constraints_manager = true := by decide +kernel

/-- tests/sampling/test_factory_farthest_in_same_cluster.py, line 25. -/
def test_factory_farhest_in_same_cluster_sampler_for_correct_settings : Bool :=
  let c1 := (construct samplerOpts ([("clusters_restriction", (.str "same_cluster")), ("distance_restriction", (.str "farthest_neighbors")), ("random_seed", (.int 1))] : Kwargs))
  returnsSome c1 &&
    returnsSome c1 &&
    hasAttr c1 "random_seed" (.int 1)

example : test_factory_farhest_in_same_cluster_sampler_for_correct_settings = true := by decide +kernel

/-- tests/sampling/test_factory_farthest_in_same_cluster.py, line 67. -/
def test_factory_farhest_in_same_cluster_sampler_sample_for_incorrect_nb_to_select : Bool :=
  let c1 := (construct samplerOpts ([("clusters_restriction", (.str "same_cluster")), ("distance_restriction", (.str "farthest_neighbors")), ("random_seed", (.int 1))] : Kwargs))
  returnsSome c1 &&
    raisesValue ((c1.toOption.bind PyObject.sampler).elim (.error .attributeError) fun cfg => cfg.sample (Manager.init (["bonjour", "salut", "coucou", "au revoir", "a bientôt"] : List String)) none none (none : Option (Dict String Vec)) euclid (pickSeed 1)) "nb_to_select" &&
    raisesValue ((c1.toOption.bind PyObject.sampler).elim (.error .attributeError) fun cfg => cfg.sample (Manager.init (["bonjour", "salut", "coucou", "au revoir", "a bientôt"] : List String)) (some (-99)) none (none : Option (Dict String Vec)) euclid (pickSeed 1)) "nb_to_select"

example : test_factory_farhest_in_same_cluster_sampler_sample_for_incorrect_nb_to_select = true := by decide +kernel

/-- tests/sampling/test_factory_farthest_in_same_cluster.py, line 113. -/
def test_factory_farhest_in_same_cluster_sampler_sample_for_zero_nb_to_select : Bool :=
  let c1 := (construct samplerOpts ([("clusters_restriction", (.str "same_cluster")), ("distance_restriction", (.str "farthest_neighbors")), ("random_seed", (.int 1))] : Kwargs))
  returnsSome c1 &&
    returnsEmpty ((c1.toOption.bind PyObject.sampler).elim (.error .attributeError) fun cfg => cfg.sample (Manager.init (["bonjour", "salut", "coucou", "au revoir", "a bientôt"] : List String)) (some 0) none (none : Option (Dict String Vec)) euclid (pickSeed 1))

example : test_factory_farhest_in_same_cluster_sampler_sample_for_zero_nb_to_select = true := by decide +kernel

/-- tests/sampling/test_factory_farthest_in_same_cluster.py, line 143. -/
def test_factory_farhest_in_same_cluster_sampler_sample_for_incorrect_clustering_result : Bool :=
  let c1 := (construct samplerOpts ([("clusters_restriction", (.str "same_cluster")), ("distance_restriction", (.str "farthest_neighbors")), ("random_seed", (.int 1))] : Kwargs))
  returnsSome c1 &&
    raisesValue ((c1.toOption.bind PyObject.sampler).elim (.error .attributeError) fun cfg => cfg.sample (Manager.init (["bonjour", "salut", "coucou", "au revoir", "a bientôt"] : List String)) (some 3) none (none : Option (Dict String Vec)) euclid (pickSeed 1)) "clustering_result" &&
    raisesKeyError ((c1.toOption.bind PyObject.sampler).elim (.error .attributeError) fun cfg => cfg.sample (Manager.init (["bonjour", "salut", "coucou", "au revoir", "a bientôt"] : List String)) (some 3) (some ([("first", 1), ("second", 2)] : Dict String Int)) (some ([("bonjour", [1, 0]), ("salut", [(99 / 100), 0]), ("coucou", [(4 / 5), 0]), ("au revoir", [0, 1]), ("a bientôt", [0, (9 / 10)])] : Dict String Vec)) euclid (pickSeed 1))

example : test_factory_farhest_in_same_cluster_sampler_sample_for_incorrect_clustering_result = true := by decide +kernel

/-- tests/sampling/test_factory_farthest_in_same_cluster.py, line 201. -/
def test_factory_farhest_in_same_cluster_sampler_sample_for_incorrect_vectors : Bool :=
  let c1 := (construct samplerOpts ([("clusters_restriction", (.str "same_cluster")), ("distance_restriction", (.str "farthest_neighbors")), ("random_seed", (.int 1))] : Kwargs))
  returnsSome c1 &&
    raisesValue ((c1.toOption.bind PyObject.sampler).elim (.error .attributeError) fun cfg => cfg.sample (Manager.init (["bonjour", "salut", "coucou", "au revoir", "a bientôt"] : List String)) (some 3) (some ([("bonjour", 0), ("salut", 0), ("coucou", 0), ("au revoir", 1), ("a bientôt", 1)] : Dict String Int)) (none : Option (Dict String Vec)) euclid (pickSeed 1)) "vectors" &&
    raisesKeyError ((c1.toOption.bind PyObject.sampler).elim (.error .attributeError) fun cfg => cfg.sample (Manager.init (["bonjour", "salut", "coucou", "au revoir", "a bientôt"] : List String)) (some 3) (some ([("bonjour", 0), ("salut", 0), ("coucou", 0), ("au revoir", 1), ("a bientôt", 1)] : Dict String Int)) (some ([("first", []), ("second", [])] : Dict String Vec)) euclid (pickSeed 1))

example : test_factory_farhest_in_same_cluster_sampler_sample_for_incorrect_vectors = true := by decide +kernel

/-- tests/sampling/test_factory_farthest_in_same_cluster.py, line 266. -/
def test_factory_farhest_in_same_cluster_sampler_sample_for_empty_constraints_manager : Bool :=
  let c1 := (construct samplerOpts ([("clusters_restriction", (.str "same_cluster")), ("distance_restriction", (.str "farthest_neighbors")), ("random_seed", (.int 1))] : Kwargs))
  returnsSome c1 &&
    returns ((c1.toOption.bind PyObject.sampler).elim (.error .attributeError) fun cfg => cfg.sample (Manager.init (["bonjour", "salut", "coucou", "au revoir", "a bientôt"] : List String)) (some 3) (some ([("bonjour", 0), ("salut", 0), ("coucou", 0), ("au revoir", 1), ("a bientôt", 1)] : Dict String Int)) (some ([("bonjour", [1, 0]), ("salut", [(99 / 100), 0]), ("coucou", [(4 / 5), 0]), ("au revoir", [0, (9 / 10)]), ("a bientôt", [0, (4 / 5)])] : Dict String Vec)) euclid (pickSeed 1)) [("bonjour", "coucou"), ("coucou", "salut"), ("a bientôt", "au revoir")]

example : test_factory_farhest_in_same_cluster_sampler_sample_for_empty_constraints_manager = true := by decide +kernel

/-- tests/sampling/test_factory_farthest_in_same_cluster.py, line 314. -/
def test_factory_farhest_in_same_cluster_sampler_sample_for_correct_constraints_manager : Bool :=
  let c1 := (construct samplerOpts ([("clusters_restriction", (.str "same_cluster")), ("distance_restriction", (.str "farthest_neighbors")), ("random_seed", (.int 1))] : Kwargs))
  let m2 := (Manager.init (["bonjour", "salut", "coucou", "au revoir", "a bientôt"] : List String))
  let r3 := Manager.addConstraint "bonjour" "salut" "MUST_LINK" 1 m2
  let m4 := resState r3
  let r5 := Manager.addConstraint "au revoir" "a bientôt" "MUST_LINK" 1 m4
  let m6 := resState r5
  returnsSome c1 &&
    returnsSome (resVal r3) &&
    returnsSome (resVal r5) &&
    returns ((c1.toOption.bind PyObject.sampler).elim (.error .attributeError) fun cfg => cfg.sample m6 (some 3) (some ([("bonjour", 0), ("salut", 0), ("coucou", 0), ("au revoir", 1), ("a bientôt", 1)] : Dict String Int)) (some ([("bonjour", [1, 0]), ("salut", [(99 / 100), 0]), ("coucou", [(4 / 5), 0]), ("au revoir", [0, (9 / 10)]), ("a bientôt", [0, (4 / 5)])] : Dict String Vec)) euclid (pickSeed 1)) [("bonjour", "coucou"), ("coucou", "salut")]

example : test_factory_farhest_in_same_cluster_sampler_sample_for_correct_constraints_manager = true := by decide +kernel

/-- tests/sampling/test_factory_farthest_in_same_cluster.py, line 366. -/
def test_factory_farhest_in_same_cluster_sampler_sample_for_full_annotated_constraints_manager : Bool :=
  let c1 := (construct samplerOpts ([("clusters_restriction", (.str "same_cluster")), ("distance_restriction", (.str "farthest_neighbors")), ("random_seed", (.int 1))] : Kwargs))
  let m2 := (Manager.init (["bonjour", "salut", "coucou", "au revoir", "a bientôt"] : List String))
  let r3 := Manager.addConstraint "bonjour" "salut" "MUST_LINK" 1 m2
  let m4 := resState r3
  let r5 := Manager.addConstraint "bonjour" "coucou" "MUST_LINK" 1 m4
  let m6 := resState r5
  let r7 := Manager.addConstraint "bonjour" "au revoir" "CANNOT_LINK" 1 m6
  let m8 := resState r7
  let r9 := Manager.addConstraint "au revoir" "a bientôt" "MUST_LINK" 1 m8
  let m10 := resState r9
  returnsSome c1 &&
    returnsSome (resVal r3) &&
    returnsSome (resVal r5) &&
    returnsSome (resVal r7) &&
    returnsSome (resVal r9) &&
    returnsEmpty ((c1.toOption.bind PyObject.sampler).elim (.error .attributeError) fun cfg => cfg.sample m10 (some 3) (some ([("bonjour", 0), ("salut", 0), ("coucou", 0), ("au revoir", 1), ("a bientôt", 1)] : Dict String Int)) (some ([("bonjour", [1, 0]), ("salut", [(99 / 100), 0]), ("coucou", [(4 / 5), 0]), ("au revoir", [0, (9 / 10)]), ("a bientôt", [0, (4 / 5)])] : Dict String Vec)) euclid (pickSeed 1))

example : test_factory_farhest_in_same_cluster_sampler_sample_for_full_annotated_constraints_manager = true := by decide +kernel

/-- tests/sampling/test_factory_closest_in_different_clusters.py, line 25. -/
def test_factory_closest_in_different_clusters_sampler_for_correct_settings : Bool :=
  let c1 := (construct samplerOpts ([("clusters_restriction", (.str "different_clusters")), ("distance_restriction", (.str "closest_neighbors")), ("random_seed", (.int 1))] : Kwargs))
  returnsSome c1 &&
    returnsSome c1 &&
    hasAttr c1 "random_seed" (.int 1)

example : test_factory_closest_in_different_clusters_sampler_for_correct_settings = true := by decide +kernel

/-- tests/sampling/test_factory_closest_in_different_clusters.py, line 63. -/
def test_factory_closest_in_different_clusters_sampler_sample_for_incorrect_nb_to_select : Bool :=
  let c1 := (construct samplerOpts ([("clusters_restriction", (.str "different_clusters")), ("distance_restriction", (.str "closest_neighbors")), ("random_seed", (.int 1))] : Kwargs))
  returnsSome c1 &&
    raisesValue ((c1.toOption.bind PyObject.sampler).elim (.error .attributeError) fun cfg => cfg.sample (Manager.init (["bonjour", "salut", "coucou", "au revoir", "a bientôt"] : List String)) none none (none : Option (Dict String Vec)) euclid (pickSeed 1)) "nb_to_select" &&
    raisesValue ((c1.toOption.bind PyObject.sampler).elim (.error .attributeError) fun cfg => cfg.sample (Manager.init (["bonjour", "salut", "coucou", "au revoir", "a bientôt"] : List String)) (some (-99)) none (none : Option (Dict String Vec)) euclid (pickSeed 1)) "nb_to_select"

example : test_factory_closest_in_different_clusters_sampler_sample_for_incorrect_nb_to_select = true := by decide +kernel

/-- tests/sampling/test_factory_closest_in_different_clusters.py, line 107. -/
def test_factory_closest_in_different_clusters_sampler_sample_for_zero_nb_to_select : Bool :=
  let c1 := (construct samplerOpts ([("clusters_restriction", (.str "different_clusters")), ("distance_restriction", (.str "closest_neighbors")), ("random_seed", (.int 1))] : Kwargs))
  returnsSome c1 &&
    returnsEmpty ((c1.toOption.bind PyObject.sampler).elim (.error .attributeError) fun cfg => cfg.sample (Manager.init (["bonjour", "salut", "coucou", "au revoir", "a bientôt"] : List String)) (some 0) none (none : Option (Dict String Vec)) euclid (pickSeed 1))

example : test_factory_closest_in_different_clusters_sampler_sample_for_zero_nb_to_select = true := by decide +kernel

/-- tests/sampling/test_factory_closest_in_different_clusters.py, line 135. -/
def test_factory_closest_in_different_clusters_sampler_sample_for_incorrect_clustering_result : Bool :=
  let c1 := (construct samplerOpts ([("clusters_restriction", (.str "different_clusters")), ("distance_restriction", (.str "closest_neighbors")), ("random_seed", (.int 1))] : Kwargs))
  returnsSome c1 &&
    raisesValue ((c1.toOption.bind PyObject.sampler).elim (.error .attributeError) fun cfg => cfg.sample (Manager.init (["bonjour", "salut", "coucou", "au revoir", "a bientôt"] : List String)) (some 3) none (none : Option (Dict String Vec)) euclid (pickSeed 1)) "clustering_result" &&
    raisesKeyError ((c1.toOption.bind PyObject.sampler).elim (.error .attributeError) fun cfg => cfg.sample (Manager.init (["bonjour", "salut", "coucou", "au revoir", "a bientôt"] : List String)) (some 3) (some ([("first", 1), ("second", 2)] : Dict String Int)) (some ([("bonjour", [1, 0]), ("salut", [(99 / 100), 0]), ("coucou", [(4 / 5), 0]), ("au revoir", [0, 1]), ("a bientôt", [0, (9 / 10)])] : Dict String Vec)) euclid (pickSeed 1))

example : test_factory_closest_in_different_clusters_sampler_sample_for_incorrect_clustering_result = true := by decide +kernel

/-- tests/sampling/test_factory_closest_in_different_clusters.py, line 191. -/
def test_factory_closest_in_different_clusters_sampler_sample_for_incorrect_vectors : Bool :=
  let c1 := (construct samplerOpts ([("clusters_restriction", (.str "different_clusters")), ("distance_restriction", (.str "closest_neighbors")), ("random_seed", (.int 1))] : Kwargs))
  returnsSome c1 &&
    raisesValue ((c1.toOption.bind PyObject.sampler).elim (.error .attributeError) fun cfg => cfg.sample (Manager.init (["bonjour", "salut", "coucou", "au revoir", "a bientôt"] : List String)) (some 3) (some ([("bonjour", 0), ("salut", 0), ("coucou", 0), ("au revoir", 1), ("a bientôt", 1)] : Dict String Int)) (none : Option (Dict String Vec)) euclid (pickSeed 1)) "vectors" &&
    raisesKeyError ((c1.toOption.bind PyObject.sampler).elim (.error .attributeError) fun cfg => cfg.sample (Manager.init (["bonjour", "salut", "coucou", "au revoir", "a bientôt"] : List String)) (some 3) (some ([("bonjour", 0), ("salut", 0), ("coucou", 0), ("au revoir", 1), ("a bientôt", 1)] : Dict String Int)) (some ([("first", []), ("second", [])] : Dict String Vec)) euclid (pickSeed 1))

example : test_factory_closest_in_different_clusters_sampler_sample_for_incorrect_vectors = true := by decide +kernel

/-- tests/sampling/test_factory_closest_in_different_clusters.py, line 254. -/
def test_factory_closest_in_different_clusters_sampler_sample_for_empty_constraints_manager : Bool :=
  let c1 := (construct samplerOpts ([("clusters_restriction", (.str "different_clusters")), ("distance_restriction", (.str "closest_neighbors")), ("random_seed", (.int 1))] : Kwargs))
  returnsSome c1 &&
    returns ((c1.toOption.bind PyObject.sampler).elim (.error .attributeError) fun cfg => cfg.sample (Manager.init (["bonjour", "salut", "coucou", "au revoir", "a bientôt"] : List String)) (some 3) (some ([("bonjour", 0), ("salut", 0), ("coucou", 0), ("au revoir", 1), ("a bientôt", 1)] : Dict String Int)) (some ([("bonjour", [1, 0]), ("salut", [(99 / 100), 0]), ("coucou", [(4 / 5), 0]), ("au revoir", [0, (9 / 10)]), ("a bientôt", [0, (4 / 5)])] : Dict String Vec)) euclid (pickSeed 1)) [("a bientôt", "coucou"), ("au revoir", "coucou"), ("a bientôt", "salut")]

example : test_factory_closest_in_different_clusters_sampler_sample_for_empty_constraints_manager = true := by decide +kernel

/-- tests/sampling/test_factory_closest_in_different_clusters.py, line 300. -/
def test_factory_closest_in_different_clusters_sampler_sample_for_correct_constraints_manager : Bool :=
  let c1 := (construct samplerOpts ([("clusters_restriction", (.str "different_clusters")), ("distance_restriction", (.str "closest_neighbors")), ("random_seed", (.int 1))] : Kwargs))
  let m2 := (Manager.init (["bonjour", "salut", "coucou", "au revoir", "a bientôt"] : List String))
  let r3 := Manager.addConstraint "bonjour" "salut" "MUST_LINK" 1 m2
  let m4 := resState r3
  let r5 := Manager.addConstraint "au revoir" "a bientôt" "MUST_LINK" 1 m4
  let m6 := resState r5
  returnsSome c1 &&
    returnsSome (resVal r3) &&
    returnsSome (resVal r5) &&
    returns ((c1.toOption.bind PyObject.sampler).elim (.error .attributeError) fun cfg => cfg.sample m6 (some 3) (some ([("bonjour", 0), ("salut", 0), ("coucou", 0), ("au revoir", 1), ("a bientôt", 1)] : Dict String Int)) (some ([("bonjour", [1, 0]), ("salut", [(99 / 100), 0]), ("coucou", [(4 / 5), 0]), ("au revoir", [0, (9 / 10)]), ("a bientôt", [0, (4 / 5)])] : Dict String Vec)) euclid (pickSeed 1)) [("a bientôt", "coucou"), ("au revoir", "coucou"), ("a bientôt", "salut")]

example : test_factory_closest_in_different_clusters_sampler_sample_for_correct_constraints_manager = true := by decide +kernel

/-- tests/sampling/test_factory_closest_in_different_clusters.py, line 351. -/
def test_factory_closest_in_different_clusters_sampler_sample_for_full_annotated_constraints_manager : Bool :=
  let c1 := (construct samplerOpts ([("clusters_restriction", (.str "different_clusters")), ("distance_restriction", (.str "closest_neighbors")), ("random_seed", (.int 1))] : Kwargs))
  let m2 := (Manager.init (["bonjour", "salut", "coucou", "au revoir", "a bientôt"] : List String))
  let r3 := Manager.addConstraint "bonjour" "salut" "MUST_LINK" 1 m2
  let m4 := resState r3
  let r5 := Manager.addConstraint "bonjour" "coucou" "MUST_LINK" 1 m4
  let m6 := resState r5
  let r7 := Manager.addConstraint "bonjour" "au revoir" "CANNOT_LINK" 1 m6
  let m8 := resState r7
  let r9 := Manager.addConstraint "au revoir" "a bientôt" "MUST_LINK" 1 m8
  let m10 := resState r9
  returnsSome c1 &&
    returnsSome (resVal r3) &&
    returnsSome (resVal r5) &&
    returnsSome (resVal r7) &&
    returnsSome (resVal r9) &&
    returnsEmpty ((c1.toOption.bind PyObject.sampler).elim (.error .attributeError) fun cfg => cfg.sample m10 (some 3) (some ([("bonjour", 0), ("salut", 0), ("coucou", 0), ("au revoir", 1), ("a bientôt", 1)] : Dict String Int)) (some ([("bonjour", [1, 0]), ("salut", [(99 / 100), 0]), ("coucou", [(4 / 5), 0]), ("au revoir", [0, (9 / 10)]), ("a bientôt", [0, (4 / 5)])] : Dict String Vec)) euclid (pickSeed 1))

example : test_factory_closest_in_different_clusters_sampler_sample_for_full_annotated_constraints_manager = true := by decide +kernel

end Verif.Tests
