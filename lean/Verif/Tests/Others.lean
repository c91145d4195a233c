import Verif.Tests.Prelude

/-
Tests of the repository run on the model (see Tests/Prelude.lean): /repo/tests/clustering/test_abstract.py, /repo/tests/clustering/test_factory.py, /repo/tests/clustering/test_spectral.py, /repo/tests/utils/test_frequency.py.
-/

set_option linter.unusedVariables false

namespace Verif.Tests

/-- tests/clustering/test_abstract.py, line 39. -/
def test_rename_clusters_by_order : Bool :=
  returnsDict (renameClusters ([("d", 2), ("b", 0), ("a", 1), ("e", 0), ("c", 1)] : Dict String Int)) ([("a", 0), ("b", 1), ("c", 0), ("d", 2), ("e", 1)] : Dict String Int)

example : test_rename_clusters_by_order = true := by decide +kernel

/-- tests/clustering/test_factory.py, line 33. -/
def test_clustering_factory_for_not_implemented_clustering : Bool :=
  raisesValue (clusteringFactory "unknown" ([] : Kwargs)) "algorithm"

example : test_clustering_factory_for_not_implemented_clustering = true := by decide +kernel

/-- tests/clustering/test_factory.py, line 48. -/
def test_clustering_factory_for_affinity_propagation_clustering : Bool :=
  let c1 := (clusteringFactory "affinity_propagation" ([("max_iteration", (.int 100)), ("convergence_iteration", (.int 5))] : Kwargs))
  returnsSome c1 &&
    isClass c1 .affinityPropagation &&
    hasAttr (c1.map Prod.snd) "max_iteration" (.int 100) &&
    hasAttr (c1.map Prod.snd) "convergence_iteration" (.int 5)

example : test_clustering_factory_for_affinity_propagation_clustering = true := by decide +kernel

/-- tests/clustering/test_factory.py, line 67. -/
def test_clustering_factory_for_dbscan_clustering : Bool :=
  let c1 := (clusteringFactory "dbscan" ([("eps", (.float (1 / 2))), ("min_samples", (.int 3))] : Kwargs))
  returnsSome c1 &&
    isClass c1 .dbscan &&
    hasAttr (c1.map Prod.snd) "eps" (.float (1 / 2)) &&
    hasAttr (c1.map Prod.snd) "min_samples" (.int 3)

example : test_clustering_factory_for_dbscan_clustering = true := by decide +kernel

/-- tests/clustering/test_factory.py, line 86. -/
def test_clustering_factory_for_hierarchical_clustering : Bool :=
  let c1 := (clusteringFactory "hierarchical" ([("linkage", (.str "average"))] : Kwargs))
  let c2 := (clusteringFactory "hierarchical" ([("linkage", (.str "single"))] : Kwargs))
  returnsSome c1 &&
    isClass c1 .hierarchical &&
    hasAttr (c1.map Prod.snd) "linkage" (.str "average") &&
    returnsSome c2 &&
    isClass c2 .hierarchical &&
    hasAttr (c2.map Prod.snd) "linkage" (.str "single")

example : test_clustering_factory_for_hierarchical_clustering = true := by decide +kernel

/-- tests/clustering/test_factory.py, line 111. -/
def test_clustering_factory_for_kmeans_clustering : Bool :=
  let c1 := (clusteringFactory "kmeans" ([("model", (.str "COP")), ("max_iteration", (.int 100)), ("tolerance", (.float (1 / 1000)))] : Kwargs))
  returnsSome c1 &&
    isClass c1 .kmeans &&
    hasAttr (c1.map Prod.snd) "model" (.str "COP") &&
    hasAttr (c1.map Prod.snd) "max_iteration" (.int 100) &&
    hasAttr (c1.map Prod.snd) "tolerance" (.float (1 / 1000))

example : test_clustering_factory_for_kmeans_clustering = true := by decide +kernel

/-- tests/clustering/test_factory.py, line 132. -/
def test_clustering_factory_for_mpckmeans_clustering : Bool :=
  let c1 := (clusteringFactory "mpckmeans" ([("model", (.str "MPC")), ("max_iteration", (.int 100)), ("w", (.float (1 / 2)))] : Kwargs))
  returnsSome c1 &&
    isClass c1 .mpckmeans &&
    hasAttr (c1.map Prod.snd) "model" (.str "MPC") &&
    hasAttr (c1.map Prod.snd) "max_iteration" (.int 100) &&
    hasAttr (c1.map Prod.snd) "w" (.float (1 / 2))

example : test_clustering_factory_for_mpckmeans_clustering = true := by decide +kernel

/-- tests/clustering/test_factory.py, line 153. -/
def test_clustering_factory_for_spectral_clustering : Bool :=
  let c1 := (clusteringFactory "spectral" ([("model", (.str "SPEC")), ("nb_components", (.int 10))] : Kwargs))
  returnsSome c1 &&
    isClass c1 .spectral &&
    hasAttr (c1.map Prod.snd) "model" (.str "SPEC") &&
    hasAttr (c1.map Prod.snd) "nb_components" (.int 10)

example : test_clustering_factory_for_spectral_clustering = true := by decide +kernel

/-- tests/clustering/test_spectral.py, line 26. -/
def test_SpectralConstrainedClustering_for_inconsistent_model : Bool :=
  raisesValue (construct specOpts ([("model", (.str "as_you_want"))] : Kwargs)) "model"

example : test_SpectralConstrainedClustering_for_inconsistent_model = true := by decide +kernel

/-- tests/clustering/test_spectral.py, line 41. -/
def test_SpectralConstrainedClustering_for_inconsistent_nb_components : Bool :=
  raisesValue (construct specOpts ([("nb_components", (.int (-1)))] : Kwargs)) "nb_components"

example : test_SpectralConstrainedClustering_for_inconsistent_nb_components = true := by decide +kernel

/-- tests/clustering/test_spectral.py, line 56. -/
def test_SpectralConstrainedClustering_for_correct_settings : Bool :=
  let c1 := (construct specOpts ([("model", (.str "SPEC")), ("nb_components", (.int 100)), ("random_seed", (.int 3))] : Kwargs))
  returnsSome c1 &&
    returnsSome c1 &&
    hasAttr c1 "model" (.str "SPEC") &&
    hasAttr c1 "nb_components" (.int 100) &&
    hasAttr c1 "random_seed" (.int 3)

example : test_SpectralConstrainedClustering_for_correct_settings = true := by decide +kernel

/-- tests/clustering/test_spectral.py, line 96. -/
def test_SpectralConstrainedClustering_cluster_for_inconsistent_vectors : Bool :=
  let c1 := (construct specOpts ([] : Kwargs))
  let p2 := ((specCluster testSpec (Manager.init (["first", "second", "third"] : List String)) (none : Option (Dict String Vec)) (some 2)).bind fun o => .ok o)
  returnsSome c1 &&
    raisesValue p2 "vectors"

example : test_SpectralConstrainedClustering_cluster_for_inconsistent_vectors = true := by decide +kernel

/-- tests/clustering/test_spectral.py, line 116. -/
def test_SpectralConstrainedClustering_cluster_for_inconsistent_nb_clusters_1 : Bool :=
  let c1 := (construct specOpts ([] : Kwargs))
  let p2 := ((specCluster testSpec (Manager.init (["first", "second", "third"] : List String)) (some ([("first", [1, 2, 3]), ("second", [4, 5, 6]), ("third", [7, 8, 9])] : Dict String Vec)) none).bind fun o => .ok o)
  returnsSome c1 &&
    raisesValue p2 "nb_clusters"

example : test_SpectralConstrainedClustering_cluster_for_inconsistent_nb_clusters_1 = true := by decide +kernel

/-- tests/clustering/test_spectral.py, line 136. -/
def test_SpectralConstrainedClustering_cluster_for_inconsistent_nb_clusters_2 : Bool :=
  let c1 := (construct specOpts ([] : Kwargs))
  let p2 := ((specCluster testSpec (Manager.init (["first", "second", "third"] : List String)) (some ([("first", [1, 2, 3]), ("second", [4, 5, 6]), ("third", [7, 8, 9])] : Dict String Vec)) (some (-1))).bind fun o => .ok o)
  returnsSome c1 &&
    raisesValue p2 "nb_clusters"

example : test_SpectralConstrainedClustering_cluster_for_inconsistent_nb_clusters_2 = true := by decide +kernel

/-- tests/utils/test_frequency.py, line 21. -/
def test_compute_clusters_frequency_for_no_clustering_result : Bool :=
  returnsEmpty (clustersFrequency ([] : Dict String Int))

example : test_compute_clusters_frequency_for_no_clustering_result = true := by decide +kernel

/-- tests/utils/test_frequency.py, line 33. -/
def test_compute_clusters_frequency_for_correct_clustering_result : Bool :=
  returnsDict (clustersFrequency ([("01", 0), ("02", 0), ("03", 0), ("04", 0), ("05", 0), ("06", 1), ("07", 1), ("08", 2), ("09", 2), ("10", 2)] : Dict String Int)) ([(0, (1 / 2)), (1, (1 / 5)), (2, (3 / 10))] : Dict Int Rat)

example : test_compute_clusters_frequency_for_correct_clustering_result = true := by decide +kernel

end Verif.Tests
