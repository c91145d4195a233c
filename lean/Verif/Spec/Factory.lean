import Verif.Model.Factory

/-
Specification vocabulary for the factories: the documented names, options, default values and allowed values.
-/

namespace Verif

/-- The option `k`, if given, satisfies `P`. -/
def Given (kw : Kwargs) (k : String) (P : PyVal → Prop) : Prop := ∀ v, dget? kw k = some v → P v

/-- `v` is a number, at least `b`. -/
def AtLeast (b : Rat) (v : PyVal) : Prop := ∃ q, v.num = some q ∧ b ≤ q

/-- `v` is a number above 0. -/
def Positive (v : PyVal) : Prop := ∃ q, v.num = some q ∧ 0 < q

/-- The documented name of a class. -/
def ClusteringClass.name : ClusteringClass → String
  | .affinityPropagation => "affinity_propagation"
  | .dbscan => "dbscan"
  | .hierarchical => "hierarchical"
  | .kmeans => "kmeans"
  | .mpckmeans => "mpckmeans"
  | .spectral => "spectral"

/-- A documented option: name, default value, allowed values, and whether it is compared with a number. -/
structure DocOpt where
  name : String
  default : PyVal
  allowed : PyVal → Prop
  numeric : Bool

/-- The name by which the message of an exception calls the option: its own, except for the weight `w` of
MPC-KMeans. -/
def DocOpt.reported (d : DocOpt) : String := if d.name = "w" then "weight" else d.name

/-- The documented options of a class. -/
def ClusteringClass.documented : ClusteringClass → List DocOpt
  | .affinityPropagation =>
    [⟨"max_iteration", .int 150, AtLeast 1, true⟩, ⟨"convergence_iteration", .int 10, AtLeast 1, true⟩,
     ⟨"absolute_must_links", .bool true, fun _ => True, false⟩, ⟨"random_seed", .none, fun _ => True, false⟩]
  | .dbscan =>
    [⟨"eps", .float (1 / 2), Positive, true⟩, ⟨"min_samples", .int 5, Positive, true⟩,
     ⟨"random_seed", .none, fun _ => True, false⟩]
  | .hierarchical =>
    [⟨"linkage", .str "ward", fun v => v = .str "ward" ∨ v = .str "average" ∨ v = .str "complete" ∨ v = .str "single",
      false⟩, ⟨"random_seed", .none, fun _ => True, false⟩]
  | .kmeans =>
    [⟨"model", .str "COP", fun v => v = .str "COP", false⟩, ⟨"max_iteration", .int 150, AtLeast 1, true⟩,
     ⟨"tolerance", .float (1 / 10000), AtLeast 0, true⟩, ⟨"random_seed", .none, fun _ => True, false⟩]
  | .mpckmeans =>
    [⟨"model", .str "MPC", fun v => v = .str "MPC", false⟩, ⟨"max_iteration", .int 150, AtLeast 1, true⟩,
     ⟨"w", .float 1, AtLeast 0, true⟩, ⟨"random_seed", .none, fun _ => True, false⟩]
  | .spectral =>
    [⟨"model", .str "SPEC", fun v => v = .str "SPEC", false⟩,
     ⟨"nb_components", .none, fun v => v = .none ∨ AtLeast 2 v, true⟩, ⟨"random_seed", .none, fun _ => True, false⟩]

/-- The documented sampling algorithms and their restrictions. -/
def samplingAlgorithms : List (String × Option ClustersRestriction × Option DistanceRestriction) :=
  [("random", none, none),
   ("random_in_same_cluster", some .sameCluster, none),
   ("farthest_in_same_cluster", some .sameCluster, some .farthestNeighbors),
   ("closest_in_different_clusters", some .differentClusters, some .closestNeighbors)]

/-- The option values that stand for a restriction. -/
def clustersVal : Option ClustersRestriction → PyVal
  | none => .none
  | some .sameCluster => .str "same_cluster"
  | some .differentClusters => .str "different_clusters"

def distanceVal : Option DistanceRestriction → PyVal
  | none => .none
  | some .closestNeighbors => .str "closest_neighbors"
  | some .farthestNeighbors => .str "farthest_neighbors"

/-- The documented options of the sampling class. -/
def samplerDocumented : List DocOpt :=
  [⟨"random_seed", .none, fun _ => True, false⟩,
   ⟨"clusters_restriction", .none, fun v => ∃ c, v = clustersVal c, false⟩,
   ⟨"distance_restriction", .none, fun v => ∃ d, v = distanceVal d, false⟩,
   ⟨"without_added_constraints", .bool true, fun v => ∃ b, v = .bool b, false⟩,
   ⟨"without_inferred_constraints", .bool true, fun v => ∃ b, v = .bool b, false⟩]

end Verif
