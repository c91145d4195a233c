import Verif.Proofs.Vectors
import Verif.Props.Sampling
import Verif.Props.KMeans
import Verif.Props.Hierarchical
import Verif.Props.DBScan
import Verif.Props.Spectral
import Verif.Props.Affinity
import Verif.Props.MPC

/-
C85: the `vectors` argument counts only by what it has for the managed IDs.
-/

namespace Verif

variable {α V δ κ μ θ : Type} [LinearOrder α] [LinearOrder δ]

/-- COP-KMeans: same result, same centroids, same error. -/
theorem C85_kmeans {env : KMeansEnv α V δ} (henv : env.Ok) (maxIteration : Nat) {m : Manager α} {vs vs' : Dict α V}
    (h : SameVectors m vs vs') (nb : Option Int) :
    kmCluster env maxIteration m (some vs) nb = kmCluster env maxIteration m (some vs') nb := by
  unfold kmCluster
  cases nb with
  | none => rfl
  | some n => simp only [h.kmCOP henv]

/-- Hierarchical clustering: same result, same object after the call. -/
theorem C85_hierarchical (env : HierEnv V δ) (o : HObject α V) {m : Manager α} (hm : Reachable m) {vs vs' : Dict α V}
    (h : SameVectors m vs vs') (nb : Option Int) : o.cluster env m (some vs) nb = o.cluster env m (some vs') nb := by
  unfold HObject.cluster
  cases nb with
  | none => rfl
  | some n =>
    simp only [h.distanceTable, h.hBuild fun c hc x hx => (mem_component_iff hm.inv hc hx).1]

/-- C-DBScan: same result, same object after the call. -/
theorem C85_dbscan (env : DbEnv α V δ) (p : DbParams δ) {m : Manager α} {vs vs' : Dict α V} (h : SameVectors m vs vs')
    (nb : Option Int) : dbCluster env p m (some vs) nb = dbCluster env p m (some vs') nb := by
  unfold dbCluster
  cases nb with
  | none => simp only [h.distanceTable]
  | some n => rfl

omit [LinearOrder δ] in
/-- Spectral clustering. -/
theorem C85_spectral [LinearOrder κ] (env : SpecEnv V κ) {m : Manager α} {vs vs' : Dict α V} (h : SameVectors m vs vs') (nb : Option Int) :
    specCluster env m (some vs) nb = specCluster env m (some vs') nb := by
  unfold specCluster
  cases nb with
  | none => rfl
  | some n => simp only [h.stackRows]

/-- Affinity propagation. -/
theorem C85_affinity [LinearOrder κ] (env : ApEnv V κ μ θ) (p : ApParams) {m : Manager α} {vs vs' : Dict α V} (h : SameVectors m vs vs')
    (nb : Option Int) : apCluster env p m (some vs) nb = apCluster env p m (some vs') nb := by
  unfold apCluster
  cases nb with
  | none => simp only [h.stackRows]
  | some n => rfl

/-- Sampling. -/
theorem C85_sampling (cfg : Sampler) {m : Manager α} {vs vs' : Dict α V} (h : SameVectors m vs vs') (nb : Option Int)
    (clustering : Option (Dict α Int)) (metric : V → V → δ) (pick : List (α × α) → Nat → List (α × α)) :
    cfg.sample m nb clustering (some vs) metric pick = cfg.sample m nb clustering (some vs') metric pick := by
  unfold Sampler.sample Sampler.select
  simp only [Option.getD_some, h.distanceTable, Option.isNone_some]

theorem dget?_perm {ν : Type} {d d' : Dict α ν} (h : d.Perm d') (hn : (dkeys d).Nodup) (x : α) : dget? d x = dget? d' x := by
  have hn' : (dkeys d').Nodup := (h.map Prod.fst).nodup_iff.1 hn
  ext v
  constructor
  · exact fun hv => dget?_of_mem hn' (h.mem_iff.1 (mem_of_dget? hv))
  · exact fun hv => dget?_of_mem hn (h.mem_iff.2 (mem_of_dget? hv))

/-- MPC-KMeans: the order of the dictionary decides whether constraints hold. -/
theorem C85_mpckmeans_differs : ∃ (env : MpcEnv Int Int Unit) (m : Manager Nat) (vs vs' : Dict Nat Int) (r r' : Dict Nat Int),
    MpcAssumptions env ∧ Reachable m ∧ SameVectors m vs vs' ∧ HasVectors m vs ∧
    mpcCluster env ⟨10⟩ m (some vs) (some 2) = .ok r ∧ mpcCluster env ⟨10⟩ m (some vs') (some 2) = .ok r' ∧
    LabelsRespect m r ∧ ¬ LabelsRespect m r' := by
  obtain ⟨env, m, v, v', r, r', h1, h2, h3, h4, h5, h6, h7, h8, h9, h10, h11, h12⟩ := C65_order_matters
  exact ⟨env, m, v, v', r, r', h1, h2, fun x _ => dget?_perm h3 h4 x, h5, h8, h9, h10, fun h => h11 ((h 1 2).1 h6)⟩

/- Same vectors of the managed IDs, in another order and with a vector of an unknown ID. -/
example : SameVectors dbDemo dbDemoVectors ((77, 3) :: dbDemoVectors.reverse) ∧ dbDemoVectors ≠ ((77, 3) :: dbDemoVectors.reverse) := by
  unfold SameVectors
  decide +kernel

/-! ### Each theorem applied to a concrete case -/

theorem vectorsDemo_same : SameVectors dbDemo dbDemoVectors ((77, 3) :: dbDemoVectors.reverse) := by
  unfold SameVectors
  decide +kernel

example := C85_kmeans kmDemoEnv_ok 150 vectorsDemo_same (some 2)

example := C85_hierarchical hDemoEnv hDemoObject (m := dbDemo) ⟨_, _, rfl⟩ vectorsDemo_same (some 2)

example := C85_dbscan dbDemoEnv (dbNatParams 2 3) vectorsDemo_same none

example := C85_affinity apDemoEnv ⟨200, 15, true⟩ vectorsDemo_same none

example := C85_sampling (V := Int) ⟨none, some .closestNeighbors, true, true⟩ vectorsDemo_same (some 3) none (fun a b => (a - b).natAbs) fun l k => l.take k

end Verif
