import Mathlib.Data.List.Dedup
import Verif.Proofs.KMeans

/-
Properties C31 to C34: COP-KMeans. Specification vocabulary: `Verif/Spec/Clustering.lean`,
`Verif/Spec/KMeans.lean`.
-/

namespace Verif

variable {α V δ : Type} [LinearOrder α] [LinearOrder δ]

/-! Data of the examples: 1 and 3 must-linked; 1, 2 and 9 pairwise cannot-linked, so that two
clusters are not enough. -/

def kmDemo : Manager Nat := runOps (Manager.init [3, 1, 2, 9, 5])
  [.addConstraint 1 3 "MUST_LINK" 1, .addConstraint 1 2 "CANNOT_LINK" 1, .addConstraint 9 3 "CANNOT_LINK" 1,
   .addConstraint 2 9 "CANNOT_LINK" 1]

def kmDemoVectors : Dict Nat Int := [(9, 50), (3, 20), (2, 80), (1, 40), (5, 79)]

def kmDemoEnv : KMeansEnv Nat Int Nat where
  metric a b := (a - b).natAbs
  mean l := l.sum / l.length
  small l := decide ((l.map fun p => (p.1 - p.2).natAbs).sum < 1)
  enum l := l.dedup
  shuffle l := l.reverse

theorem kmDemoEnv_ok : kmDemoEnv.Ok where
  enum l := ⟨List.nodup_dedup l, fun _ => List.mem_dedup⟩
  shuffle l := List.reverse_perm l

theorem kmDemo_hasVectors : HasVectors kmDemo kmDemoVectors := by
  unfold HasVectors; simp only [exists_dget?_iff]; decide +kernel

/-- Whenever `cluster` returns, the labels respect every inferred constraint. -/
theorem C31_constraints {env : KMeansEnv α V δ} (he : env.Ok) {m : Manager α} (h : Reachable m) {vectors : Dict α V}
    (hv : HasVectors m vectors) {model : String} {it : Int} {tol : Bool} {maxIteration : Nat}
    (hi : kmInit model it tol = .ok maxIteration) {nb : Option Int} {r : Dict α Int} {cs : Dict Int V}
    (hr : kmCluster env maxIteration m (some vectors) nb = .ok (r, cs)) : LabelsRespect m r := by
  obtain ⟨n, rfl, hn, hne⟩ := kmCluster_ok_args hr (kmInit_pos hi)
  obtain ⟨new, r', cs', e1, hp, e2, -⟩ := kmCluster_ok he h.inv hv hne hn (kmInit_pos hi)
  rw [hr] at e1
  cases e1
  have hk : dkeys new = m.managed := hp.keys
  obtain ⟨r', e2', -, hsp, -⟩ := rename_managed h.inv hk
  rw [e2] at e2'; cases e2'
  refine rename_respects h.inv hsp ((labelsRespect_iff h.inv).2 ⟨fun x y hx hl => ?_, fun x y hl => ?_⟩)
  · exact hp.ml x y hx List.not_mem_nil hl
  · exact hp.cl x y List.not_mem_nil List.not_mem_nil hl

example : kmInit "COP" 150 false = .ok 150 ∧
    kmCluster kmDemoEnv 150 kmDemo (some kmDemoVectors) (some 2) =
      .ok ([(1, 0), (2, 1), (3, 0), (5, 1), (9, 2)], [(2, 30), (1, 50), (0, 79)]) ∧
    kmDemo.components.length = 4 := by decide +kernel

/-- Whenever `cluster` returns, the keys are the managed IDs in sorted order, and the labels are
`0..k-1` with `1 ≤ k ≤` number of connected components, numbered by first appearance. -/
theorem C32_labels {env : KMeansEnv α V δ} (he : env.Ok) {m : Manager α} (h : Reachable m) {vectors : Dict α V}
    (hv : HasVectors m vectors) {model : String} {it : Int} {tol : Bool} {maxIteration : Nat}
    (hi : kmInit model it tol = .ok maxIteration) {nb : Option Int} {r : Dict α Int} {cs : Dict Int V}
    (hr : kmCluster env maxIteration m (some vectors) nb = .ok (r, cs)) :
    dkeys r = m.managed.insertionSort (· ≤ ·) ∧ FirstAppearanceOrder (dvals r) ∧
      ∃ k : Nat, 1 ≤ k ∧ k ≤ m.components.length ∧ LabelsAre (dvals r) k := by
  have hresp := C31_constraints he h hv hi hr
  obtain ⟨n, rfl, hn, hne⟩ := kmCluster_ok_args hr (kmInit_pos hi)
  obtain ⟨new, r', cs', e1, hp, e2, -⟩ := kmCluster_ok he h.inv hv hne hn (kmInit_pos hi)
  rw [hr] at e1
  cases e1
  have hk : dkeys new = m.managed := hp.keys
  obtain ⟨r', e2', hkeys, hsp, hfa, k, -, hk1, hk2⟩ := rename_managed h.inv hk
  rw [e2] at e2'; cases e2'
  refine ⟨hkeys, hfa, k, hk1 hne, ?_, hk2⟩
  refine labels_le_components h.inv ?_ ?_ ((labelsRespect_iff h.inv).1 hresp).1 hk2
  · rw [hkeys]; exact (List.perm_insertionSort _ _).nodup_iff.2 h.inv.d.nodup
  · intro x hx; rw [hkeys] at hx; exact (List.mem_insertionSort _).1 hx

/-- On a non-empty manager whose IDs have vectors, with `nb_clusters ≥ 2`, `cluster` returns. The
loop of the model makes at most `maxIteration` passes by its shape; the inner `while` loop gets as
much fuel as there are IDs, and `outOfFuel` is excluded here as every other failure is. -/
theorem C33_no_failure {env : KMeansEnv α V δ} (he : env.Ok) {m : Manager α} (h : Reachable m) {vectors : Dict α V}
    (hv : HasVectors m vectors) (hne : m.managed ≠ []) {model : String} {it : Int} {tol : Bool} {maxIteration : Nat}
    (hi : kmInit model it tol = .ok maxIteration) {nb : Int} (hnb : 2 ≤ nb) :
    ∃ r cs, kmCluster env maxIteration m (some vectors) (some nb) = .ok (r, cs) := by
  obtain ⟨_, r, cs, e1, -⟩ := kmCluster_ok he h.inv hv hne hnb (kmInit_pos hi)
  exact ⟨r, cs, e1⟩

/-- Missing or too small `nb_clusters`, and vectors that are not a dictionary, are refused. -/
theorem C33_refused (env : KMeansEnv α V δ) (maxIteration : Nat) (m : Manager α) (vectors : Option (Dict α V))
    (nb : Option Int) (hbad : vectors = none ∨ nb = none ∨ ∃ n, nb = some n ∧ n < 2) :
    ∃ w, kmCluster env maxIteration m vectors nb = .error (.valueError w) := by
  cases vectors with
  | none => exact ⟨_, rfl⟩
  | some vs =>
    cases nb with
    | none => exact ⟨_, rfl⟩
    | some n =>
      rcases hbad with h | h | ⟨k, h, hk⟩
      · cases h
      · cases h
      · cases h
        exact ⟨_, by unfold kmCluster; simp only; rw [if_pos hk]⟩

/-- The constructor accepts exactly the model "COP", at least one iteration and a tolerance that is
not negative. -/
theorem C33_init (model : String) (it : Int) (tol : Bool) :
    (∃ k, kmInit model it tol = .ok k) ↔ model = "COP" ∧ 1 ≤ it ∧ tol = false := by
  unfold kmInit
  by_cases h1 : model = "COP"
  · by_cases h2 : it < 1
    · simp [h1, h2]
    · cases tol <;> simp [h1, h2]; omega
  · simp [h1]

/-- Finding: on an empty manager `cluster` raises, from `vstack` of no rows. -/
theorem C33_empty_manager (env : KMeansEnv α V δ) {maxIteration : Nat} (hi : 1 ≤ maxIteration) {m : Manager α}
    (hm : m.managed = []) (vectors : Dict α V) {nb : Int} (hnb : 2 ≤ nb) :
    kmCluster env maxIteration m (some vectors) (some nb) = .error (.valueError "vstack") :=
  kmCluster_empty env hi hm vectors hnb

/-- In every state of every pass of every run: the ID `x` to assign has no label yet; it gets a
label for which no ID cannot-linked to it has that label, whose centroid is at minimal distance
among the admissible ones, if there is one; otherwise a label that no ID has and no centroid has.
The IDs must-linked to `x` get the same label and all others keep theirs. -/
theorem C34_nearest_admissible {env : KMeansEnv α V δ} (he : env.Ok) {m : Manager α} (h : Reachable m)
    {vectors : Dict α V} (hv : HasVectors m vectors) {nb : Nat} (hnb : 0 < nb) (hnb' : nb ≤ m.managed.length)
    {centroids : Dict Int V} (hc : RunCentroids env m vectors nb centroids) {dist : Dict α (Dict Int δ)}
    (hd : kmDistances env m vectors centroids = .ok dist) {s : List α × Dict α Int} (hs : InPass m nb centroids dist s)
    {x : α} (hx : s.1.getLast? = some x) :
    ∃ s' label, kmAssign m m.managed nb centroids dist x (s.1.dropLast, s.2) = .ok s' ∧
      dget? s.2 x = some (-1) ∧ dget? s'.2 x = some label ∧
      ((∃ c, Admissible m centroids s.2 x c) → Admissible m centroids s.2 x label ∧
        ∀ c, Admissible m centroids s.2 x c → ∀ v w w', dget? vectors x = some v → dget? centroids label = some w →
          dget? centroids c = some w' → env.metric v w ≤ env.metric v w') ∧
      ((¬ ∃ c, Admissible m centroids s.2 x c) → label ∉ dkeys centroids ∧ ∀ y, dget? s.2 y ≠ some label) ∧
      (∀ y, m.getInferred x y = .ok (some .mustLink) → dget? s'.2 y = some label) ∧
      (∀ y, m.getInferred x y ≠ .ok (some .mustLink) → dget? s'.2 y = dget? s.2 y) :=
  kmAssign_nearest he h.inv hv hnb hnb' hc hd hs hx

/-- The first pass of the example: after 5 and 9, the ID 2 is to be assigned. -/
def kmDemoCentroids : Dict Int Int := [(0, 79), (1, 50)]

example : kmInitialize kmDemoEnv kmDemo.managed kmDemoVectors 2 = .ok kmDemoCentroids ∧
    (do
      let dist ← kmDistances kmDemoEnv kmDemo kmDemoVectors kmDemoCentroids
      let s ← kmAssign kmDemo kmDemo.managed 2 kmDemoCentroids dist 5
        ([3, 1, 2, 9], dofList (kmDemo.managed.map fun x => (x, -1)))
      let s ← kmAssign kmDemo kmDemo.managed 2 kmDemoCentroids dist 9 (s.1.dropLast, s.2)
      let s ← kmAssign kmDemo kmDemo.managed 2 kmDemoCentroids dist 2 (s.1.dropLast, s.2)
      kmAssign kmDemo kmDemo.managed 2 kmDemoCentroids dist 1 (s.1.dropLast, s.2)) =
      .ok ([], [(3, 2), (1, 2), (2, 0), (9, 1), (5, 0)]) := by decide +kernel

/-! ### Finding: the centroids of the object are those of the labels before renaming -/

/-- In the example the ID 1 has label 0, and the centroid of key 0 is the mean of other IDs. -/
theorem finding_centroids_stale : ∃ r cs,
    kmCluster kmDemoEnv 150 kmDemo (some kmDemoVectors) (some 2) = .ok (r, cs) ∧
    dget? r 1 = some 0 ∧ dget? r 3 = some 0 ∧ (∀ x ∈ kmDemo.managed, dget? r x = some 0 → x = 1 ∨ x = 3) ∧
    dget? cs 0 = some 79 ∧ kmDemoEnv.mean [20, 40] = 30 :=
  ⟨[(1, 0), (2, 1), (3, 0), (5, 1), (9, 2)], [(2, 30), (1, 50), (0, 79)], by decide +kernel⟩

end Verif
