import Verif.Proofs.HierHeights
import Verif.Props.Hierarchical
import Mathlib.Algebra.Order.Field.Rat

/-
Property C74: the distances at which the hierarchical clustering merges clusters.
-/

namespace Verif

variable {α V δ : Type} [LinearOrder α] [LinearOrder δ]

/-- Every cluster with children but the root is the merge of two clusters without a cannot-link between them; the
root is one, or is the forced merge of what was left. -/
theorem C74_every_merge {env : HierEnv V δ} {o o' : HObject α V} {m : Manager α} (h : Reachable m) {vectors : Dict α V}
    {nb : Option Int} {r : Dict α Int} (hr : o.cluster env m (some vectors) nb = (o', .ok r)) {i : Nat} {n : HCluster α V}
    (hn : dget? o'.storage i = some n) (hc : n.children ≠ []) :
    (∃ d, MergedAt env o.linkage m vectors o'.storage i d) ∨ (o'.root = some i ∧ ForcedMerge m o'.storage i n) := by
  obtain ⟨vs, n', root, st, l, hvs, -, -, -, rfl, hb, -⟩ := hier_ok h hr
  cases hvs
  rcases hb.kind i n hn hc with ⟨a, b, e, -, -, -, ho, d, hd, -⟩ | ⟨rfl, k⟩
  · exact .inl ⟨d, n, a, b, hn, e, ho, hd⟩
  · exact .inr ⟨rfl, k⟩

/-- With single or complete linkage and a symmetric metric, whatever the constraints, clusters are merged at
distances that never decrease. -/
theorem C74_monotone {env : HierEnv V δ} (hs : ∀ v w, env.metric v w = env.metric w v) {o o' : HObject α V}
    (hl : o.linkage = .single ∨ o.linkage = .complete) {m : Manager α} (h : Reachable m) {vectors : Dict α V}
    {nb : Option Int} {r : Dict α Int} (hr : o.cluster env m (some vectors) nb = (o', .ok r)) {i j : Nat} (hij : i < j) {d d' : δ}
    (hi : MergedAt env o.linkage m vectors o'.storage i d) (hj : MergedAt env o.linkage m vectors o'.storage j d') : d ≤ d' := by
  obtain ⟨vs, n', root, st, l, hvs, -, -, -, rfl, hb, -⟩ := hier_ok h hr
  cases hvs
  exact hb.mono hs h.inv hl hij hi hj

/-- With single linkage, the members of a cluster merged at distance `d` are joined by chains whose steps are
must-links or distances of at most `d`. -/
theorem C74_single_chain {env : HierEnv V δ} (hs : ∀ v w, env.metric v w = env.metric w v) {o o' : HObject α V}
    (hl : o.linkage = .single) {m : Manager α} (h : Reachable m) {vectors : Dict α V}
    {nb : Option Int} {r : Dict α Int} (hr : o.cluster env m (some vectors) nb = (o', .ok r)) {i : Nat} {d : δ}
    (hi : MergedAt env .single m vectors o'.storage i d) {x y : α} (hx : x ∈ membersOf o'.storage i)
    (hy : y ∈ membersOf o'.storage i) :
    Chain (fun x y => MustLinked m x y ∨ ∃ v w, dget? vectors x = some v ∧ dget? vectors y = some w ∧ env.metric v w ≤ d) x y := by
  obtain ⟨vs, n', root, st, l, hvs, -, -, -, rfl, hb, -⟩ := hier_ok h hr
  cases hvs
  rw [hl] at hb
  exact hb.chain hs h.inv hi hx hy

/-- Two clusters that existed before the merge of `i` at distance `d`, with no cannot-link between them: their
members are at distance at least `d`. -/
theorem C74_single_gap {env : HierEnv V δ} (hs : ∀ v w, env.metric v w = env.metric w v) {o o' : HObject α V}
    (hl : o.linkage = .single) {m : Manager α} (h : Reachable m) {vectors : Dict α V}
    {nb : Option Int} {r : Dict α Int} (hr : o.cluster env m (some vectors) nb = (o', .ok r)) {i : Nat} {d : δ}
    (hi : MergedAt env .single m vectors o'.storage i d) {c e : Nat} (hc : Alive o'.storage i c) (he : Alive o'.storage i e)
    (hne : c ≠ e) (ho : ¬ Opposed m (membersOf o'.storage c) (membersOf o'.storage e)) {x y : α}
    (hx : x ∈ membersOf o'.storage c) (hy : y ∈ membersOf o'.storage e) {v w : V} (hv : dget? vectors x = some v)
    (hw : dget? vectors y = some w) : d ≤ env.metric v w := by
  obtain ⟨vs, n', root, st, l, hvs, -, -, -, rfl, hb, -⟩ := hier_ok h hr
  cases hvs
  rw [hl] at hb
  exact hb.gap hs h.inv (.inl rfl) hi hc he hne ho x hx y hy v w hv hw

/-- With complete linkage, two members of a cluster merged at distance `d` are must-linked or at distance at
most `d`. -/
theorem C74_complete_diameter {env : HierEnv V δ} (hs : ∀ v w, env.metric v w = env.metric w v) {o o' : HObject α V}
    (hl : o.linkage = .complete) {m : Manager α} (h : Reachable m) {vectors : Dict α V}
    {nb : Option Int} {r : Dict α Int} (hr : o.cluster env m (some vectors) nb = (o', .ok r)) {i : Nat} {d : δ}
    (hi : MergedAt env .complete m vectors o'.storage i d) {x y : α} (hx : x ∈ membersOf o'.storage i)
    (hy : y ∈ membersOf o'.storage i) {v w : V} (hv : dget? vectors x = some v) (hw : dget? vectors y = some w) :
    MustLinked m x y ∨ env.metric v w ≤ d := by
  obtain ⟨vs, n', root, st, l, hvs, -, -, -, rfl, hb, -⟩ := hier_ok h hr
  cases hvs
  rw [hl] at hb
  exact hb.diameter hs h.inv hi hx hy hv hw

theorem not_opposed_of {m : Manager α} (h : Reachable m) {xs ys : List α}
    (hq : ∀ x ∈ xs, ∀ y ∈ ys, m.getInferred x y ≠ .ok (some .cannotLink)) : ¬ Opposed m xs ys := by
  rintro ⟨x, hx, y, hy, k⟩
  obtain ⟨k1, k2⟩ := k.mem h.inv
  exact hq x hx y hy ((inferred_cl_iff h.inv k1 k2).mpr k)

/-- The two inner nodes of the example below the root, of IDs {2, 5} and {9, 7}. -/
example : ∃ d d', MergedAt hDemoEnv .single hDemo hDemoVectors hDemoTree 5 d ∧
    MergedAt hDemoEnv .single hDemo hDemoVectors hDemoTree 6 d' ∧
    (∀ v w, hDemoEnv.metric v w = hDemoEnv.metric w v) := by
  have e : ∃ o' r, hDemoObject.cluster hDemoEnv hDemo (some hDemoVectors) (some 2) = (o', .ok r) ∧ o'.root = some 7 ∧
      o'.storage = hDemoTree :=
    ⟨_, hDemoResult, Prod.ext rfl (by decide +kernel), by decide +kernel, by decide +kernel⟩
  obtain ⟨o', r, hr, h7, ht⟩ := e
  have h := fun (i : Nat) (n : HCluster Nat Int) (hn : dget? hDemoTree i = some n) =>
    C74_every_merge (m := hDemo) ⟨_, _, rfl⟩ hr (i := i) (n := n) (ht ▸ hn)
  rw [h7, ht] at h
  obtain ⟨d, hd⟩ := (h 5 _ rfl (by decide)).resolve_right (by simp)
  obtain ⟨d', hd'⟩ := (h 6 _ rfl (by decide)).resolve_right (by simp)
  exact ⟨d, d', hd, hd', fun v w => by show (v - w).natAbs = (w - v).natAbs; omega⟩

/-- Clusters 2 and 4 (IDs 9 and 7) existed before the merge of cluster 6, and are not opposed. -/
example : Alive hDemoTree 6 2 ∧ Alive hDemoTree 6 4 ∧ ¬ Opposed hDemo (membersOf hDemoTree 2) (membersOf hDemoTree 4) := by
  refine ⟨⟨by omega, fun k hk => ?_⟩, ⟨by omega, fun k hk => ?_⟩, ?_⟩
  · rintro ⟨n, hn, hc⟩
    have : k = 0 ∨ k = 1 ∨ k = 2 ∨ k = 3 ∨ k = 4 ∨ k = 5 := by omega
    rcases this with rfl | rfl | rfl | rfl | rfl | rfl <;> cases hn <;> simp at hc
  · rintro ⟨n, hn, hc⟩
    have : k = 0 ∨ k = 1 ∨ k = 2 ∨ k = 3 ∨ k = 4 ∨ k = 5 := by omega
    rcases this with rfl | rfl | rfl | rfl | rfl | rfl <;> cases hn <;> simp at hc
  · exact not_opposed_of ⟨_, _, rfl⟩ (by decide +kernel)

def hCompleteTree : Dict Nat (HCluster Nat Int) :=
  [(0, ⟨0, [], 0, [1, 3], 30⟩), (1, ⟨0, [], 0, [2], 80⟩), (2, ⟨0, [], 0, [9], 50⟩), (3, ⟨0, [], 0, [5], 79⟩),
   (4, ⟨0, [], 0, [7], 56⟩), (5, ⟨1, [1, 3], 1, [2, 5], 79⟩), (6, ⟨2, [2, 4], 1, [9, 7], 53⟩),
   (7, ⟨3, [0, 5, 6], 2, [1, 3, 2, 5, 9, 7], 54⟩)]

/-- The same with complete linkage. -/
example : ∃ d, MergedAt hDemoEnv .complete hDemo hDemoVectors hCompleteTree 6 d ∧ 9 ∈ membersOf hCompleteTree 6 ∧
    7 ∈ membersOf hCompleteTree 6 ∧ dget? hDemoVectors 9 = some 50 := by
  have e : ∃ o' r, (⟨.complete, [], none, []⟩ : HObject Nat Int).cluster hDemoEnv hDemo (some hDemoVectors) (some 2) = (o', .ok r) ∧
      o'.root = some 7 ∧ o'.storage = hCompleteTree :=
    ⟨_, hDemoResult, Prod.ext rfl (by decide +kernel), by decide +kernel, by decide +kernel⟩
  obtain ⟨o', r, hr, h7, ht⟩ := e
  have h := C74_every_merge (m := hDemo) ⟨_, _, rfl⟩ hr (i := 6) (n := ⟨2, [2, 4], 1, [9, 7], 53⟩) (by rw [ht]; rfl)
  rw [h7, ht] at h
  obtain ⟨d, hd⟩ := (h (by decide)).resolve_right (by simp)
  exact ⟨d, hd, by decide +kernel, by decide +kernel, by decide +kernel⟩

/-! ### The other two linkages -/

theorem linkage_average {env : HierEnv V δ} {vectors : Dict α V} {xs ys : List α} (g : α → V)
    (hx : ∀ x ∈ xs, dget? vectors x = some (g x)) (hy : ∀ y ∈ ys, dget? vectors y = some (g y)) :
    LinkageIs env .average vectors xs ys (env.metric (env.mean (xs.map g)) (env.mean (ys.map g))) := by
  refine ⟨_, _, ?_, ?_, rfl⟩
  · rw [List.forall₂_map_right_iff, List.forall₂_same]; exact hx
  · rw [List.forall₂_map_right_iff, List.forall₂_same]; exact hy

theorem linkage_ward {env : HierEnv V δ} {vectors : Dict α V} {xs ys : List α} (g : α → V)
    (hx : ∀ p ∈ laterPairs (xs ++ ys), dget? vectors p.1 = some (g p.1) ∧ dget? vectors p.2 = some (g p.2)) :
    LinkageIs env .ward vectors xs ys
      (env.ward ((laterPairs (xs ++ ys)).map fun p => env.metric (g p.1) (g p.2)) xs.length ys.length) := by
  refine ⟨_, ?_, rfl⟩
  rw [List.forall₂_map_right_iff, List.forall₂_same]
  exact fun p hp => ⟨_, _, (hx p hp).1, (hx p hp).2, rfl⟩

/-- The plane, with the square of the euclidean distance: `average` only compares distances, and squares compare
as the distances do. -/
def planeEnv : HierEnv (Rat × Rat) Rat where
  metric a b := (a.1 - b.1) * (a.1 - b.1) + (a.2 - b.2) * (a.2 - b.2)
  mean l := ((l.map (·.1)).sum / l.length, (l.map (·.2)).sum / l.length)
  ward l a b := l.sum / (a * b : Nat)

def planeVectors : Dict Nat (Rat × Rat) := [(1, (-8, 0)), (2, (8, 0)), (3, (0, 15))]

/-- Finding: "average" linkage is the distance between centroids, which gives inversions: the points at `(-8, 0)`
and `(8, 0)` are merged at distance 16, then the result with the point at `(0, 15)` at distance 15. (The average
of the distances to that point is 17.) -/
theorem finding_average_inversion : ∃ (m : Manager Nat) (o' : HObject Nat (Rat × Rat)) (r : Dict Nat Int), Reachable m ∧
    (⟨.average, [], none, []⟩ : HObject Nat (Rat × Rat)).cluster planeEnv m (some planeVectors) (some 2) = (o', .ok r) ∧
    MergedAt planeEnv .average m planeVectors o'.storage 3 (16 * 16) ∧
    MergedAt planeEnv .average m planeVectors o'.storage 4 (15 * 15) := by
  have hR : Reachable (Manager.init [1, 2, 3]) := ⟨[1, 2, 3], [], rfl⟩
  refine ⟨Manager.init [1, 2, 3], ((⟨.average, [], none, []⟩ : HObject Nat (Rat × Rat)).cluster planeEnv (Manager.init [1, 2, 3])
    (some planeVectors) (some 2)).1, [(1, 0), (2, 0), (3, 1)], hR, Prod.ext rfl (by decide +kernel), ?_, ?_⟩
  · refine ⟨⟨1, [0, 1], 1, [1, 2], (0, 0)⟩, 0, 1, by decide +kernel, rfl, not_opposed_of hR (by decide +kernel), ?_⟩
    have k := linkage_average (env := planeEnv) (vectors := planeVectors) (xs := [1]) (ys := [2])
      (fun x => (dget? planeVectors x).getD (0, 0)) (by decide +kernel) (by decide +kernel)
    convert k using 1 <;> decide +kernel
  · refine ⟨⟨2, [2, 3], 2, [3, 1, 2], (0, 5)⟩, 2, 3, by decide +kernel, rfl, not_opposed_of hR (by decide +kernel), ?_⟩
    have k := linkage_average (env := planeEnv) (vectors := planeVectors) (xs := [3]) (ys := [1, 2])
      (fun x => (dget? planeVectors x).getD (0, 0)) (by decide +kernel) (by decide +kernel)
    convert k using 1 <;> decide +kernel

/-- The line. -/
def lineEnv : HierEnv Rat Rat where
  metric a b := if a ≤ b then b - a else a - b
  mean l := l.sum / l.length
  ward l a b := l.sum / (a * b : Nat)

def lineVectors : Dict Nat Rat := [(1, -1), (2, -1), (3, -1), (4, 1), (5, 1), (6, 1), (7, -2), (8, 2)]

def lineManager : Manager Nat := runOps (Manager.init [1, 2, 3, 4, 5, 6, 7, 8])
  [.addConstraint 1 2 "MUST_LINK" 1, .addConstraint 2 3 "MUST_LINK" 1, .addConstraint 3 4 "MUST_LINK" 1,
   .addConstraint 4 5 "MUST_LINK" 1, .addConstraint 5 6 "MUST_LINK" 1]

/-- Finding: "ward" linkage, the mean of the distances with the inner ones of both clusters in the sum, gives
inversions: the points at -2 and 2 are merged at distance 4, then the result with the must-linked points at -1 and
1 at distance 46/12. -/
theorem finding_ward_inversion : ∃ (o' : HObject Nat Rat) (r : Dict Nat Int), Reachable lineManager ∧
    (⟨.ward, [], none, []⟩ : HObject Nat Rat).cluster lineEnv lineManager (some lineVectors) (some 2) = (o', .ok r) ∧
    MergedAt lineEnv .ward lineManager lineVectors o'.storage 3 4 ∧
    MergedAt lineEnv .ward lineManager lineVectors o'.storage 4 (46 / 12) := by
  have hR : Reachable lineManager := ⟨_, _, rfl⟩
  refine ⟨((⟨.ward, [], none, []⟩ : HObject Nat Rat).cluster lineEnv lineManager
    (some lineVectors) (some 2)).1, [(1, 0), (2, 0), (3, 0), (4, 0), (5, 0), (6, 0), (7, 1), (8, 1)], hR,
    Prod.ext rfl (by decide +kernel), ?_, ?_⟩
  · refine ⟨⟨1, [1, 2], 1, [7, 8], 0⟩, 1, 2, by decide +kernel, rfl, not_opposed_of hR (by decide +kernel), ?_⟩
    have k := linkage_ward (env := lineEnv) (vectors := lineVectors) (xs := [7]) (ys := [8])
      (fun x => (dget? lineVectors x).getD 0) (by decide +kernel)
    convert k using 1 <;> decide +kernel
  · refine ⟨⟨2, [0, 3], 2, [1, 2, 3, 4, 5, 6, 7, 8], 0⟩, 0, 3, by decide +kernel, rfl, not_opposed_of hR (by decide +kernel), ?_⟩
    have k := linkage_ward (env := lineEnv) (vectors := lineVectors) (xs := [1, 2, 3, 4, 5, 6]) (ys := [7, 8])
      (fun x => (dget? lineVectors x).getD 0) (by decide +kernel)
    convert k using 1 <;> decide +kernel

end Verif
