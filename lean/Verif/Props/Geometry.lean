import Verif.Proofs.GeometryHier
import Verif.Proofs.GeometryKMeans
import Verif.Proofs.GeometryReal
import Verif.Props.Names
import Verif.Props.Spectral
import Verif.Props.Affinity
import Verif.Props.Sampling

/-
C90: other vectors for the same IDs. `V` and `V'` may be different kinds of vectors.
-/

namespace Verif

variable {α V V' δ δ' κ μ θ : Type} [LinearOrder α] [LinearOrder δ] [LinearOrder δ'] {m : Manager α}

/-- Sampling only sees the order of the distances. -/
theorem C90_sampling (cfg : Sampler) {vs : Dict α V} {vs' : Dict α V'} {metric : V → V → δ} {metric' : V' → V' → δ'}
    (hd : SameDomain m vs vs') (ho : SameOrder m metric vs metric' vs') (nb : Option Int) (c : Option (Dict α Int))
    (pick : List (α × α) → Nat → List (α × α)) :
    cfg.sample m nb c (some vs') metric' pick = cfg.sample m nb c (some vs) metric pick := by
  unfold Sampler.sample
  cases nb with
  | none => rfl
  | some n =>
    simp only [Option.isNone_some, Option.getD_some, Bool.false_eq_true, and_false, if_false]
    rw [select_geo cfg hd ho]

/-- The demo vectors, squared distances, and vectors of two coordinates. -/
def geoVectors : Dict Nat (Int × Int) := [(1, 40, 40), (2, 80, 80), (3, 20, 20), (5, 79, 79), (9, 50, 50)]

def geoMetric (v w : Int × Int) : Int := (v.1 - w.1) ^ 2 + (v.2 - w.2) ^ 2

theorem geoDemo_order : SameOrder kmDemo (fun a b : Int => (a - b).natAbs) kmDemoVectors geoMetric geoVectors := by
  have hall : ∀ x ∈ kmDemo.managed, ∀ y ∈ kmDemo.managed, ∀ z ∈ kmDemo.managed, ∀ t ∈ kmDemo.managed,
      ((distanceOf geoMetric geoVectors x y).getD 0 ≤ (distanceOf geoMetric geoVectors z t).getD 0 ↔
        (distanceOf (fun a b : Int => (a - b).natAbs) kmDemoVectors x y).getD 0 ≤
          (distanceOf (fun a b : Int => (a - b).natAbs) kmDemoVectors z t).getD 0) := by decide +kernel
  intro x hx y hy z hz t ht a b a' b' e1 e2 e3 e4
  have := hall x hx y hy z hz t ht
  rw [e1, e2, e3, e4] at this
  exact this

example : SameDomain kmDemo kmDemoVectors geoVectors ∧
    SameOrder kmDemo (fun a b : Int => (a - b).natAbs) kmDemoVectors geoMetric geoVectors ∧
    (⟨none, some .closestNeighbors, true, true⟩ : Sampler).sample kmDemo (some 3) none (some geoVectors) geoMetric (fun l _ => l) =
      .ok [(2, 5), (5, 9), (1, 5)] := by
  refine ⟨?_, geoDemo_order, ?_⟩
  · unfold SameDomain; decide +kernel
  · decide +kernel

/-- Hierarchical clustering with linkage "single" or "complete" only sees the order of the distances. -/
theorem C90_hierarchical_order (hm : Reachable m) {env : HierEnv V δ} {env' : HierEnv V' δ'} {o : HObject α V} {o' : HObject α V'}
    (ho : SameTree o o') (hl : o.linkage = .single ∨ o.linkage = .complete) {vs : Dict α V} {vs' : Dict α V'}
    (hd : SameDomain m vs vs') (hord : SameOrder m env.metric vs env'.metric vs') (nb : Option Int) :
    (o'.cluster env' m (some vs') nb).2 = (o.cluster env m (some vs) nb).2 ∧
      SameTree (o.cluster env m (some vs) nb).1 (o'.cluster env' m (some vs') nb).1 :=
  cluster_order ho hl (fun c hc x hx => (mem_component_iff hm.inv hc hx).1) hd hord nb

/-- Hierarchical clustering with any linkage but "average" only sees the distances; with "ward" they may all be multiplied by
the same number. -/
theorem C90_hierarchical_distances (hm : Reachable m) {env : HierEnv V δ} {env' : HierEnv V' δ'} {o : HObject α V} {o' : HObject α V'}
    (ho : SameTree o o') (hl : o.linkage ≠ .average) {ψ : δ → δ'} (hψ : StrictMono ψ)
    (hw : o.linkage = .ward → ∀ l i j, env'.ward (l.map ψ) i j = ψ (env.ward l i j)) {vs : Dict α V} {vs' : Dict α V'}
    (hd : SameDomain m vs vs') (hby : DistancesBy ψ m env.metric vs env'.metric vs') (nb : Option Int) :
    (o'.cluster env' m (some vs') nb).2 = (o.cluster env m (some vs) nb).2 ∧
      SameTree (o.cluster env m (some vs) nb).1 (o'.cluster env' m (some vs') nb).1 :=
  cluster_scaled ho hl (fun c hc x hx => (mem_component_iff hm.inv hc hx).1) hψ hw hd hby nb

/-- Hierarchical clustering with any linkage, when the vectors are moved in a way that is compatible with means. -/
theorem C90_hierarchical_moved (hm : Reachable m) {φ : V → V'} {ψ : δ → δ'} {env : HierEnv V δ} {env' : HierEnv V' δ'}
    (he : MovedHier φ ψ env env') {o : HObject α V} {o' : HObject α V'} (ho : SameTree o o') {vs : Dict α V} {vs' : Dict α V'}
    (hv : MovedVectors φ m vs vs') (nb : Option Int) :
    (o'.cluster env' m (some vs') nb).2 = (o.cluster env m (some vs) nb).2 ∧
      SameTree (o.cluster env m (some vs) nb).1 (o'.cluster env' m (some vs') nb).1 :=
  cluster_moved ho (fun c hc x hx => (mem_component_iff hm.inv hc hx).1) he.mono he.metric he.mean (fun _ => he.ward) hv nb

/-- With linkage "average" the order of the distances is not enough. -/
theorem C90_average_order : ∃ (ids : List Nat) (vs vs' r r' : Dict Nat Int),
    SameDomain (Manager.init ids) vs vs' ∧ SameOrder (Manager.init ids) hDemoEnv.metric vs hDemoEnv.metric vs' ∧
    ((⟨.average, [], none, []⟩ : HObject Nat Int).cluster hDemoEnv (Manager.init ids) (some vs) (some 2)).2 = .ok r ∧
    ((⟨.average, [], none, []⟩ : HObject Nat Int).cluster hDemoEnv (Manager.init ids) (some vs') (some 2)).2 = .ok r' ∧
    r ≠ r' := by
  refine ⟨[0, 1, 2, 3], [(0, 0), (1, 40), (2, 100), (3, 170)], [(0, 0), (1, 40), (2, 90), (3, 168)],
    [(0, 0), (1, 0), (2, 1), (3, 1)], [(0, 0), (1, 0), (2, 0), (3, 1)], ?_, ?_, ?_, ?_, ?_⟩
  · unfold SameDomain; decide +kernel
  · have hall : ∀ x ∈ (Manager.init [0, 1, 2, 3]).managed, ∀ y ∈ (Manager.init [0, 1, 2, 3]).managed,
        ∀ z ∈ (Manager.init [0, 1, 2, 3]).managed, ∀ t ∈ (Manager.init [0, 1, 2, 3]).managed,
        ((distanceOf hDemoEnv.metric [(0, 0), (1, 40), (2, 90), (3, 168)] x y).getD 0 ≤
          (distanceOf hDemoEnv.metric [(0, 0), (1, 40), (2, 90), (3, 168)] z t).getD 0 ↔
          (distanceOf hDemoEnv.metric [(0, 0), (1, 40), (2, 100), (3, 170)] x y).getD 0 ≤
            (distanceOf hDemoEnv.metric [(0, 0), (1, 40), (2, 100), (3, 170)] z t).getD 0) := by decide +kernel
    intro x hx y hy z hz t ht a b a' b' e1 e2 e3 e4
    have := hall x hx y hy z hz t ht
    rw [e1, e2, e3, e4] at this
    exact this
  · decide +kernel
  · decide +kernel
  · decide

/- The trees of the demo, with vectors of two coordinates. -/
example : Reachable kmDemo ∧ SameTree hDemoObject (⟨.single, [], none, []⟩ : HObject Nat (Int × Int)) ∧
    (hDemoObject.cluster hDemoEnv kmDemo (some kmDemoVectors) (some 2)).2.toOption ≠ none :=
  ⟨⟨_, _, rfl⟩, ⟨rfl, rfl, rfl, rfl⟩, by decide +kernel⟩

/- All vectors multiplied by -3 and moved by 5. -/
example : MovedHier (fun v : Rat => -3 * v + 5) (fun d : Rat => 3 * d) ⟨fun a b => |a - b|, fun l => l.sum / l.length, fun l i j => l.sum / (i * j)⟩
    ⟨fun a b => |a - b|, fun l => l.sum / l.length, fun l i j => l.sum / (i * j)⟩ where
  mono a b h := by simp only; linarith
  metric v w := by
    show |(-3 * v + 5) - (-3 * w + 5)| = 3 * |v - w|
    rw [show (-3 * v + 5) - (-3 * w + 5) = (-3) * (v - w) by ring, abs_mul]
    norm_num
  mean l hl := by
    have hs : (l.map fun v : Rat => -3 * v + 5).sum = -3 * l.sum + l.length * 5 := by
      clear hl
      induction l with
      | nil => simp
      | cons a l ih => rw [List.map_cons, List.sum_cons, ih, List.sum_cons, List.length_cons]; push_cast; ring
    have hn : (l.length : Rat) ≠ 0 := by
      have : l.length ≠ 0 := fun h => hl (List.length_eq_zero_iff.1 h)
      exact_mod_cast this
    show (l.map fun v : Rat => -3 * v + 5).sum / (l.map fun v : Rat => -3 * v + 5).length = -3 * (l.sum / l.length) + 5
    rw [hs, List.length_map]
    field_simp
  ward l i j := by
    have hs : (l.map fun d : Rat => 3 * d).sum = 3 * l.sum := by
      induction l with
      | nil => simp
      | cons a l ih => rw [List.map_cons, List.sum_cons, ih, List.sum_cons]; ring
    show (l.map fun d : Rat => 3 * d).sum / (i * j) = 3 * (l.sum / (i * j))
    rw [hs, mul_div_assoc]

/-- COP-KMeans: the same labels, and the images of the centroids. -/
theorem C90_kmeans {φ : V → V'} {ψ : δ → δ'} {env : KMeansEnv α V δ} {env' : KMeansEnv α V' δ'} (he : MovedKMeans φ ψ m env env')
    (henv' : env'.Ok) (maxIteration : Nat) {vs : Dict α V} {vs' : Dict α V'} (hv : MovedVectors φ m vs vs') (nb : Option Int) :
    kmCluster env' maxIteration m (some vs') nb =
      (kmCluster env maxIteration m (some vs) nb).map fun r => (r.1, r.2.map fun q => (q.1, φ q.2)) := by
  have hsame : SameVectors m vs' (dmap id φ vs) := fun x hx => (hv x hx).trans
    (dget?_dmap (f := id) Function.injective_id φ vs x).symm
  rw [C85_kmeans henv' maxIteration hsame]
  unfold kmCluster
  cases nb with
  | none => rfl
  | some n =>
    dsimp only
    split
    · rfl
    · exact kmCOP_geo he vs _ _

/-- C-DBScan only sees which pairs of IDs are within the radius, and for which numbers of IDs a group is large enough. -/
theorem C90_dbscan {env : DbEnv α V δ} {env' : DbEnv α V' δ'} {p : DbParams δ} {p' : DbParams δ'} {vs : Dict α V} {vs' : Dict α V'}
    (hd : SameDomain m vs vs') (hn : SameNeighbors m env.metric vs p.eps env'.metric vs' p'.eps) (henum : env'.enum = env.enum)
    (hnone : env'.none = env.none) (henough : p'.enough = p.enough) (hs : p'.minSamples = p.minSamples) (nb : Option Int) :
    dbCluster env' p' m (some vs') nb = dbCluster env p m (some vs) nb := by
  cases nb with
  | some n => rfl
  | none => exact dbCluster_geo hd hn henum hnone henough hs

example : SameNeighbors kmDemo (dbOrderEnv List.dedup 0).metric kmDemoVectors 20 geoMetric geoVectors 800 ∧
    (dbCluster (dbOrderEnv List.dedup 0) (dbNatParams 20 1) kmDemo (some kmDemoVectors) none).toOption ≠ none := by
  constructor
  · have hall : ∀ x ∈ kmDemo.managed, ∀ y ∈ kmDemo.managed, ((distanceOf geoMetric geoVectors x y).getD 0 ≤ 800 ↔
        (distanceOf (dbOrderEnv List.dedup 0).metric kmDemoVectors x y).getD 0 ≤ 20) := by decide +kernel
    intro x hx y hy a a' e1 e2
    have := hall x hx y hy
    rw [e1, e2] at this
    exact this
  · decide +kernel

/-- C-DBScan is not independent of the unit of length: with all vectors and the radius multiplied by 10, a cluster disappears
(line 525 compares a number of IDs with the radius). -/
theorem C90_dbscan_unit : ∃ (m : Manager Nat) (env : DbEnv Nat Int Nat) (eps minSamples : Nat) (vs r r' : Dict Nat Int) (x y : Nat),
    Reachable m ∧ DbAssumptions env (dbNatParams eps minSamples) ∧ env.none ∉ m.managed ∧
    (∀ v w, env.metric (10 * v) (10 * w) = 10 * env.metric v w) ∧
    (dbCluster env (dbNatParams eps minSamples) m (some vs) none).map (·.predicted) = .ok (some r) ∧
    (dbCluster env (dbNatParams (10 * eps) minSamples) m (some (vs.map fun q => (q.1, 10 * q.2))) none).map
      (·.predicted) = .ok (some r') ∧
    x ∈ m.managed ∧ y ∈ m.managed ∧ dget? r x = dget? r y ∧ dget? r' x ≠ dget? r' y :=
  ⟨runOps (Manager.init [1, 2, 3, 4]) [.addConstraint 2 3 "MUST_LINK" 1], dbOrderEnv List.dedup 0, 2, 2,
    [(1, 0), (2, 1), (3, 5), (4, 6)], [(1, 0), (2, 0), (3, 1), (4, 1)], [(1, 0), (2, 0), (3, -1), (4, -2)], 3, 4,
    ⟨_, _, rfl⟩, dbOrderEnv_ok dedup_setOrder _ _ _, by decide +kernel, fun v w => by
      show (10 * v - 10 * w).natAbs = 10 * (v - w).natAbs
      omega, by decide +kernel, by decide +kernel, by decide +kernel, by decide +kernel, by decide +kernel, by decide +kernel⟩

/-- Spectral clustering only sees the values of the kernel. -/
theorem C90_spectral {env : SpecEnv V κ} {kernel' : V' → V' → κ} {vs : Dict α V} {vs' : Dict α V'} (hd : SameDomain m vs vs')
    (h : DistancesBy id m env.kernel vs kernel' vs') (nb : Option Int) :
    specCluster (env.withKernel kernel') m (some vs') nb = specCluster env m (some vs) nb := by
  have key := stackRows_matrix hd h
  have hstep : ∀ S, specImprint (env.withKernel kernel') m S = specImprint env m S := fun S => rfl
  unfold specCluster
  cases nb with
  | none => rfl
  | some n =>
    dsimp only
    split
    · rfl
    · cases e : stackRows m vs with
      | error er =>
        rw [e] at key
        cases e' : stackRows m vs' with
        | error er' => rw [e'] at key; injection key with key; rw [key]; rfl
        | ok r => rw [e'] at key; cases key
      | ok rows =>
        rw [e] at key
        cases e' : stackRows m vs' with
        | error er' => rw [e'] at key; cases key
        | ok rows' =>
          rw [e'] at key
          injection key with key
          simp only [bind, Except.bind, hstep]
          rw [show (rows'.map fun v => rows'.map fun w => (env.withKernel kernel').kernel v w) =
            rows.map fun v => rows.map fun w => env.kernel v w from key]
          rfl

example : DistancesBy id specDemo specDemoEnv.kernel specDemoVectors (fun a b : Int => (100 * a + b - 101).toNat)
    [(4, 41), (3, 31), (2, 21), (1, 11)] ∧
    (specCluster specDemoEnv specDemo (some specDemoVectors) (some 2)).toOption ≠ none := by
  constructor
  · unfold DistancesBy; decide +kernel
  · decide +kernel

/-- Affinity propagation only sees the distances. -/
theorem C90_affinity [LinearOrder κ] {env : ApEnv V κ μ θ} {dist' : V' → V' → κ} (p : ApParams) {vs : Dict α V} {vs' : Dict α V'}
    (hd : SameDomain m vs vs') (h : DistancesBy id m env.dist vs dist' vs') (nb : Option Int) :
    apCluster (env.withDist dist') p m (some vs') nb = apCluster env p m (some vs) nb := by
  have key := stackRows_matrix hd h
  unfold apCluster
  cases nb with
  | some n => rfl
  | none =>
    dsimp only
    cases e : stackRows m vs with
    | error er =>
      rw [e] at key
      cases e' : stackRows m vs' with
      | error er' => rw [e'] at key; injection key with key; rw [key]; rfl
      | ok r => rw [e'] at key; cases key
    | ok rows =>
      rw [e] at key
      cases e' : stackRows m vs' with
      | error er' => rw [e'] at key; cases key
      | ok rows' =>
        rw [e'] at key
        injection key with key
        have hS : (rows'.map fun v => rows'.map fun w => (env.withDist dist').neg ((env.withDist dist').dist v w)) =
            rows.map fun v => rows.map fun w => env.neg (env.dist v w) := by
          have := congrArg (List.map (List.map env.neg)) key
          simp only [List.map_map, Function.comp_def] at this
          exact this
        simp only [bind, Except.bind, hS, apRun_withDist]

example : DistancesBy id apDemo apDemoEnv.dist apDemoVectors (fun a b : Int => ((b - a).natAbs : Int))
    (apDemoVectors.map fun q => (q.1, 1000 - q.2)) ∧
    (apCluster apDemoEnv ⟨200, 15, true⟩ apDemo (some apDemoVectors) none).toOption ≠ none := by
  constructor
  · unfold DistancesBy; decide +kernel
  · decide +kernel

/-! ### Real vectors -/

section Real
variable {E F : Type} [NormedAddCommGroup E] [NormedSpace ℝ E] [NormedAddCommGroup F] [NormedSpace ℝ F] [StrictConvexSpace ℝ F]

theorem sum_mul_left (c : ℝ) (l : List ℝ) : (l.map fun d => c * d).sum = c * l.sum := by
  induction l with
  | nil => simp
  | cons a l ih => rw [List.map_cons, List.sum_cons, ih, List.sum_cons, mul_add]

/-- In exact arithmetic, if a map multiplies all distances by `c > 0` (a motion, a mirror image, another unit of length), COP-KMeans
with the tolerance multiplied by `c` gives the same labels and the images of the centroids. -/
theorem C90_real_kmeans {φ : E → F} {c : ℝ} (hc : 0 < c) (hφ : ∀ v w, dist (φ v) (φ w) = c * dist v w) (tolerance : ℝ)
    {enum : List Int → List Int} {shuffle : List α → List α} (hok : (realKMeans tolerance enum shuffle : KMeansEnv α E ℝ).Ok)
    (maxIteration : Nat) {vs : Dict α E} {vs' : Dict α F} (hv : MovedVectors φ m vs vs') (nb : Option Int) :
    kmCluster (realKMeans (c * tolerance) enum shuffle) maxIteration m (some vs') nb =
      (kmCluster (realKMeans tolerance enum shuffle) maxIteration m (some vs) nb).map fun r => (r.1, r.2.map fun q => (q.1, φ q.2)) := by
  refine C90_kmeans (φ := φ) (ψ := fun d => c * d) (m := m) (env := realKMeans tolerance enum shuffle) ⟨fun a b h => mul_lt_mul_of_pos_left h hc, hφ, realMean_map hc hφ, fun l => ?_, rfl, rfl⟩
    ⟨hok.enum, hok.shuffle⟩ maxIteration hv nb
  show decide (((l.map fun q => (φ q.1, φ q.2)).map fun q => dist q.1 q.2).sum < c * tolerance) =
    decide ((l.map fun q => dist q.1 q.2).sum < tolerance)
  have : ((l.map fun q => (φ q.1, φ q.2)).map fun q => dist q.1 q.2) = (l.map fun q => dist q.1 q.2).map fun d => c * d := by
    rw [List.map_map, List.map_map]
    exact List.map_congr_left fun q _ => hφ _ _
  rw [this, sum_mul_left]
  simp only [mul_lt_mul_iff_right₀ hc]

/-- The same for hierarchical clustering with every linkage. -/
theorem C90_real_hierarchical (hm : Reachable m) {φ : E → F} {c : ℝ} (hc : 0 < c) (hφ : ∀ v w, dist (φ v) (φ w) = c * dist v w)
    {o : HObject α E} {o' : HObject α F} (ho : SameTree o o') {vs : Dict α E} {vs' : Dict α F}
    (hv : MovedVectors φ m vs vs') (nb : Option Int) :
    (o'.cluster realHier m (some vs') nb).2 = (o.cluster realHier m (some vs) nb).2 ∧
      SameTree (o.cluster realHier m (some vs) nb).1 (o'.cluster realHier m (some vs') nb).1 := by
  refine C90_hierarchical_moved hm (ψ := fun d => c * d)
    ⟨fun a b h => mul_lt_mul_of_pos_left h hc, hφ, realMean_map hc hφ, fun l i j => ?_⟩ ho hv nb
  show (l.map fun d => c * d).sum / (i * j) = c * (l.sum / (i * j))
  rw [sum_mul_left, mul_div_assoc]

omit [NormedSpace ℝ E] [NormedSpace ℝ F] [StrictConvexSpace ℝ F] in
/-- The same for sampling. -/
theorem C90_real_sampling (cfg : Sampler) {φ : E → F} {c : ℝ} (hc : 0 < c) (hφ : ∀ v w, dist (φ v) (φ w) = c * dist v w)
    {vs : Dict α E} {vs' : Dict α F} (hv : MovedVectors φ m vs vs') (nb : Option Int) (cl : Option (Dict α Int))
    (pick : List (α × α) → Nat → List (α × α)) :
    cfg.sample m nb cl (some vs') dist pick = cfg.sample m nb cl (some vs) dist pick := by
  have hd : ∀ x ∈ m.managed, ∀ y ∈ m.managed, distanceOf dist vs' x y = (distanceOf dist vs x y).map fun d => c * d := by
    intro x hx y hy
    unfold distanceOf
    rw [hv x hx, hv y hy]
    cases dget? vs x <;> cases dget? vs y <;> simp [hφ]
  refine C90_sampling cfg hv.domain (fun x hx y hy z hz t ht a b a' b' e1 e2 e3 e4 => ?_) nb cl pick
  rw [hd x hx y hy, e1] at e3
  rw [hd z hz t ht, e2] at e4
  cases e3
  cases e4
  exact mul_le_mul_iff_right₀ hc

omit [NormedSpace ℝ E] [NormedSpace ℝ F] [StrictConvexSpace ℝ F] in
/-- C-DBScan: the same after a motion or a mirror image. -/
theorem C90_real_dbscan {φ : E → F} (hφ : ∀ v w, dist (φ v) (φ w) = dist v w) (enum : List α → List α) (none : α) (eps : ℝ)
    (minSamples : Nat) {vs : Dict α E} {vs' : Dict α F} (hv : MovedVectors φ m vs vs') (nb : Option Int) :
    dbCluster (realDb enum none) (realDbParams eps minSamples) m (some vs') nb =
      dbCluster (realDb enum none) (realDbParams eps minSamples) m (some vs) nb := by
  refine C90_dbscan hv.domain (fun x hx y hy a a' e1 e2 => ?_) rfl rfl rfl rfl nb
  unfold distanceOf at e1 e2
  rw [hv x hx, hv y hy] at e2
  cases h1 : dget? vs x with
  | none => rw [h1] at e1; cases e1
  | some v =>
    cases h2 : dget? vs y with
    | none => rw [h1, h2] at e1; cases e1
    | some w =>
      rw [h1, h2] at e1 e2
      cases e1
      cases e2
      show dist (φ v) (φ w) ≤ eps ↔ dist v w ≤ eps
      rw [hφ]

/- A mirror image in another unit of length. -/
example : ∀ v w : ℝ, dist (-10 * v + 3) (-10 * w + 3) = 10 * dist v w := by
  intro v w
  rw [Real.dist_eq, Real.dist_eq, show (-10 * v + 3) - (-10 * w + 3) = (-10) * (v - w) by ring, abs_mul]
  norm_num

end Real

end Verif
