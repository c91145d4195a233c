import Verif.Proofs.Inertia
import Verif.Props.KMeans
import Mathlib.Analysis.InnerProductSpace.Basic
import Mathlib.Algebra.Order.Field.Rat

/-
Property C75: the objective of COP-KMeans. Specification vocabulary: `Verif/Spec/Inertia.lean`.
-/

namespace Verif

variable {α V δ R : Type} [LinearOrder α] [LinearOrder δ]

/-! ### Exact arithmetic -/

/-- Real vectors with the euclidean distance, the mean and a tolerance. -/
noncomputable def euclidEnv (E : Type) [NormedAddCommGroup E] [InnerProductSpace ℝ E] (tolerance : ℝ) (enum : List Int → List Int)
    (shuffle : List α → List α) : KMeansEnv α E ℝ where
  metric v w := dist v w
  mean vs := (vs.length : ℝ)⁻¹ • vs.sum
  small pairs := (pairs.map fun p => dist p.1 p.2).sum < tolerance
  enum := enum
  shuffle := shuffle

theorem sum_sq_around {E : Type} [NormedAddCommGroup E] [InnerProductSpace ℝ E] (a c : E) (vs : List E) :
    (vs.map fun v => dist v c ^ 2).sum = (vs.map fun v => dist v a ^ 2).sum +
      2 * inner ℝ (vs.sum - (vs.length : ℝ) • a) (a - c) + vs.length * dist a c ^ 2 := by
  induction vs with
  | nil => simp
  | cons v vs ih =>
    have e : dist v c ^ 2 = dist v a ^ 2 + 2 * inner ℝ (v - a) (a - c) + dist a c ^ 2 := by
      rw [dist_eq_norm, dist_eq_norm, dist_eq_norm, ← norm_add_sq_real]
      congr 2
      abel
    have e2 : (v :: vs).sum - (((v :: vs).length : ℕ) : ℝ) • a = (v - a) + (vs.sum - (vs.length : ℝ) • a) := by
      rw [List.sum_cons, List.length_cons]
      push_cast
      rw [add_smul, one_smul]
      abel
    rw [List.map_cons, List.sum_cons, ih, e, e2, List.map_cons, List.sum_cons, inner_add_left, List.length_cons]
    push_cast
    ring

omit [LinearOrder α] in
/-- The assumptions hold for real vectors and a positive tolerance, with the square of the distance as cost. -/
theorem euclid_exact {E : Type} [NormedAddCommGroup E] [InnerProductSpace ℝ E] {tolerance : ℝ} (ht : 0 < tolerance)
    (enum : List Int → List Int) (shuffle : List α → List α) :
    ExactKMeans (euclidEnv E tolerance enum shuffle) fun v w => dist v w ^ 2 where
  metric v a b h := by
    have h : dist v a ≤ dist v b := h
    exact pow_le_pow_left₀ dist_nonneg h 2
  mean_best vs c hne hc := by
    have hlen : (0 : ℝ) < vs.length := by exact_mod_cast List.length_pos_iff.mpr hne
    have e := sum_sq_around ((vs.length : ℝ)⁻¹ • vs.sum) c vs
    rw [smul_smul, mul_inv_cancel₀ (ne_of_gt hlen), one_smul, sub_self, inner_zero_left, mul_zero, add_zero] at e
    show (vs.map fun v => dist v ((vs.length : ℝ)⁻¹ • vs.sum) ^ 2).sum < _
    rw [e]
    have : 0 < dist ((vs.length : ℝ)⁻¹ • vs.sum) c := dist_pos.mpr (Ne.symm hc)
    have : 0 < (vs.length : ℝ) * dist ((vs.length : ℝ)⁻¹ • vs.sum) c ^ 2 := by positivity
    linarith
  small pairs h := by
    show decide ((pairs.map fun p => dist p.1 p.2).sum < tolerance) = true
    have : (pairs.map fun p => dist p.1 p.2) = pairs.map fun _ => (0 : ℝ) :=
      List.map_congr_left fun p hp => by rw [h p hp, dist_self]
    rw [this]
    simpa using ht

/-! ### Without constraints -/

section
variable [AddCommGroup R] [LinearOrder R] [IsOrderedAddMonoid R]

omit [LinearOrder δ] [LinearOrder R] [IsOrderedAddMonoid R] in
theorem inertia_eq {env : KMeansEnv α V δ} (he : env.Ok) {cost : V → V → R} {m : Manager α} (h : Inv m) {vectors : Dict α V}
    {vec : α → V} (hvec : ∀ x ∈ m.managed, dget? vectors x = some (vec x)) {l : Dict α Int} {c : Dict Int V}
    (hk : dkeys l = m.managed) (hc : kmCentroids env m vectors l = .ok c) :
    inertia cost m vectors l c = costWith cost m vec (labelFn l) (clusterMean env m vec (labelFn l)) := by
  have hn : (dkeys l).Nodup := by rw [hk]; exact h.d.nodup
  have hl : ∀ x ∈ m.managed, dget? l x = some (labelFn l x) := fun x hx => labelFn_spec (by rw [hk]; exact hx)
  unfold inertia costWith
  have hnd : m.managed.Nodup := h.d.nodup
  rw [List.sum_toFinset _ hnd]
  congr 1
  refine List.map_congr_left fun x hx => ?_
  rw [hvec x hx, hl x hx]
  simp only [Option.bind_some]
  rw [kmCentroids_eq he hn hk hvec hl hc ((mem_dvals hn).2 ⟨x, hl x hx⟩)]
  rfl

/-- Without constraints, in exact arithmetic, the objective never grows from one pass to the next, in any run. -/
theorem C75_inertia {env : KMeansEnv α V δ} (he : env.Ok) {cost : V → V → R} (hx : ExactKMeans env cost) {m : Manager α}
    (h : Reachable m) (hu : Unconstrained m) {vectors : Dict α V} (hv : HasVectors m vectors) {nb : Nat} (hnb : 0 < nb)
    (hnb' : nb ≤ m.managed.length) {c1 c2 c3 : Dict Int V} (hc : RunCentroids env m vectors nb c1) {l2 l3 : Dict α Int}
    (e2 : kmPass env m vectors nb c1 = .ok (l2, c2)) (e3 : kmPass env m vectors nb c2 = .ok (l3, c3)) :
    inertia cost m vectors l3 c3 ≤ inertia cost m vectors l2 c2 := by
  have hne : m.managed ≠ [] := List.length_pos_iff.1 (by omega)
  have hlow : ∀ c, RunCentroids env m vectors nb c → ∀ k ∈ dkeys c, k < nb := by
    intro c hc
    induction hc with
    | init e => exact kmInitialize_low e
    | pass hc' e ih => exact (KmState.of_pass he h.inv hu hv hne (hc'.inv he h.inv hv hnb hnb') ih e).1.low
  have hs2 := (KmState.of_pass he h.inv hu hv hne (hc.inv he h.inv hv hnb hnb') (hlow _ hc) e2).1
  have hs3 := (KmState.of_pass he h.inv hu hv hne hs2.inv hs2.low e3).1
  obtain ⟨x0, hx0⟩ := List.exists_mem_of_ne_nil _ hne
  obtain ⟨v0, -⟩ := hv x0 hx0
  have hvec : ∀ x ∈ m.managed, dget? vectors x = some ((dget? vectors x).getD v0) := fun x hx => by
    obtain ⟨v, hv⟩ := hv x hx
    rw [hv]; rfl
  rw [inertia_eq he h.inv hvec hs2.keys hs2.cent, inertia_eq he h.inv hvec hs3.keys hs3.cent]
  exact (hs2.pass he hx h.inv hu hne hvec e3).1

/-- Without constraints, in exact arithmetic, the run stops by itself after at most `k^n + 1` passes (`n` IDs,
`k = min nb_clusters n`): a larger `max_iteration` changes nothing. -/
theorem C75_converges {env : KMeansEnv α V δ} (he : env.Ok) {cost : V → V → R} (hx : ExactKMeans env cost) {m : Manager α}
    (h : Reachable m) (hu : Unconstrained m) {vectors : Dict α V} (hv : HasVectors m vectors) {nb : Int} {it : Nat}
    (hit : (min nb.toNat m.managed.length) ^ m.managed.length + 1 ≤ it) :
    kmCluster env it m (some vectors) (some nb) =
      kmCluster env ((min nb.toNat m.managed.length) ^ m.managed.length + 1) m (some vectors) (some nb) := by
  by_cases hnb : nb < 2
  · unfold kmCluster; simp only; rw [if_pos hnb, if_pos hnb]
  by_cases hne : m.managed = []
  · rw [kmCluster_empty env (by omega) hne vectors (by omega), kmCluster_empty env (by omega) hne vectors (by omega)]
  have hlen : 0 < m.managed.length := List.length_pos_iff.2 hne
  induction it, hit using Nat.le_induction with
  | base => rfl
  | succ it hit ih =>
    rw [← ih]
    unfold kmCluster
    simp only
    rw [if_neg hnb, if_neg hnb]
    obtain ⟨c0, e0, hc0⟩ := kmInitialize_ok he hv (nb := min nb.toNat m.managed.length) (by omega) (by omega)
    unfold kmCOP
    rw [e0]
    simp only [bind, Except.bind]
    obtain ⟨left, rfl⟩ : ∃ left, it = left + 1 := ⟨it - 1, by omega⟩
    have hi : ∀ v ∈ dvals (dofList (m.managed.map fun x => (x, (-1 : Int)))), v = -1 := by
      intro v hv
      obtain ⟨k, hk⟩ := (mem_dvals (nodup_dkeys_dofList _)).1 hv
      have := mem_of_dget?_dofList hk
      obtain ⟨x, -, hx⟩ := List.mem_map.1 this
      cases hx; rfl
    have key : kmLoop env m vectors (min nb.toNat m.managed.length) (left + 1 + 1) (dofList (m.managed.map fun x => (x, -1))) c0 =
        kmLoop env m vectors (min nb.toNat m.managed.length) (left + 1) (dofList (m.managed.map fun x => (x, -1))) c0 := by
      obtain ⟨l1, c1, e1, hd⟩ := kmPass_ok he h.inv hv hne (min nb.toNat m.managed.length) hc0
      obtain ⟨hs1, -⟩ := KmState.of_pass he h.inv hu hv hne hc0 (kmInitialize_low e0) e1
      obtain ⟨b, hb⟩ := kmConverged_ok (env := env) h.inv hne hc0 (.inl hi) hd
      rw [kmLoop.eq_def, kmLoop.eq_def env m vectors _ (left + 1)]
      simp only [bind, Except.bind, e1, hb]
      cases b with
      | true => rfl
      | false =>
        simp only [Bool.false_eq_true, if_false]
        obtain ⟨x0, hx0⟩ := List.exists_mem_of_ne_nil _ hne
        obtain ⟨v0, -⟩ := hv x0 hx0
        have hvec : ∀ x ∈ m.managed, dget? vectors x = some ((dget? vectors x).getD v0) := fun x hx => by
          obtain ⟨v, hv⟩ := hv x hx
          rw [hv]; rfl
        refine (kmLoop_stable he hx h.inv hu hne hvec hs1 ?_).symm
        have := kmRank_le (env := env) (cost := cost) (vec := fun x => (dget? vectors x).getD v0) hs1.mem_all
        omega
    rw [key]

end

/-- The hypotheses hold, for instance, for three real numbers. -/
example : let m := Manager.init [1, 2, 3]
    let vectors : Dict Nat ℝ := [(1, 0), (2, 1), (3, 5)]
    (euclidEnv (α := Nat) ℝ (1 / 10000) List.dedup List.reverse).Ok ∧ Reachable m ∧ Unconstrained m ∧ HasVectors m vectors := by
  refine ⟨⟨fun l => ⟨List.nodup_dedup l, fun _ => List.mem_dedup⟩, fun l => List.reverse_perm l⟩, ⟨_, [], rfl⟩, ?_, ?_⟩
  · unfold Unconstrained; decide +kernel
  · have hm : (Manager.init [1, 2, 3]).managed = [1, 2, 3] := by decide +kernel
    intro x hx
    rw [hm] at hx
    simp only [List.mem_cons, List.not_mem_nil, or_false] at hx
    rcases hx with rfl | rfl | rfl <;> exact ⟨_, rfl⟩

/-! ### With one must-link constraint -/

/-- The rational plane, with the square of the euclidean distance (which compares as the distance does). -/
def squareDist (a b : Rat × Rat) : Rat := (a.1 - b.1) * (a.1 - b.1) + (a.2 - b.2) * (a.2 - b.2)

def cycleEnv (small : List ((Rat × Rat) × (Rat × Rat)) → Bool) : KMeansEnv Nat (Rat × Rat) Rat where
  metric := squareDist
  mean l := ((l.map (·.1)).sum / l.length, (l.map (·.2)).sum / l.length)
  small := small
  enum := List.dedup
  shuffle l := l

/-- Two IDs apart on a line, and two must-linked ones, of which the one that is assigned first (the last in the
list) is between them and the other one is off the line. -/
def cycleManager : Manager Nat := runOps (Manager.init [1, 2, 3, 4]) [.addConstraint 3 4 "MUST_LINK" 1]

def cycleVectors : Dict Nat (Rat × Rat) := [(1, (-10, 0)), (2, (11, 0)), (3, (0, 40)), (4, (0, 0))]

def cycleLeft : Dict Nat Int := [(1, 0), (2, 1), (3, 0), (4, 0)]
def cycleRight : Dict Nat Int := [(1, 0), (2, 1), (3, 1), (4, 1)]
def cycleStart : Dict Int (Rat × Rat) := [(0, (-10, 0)), (1, (11, 0))]
def cycleLeftC : Dict Int (Rat × Rat) := [(1, (11, 0)), (0, (-10 / 3, 40 / 3))]
def cycleRightC : Dict Int (Rat × Rat) := [(0, (-10, 0)), (1, (11 / 3, 40 / 3))]

theorem cycle_pass {small : List ((Rat × Rat) × (Rat × Rat)) → Bool} :
    kmInitialize (cycleEnv small) cycleManager.managed cycleVectors 2 = .ok cycleStart ∧
    kmPass (cycleEnv small) cycleManager cycleVectors 2 cycleStart = .ok (cycleLeft, cycleLeftC) ∧
    kmPass (cycleEnv small) cycleManager cycleVectors 2 cycleLeftC = .ok (cycleRight, cycleRightC) ∧
    kmPass (cycleEnv small) cycleManager cycleVectors 2 cycleRightC = .ok (cycleLeft, cycleLeftC) := by
  show kmInitialize (cycleEnv fun _ => false) cycleManager.managed cycleVectors 2 = .ok cycleStart ∧
    kmPass (cycleEnv fun _ => false) cycleManager cycleVectors 2 cycleStart = .ok (cycleLeft, cycleLeftC) ∧
    kmPass (cycleEnv fun _ => false) cycleManager cycleVectors 2 cycleLeftC = .ok (cycleRight, cycleRightC) ∧
    kmPass (cycleEnv fun _ => false) cycleManager cycleVectors 2 cycleRightC = .ok (cycleLeft, cycleLeftC)
  exact ⟨by decide +kernel, by decide +kernel, by decide +kernel, by decide +kernel⟩

/-- Centroids that moved by one or more are not within the tolerance. -/
def SmallTolerance (small : List ((Rat × Rat) × (Rat × Rat)) → Bool) : Prop :=
  ∀ pairs, small pairs = true → ∀ p ∈ pairs, squareDist p.1 p.2 < 1

theorem cycle_moves {small : List ((Rat × Rat) × (Rat × Rat)) → Bool} (hs : SmallTolerance small) :
    kmConverged (cycleEnv small) cycleLeft cycleRight cycleLeftC cycleRightC = .ok false ∧
    kmConverged (cycleEnv small) cycleRight cycleLeft cycleRightC cycleLeftC = .ok false := by
  have e1 : kmConverged (cycleEnv small) cycleLeft cycleRight cycleLeftC cycleRightC =
      .ok (small [((11, 0), (11 / 3, 40 / 3)), ((-10 / 3, 40 / 3), (-10, 0))]) := rfl
  have e2 : kmConverged (cycleEnv small) cycleRight cycleLeft cycleRightC cycleLeftC =
      .ok (small [((-10, 0), (-10 / 3, 40 / 3)), ((11 / 3, 40 / 3), (11, 0))]) := rfl
  rw [e1, e2]
  refine ⟨?_, ?_⟩
  · cases h : small [((11, 0), (11 / 3, 40 / 3)), ((-10 / 3, 40 / 3), (-10, 0))] with
    | false => rfl
    | true => exact absurd (hs _ h _ (List.mem_cons_self)) (by decide +kernel)
  · cases h : small [((-10, 0), (-10 / 3, 40 / 3)), ((11 / 3, 40 / 3), (11, 0))] with
    | false => rfl
    | true => exact absurd (hs _ h _ (List.mem_cons_self)) (by decide +kernel)

theorem cycle_loop {small : List ((Rat × Rat) × (Rat × Rat)) → Bool} (hs : SmallTolerance small) (k : Nat) :
    kmLoop (cycleEnv small) cycleManager cycleVectors 2 (2 * k) cycleLeft cycleLeftC = .ok (cycleLeft, cycleLeftC) ∧
    kmLoop (cycleEnv small) cycleManager cycleVectors 2 (2 * k + 1) cycleLeft cycleLeftC = .ok (cycleRight, cycleRightC) := by
  obtain ⟨-, -, p2, p3⟩ := cycle_pass (small := small)
  obtain ⟨q1, q2⟩ := cycle_moves hs
  induction k with
  | zero =>
    refine ⟨rfl, ?_⟩
    rw [kmLoop.eq_def]
    simp only [bind, Except.bind, p2, q1]
    rfl
  | succ k ih =>
    have two : ∀ n, kmLoop (cycleEnv small) cycleManager cycleVectors 2 (n + 2) cycleLeft cycleLeftC =
        kmLoop (cycleEnv small) cycleManager cycleVectors 2 n cycleLeft cycleLeftC := by
      intro n
      rw [kmLoop.eq_def]
      simp only [bind, Except.bind, p2, q1, Bool.false_eq_true, if_false]
      rw [kmLoop.eq_def]
      simp only [bind, Except.bind, p3, q2, Bool.false_eq_true, if_false]
    exact ⟨(two (2 * k)).trans ih.1, (two (2 * k + 1)).trans ih.2⟩

/-- Finding: with one must-link constraint the run may never stop by itself. In the example it goes back and forth
between two partitions for ever, so that the result depends on the parity of `max_iteration`. -/
theorem C75_must_link_cycles {small : List ((Rat × Rat) × (Rat × Rat)) → Bool} (hs : SmallTolerance small) (k : Nat) :
    kmCluster (cycleEnv small) (2 * k + 1) cycleManager (some cycleVectors) (some 2) = .ok (cycleLeft, cycleLeftC) ∧
    kmCluster (cycleEnv small) (2 * k + 2) cycleManager (some cycleVectors) (some 2) = .ok (cycleRight, cycleRightC) := by
  obtain ⟨p0, p1, -⟩ := cycle_pass (small := small)
  have hfirst : kmConverged (cycleEnv small) (dofList (cycleManager.managed.map fun x => (x, -1))) cycleLeft cycleStart cycleLeftC =
      .ok false := rfl
  have hloop : ∀ n, kmLoop (cycleEnv small) cycleManager cycleVectors 2 (n + 1)
      (dofList (cycleManager.managed.map fun x => (x, -1))) cycleStart =
      kmLoop (cycleEnv small) cycleManager cycleVectors 2 n cycleLeft cycleLeftC := by
    intro n
    rw [kmLoop.eq_def]
    simp only [bind, Except.bind, p1, hfirst, Bool.false_eq_true, if_false]
  have hcop : ∀ n, kmCluster (cycleEnv small) n cycleManager (some cycleVectors) (some 2) =
      kmCOP (cycleEnv small) cycleManager cycleVectors 2 n := fun n => rfl
  have hL : renameClusters cycleLeft = .ok cycleLeft ∧
      kmCentroids (cycleEnv small) cycleManager cycleVectors cycleLeft = .ok cycleLeftC := by
    show renameClusters cycleLeft = .ok cycleLeft ∧
      kmCentroids (cycleEnv fun _ => false) cycleManager cycleVectors cycleLeft = .ok cycleLeftC
    decide +kernel
  have hR : renameClusters cycleRight = .ok cycleRight ∧
      kmCentroids (cycleEnv small) cycleManager cycleVectors cycleRight = .ok cycleRightC := by
    show renameClusters cycleRight = .ok cycleRight ∧
      kmCentroids (cycleEnv fun _ => false) cycleManager cycleVectors cycleRight = .ok cycleRightC
    decide +kernel
  obtain ⟨a, b⟩ := cycle_loop hs k
  refine ⟨?_, ?_⟩
  · rw [hcop]
    unfold kmCOP
    rw [p0]
    simp only [bind, Except.bind]
    rw [hloop, a]
    simp only [hL.1, hL.2]
    rfl
  · rw [hcop]
    unfold kmCOP
    rw [p0]
    simp only [bind, Except.bind]
    rw [show 2 * k + 2 = (2 * k + 1) + 1 from rfl, hloop, b]
    simp only [hR.1, hR.2]
    rfl

/-- The objective grows from one pass to the next in that run. -/
theorem C75_must_link_increases {small : List ((Rat × Rat) × (Rat × Rat)) → Bool} :
    kmPass (cycleEnv small) cycleManager cycleVectors 2 cycleStart = .ok (cycleLeft, cycleLeftC) ∧
    kmPass (cycleEnv small) cycleManager cycleVectors 2 cycleLeftC = .ok (cycleRight, cycleRightC) ∧
    inertia squareDist cycleManager cycleVectors cycleLeft cycleLeftC <
      inertia squareDist cycleManager cycleVectors cycleRight cycleRightC := by
  obtain ⟨-, p1, p2, -⟩ := cycle_pass (small := small)
  exact ⟨p1, p2, by decide +kernel⟩

/-- A tolerance as in the code, on the sum of the squares. -/
example : SmallTolerance fun pairs => decide ((pairs.map fun p => squareDist p.1 p.2).sum < 1) := by
  intro pairs h p hp
  have h : (pairs.map fun p => squareDist p.1 p.2).sum < 1 := by simpa using h
  have hpos : ∀ q : (Rat × Rat) × (Rat × Rat), 0 ≤ squareDist q.1 q.2 := fun q =>
    add_nonneg (mul_self_nonneg _) (mul_self_nonneg _)
  refine lt_of_le_of_lt ?_ h
  refine List.single_le_sum (fun x hx => ?_) _ (List.mem_map_of_mem hp)
  obtain ⟨q, -, rfl⟩ := List.mem_map.mp hx
  exact hpos q

end Verif
