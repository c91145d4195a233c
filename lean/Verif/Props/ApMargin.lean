import Mathlib.Data.Rat.Floor
import Verif.Proofs.ApMargin
import Verif.Props.Messages

/-
C128: affinity propagation with rounding errors and other random numbers.
-/

namespace Verif

section
variable {α V V' κ θ : Type} [LinearOrder α] [Field κ] [LinearOrder κ] [IsStrictOrderedRing κ]

/-- The similarities of line 209. -/
def similarities {V κ μ θ : Type} (env : ApEnv V κ μ θ) (rows : List V) : Mat κ := rows.map fun v => rows.map fun w => env.neg (env.dist v w)

/-- A run in exact arithmetic that takes no close decision is repeated by any arithmetic with small
errors: the same clusters. -/
theorem C128_same {dist : V → V → κ} {eps tiny : κ} {z : Nat → Nat → κ} {env' : ApEnv V' κ (ApMessages κ) θ} {m : Manager α}
    {σ τ u γ B : κ} (hN : ApNear env' m.components.length σ τ u γ B) (h2 : 2 ≤ m.components.length) {p : ApParams} (hp : p.absolute = true)
    {vectors : Dict α V} {vectors' : Dict α V'} {rows : List V} {rows' : List V'} (hr : stackRows m vectors = .ok rows)
    (hr' : stackRows m vectors' = .ok rows')
    (hs : apSkips (similarities (apExact dist eps tiny z) rows) = .ok false) (hs' : apSkips (similarities env' rows') = .ok false)
    (hσ : MatNear σ (apNoise eps tiny z (similarities (apExact dist eps tiny z) rows)) (env'.noise (similarities env' rows')))
    (hm : ∀ mls cls, (m.components.mapM fun c => c.mapM fun x => dget (dofList m.managed.zipIdx) x) = .ok mls → apCannotLinks m = .ok cls →
      ApMargin τ u γ B (apExact dist eps tiny z) p (apNoise eps tiny z (similarities (apExact dist eps tiny z) rows)) mls cls)
    {result : Dict α Int} (h : apCluster (apExact dist eps tiny z) p m (some vectors) none = .ok result) :
    apCluster env' p m (some vectors') none = .ok result := by
  suffices hf : Follows (fun b b' => b' = b) (apCluster (apExact dist eps tiny z) p m (some vectors) none) (apCluster env' p m (some vectors') none) by
    obtain ⟨r, e, rfl⟩ := hf result h
    exact e
  unfold apCluster
  dsimp only
  rw [hr, hr']
  simp only [bind, Except.bind]
  cases hmls : m.components.mapM fun c => c.mapM fun x => dget (dofList m.managed.zipIdx) x with
  | error e => intro b hb; cases hb
  | ok mls =>
    cases hcls : apCannotLinks m with
    | error e => intro b hb; cases hb
    | ok cls =>
      simp only
      have hlen : mls.length = m.components.length := (mapM_len hmls).1
      have hmar := hm mls cls hmls hcls
      have hrun : Follows (fun b b' => b' = b) (apRun (apExact dist eps tiny z) p (similarities (apExact dist eps tiny z) rows) mls cls)
          (apRun env' p (similarities env' rows') mls cls) := by
        unfold apRun
        rw [hs, hs']
        simp only [bind, Except.bind, Bool.false_eq_true, if_false]
        exact apFinish_near rfl rfl rfl (fun _ => rfl) (by rw [hlen]; exact hN) (by rw [hlen]; exact h2) hp hσ _ _ _ hmar
      refine Follows.bind hrun ?_
      rintro _ L _ rfl
      exact Follows.refl _

/-- The messages of `n` groups, computed with the error `e` per number, from `n` groups with similarities
that are off by `τ` and messages that are off by `e`: off by `n (e + τ)`. There is no condition: the
choice of line 387 may differ, the messages are still close. -/
theorem C128_messages {n : Nat} (hn : 2 ≤ n) {τ e : κ} {S S' : Mat κ} (hS : Square n S) (hτ : MatNear τ S S') {s s' : ApMessages κ}
    (h : MessagesNear n e s s') : MessagesNear n (n * (e + τ)) (apUpdate S s).1 (apUpdate S' s').1 := by
  obtain ⟨-, -, f1, -⟩ := apUpdate_ok hn hS s
  obtain ⟨-, -, f2, -⟩ := apUpdate_ok hn (hτ.square hS) s'
  exact freyDueck_near f1 f2 (fun i hi k hk => hτ.entry hS hi hk) h

/-- Affinity propagation whose results are rounded by `rnd`: similarities, the preference, all messages
after each iteration, and the sums of line 439. -/
def apRounded (rnd : κ → κ) (dist : V → V → κ) (eps tiny : κ) (z : Nat → Nat → κ) : ApEnv V κ (ApMessages κ) Unit where
  dist v w := rnd (dist v w)
  neg a := -a
  median W := rnd (npMedian W)
  noise S := (apNoise eps tiny z S).map fun row => row.map rnd
  zero := 0
  add a b := rnd (a + b)
  double a := rnd (2 * a)
  initM n := ⟨tabulate n fun _ _ => 0, tabulate n fun _ _ => 0⟩
  initQ _ _ := ()
  stepQ _ _ := ()
  q2 _ _ _ := []
  update S s :=
    let A := tabulate S.length fun i k => rnd (entry (apUpdate S s).1.avail i k)
    let R := tabulate S.length fun i k => rnd (entry (apUpdate S s).1.resp i k)
    (⟨A, R⟩, (List.range S.length).map fun k => decide (0 < entry A k k + entry R k k))
  colsum S ii := (apColsum S ii).map rnd

theorem apColsum_near {τ : κ} (hτ : 0 ≤ τ) {n : Nat} {S S' : Mat κ} (hS : Square n S) (h : MatNear τ S S') {ii : List Nat} (hii : ii.Nodup)
    (hlt : ∀ i ∈ ii, i < n) : List.Forall₂ (fun a b => |b - a| ≤ n * τ) (apColsum S ii) (apColsum S' ii) := by
  have hlen : ii.length ≤ n := by
    have := (hii.subperm (l₂ := List.range n) fun i hi => List.mem_range.2 (hlt i hi)).length_le
    rwa [List.length_range] at this
  have hsum : ∀ (l : List Nat), (∀ i ∈ l, i < n) → ∀ j < n, |(l.map fun i => entry S' i j).sum - (l.map fun i => entry S i j).sum| ≤ l.length * τ := by
    intro l
    induction l with
    | nil => intro _ j _; simp
    | cons a l ih =>
      intro hl j hj
      have h1 := abs_le.1 (ih (fun i hi => hl i (List.mem_cons_of_mem _ hi)) j hj)
      have h2 := abs_le.1 (h.entry hS (hl a List.mem_cons_self) hj)
      simp only [List.map_cons, List.sum_cons, List.length_cons]
      push_cast
      rw [abs_le]
      constructor <;> linarith
  have hle : (ii.length : κ) * τ ≤ n * τ := mul_le_mul_of_nonneg_right (by exact_mod_cast hlen) hτ
  unfold apColsum
  rw [List.forall₂_map_left_iff, List.forall₂_map_right_iff, List.forall₂_same]
  exact fun j hj => (hsum ii hlt j (hlt j hj)).trans hle

/-- Rounding with an error up to `u` is arithmetic with errors. -/
theorem apRounded_near {rnd : κ → κ} {u : κ} (hu : ∀ a, |rnd a - a| ≤ u) (dist : V → V → κ) (eps tiny : κ) (z : Nat → Nat → κ) {n : Nat}
    {σ : κ} (hσ : 0 ≤ σ) (B : κ) : ApNear (apRounded rnd dist eps tiny z) n σ (σ + u) u (n * (σ + u) + u) B := by
  have hu0 : 0 ≤ u := (abs_nonneg _).trans (hu 0)
  have tri : ∀ {a b e : κ}, |b - a| ≤ e → |rnd b - a| ≤ e + u := by
    intro a b e h
    have h1 := abs_le.1 h
    have h2 := abs_le.1 (hu b)
    rw [abs_le]
    constructor <;> linarith
  refine ⟨by linarith, fun W W' _ _ h => tri (npMedian_near hσ h), rfl, fun S s hS _ => ⟨?_, ?_⟩, fun S S' ii hS _ h hii hlt => ?_⟩
  · intro i hi k hk
    simp only [apRounded]
    rw [hS.1, entry_tabulate hi hk, entry_tabulate hi hk]
    exact ⟨hu _, hu _⟩
  · simp only [apRounded, hS.1]
  · simp only [apRounded]
    rw [List.forall₂_map_right_iff]
    exact (apColsum_near (by linarith) hS h hii hlt).imp fun _ _ h => tri h

/-- Rounding, with other random numbers in line 316, gives the same clusters as exact arithmetic if the
exact run takes no close decision. -/
theorem C128_rounded {rnd : κ → κ} {u : κ} (hu : ∀ a, |rnd a - a| ≤ u) {dist : V → V → κ} {eps tiny : κ} {z z' : Nat → Nat → κ} {m : Manager α}
    {σ B : κ} (hσ0 : 0 ≤ σ) (h2 : 2 ≤ m.components.length) {p : ApParams} (hp : p.absolute = true)
    {vectors : Dict α V} {rows : List V} (hr : stackRows m vectors = .ok rows)
    (hs : apSkips (similarities (apExact dist eps tiny z) rows) = .ok false)
    (hs' : apSkips (similarities (apRounded rnd dist eps tiny z') rows) = .ok false)
    (hσ : MatNear σ (apNoise eps tiny z (similarities (apExact dist eps tiny z) rows))
      ((apRounded rnd dist eps tiny z').noise (similarities (apRounded rnd dist eps tiny z') rows)))
    (hm : ∀ mls cls, (m.components.mapM fun c => c.mapM fun x => dget (dofList m.managed.zipIdx) x) = .ok mls → apCannotLinks m = .ok cls →
      ApMargin (σ + u) u (m.components.length * (σ + u) + u) B (apExact dist eps tiny z) p
        (apNoise eps tiny z (similarities (apExact dist eps tiny z) rows)) mls cls)
    {result : Dict α Int} (h : apCluster (apExact dist eps tiny z) p m (some vectors) none = .ok result) :
    apCluster (apRounded rnd dist eps tiny z') p m (some vectors) none = .ok result :=
  C128_same (apRounded_near hu dist eps tiny z' hσ0 B) h2 hp hr hr hs hs' hσ hm h

/-- The noise of line 316 does not decide: with other random numbers the clusters are the same, if the
run takes no close decision. -/
theorem C128_noise {dist : V → V → κ} {eps tiny : κ} {z z' : Nat → Nat → κ} {m : Manager α}
    {σ B : κ} (hσ0 : 0 ≤ σ) (h2 : 2 ≤ m.components.length) {p : ApParams} (hp : p.absolute = true)
    {vectors : Dict α V} {rows : List V} (hr : stackRows m vectors = .ok rows)
    (hs : apSkips (similarities (apExact dist eps tiny z) rows) = .ok false)
    (hσ : MatNear σ (apNoise eps tiny z (similarities (apExact dist eps tiny z) rows))
      (apNoise eps tiny z' (similarities (apExact dist eps tiny z) rows)))
    (hm : ∀ mls cls, (m.components.mapM fun c => c.mapM fun x => dget (dofList m.managed.zipIdx) x) = .ok mls → apCannotLinks m = .ok cls →
      ApMargin σ 0 (m.components.length * σ) B (apExact dist eps tiny z) p
        (apNoise eps tiny z (similarities (apExact dist eps tiny z) rows)) mls cls)
    {result : Dict α Int} (h : apCluster (apExact dist eps tiny z) p m (some vectors) none = .ok result) :
    apCluster (apExact dist eps tiny z') p m (some vectors) none = .ok result := by
  refine C128_same (env' := apExact dist eps tiny z') (σ := σ) (τ := σ) (u := 0) (γ := m.components.length * σ) (B := B) ?_ h2 hp hr hr hs hs hσ hm h
  refine ⟨le_refl σ, fun W W' _ _ h => npMedian_near hσ0 h, rfl, fun S s hS _ => ⟨fun i _ k _ => by simp [apExact], ?_⟩,
    fun S S' ii hS _ h hii hlt => apColsum_near hσ0 hS h hii hlt⟩
  obtain ⟨-, -, -, g⟩ := apUpdate_ok (n := m.components.length) h2 hS s
  change (apUpdate S s).2 = (List.range m.components.length).map fun k => decide (0 < entry (apUpdate S s).1.avail k k + entry (apUpdate S s).1.resp k k)
  apply List.ext_getElem?
  intro k
  have hl : (apUpdate S s).2.length = m.components.length := by
    unfold apUpdate
    simp only [hS.1]
    rw [if_neg (by omega)]
    simp
  by_cases hk : k < m.components.length
  · rw [List.getElem?_map, List.getElem?_range hk]
    exact g k hk
  · rw [List.getElem?_eq_none (by rw [hl]; omega), List.getElem?_eq_none (by rw [List.length_map, List.length_range]; omega)]

end

/-! ### A test of the margin -/

section
variable {κ V θ : Type} [Field κ] [LinearOrder κ]

/-- The test of `MatNear`. -/
instance forall₂Dec {β γ : Type} (R : β → γ → Prop) [∀ a b, Decidable (R a b)] : (l : List β) → (l' : List γ) → Decidable (List.Forall₂ R l l')
  | [], [] => .isTrue .nil
  | [], _ :: _ => .isFalse fun h => by cases h
  | _ :: _, [] => .isFalse fun h => by cases h
  | a :: l, b :: l' =>
    have := forall₂Dec R l l'
    decidable_of_iff (R a b ∧ List.Forall₂ R l l') List.forall₂_cons.symm

instance (σ : κ) (M M' : Mat κ) : Decidable (MatNear σ M M') := by
  unfold MatNear
  infer_instance

instance (ε : κ) (values : List κ) : Decidable (GreatestMargin ε values) := by
  unfold GreatestMargin
  infer_instance

instance (n : Nat) (B τ e : κ) (S : Mat κ) (s : ApMessages κ) : Decidable (MessagesWithin n B τ e S s) := by
  unfold MessagesWithin
  infer_instance

instance (τ : κ) (S : Mat κ) (I : List Nat) : Decidable (NearestMargin τ S I) := by
  unfold NearestMargin
  infer_instance

instance (B : κ) (M : Mat κ) : Decidable (MatWithin B M) := by
  unfold MatWithin
  infer_instance

/-- The test of `ApLoopMargin`. -/
def apLoopTest (n : Nat) (τ u B : κ) (conv : Nat) (S : Mat κ) : (left it : Nat) → ApMessages κ → List (List Bool) → Bool
  | 0, _, _, _ => true
  | left + 1, it, s, hist =>
    decide (MessagesWithin n B τ (apError n τ u it) S s) &&
    decide (∀ k < n, 2 * apError n τ u (it + 1) < |entry (apUpdate S s).1.avail k k + entry (apUpdate S s).1.resp k k|) &&
    (apStops conv S.length (hist.set (it % conv) (apUpdate S s).2) it (apUpdate S s).2 ||
      apLoopTest n τ u B conv S left (it + 1) (apUpdate S s).1 (hist.set (it % conv) (apUpdate S s).2))

theorem apLoopMargin_of_test {n : Nat} {τ u B : κ} {conv : Nat} {S : Mat κ} : ∀ {left it : Nat} {s : ApMessages κ} {hist : List (List Bool)},
    apLoopTest n τ u B conv S left it s hist = true → ApLoopMargin n τ u B conv S left it s hist := by
  intro left
  induction left with
  | zero => intros; trivial
  | succ left ih =>
    intro it s hist h
    unfold apLoopTest at h
    rw [Bool.and_eq_true, Bool.and_eq_true, Bool.or_eq_true] at h
    refine ⟨of_decide_eq_true h.1.1, of_decide_eq_true h.1.2, fun hst => ih ?_⟩
    rcases h.2 with h | h
    · rw [hst] at h; cases h
    · exact h

/-- The test of `ApLabelsMargin`. -/
def apLabelsTest (τ γ : κ) (S : Mat κ) (I : List Nat) : Bool :=
  decide (NearestMargin τ S I) &&
  match apAssign S I with
  | .error _ => true
  | .ok c =>
    decide (∀ k < I.length, GreatestMargin γ (apColsum S ((List.range c.length).filter fun i => decide (c[i]? = some k)))) &&
    match (List.range I.length).mapM (apRefine (apExact (fun (_ _ : Unit) => (0 : κ)) 0 0 fun _ _ => 0) S c) with
    | .error _ => true
    | .ok I' => decide (NearestMargin τ S I')

theorem apLabelsMargin_of_test {τ γ : κ} {S : Mat κ} {I : List Nat} (h : apLabelsTest τ γ S I = true) : ApLabelsMargin τ γ S I := by
  unfold apLabelsTest at h
  unfold ApLabelsMargin
  rw [Bool.and_eq_true] at h
  refine ⟨of_decide_eq_true h.1, ?_⟩
  have h2 := h.2
  cases hc : apAssign S I with
  | error e => trivial
  | ok c =>
    rw [hc] at h2
    simp only [Bool.and_eq_true] at h2
    refine ⟨of_decide_eq_true h2.1, ?_⟩
    have h3 := h2.2
    revert h3
    cases (List.range I.length).mapM (apRefine (apExact (fun (_ _ : Unit) => (0 : κ)) 0 0 fun _ _ => 0) S c) with
    | error e => intro _; trivial
    | ok I' => exact fun h3 => of_decide_eq_true h3

/-- The test of `ApMargin`. -/
def apMarginTest (τ u γ B : κ) (env : ApEnv V κ (ApMessages κ) θ) (p : ApParams) (S : Mat κ) (mls : List (List Nat)) (cls : List (Nat × Nat)) : Bool :=
  match mls.mapM fun P => mls.mapM fun Q => apMaxLink S P Q with
  | .error _ => true
  | .ok W =>
    decide (MatWithin B W) && decide (MatWithin B (setDiagonal W (env.median W))) &&
    apLoopTest mls.length τ u B p.convergenceIteration (setDiagonal W (env.median W)) p.maxIteration 0 (env.initM mls.length)
      (List.replicate p.convergenceIteration (List.replicate mls.length false)) &&
    match apLoop env p (setDiagonal W (env.median W)) S.length cls p.maxIteration 0 (apInit env p (setDiagonal W (env.median W)).length cls) with
    | none => true
    | some q => apLabelsTest τ γ (setDiagonal W (env.median W)) (apExemplars q.1)

theorem apMargin_of_test {τ u γ B : κ} {env : ApEnv V κ (ApMessages κ) θ} {p : ApParams} {S : Mat κ} {mls : List (List Nat)} {cls : List (Nat × Nat)}
    (h : apMarginTest τ u γ B env p S mls cls = true) : ApMargin τ u γ B env p S mls cls := by
  unfold apMarginTest at h
  unfold ApMargin
  revert h
  cases mls.mapM fun P => mls.mapM fun Q => apMaxLink S P Q with
  | error e => intro _; trivial
  | ok W =>
    intro h
    simp only [Bool.and_eq_true] at h
    refine ⟨of_decide_eq_true h.1.1.1, of_decide_eq_true h.1.1.2, apLoopMargin_of_test h.1.2, ?_⟩
    have h2 := h.2
    revert h2
    cases apLoop env p (setDiagonal W (env.median W)) S.length cls p.maxIteration 0 (apInit env p (setDiagonal W (env.median W)).length cls) with
    | none => intro _; trivial
    | some q => exact fun h2 => apLabelsMargin_of_test h2

end

/-- Five IDs, of which the first two are must-linked. -/
def apFive : Manager Nat := runOps (Manager.init [1, 2, 3, 4, 5]) [.addConstraint 1 2 "MUST_LINK" 1]

def apFiveVectors : Dict Nat Rat := [(1, 0), (2, 1), (3, 5 / 2), (4, 20), (5, 23)]

/-- Rounding down to multiples of a millionth of a millionth. -/
def floorPico (v : ℚ) : ℚ := (⌊1000000000000 * v⌋ : ℚ) / 1000000000000

theorem floorPico_near (v : ℚ) : |floorPico v - v| ≤ 1 / 1000000000000 := by
  unfold floorPico
  have h1 := Int.floor_le (1000000000000 * v)
  have h2 := Int.lt_floor_add_one (1000000000000 * v)
  rw [abs_le]
  constructor
  · rw [le_sub_iff_add_le, le_div_iff₀ (by norm_num)]
    linarith
  · rw [sub_le_iff_le_add, div_le_iff₀ (by norm_num)]
    linarith

/-- Some random numbers. -/
def someNoise (i j : Nat) : ℚ := ((7 * i + 3 * j * j) % 11 : Nat)

/-- Other random numbers that differ by a ten-billionth. -/
def otherNoise (i j : Nat) : ℚ := someNoise i j + 1 / 10000000000

theorem apFive_mls : (apFive.components.mapM fun c => c.mapM fun x => dget (dofList apFive.managed.zipIdx) x) = .ok [[0, 1], [2], [3], [4]] := by
  decide +kernel

theorem apFive_cls : apCannotLinks apFive = .ok [] := by decide +kernel

/-- All numbers are rounded down, and the random numbers are others: two clusters, as in exact arithmetic. -/
example : apCluster (apRounded floorPico lineDist (1 / 1000) 0 otherNoise) ⟨30, 5, true⟩ apFive (some apFiveVectors) none =
    .ok [(1, 0), (2, 0), (3, 0), (4, 1), (5, 1)] := by
  refine C128_rounded (m := apFive) (p := ⟨30, 5, true⟩) (vectors := apFiveVectors) (rows := [0, 1, 5 / 2, 20, 23]) floorPico_near
    (z := someNoise) (σ := 5 / 1000000000000) (B := 1000) (by norm_num) (by decide +kernel) rfl (by decide +kernel) (by decide +kernel)
    (by decide +kernel) (by decide +kernel) ?_ (by decide +kernel)
  intro mls cls e1 e2
  rw [apFive_mls] at e1
  rw [apFive_cls] at e2
  cases e1
  cases e2
  exact apMargin_of_test (by decide +kernel)

example : apCluster (apExact lineDist (1 / 1000) 0 otherNoise) ⟨30, 5, true⟩ apFive (some apFiveVectors) none =
    .ok [(1, 0), (2, 0), (3, 0), (4, 1), (5, 1)] := by
  refine C128_noise (m := apFive) (p := ⟨30, 5, true⟩) (vectors := apFiveVectors) (rows := [0, 1, 5 / 2, 20, 23])
    (z := someNoise) (σ := 5 / 1000000000000) (B := 1000) (by norm_num) (by decide +kernel) rfl (by decide +kernel) (by decide +kernel)
    (by decide +kernel) ?_ (by decide +kernel)
  intro mls cls e1 e2
  rw [apFive_mls] at e1
  rw [apFive_cls] at e2
  cases e1
  cases e2
  exact apMargin_of_test (by decide +kernel)

/-- The hypotheses of `C128_messages`. -/
example : Square 2 [[-1, -3], [-2, (-1 : ℚ)]] ∧ MatNear (1 / 10) [[-1, -3], [-2, (-1 : ℚ)]] [[-1, -3], [-21 / 10, (-1 : ℚ)]] ∧
    MessagesNear (κ := ℚ) 2 0 ⟨[[0, 0], [0, 0]], [[0, 0], [0, 0]]⟩ ⟨[[0, 0], [0, 0]], [[0, 0], [0, 0]]⟩ :=
  ⟨⟨rfl, by decide⟩, by decide +kernel, fun _ _ _ _ => by simp⟩

/-- Without a margin the noise decides: for the points 0, 1 and 10 the first random numbers give two
clusters, the second ones a single cluster, although the similarities differ by at most 1/100. -/
theorem C128_tie : MatNear (1 / 100) ((apLine skew).noise (similarities (apLine skew) [0, 1, 10]))
      ((apLine fun _ _ => 0).noise (similarities (apLine fun _ _ => 0) [0, 1, 10])) ∧
    apCluster (apLine skew) ⟨150, 10, true⟩ apPoints (some apPointVectors) none = .ok [(1, 0), (2, 0), (3, 1)] ∧
    apCluster (apLine fun _ _ => 0) ⟨150, 10, true⟩ apPoints (some apPointVectors) none = .ok [(1, 0), (2, 0), (3, 0)] :=
  ⟨by decide +kernel, by decide +kernel, by decide +kernel⟩

end Verif
