import Verif.Proofs.LabelCount
import Mathlib.Data.Finset.Card
import Verif.Proofs.Affinity
import Verif.Proofs.DBScan

/-
Properties C46, C47, C60 and C61: affinity propagation. Specification vocabulary:
`Verif/Spec/Clustering.lean`, `Verif/Spec/Affinity.lean`.
-/

namespace Verif

variable {α V κ μ θ : Type} [LinearOrder α] [LinearOrder κ]

/-! Data of the examples: on a line, 1 and 2 must-linked, 4 and 5 cannot-linked. The "messages" of
the examples elect the first closure and the last one. -/

def apDemo : Manager Nat := runOps (Manager.init [3, 1, 2, 4, 5])
  [.addConstraint 1 2 "MUST_LINK" 1, .addConstraint 4 5 "CANNOT_LINK" 1]

def apDemoVectors : Dict Nat Int := [(1, 10), (2, 60), (3, 20), (4, 40), (5, 41)]

def apDemoEnv : ApEnv Int Int Unit Unit where
  dist a b := (a - b).natAbs
  neg a := -a
  median S := (S.flatten.min?).getD 0
  noise S := S
  zero := 0
  add := (· + ·)
  double a := 2 * a
  initM _ := ()
  initQ _ _ := ()
  stepQ _ _ := ()
  q2 _ _ _ := []
  update S _ := ((), (List.range S.length).map fun i => decide (i = 0 ∨ i + 1 = S.length))
  colsum S ii := ii.map fun j => (ii.map fun i => (mget? S i j).getD 0).sum

theorem apDemo_ok : ApAssumptions apDemoEnv where
  noise _ _ h := h
  update n S s h := by
    show (List.map _ (List.range S.length)).length = n
    rw [List.length_map, List.length_range, h.1]
  colsum S ii := by simp [apDemoEnv]
  addZero x := Int.add_zero x

theorem apDemo_distance : ApDistance apDemoEnv where
  self v w := by show ((v - v).natAbs : Int) ≤ ((v - w).natAbs : Int); simp
  neg a b h := by show -b ≤ -a; omega
  median n S hn h := by
    obtain ⟨v, hv⟩ := h.get hn hn
    unfold mget? at hv
    rw [Option.bind_eq_some_iff] at hv
    obtain ⟨row, h1, h2⟩ := hv
    have hm : v ∈ S.flatten := List.mem_flatten.2 ⟨row, List.mem_of_getElem? h1, List.mem_of_getElem? h2⟩
    cases e : S.flatten.min? with
    | none => rw [List.min?_eq_none_iff] at e; rw [e] at hm; cases hm
    | some a =>
      obtain ⟨row', hr, ha⟩ := List.mem_flatten.1 (min?_spec e).1
      refine ⟨row', hr, a, ha, ?_⟩
      show a ≤ (S.flatten.min?).getD 0
      rw [e]
      exact Int.le_refl a

theorem apDemo_hasVectors : HasVectors apDemo apDemoVectors := by
  unfold HasVectors; simp only [exists_dget?_iff]; decide +kernel

/-! ### What a call does -/

/-- The shape of a call that can return. -/
theorem apCluster_args {env : ApEnv V κ μ θ} {p : ApParams} {m : Manager α} {vectors : Option (Dict α V)} {nb : Option Int}
    {r : Dict α Int} (hr : apCluster env p m vectors nb = .ok r) :
    ∃ vs rows, vectors = some vs ∧ nb = none ∧ stackRows m vs = .ok rows := by
  unfold apCluster at hr
  cases vectors with
  | none => simp at hr
  | some vs =>
    cases nb with
    | some n => simp at hr
    | none =>
      simp only at hr
      cases e : stackRows m vs with
      | error _ => rw [e] at hr; cases hr
      | ok rows => exact ⟨vs, rows, rfl, rfl, e⟩

/-- The result of a run that is not skipped. -/
theorem apRun_other {env : ApEnv V κ μ θ} {p : ApParams} {m : Manager α} (h : Inv m) {vectors : Dict α V} {rows : List V}
    (hf : List.Forall₂ (fun x v => dget? vectors x = some v) m.managed rows) (hne : m.managed ≠ [])
    (h1 : m.managed.length ≠ 1) (heq : ¬ Equidistant env m vectors) (mls : List (List Nat)) (cls : List (Nat × Nat)) :
    apRun env p (rows.map fun v => rows.map fun w => env.neg (env.dist v w)) mls cls =
      apFinish env p (env.median (rows.map fun v => rows.map fun w => env.neg (env.dist v w)))
        (env.noise (rows.map fun v => rows.map fun w => env.neg (env.dist v w))) mls cls := by
  obtain ⟨b, e, hb⟩ := apEqual_iff (env := env) h hf hne
  have hbf : b = false := by
    cases b with
    | false => rfl
    | true =>
      rcases hb.1 rfl with c | c
      · exact absurd c h1
      · exact absurd c heq
  subst hbf
  unfold apRun
  simp only [e, bind, Except.bind]
  simp

/-- Skipped runs. -/
theorem apRun_skipped {env : ApEnv V κ μ θ} {p : ApParams} {m : Manager α} (h : Inv m) {vectors : Dict α V} {rows : List V}
    (hf : List.Forall₂ (fun x v => dget? vectors x = some v) m.managed rows) (hne : m.managed ≠ [])
    (hs : m.managed.length = 1 ∨ Equidistant env m vectors) (mls : List (List Nat)) (cls : List (Nat × Nat)) :
    ∃ v, mget? (rows.map fun v => rows.map fun w => env.neg (env.dist v w)) 0 (m.managed.length - 1) = some v ∧
      apRun env p (rows.map fun v => rows.map fun w => env.neg (env.dist v w)) mls cls =
        .ok (if v ≤ env.median (rows.map fun v => rows.map fun w => env.neg (env.dist v w))
          then (List.range m.managed.length).map fun (i : Nat) => (i : Int) else List.replicate m.managed.length 0) := by
  obtain ⟨b, e, hb⟩ := apEqual_iff (env := env) h hf hne
  have hbt : b = true := hb.2 hs
  subst hbt
  have hpos : 0 < m.managed.length := by
    cases hm : m.managed with
    | nil => exact absurd hm hne
    | cons a l => simp
  have hsq := square_of_rows rows fun v w => env.neg (env.dist v w)
  rw [← hf.length_eq] at hsq
  obtain ⟨v, hv⟩ := hsq.get (i := 0) (j := m.managed.length - 1) hpos (by omega)
  refine ⟨v, hv, ?_⟩
  unfold apRun
  simp only [e, bind, Except.bind, if_true]
  rw [hsq.1, mget_ok.2 hv]
  simp only
  split <;> rfl

/-- Every call on usable arguments returns the renamed labels of the run. -/
theorem apCluster_total {env : ApEnv V κ μ θ} (ha : ApAssumptions env) (p : ApParams) {m : Manager α} (h : Inv m)
    {vectors : Dict α V} {rows : List V} (hrows : stackRows m vectors = .ok rows) :
    ∃ mls cls labels r, apCannotLinks m = .ok cls ∧ Closures m.managed.length mls ∧ mls.length = m.components.length ∧
      (∀ (k : Nat) (P : List Nat) (c : List α), mls[k]? = some P → m.components[k]? = some c →
        ∀ i, i ∈ P ↔ ∃ x ∈ c, m.managed[i]? = some x) ∧
      (∀ c ∈ cls, c.1 < m.managed.length ∧ c.2 < m.managed.length) ∧
      apRun env p (rows.map fun v => rows.map fun w => env.neg (env.dist v w)) mls cls = .ok labels ∧
      labels.length = m.managed.length ∧ apCluster env p m (some vectors) none = .ok r ∧
      dkeys r = m.managed.insertionSort (· ≤ ·) ∧ FirstAppearanceOrder (dvals r) ∧
      ∀ (i j : Nat) (x y : α), m.managed[i]? = some x → m.managed[j]? = some y →
        (dget? r x = dget? r y ↔ labels[i]? = labels[j]?) := by
  obtain ⟨hf, hne⟩ := stackRows_ok hrows
  have hn : m.managed.Nodup := h.d.nodup
  have hpos : 0 < m.managed.length := by
    cases hm : m.managed with
    | nil => exact absurd hm hne
    | cons a l => simp
  obtain ⟨mls, hmls, hml, hclo, hmem⟩ := apMls_ok h
  obtain ⟨cls, hcls, hclt⟩ := apCannotLinks_ok h
  have hsq := square_of_rows rows fun v w => env.neg (env.dist v w)
  rw [← hf.length_eq] at hsq
  have hrun : ∃ labels, apRun env p (rows.map fun v => rows.map fun w => env.neg (env.dist v w)) mls cls = .ok labels ∧
      labels.length = m.managed.length := by
    by_cases hs : m.managed.length = 1 ∨ Equidistant env m vectors
    · obtain ⟨v, -, e⟩ := apRun_skipped (p := p) h hf hne hs mls cls
      refine ⟨_, e, ?_⟩
      split <;> simp
    · rw [not_or] at hs
      rw [apRun_other h hf hne hs.1 hs.2]
      have hnoise := ha.noise _ _ hsq
      cases hp : p.absolute with
      | true =>
        obtain ⟨r, M, e, hl, -⟩ := apFinish_absolute ha hp
          (env.median (rows.map fun v => rows.map fun w => env.neg (env.dist v w))) hnoise hclo hclt
        exact ⟨r, e, hl⟩
      | false =>
        obtain ⟨r, e, hl, -⟩ := apFinish_relative ha hp
          (env.median (rows.map fun v => rows.map fun w => env.neg (env.dist v w))) hnoise hpos hclo hclt
        exact ⟨r, e, hl⟩
  obtain ⟨labels, e, hlen⟩ := hrun
  obtain ⟨r, er, k1, k2, k3, -⟩ := rename_managed h (new := m.managed.zip labels) (dkeys_zip (by omega))
  refine ⟨mls, cls, labels, r, hcls, hclo, hml, hmem, hclt, e, hlen, ?_, k1, k3, fun i j x y hx hy => ?_⟩
  · rw [apCluster_eq h hrows hmls hcls e hlen, er]
  · rw [← k2 x (List.mem_of_getElem? hx) y (List.mem_of_getElem? hy), dget?_zip hn hx, dget?_zip hn hy]

/-! ### C46 -/

/-- In absolute mode must-linked IDs get the same label, whatever the message passing computes,
unless all similarities are equal. -/
theorem C46_must_links {env : ApEnv V κ μ θ} (ha : ApAssumptions env) {p : ApParams} (hp : p.absolute = true)
    {m : Manager α} (h : Reachable m) {vectors : Dict α V} {nb : Option Int} {r : Dict α Int}
    (hr : apCluster env p m (some vectors) nb = .ok r) (heq : ¬ Equidistant env m vectors) {x y : α}
    (hxy : m.getInferred x y = .ok (some .mustLink)) : dget? r x = dget? r y := by
  obtain ⟨vs, rows, hvs, rfl, hrows⟩ := apCluster_args hr
  cases hvs
  obtain ⟨hf, hne⟩ := stackRows_ok hrows
  obtain ⟨hx, hy⟩ := mem_of_getInferred h.inv hxy
  obtain ⟨mls, cls, labels, r', -, hclo, hml, hmem, hclt, e, hlen, e', -, -, hiff⟩ := apCluster_total ha p h.inv hrows
  rw [hr] at e'
  cases e'
  obtain ⟨i, hi⟩ := List.mem_iff_getElem?.1 hx
  obtain ⟨j, hj⟩ := List.mem_iff_getElem?.1 hy
  rw [hiff i j x y hi hj]
  by_cases h1 : m.managed.length = 1
  · have := (List.getElem?_eq_some_iff.1 hi).1
    have := (List.getElem?_eq_some_iff.1 hj).1
    rw [show i = j by omega]
  · rw [apRun_other h.inv hf hne h1 heq] at e
    have hsq := square_of_rows rows fun v w => env.neg (env.dist v w)
    rw [← hf.length_eq] at hsq
    obtain ⟨r', M, e', -, -, hcase⟩ := apFinish_absolute ha hp
      (env.median (rows.map fun v => rows.map fun w => env.neg (env.dist v w))) (ha.noise _ _ hsq) hclo hclt
    rw [e] at e'
    cases e'
    rcases hcase with ⟨-, rfl⟩ | ⟨E, ls, I, -, -, -, -, -, -, -, hspread⟩
    · have hi' := (List.getElem?_eq_some_iff.1 hi).1
      have hj' := (List.getElem?_eq_some_iff.1 hj).1
      simp [hi', hj']
    · obtain ⟨c, hc, hxc⟩ := exists_component h.inv hx
      have hyc : y ∈ c := ((mem_component_iff h.inv hc hxc).2 y).2 ((inferred_ml_iff h.inv hx hy).1 hxy)
      obtain ⟨k, hk⟩ := List.mem_iff_getElem?.1 hc
      have hk' : k < mls.length := by rw [hml]; exact (List.getElem?_eq_some_iff.1 hk).1
      have hP := List.getElem?_eq_getElem hk'
      exact (hspread k k i j _ _ hP hP ((hmem k _ c hP hk i).2 ⟨x, hxc, hi⟩) ((hmem k _ c hP hk j).2 ⟨y, hyc, hj⟩)).2 rfl

/-- In both modes: exactly the managed IDs are labelled, in canonical order. -/
theorem C46_labels {env : ApEnv V κ μ θ} (ha : ApAssumptions env) {p : ApParams} {m : Manager α} (h : Reachable m)
    {vectors : Option (Dict α V)} {nb : Option Int} {r : Dict α Int} (hr : apCluster env p m vectors nb = .ok r) :
    dkeys r = m.managed.insertionSort (· ≤ ·) ∧ FirstAppearanceOrder (dvals r) := by
  obtain ⟨vs, rows, rfl, rfl, hrows⟩ := apCluster_args hr
  obtain ⟨mls, cls, labels, r', -, -, -, -, -, -, -, e', k1, k2, -⟩ := apCluster_total ha p h.inv hrows
  rw [hr] at e'
  cases e'
  exact ⟨k1, k2⟩

/-- With at most `convergence_iteration` iterations the message passing never counts as converged:
in both modes, unless the run is skipped, all IDs are put in one single cluster. -/
theorem C46_never_converges {env : ApEnv V κ μ θ} (ha : ApAssumptions env) {p : ApParams}
    (hp : p.maxIteration ≤ p.convergenceIteration) {m : Manager α} (h : Reachable m) {vectors : Dict α V} {nb : Option Int}
    {r : Dict α Int} (hr : apCluster env p m (some vectors) nb = .ok r) (heq : ¬ Equidistant env m vectors) :
    ∀ c ∈ dvals r, c = 0 := by
  obtain ⟨vs, rows, hvs, rfl, hrows⟩ := apCluster_args hr
  cases hvs
  obtain ⟨hf, hne⟩ := stackRows_ok hrows
  obtain ⟨mls, cls, labels, r', -, hclo, -, -, hclt, e, hlen, e', k1, k2, hiff⟩ := apCluster_total ha p h.inv hrows
  rw [hr] at e'
  cases e'
  have hpos : 0 < m.managed.length := by
    cases hm : m.managed with
    | nil => exact absurd hm hne
    | cons a l => simp
  have hmn : m.managed.Nodup := h.inv.d.nodup
  have hsame : ∀ x ∈ m.managed, ∀ y ∈ m.managed, dget? r x = dget? r y := by
    intro x hx y hy
    obtain ⟨i, hi⟩ := List.mem_iff_getElem?.1 hx
    obtain ⟨j, hj⟩ := List.mem_iff_getElem?.1 hy
    rw [hiff i j x y hi hj]
    have hi' := (List.getElem?_eq_some_iff.1 hi).1
    have hj' := (List.getElem?_eq_some_iff.1 hj).1
    by_cases h1 : m.managed.length = 1
    · rw [show i = j by omega]
    · rw [apRun_other h.inv hf hne h1 heq] at e
      have hsq := square_of_rows rows fun v w => env.neg (env.dist v w)
      rw [← hf.length_eq] at hsq
      have hrep : labels = List.replicate m.managed.length (-1) := by
        cases hab : p.absolute with
        | true =>
          obtain ⟨r', M, e', -, hM, hcase⟩ := apFinish_absolute ha hab
            (env.median (rows.map fun v => rows.map fun w => env.neg (env.dist v w))) (ha.noise _ _ hsq) hclo hclt
          rw [e] at e'
          cases e'
          rcases hcase with ⟨-, c⟩ | ⟨E, ls, I, hl, -⟩
          · exact c
          · have := (apLoop_some ha p hM.choose_spec.2.1 hclt hl).2.2.2
            omega
        | false =>
          obtain ⟨r', e', -, c⟩ := apFinish_relative ha hab
            (env.median (rows.map fun v => rows.map fun w => env.neg (env.dist v w))) (ha.noise _ _ hsq) hpos hclo hclt
          rw [e] at e'
          cases e'
          exact c hp
      rw [hrep]
      simp [hi', hj']
  have hrn : (dkeys r).Nodup := by rw [k1]; exact (List.perm_insertionSort _ _).nodup_iff.2 hmn
  intro c hc
  cases hr' : r with
  | nil => rw [hr'] at hc; cases hc
  | cons q r0 =>
    obtain ⟨x0, c0⟩ := q
    have hc0 : c0 = 0 := by
      rcases k2 [] c0 (dvals r0) (by rw [hr']; rfl) with c1 | ⟨c1, c2⟩
      · cases c1
      · by_contra hne0
        have := (c2 0).2 ⟨by omega, by omega⟩
        cases this
    obtain ⟨x, hx⟩ := (mem_dvals hrn).1 hc
    have hxm : x ∈ m.managed := by
      have := mem_dkeys_of_dget? hx
      rw [k1, List.mem_insertionSort] at this
      exact this
    have hx0 : dget? r x0 = some c0 := by rw [hr']; simp [dget?]
    have hxm0 : x0 ∈ m.managed := by
      have := mem_dkeys_of_dget? hx0
      rw [k1, List.mem_insertionSort] at this
      exact this
    have := hsame x hxm x0 hxm0
    rw [hx, hx0, hc0] at this
    exact Option.some.inj this

/-- A call on usable arguments always returns. -/
theorem C46_no_failure {env : ApEnv V κ μ θ} (ha : ApAssumptions env) (p : ApParams) {m : Manager α} (h : Reachable m)
    (hne : m.managed ≠ []) {vectors : Dict α V} (hv : HasVectors m vectors) :
    ∃ r, apCluster env p m (some vectors) none = .ok r := by
  obtain ⟨rows, hrows⟩ := stackRows_total hv hne
  obtain ⟨mls, cls, labels, r, -, -, -, -, -, -, -, e', -⟩ := apCluster_total ha p h.inv hrows
  exact ⟨r, e'⟩

/-- Refused calls. -/
theorem C46_refused (env : ApEnv V κ μ θ) (p : ApParams) (m : Manager α) (vectors : Option (Dict α V)) (nb : Option Int)
    (hbad : vectors = none ∨ nb ≠ none ∨ m.managed = []) : ∃ w, apCluster env p m vectors nb = .error (.valueError w) := by
  unfold apCluster
  cases vectors with
  | none => exact ⟨_, rfl⟩
  | some vs =>
    cases nb with
    | some n => exact ⟨_, rfl⟩
    | none =>
      rcases hbad with c | c | c
      · cases c
      · exact absurd rfl c
      · have : stackRows m vs = .error (.valueError "vstack") := by
          unfold stackRows; rw [c]; rfl
        simp only [this, bind, Except.bind]
        exact ⟨_, rfl⟩

/-- The constructor refuses exactly fewer than one iteration. -/
theorem C46_init (maxIteration convergenceIteration : Int) (absolute : Bool) :
    (∃ p, ApParams.init maxIteration convergenceIteration absolute = .ok p) ↔
      1 ≤ maxIteration ∧ 1 ≤ convergenceIteration := by
  unfold ApParams.init
  by_cases h1 : maxIteration < 1
  · rw [if_pos h1]; simp; omega
  · by_cases h2 : convergenceIteration < 1
    · rw [if_neg h1, if_pos h2]; simp; omega
    · rw [if_neg h1, if_neg h2]; simp; omega

/-! ### C47 -/

/-- If all similarities are equal, every ID gets its own cluster, in both modes. -/
theorem C47_equidistant {env : ApEnv V κ μ θ} (ha : ApAssumptions env) (hd : ApDistance env) {p : ApParams} {m : Manager α}
    (h : Reachable m) {vectors : Dict α V} {nb : Option Int} {r : Dict α Int}
    (hr : apCluster env p m (some vectors) nb = .ok r) (heq : Equidistant env m vectors) {x y : α} (hx : x ∈ m.managed)
    (hy : y ∈ m.managed) (hxy : x ≠ y) : dget? r x ≠ dget? r y := by
  obtain ⟨vs, rows, hvs, rfl, hrows⟩ := apCluster_args hr
  cases hvs
  obtain ⟨hf, hne⟩ := stackRows_ok hrows
  obtain ⟨mls, cls, labels, r', -, -, -, -, -, e, hlen, e', k1, k2, hiff⟩ := apCluster_total ha p h.inv hrows
  rw [hr] at e'
  cases e'
  have hmn : m.managed.Nodup := h.inv.d.nodup
  obtain ⟨i, hi⟩ := List.mem_iff_getElem?.1 hx
  obtain ⟨j, hj⟩ := List.mem_iff_getElem?.1 hy
  have hi' := (List.getElem?_eq_some_iff.1 hi).1
  have hj' := (List.getElem?_eq_some_iff.1 hj).1
  have hij : i ≠ j := by
    rintro rfl
    rw [hi] at hj
    cases hj
    exact hxy rfl
  rw [Ne, hiff i j x y hi hj]
  obtain ⟨v, hv, e2⟩ := apRun_skipped (p := p) h.inv hf hne (.inr heq) mls cls
  rw [e] at e2
  cases e2
  have hsq := square_of_rows rows fun v w => env.neg (env.dist v w)
  rw [← hf.length_eq] at hsq
  obtain ⟨row, hrow, u, hu, hmed⟩ := hd.median _ _ (by omega) hsq
  have hle : v ≤ env.median (rows.map fun v => rows.map fun w => env.neg (env.dist v w)) := by
    refine le_trans ?_ hmed
    obtain ⟨a, ha'⟩ := List.mem_iff_getElem?.1 hrow
    obtain ⟨b, hb'⟩ := List.mem_iff_getElem?.1 hu
    have hab : mget? (rows.map fun v => rows.map fun w => env.neg (env.dist v w)) a b = some u := by
      unfold mget?; rw [ha']; exact hb'
    obtain ⟨x0, y0, v0, w0, hx0, hy0, hv0, hw0, rfl⟩ := (simRows hf).1 hv
    obtain ⟨x1, y1, v1, w1, hx1, hy1, hv1, hw1, rfl⟩ := (simRows hf).1 hab
    obtain ⟨s, hs⟩ := heq
    have hne0 : x0 ≠ y0 := by
      rintro rfl
      have := getElem?_inj_of_nodup hmn hx0 hy0
      omega
    have hx0' := List.mem_of_getElem? hx0
    have hx1' := List.mem_of_getElem? hx1
    have hy1' := List.mem_of_getElem? hy1
    have e0 : env.neg (env.dist v0 w0) = s := hs x0 hx0' y0 (List.mem_of_getElem? hy0) hne0 v0 w0 hv0 hw0
    by_cases hxy1 : x1 = y1
    · subst hxy1
      rw [hv1] at hw1
      cases hw1
      -- some other ID
      obtain ⟨z, hz, hzx, wz, hwz⟩ : ∃ z ∈ m.managed, x1 ≠ z ∧ ∃ wz, dget? vectors z = some wz := by
        by_cases c : x1 = x
        · obtain ⟨wz, -, hwz⟩ := forall₂_mem_left hf hy
          exact ⟨y, hy, fun c' => hxy (c.symm.trans c'), wz, hwz⟩
        · obtain ⟨wz, -, hwz⟩ := forall₂_mem_left hf hx
          exact ⟨x, hx, c, wz, hwz⟩
      rw [e0, ← hs x1 hx1' z hz hzx v1 wz hv1 hwz]
      exact hd.neg _ _ (hd.self v1 wz)
    · rw [e0, hs x1 hx1' y1 hy1' hxy1 v1 w1 hv1 hw1]
  rw [if_pos hle]
  simp only [List.getElem?_map, List.getElem?_range hi', List.getElem?_range hj', Option.map_some, Option.some.injEq,
    Int.natCast_inj]
  exact hij

/-- With exactly two managed IDs and a symmetric distance, the similarities are always equal: the
two IDs are separated even if they are must-linked. -/
theorem C47_two_ids {env : ApEnv V κ μ θ} (ha : ApAssumptions env) (hd : ApDistance env)
    (hsym : ∀ v w, env.dist v w = env.dist w v) {p : ApParams} {m : Manager α} (h : Reachable m) {x y : α}
    (hm : m.managed = [x, y]) {vectors : Dict α V} {nb : Option Int} {r : Dict α Int}
    (hr : apCluster env p m (some vectors) nb = .ok r) : dget? r x ≠ dget? r y := by
  have hmn : m.managed.Nodup := h.inv.d.nodup
  have hxy : x ≠ y := by
    rw [hm] at hmn
    simpa using hmn
  obtain ⟨vs, rows, hvs, -, hrows⟩ := apCluster_args hr
  cases hvs
  obtain ⟨hf, -⟩ := stackRows_ok hrows
  have hx : x ∈ m.managed := by rw [hm]; simp
  have hy : y ∈ m.managed := by rw [hm]; simp
  obtain ⟨v, -, hv⟩ := forall₂_mem_left hf hx
  obtain ⟨w, -, hw⟩ := forall₂_mem_left hf hy
  refine C47_equidistant ha hd h hr ⟨env.neg (env.dist v w), ?_⟩ hx hy hxy
  intro a ha' b hb hab va wb hva hwb
  rw [hm] at ha' hb
  simp only [List.mem_cons, List.not_mem_nil, or_false] at ha' hb
  rcases ha' with rfl | rfl <;> rcases hb with rfl | rfl
  · exact absurd rfl hab
  · rw [hv] at hva; rw [hw] at hwb; cases hva; cases hwb; rfl
  · rw [hw] at hva; rw [hv] at hwb; cases hva; cases hwb; rw [hsym]
  · exact absurd rfl hab

/-! ### C60 -/

/-- The cannot-links have no effect, in either mode: the result depends on the managed IDs and the
must-link components only. -/
theorem C60_cannot_links_ignored {env : ApEnv V κ μ θ} (ha : ApAssumptions env) (p : ApParams) {m m' : Manager α}
    (h : Reachable m) (h' : Reachable m') (hm : m.managed = m'.managed) (hc : m.components = m'.components)
    (vectors : Option (Dict α V)) (nb : Option Int) : apCluster env p m vectors nb = apCluster env p m' vectors nb := by
  cases vectors with
  | none => rfl
  | some vs =>
    cases nb with
    | some n => rfl
    | none =>
      have hst : stackRows m vs = stackRows m' vs := by unfold stackRows; rw [hm]
      cases e : stackRows m vs with
      | error er =>
        have e' := e
        rw [hst] at e'
        unfold apCluster
        simp only [e, e', bind, Except.bind]
      | ok rows =>
        have e' := e
        rw [hst] at e'
        obtain ⟨hf, hne⟩ := stackRows_ok e
        obtain ⟨cls, hcls, hclt⟩ := apCannotLinks_ok h.inv
        obtain ⟨cls', hcls', hclt'⟩ := apCannotLinks_ok h'.inv
        rw [← hm] at hclt'
        have hsq := square_of_rows rows fun v w => env.neg (env.dist v w)
        have hrun : ∀ mls, apRun env p (rows.map fun v => rows.map fun w => env.neg (env.dist v w)) mls cls =
            apRun env p (rows.map fun v => rows.map fun w => env.neg (env.dist v w)) mls cls' := by
          intro mls
          unfold apRun
          simp only
          have hno := (ha.noise _ _ hsq).1
          rw [← hf.length_eq] at hno
          rw [apFinish_congr ha p _ mls (cls := cls) (cls' := cls') (by rw [hno]; exact hclt) (by rw [hno]; exact hclt')]
        unfold apCluster
        simp only [e, e', hcls, hcls', bind, Except.bind, hc, hm, hrun]

/-! ### C61 -/

/-- Counting the clusters of a labelling by another description of its groups. -/
theorem labels_count {m : Manager α} (h : Inv m) (hne : m.managed ≠ []) {r : Dict α Int} (hk : dkeys r = m.managed.insertionSort (· ≤ ·))
    (hfo : FirstAppearanceOrder (dvals r)) {ι : Type} [DecidableEq ι] (f : α → ι)
    (hiff : ∀ x ∈ m.managed, ∀ y ∈ m.managed, (dget? r x = dget? r y ↔ f x = f y)) {I : List ι} (hI : I.Nodup)
    (hmem : ∀ e, e ∈ I ↔ ∃ x ∈ m.managed, f x = e) : LabelsAre (dvals r) I.length :=
  labels_count_on h.d.nodup hne hk hfo f hiff hI hmem

/-- In absolute mode, unless the run is skipped: if the messages never converge there is one cluster;
otherwise there are exactly as many clusters as the final vector `E` has exemplars, every exemplar
closure is in its own cluster, and any other closure follows an exemplar closure that is most similar
to it (closest by their closest members, up to the noise). The exemplars `I` are those of `E` after the
refinement: in each group the member with the greatest entry of `colsum`. -/
theorem C61_exemplars {env : ApEnv V κ μ θ} (ha : ApAssumptions env) {p : ApParams} (hp : p.absolute = true)
    {m : Manager α} (h : Reachable m) {vectors : Dict α V} {nb : Option Int} {r : Dict α Int}
    (hr : apCluster env p m (some vectors) nb = .ok r) (heq : ¬ Equidistant env m vectors) (h1 : m.managed.length ≠ 1) :
    ∃ rows mls M cls, List.Forall₂ (fun x v => dget? vectors x = some v) m.managed rows ∧ apCannotLinks m = .ok cls ∧
      mls.length = m.components.length ∧
      (∀ (k : Nat) (P : List Nat) (c : List α), mls[k]? = some P → m.components[k]? = some c →
        ∀ i, i ∈ P ↔ ∃ x ∈ c, m.managed[i]? = some x) ∧
      ClosureMatrix env.median (env.noise (rows.map fun v => rows.map fun w => env.neg (env.dist v w))) mls M ∧
      ((apLoop env p M m.managed.length cls p.maxIteration 0 (apInit env p mls.length cls) = none ∧ LabelsAre (dvals r) 1) ∨
        ∃ E labels I₀ I, apLoop env p M m.managed.length cls p.maxIteration 0 (apInit env p mls.length cls) = some (E, M) ∧
          I₀.Nodup ∧ (∀ i, i ∈ I₀ ↔ E[i]? = some true) ∧ RefinedExemplars (env.colsum M) M I₀ I ∧
          I.length = E.countP (fun b => b) ∧ LabelsAre (dvals r) (E.countP fun b => b) ∧
          labels.length = m.components.length ∧ ExemplarLabels M I labels ∧
          ∀ (a b : Nat) (c d : List α) (x y : α), m.components[a]? = some c → m.components[b]? = some d → x ∈ c → y ∈ d →
            (dget? r x = dget? r y ↔ labels[a]? = labels[b]?)) := by
  obtain ⟨vs, rows, hvs, rfl, hrows⟩ := apCluster_args hr
  cases hvs
  obtain ⟨hf, hne⟩ := stackRows_ok hrows
  obtain ⟨mls, cls, ls, r', hcls, hclo, hml, hmem, hclt, e, hlen, e', k1, k2, hiff⟩ := apCluster_total ha p h.inv hrows
  rw [hr] at e'
  cases e'
  have hmn : m.managed.Nodup := h.inv.d.nodup
  rw [apRun_other h.inv hf hne h1 heq] at e
  have hsq := square_of_rows rows fun v w => env.neg (env.dist v w)
  rw [← hf.length_eq] at hsq
  obtain ⟨r', M, e', -, hM, hcase⟩ := apFinish_absolute ha hp
    (env.median (rows.map fun v => rows.map fun w => env.neg (env.dist v w))) (ha.noise _ _ hsq) hclo hclt
  rw [e] at e'
  cases e'
  refine ⟨rows, mls, M, cls, hf, hcls, hml, hmem, hM, ?_⟩
  obtain ⟨x0, hx0⟩ := List.exists_mem_of_ne_nil _ hne
  rcases hcase with ⟨hl, hrep⟩ | ⟨E, labels, I, hl, hll, hIE, hIpos, hIlt, href, hexm, hspread⟩
  · refine .inl ⟨hl, labels_count (I := [()]) h.inv hne k1 k2 (fun _ => ()) ?_ (by simp) (fun e => ?_)⟩
    · intro x hx y hy
      obtain ⟨i, hi⟩ := List.mem_iff_getElem?.1 hx
      obtain ⟨j, hj⟩ := List.mem_iff_getElem?.1 hy
      rw [hiff i j x y hi hj, hrep]
      simp [(List.getElem?_eq_some_iff.1 hi).1, (List.getElem?_eq_some_iff.1 hj).1]
    · simp only [List.mem_singleton, true_iff]
      exact ⟨x0, hx0, trivial⟩
  · have hpair : ∀ (a b : Nat) (c d : List α) (x y : α), m.components[a]? = some c → m.components[b]? = some d → x ∈ c → y ∈ d →
        (dget? r x = dget? r y ↔ labels[a]? = labels[b]?) := by
      intro a b c d x y hc hd hx hy
      have hxm := (mem_component_iff h.inv (List.mem_of_getElem? hc) hx).1
      have hym := (mem_component_iff h.inv (List.mem_of_getElem? hd) hy).1
      obtain ⟨i, hi⟩ := List.mem_iff_getElem?.1 hxm
      obtain ⟨j, hj⟩ := List.mem_iff_getElem?.1 hym
      have ha' : a < mls.length := by rw [hml]; exact (List.getElem?_eq_some_iff.1 hc).1
      have hb' : b < mls.length := by rw [hml]; exact (List.getElem?_eq_some_iff.1 hd).1
      have hP := List.getElem?_eq_getElem ha'
      have hQ := List.getElem?_eq_getElem hb'
      rw [hiff i j x y hi hj]
      exact hspread a b i j _ _ hP hQ ((hmem a _ c hP hc i).2 ⟨x, hx, hi⟩) ((hmem b _ d hQ hd j).2 ⟨y, hy, hj⟩)
    refine .inr ⟨E, labels, apExemplars E, I, hl, (apExemplars_props E).1, fun i => mem_apExemplars, href, hIE, ?_,
      by rw [hll, hml], hexm, hpair⟩
    rw [← hIE]
    have hidx : ∀ x ∈ m.managed, ∃ (a : Nat) (c : List α), m.components[a]? = some c ∧ x ∈ c := by
      intro x hx
      obtain ⟨c, hc, hxc⟩ := exists_component h.inv hx
      obtain ⟨a, ha'⟩ := List.mem_iff_getElem?.1 hc
      exact ⟨a, c, ha', hxc⟩
    choose! g cc hg1 hg2 using hidx
    have hlab : ∀ x ∈ m.managed, ∃ l, labels[g x]? = some l := by
      intro x hx
      have : g x < labels.length := by rw [hll, hml]; exact (List.getElem?_eq_some_iff.1 (hg1 x hx)).1
      exact ⟨_, List.getElem?_eq_getElem this⟩
    refine labels_count (ι := Nat) h.inv hne k1 k2 (fun x => (labels[g x]?).getD 0) ?_ hexm.nodup (fun e => ?_)
    · intro x hx y hy
      rw [hpair _ _ _ _ x y (hg1 x hx) (hg1 y hy) (hg2 x hx) (hg2 y hy)]
      obtain ⟨l, hlx⟩ := hlab x hx
      obtain ⟨l', hly⟩ := hlab y hy
      simp only [hlx, hly, Option.getD_some, Option.some.injEq]
    · constructor
      · intro he
        have hlt : e < m.components.length := by rw [← hml]; exact hIlt e he
        have hc := List.getElem?_eq_getElem hlt
        obtain ⟨x, hx⟩ := List.exists_mem_of_ne_nil _ (component_ne_nil h.inv (List.mem_of_getElem? hc))
        have hxm := (mem_component_iff h.inv (List.mem_of_getElem? hc) hx).1
        refine ⟨x, hxm, ?_⟩
        have : g x = e := by
          have hcc := component_unique h.inv (List.mem_of_getElem? (hg1 x hxm)) (List.mem_of_getElem? hc) (hg2 x hxm) hx
          have hgx := hg1 x hxm
          rw [hcc] at hgx
          obtain ⟨p1, p2⟩ := List.getElem?_eq_some_iff.1 hgx
          exact (List.Nodup.getElem_inj_iff (components_nodup m)).1 p2
        rw [this, hexm.own e he]
        rfl
      · rintro ⟨x, hx, rfl⟩
        obtain ⟨l, hl'⟩ := hlab x hx
        rw [hl']
        exact hexm.mem _ _ hl'

/-! ### Examples -/

/-- Not equidistant. -/
theorem apDemo_not_equidistant : ¬ Equidistant apDemoEnv apDemo apDemoVectors := by
  rintro ⟨s, hs⟩
  have h1 := hs 1 (by decide +kernel) 2 (by decide +kernel) (by decide) 10 60 (by decide +kernel) (by decide +kernel)
  have h2 := hs 4 (by decide +kernel) 5 (by decide +kernel) (by decide) 40 41 (by decide +kernel) (by decide +kernel)
  rw [← h2] at h1
  exact absurd h1 (by decide)

/-- A run that converges to two exemplars: 1 and 2 stay together although 3 is between them; the
cannot-linked 4 and 5 are put in one cluster. -/
theorem apDemo_run : apCluster apDemoEnv ⟨20, 3, true⟩ apDemo (some apDemoVectors) none =
    .ok [(1, 0), (2, 0), (3, 0), (4, 1), (5, 1)] := by decide +kernel

example : Reachable apDemo ∧ apDemo.managed ≠ [] ∧ apDemo.managed.length ≠ 1 ∧
    apDemo.getInferred 1 2 = .ok (some .mustLink) :=
  ⟨⟨_, _, rfl⟩, by decide +kernel, by decide +kernel, by decide +kernel⟩

/-- Too few iterations. -/
example : apCluster apDemoEnv ⟨3, 3, false⟩ apDemo (some apDemoVectors) none =
    .ok [(1, 0), (2, 0), (3, 0), (4, 0), (5, 0)] := by decide +kernel

/-- Three equidistant IDs, two of them must-linked (the distance of the vectors is discrete). -/
def apEqui : Manager Nat := runOps (Manager.init [1, 2, 3]) [.addConstraint 1 2 "MUST_LINK" 1]

def apEquiEnv : ApEnv Int Int Unit Unit := { apDemoEnv with dist := fun a b => if a = b then 0 else 7 }

theorem apEqui_equidistant : Equidistant apEquiEnv apEqui [(1, 10), (2, 20), (3, 30)] := by
  refine ⟨-7, ?_⟩
  have hm : apEqui.managed = [1, 2, 3] := by decide +kernel
  rw [hm]
  intro x hx y hy hxy v w hv hw
  simp only [List.mem_cons, List.not_mem_nil, or_false] at hx hy
  rcases hx with rfl | rfl | rfl <;> rcases hy with rfl | rfl | rfl <;> first | exact absurd rfl hxy |
    (simp [dget?] at hv hw; subst hv; subst hw; decide)

theorem apEqui_ok : ApAssumptions apEquiEnv := ⟨apDemo_ok.noise, apDemo_ok.update, apDemo_ok.colsum, apDemo_ok.addZero⟩

theorem apEqui_distance : ApDistance apEquiEnv where
  self v w := by
    show (if v = v then (0 : Int) else 7) ≤ if v = w then 0 else 7
    rw [if_pos rfl]; split <;> decide
  neg := apDemo_distance.neg
  median := apDemo_distance.median

/-- The symmetric distance of the examples, and two must-linked IDs. -/
example : (∀ v w, apDemoEnv.dist v w = apDemoEnv.dist w v) ∧
    (runOps (Manager.init [2, 1]) [.addConstraint 1 2 "MUST_LINK" 1]).managed = [2, 1] ∧
    (runOps (Manager.init [2, 1]) [.addConstraint 1 2 "MUST_LINK" 1]).getInferred 1 2 = .ok (some .mustLink) :=
  ⟨fun v w => by show ((v - w).natAbs : Int) = ((w - v).natAbs : Int); omega, by decide +kernel, by decide +kernel⟩

/-- Managers that differ by a cannot-link only; the closures are the same and a cannot-linked pair is
put in one cluster. -/
example : apDemo.managed = (runOps (Manager.init [3, 1, 2, 4, 5]) [.addConstraint 1 2 "MUST_LINK" 1]).managed ∧
    apDemo.components = (runOps (Manager.init [3, 1, 2, 4, 5]) [.addConstraint 1 2 "MUST_LINK" 1]).components ∧
    apDemo.getInferred 4 5 = .ok (some .cannotLink) := by decide +kernel

/-! ### Each theorem applied to a concrete case -/

example : dget? [(1, (0 : Int)), (2, 0), (3, 0), (4, 1), (5, 1)] (1 : Nat) = dget? [(1, 0), (2, 0), (3, 0), (4, 1), (5, 1)] 2 :=
  C46_must_links apDemo_ok rfl ⟨_, _, rfl⟩ apDemo_run apDemo_not_equidistant (by decide +kernel)

example := C46_labels apDemo_ok ⟨_, _, rfl⟩ apDemo_run

example := C46_never_converges apDemo_ok (p := ⟨3, 3, true⟩) (Nat.le_refl 3) (m := apDemo) ⟨_, _, rfl⟩ (vectors := apDemoVectors) (nb := none)
  (r := [(1, 0), (2, 0), (3, 0), (4, 0), (5, 0)]) (by decide +kernel) apDemo_not_equidistant

example := C46_no_failure apDemo_ok ⟨20, 3, false⟩ (m := apDemo) ⟨_, _, rfl⟩ (by decide +kernel) apDemo_hasVectors

example := C46_refused apDemoEnv ⟨20, 3, true⟩ apDemo (some apDemoVectors) (some 2) (.inr (.inl (by decide)))

example : ∃ p, ApParams.init 200 15 true = .ok p := (C46_init 200 15 true).2 (by decide)

/-- 1 and 2 are must-linked. -/
example : dget? [(1, (0 : Int)), (2, 1), (3, 2)] (1 : Nat) ≠ dget? [(1, 0), (2, 1), (3, 2)] 2 :=
  C47_equidistant apEqui_ok apEqui_distance (p := ⟨20, 3, true⟩) (m := apEqui) ⟨_, _, rfl⟩ (vectors := [(1, 10), (2, 20), (3, 30)])
    (nb := none) (by decide +kernel) apEqui_equidistant (by decide +kernel) (by decide +kernel) (by decide)

example : dget? [(1, (0 : Int)), (2, 1)] (2 : Nat) ≠ dget? [(1, 0), (2, 1)] 1 :=
  C47_two_ids apDemo_ok apDemo_distance (fun v w => by show ((v - w).natAbs : Int) = ((w - v).natAbs : Int); omega) (p := ⟨20, 3, true⟩)
    (m := runOps (Manager.init [2, 1]) [.addConstraint 1 2 "MUST_LINK" 1]) ⟨_, _, rfl⟩ (by decide +kernel)
    (vectors := [(1, 10), (2, 60)]) (nb := none) (by decide +kernel)

example := C60_cannot_links_ignored apDemo_ok ⟨20, 3, true⟩ (m := apDemo)
  (m' := runOps (Manager.init [3, 1, 2, 4, 5]) [.addConstraint 1 2 "MUST_LINK" 1]) ⟨_, _, rfl⟩ ⟨_, _, rfl⟩ (by decide +kernel)
  (by decide +kernel) (some apDemoVectors) none

example := C61_exemplars apDemo_ok rfl ⟨_, _, rfl⟩ apDemo_run apDemo_not_equidistant (by decide +kernel)

end Verif
