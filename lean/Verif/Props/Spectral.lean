import Verif.Proofs.Spectral

/-
Property C45: spectral clustering. Specification vocabulary: `Verif/Spec/Clustering.lean`.
-/

namespace Verif

variable {α V κ : Type} [LinearOrder α]

/-! Data of the examples: 1 and 3 must-linked, 3 and 2 cannot-linked (so 1 and 2 as well). -/

def specDemo : Manager Nat := runOps (Manager.init [3, 1, 2, 4])
  [.addConstraint 1 3 "MUST_LINK" 1, .addConstraint 3 2 "CANNOT_LINK" 1]

def specDemoVectors : Dict Nat Nat := [(1, 10), (2, 20), (3, 30), (4, 40)]

/-- A kernel that is not symmetric, and a solver that cuts the data in the middle of the list. -/
def specDemoEnv : SpecEnv Nat Nat where
  kernel a b := 100 * a + b
  one := 1
  zero := 0
  solve k M := .ok ((List.range M.length).map fun i => if 2 * i < M.length then (k : Int) + 5 else 4)

/-- Every part of a call that returned. -/
theorem specCluster_parts {env : SpecEnv V κ} {m : Manager α} (h : Inv m) {vectors : Option (Dict α V)}
    {nb : Option Int} {o : SpecObject α κ} (hr : specCluster env m vectors nb = .ok o) :
    ∃ vs n rows labels, vectors = some vs ∧ nb = some n ∧ 2 ≤ n ∧ m.managed ≠ [] ∧
      List.Forall₂ (fun x v => dget? vs x = some v) m.managed rows ∧
      o.nbClusters = min n.toNat m.managed.length ∧
      specImprint env m (rows.map fun v => rows.map fun w => env.kernel v w) = .ok o.similarity ∧
      env.solve o.nbClusters o.similarity = .ok labels ∧ m.managed.length ≤ labels.length ∧
      renameClusters (m.managed.zip labels) = .ok o.predicted := by
  unfold specCluster at hr
  cases vectors with
  | none => simp at hr
  | some vs =>
    cases nb with
    | none => simp at hr
    | some n =>
      simp only at hr
      by_cases hn : n < 2
      · rw [if_pos hn] at hr; cases hr
      · rw [if_neg hn] at hr
        simp only [bind, Except.bind, pure, Except.pure] at hr
        cases e1 : stackRows m vs with
        | error _ => rw [e1] at hr; cases hr
        | ok rows =>
          rw [e1] at hr
          simp only at hr
          cases e2 : specImprint env m (rows.map fun v => rows.map fun w => env.kernel v w) with
          | error _ => rw [e2] at hr; cases hr
          | ok S =>
            rw [e2] at hr
            simp only at hr
            cases e3 : env.solve (min n.toNat m.managed.length) S with
            | error _ => rw [e3] at hr; cases hr
            | ok labels =>
              rw [e3] at hr
              simp only at hr
              cases e4 : m.managed.zipIdx.mapM (specEntry labels) with
              | error _ => rw [e4] at hr; cases hr
              | ok items =>
                have hlen := specItems_length e4
                rw [specItems_ok hlen] at e4
                cases e4
                rw [specItems_ok hlen] at hr
                simp only at hr
                rw [dofList_of_nodup (by
                  have := dkeys_zip hlen
                  unfold dkeys at this
                  rw [this]; exact h.d.nodup)] at hr
                cases e5 : renameClusters (m.managed.zip labels) with
                | error _ => rw [e5] at hr; cases hr
                | ok r =>
                  rw [e5] at hr
                  cases hr
                  obtain ⟨h1, h2⟩ := stackRows_ok e1
                  exact ⟨vs, n, rows, labels, rfl, rfl, by omega, h2, h1, rfl, e2, e3, hlen, e5⟩

/-- Entry of the matrix handed to the solver, for the IDs `x`, `y` at positions `i`, `j`: `1` when
must-linked, `0` when cannot-linked, otherwise the kernel of their vectors. -/
theorem C45_matrix {env : SpecEnv V κ} {m : Manager α} (h : Reachable m) {vectors : Dict α V}
    {nb : Option Int} {o : SpecObject α κ} (hr : specCluster env m (some vectors) nb = .ok o)
    {i j : Nat} {x y : α} (hx : m.managed[i]? = some x) (hy : m.managed[j]? = some y) :
    (m.getInferred x y = .ok (some .mustLink) → mget? o.similarity i j = some env.one) ∧
    (m.getInferred x y = .ok (some .cannotLink) → mget? o.similarity i j = some env.zero) ∧
    (m.getInferred x y = .ok none → ∃ v w, dget? vectors x = some v ∧ dget? vectors y = some w ∧
      mget? o.similarity i j = some (env.kernel v w)) := by
  obtain ⟨vs, n, rows, labels, hvs, -, -, -, hrows, -, e, -⟩ := specCluster_parts h.inv hr
  cases hvs
  have hlen := hrows.length_eq
  have hE := entries_of_rows rows env.kernel env.one
  rw [← hlen] at hE
  obtain ⟨S', e', hS⟩ := specImprint_ok (env := env) h.inv hE
  rw [e] at e'
  cases e'
  have hi : i < m.managed.length := (List.getElem?_eq_some_iff.1 hx).1
  have hj : j < m.managed.length := (List.getElem?_eq_some_iff.1 hy).1
  have hxm : x ∈ m.managed := List.mem_of_getElem? hx
  have hym : y ∈ m.managed := List.mem_of_getElem? hy
  have hij := hS i j
  rw [if_pos ⟨hi, hj⟩] at hij
  rw [hij]
  simp only [specTarget, hx, hy]
  obtain ⟨r, ho, hcl, hml⟩ := isCL_eq h.inv hxm hym
  rw [ho]
  refine ⟨fun hr => ?_, fun hr => ?_, fun hr => ?_⟩
  · cases hr
    rw [if_pos (hml.1 rfl)]
  · cases hr
    rw [if_neg (fun c => by cases hml.2 c), if_pos (hcl.1 rfl)]
  · cases hr
    rw [if_neg (fun c => by cases hml.2 c), if_neg (fun c => by cases hcl.2 c)]
    have get : ∀ {k : Nat} {z : α}, m.managed[k]? = some z → ∃ v, rows[k]? = some v ∧ dget? vectors z = some v := by
      intro k z hz
      obtain ⟨hk, rfl⟩ := List.getElem?_eq_some_iff.1 hz
      exact ⟨_, List.getElem?_eq_getElem (by omega), (List.forall₂_iff_get.1 hrows).2 k hk (by omega)⟩
    obtain ⟨v, hv1, hv2⟩ := get hx
    obtain ⟨w, hw1, hw2⟩ := get hy
    exact ⟨v, w, hv2, hw2, by rw [hv1, hw1]⟩

/-- The matrix is square, one row and one column per managed ID. -/
theorem C45_shape {env : SpecEnv V κ} {m : Manager α} (h : Reachable m) {vectors : Option (Dict α V)}
    {nb : Option Int} {o : SpecObject α κ} (hr : specCluster env m vectors nb = .ok o) (i j : Nat) :
    (∃ v, mget? o.similarity i j = some v) ↔ i < m.managed.length ∧ j < m.managed.length := by
  obtain ⟨vs, n, rows, labels, -, -, -, -, hrows, -, e, -⟩ := specCluster_parts h.inv hr
  have hE := entries_of_rows rows env.kernel env.one
  rw [← hrows.length_eq] at hE
  obtain ⟨S', e', hS⟩ := specImprint_ok (env := env) h.inv hE
  rw [e] at e'
  cases e'
  rw [hS i j]
  by_cases c : i < m.managed.length ∧ j < m.managed.length
  · simp [c]
  · rw [if_neg c]; simp [c]

/-- The diagonal is `1`. -/
theorem C45_diagonal {env : SpecEnv V κ} {m : Manager α} (h : Reachable m) {vectors : Option (Dict α V)}
    {nb : Option Int} {o : SpecObject α κ} (hr : specCluster env m vectors nb = .ok o) {i : Nat}
    (hi : i < m.managed.length) : mget? o.similarity i i = some env.one := by
  obtain ⟨vs, n, rows, labels, rfl, -⟩ := specCluster_parts h.inv hr
  have hx := List.getElem?_eq_getElem hi
  have hm : m.managed[i] ∈ m.managed := List.getElem_mem hi
  exact (C45_matrix h hr hx hx).1 ((inferred_ml_iff h.inv hm hm).2 (MustLinked.refl m _))

/-- The matrix is symmetric whenever the kernel is. -/
theorem C45_symmetric {env : SpecEnv V κ} (hk : ∀ v w, env.kernel v w = env.kernel w v) {m : Manager α} (h : Reachable m)
    {vectors : Option (Dict α V)} {nb : Option Int} {o : SpecObject α κ} (hr : specCluster env m vectors nb = .ok o)
    (i j : Nat) : mget? o.similarity i j = mget? o.similarity j i := by
  by_cases c : i < m.managed.length ∧ j < m.managed.length
  · obtain ⟨hi, hj⟩ := c
    obtain ⟨vs, n, rows, labels, rfl, -⟩ := specCluster_parts h.inv hr
    have hx := List.getElem?_eq_getElem hi
    have hy := List.getElem?_eq_getElem hj
    have hxm : m.managed[i] ∈ m.managed := List.getElem_mem hi
    have hym : m.managed[j] ∈ m.managed := List.getElem_mem hj
    have m1 := C45_matrix h hr hx hy
    have m2 := C45_matrix h hr hy hx
    obtain ⟨o1, ho1, hcl1, hml1⟩ := isCL_eq h.inv hxm hym
    obtain ⟨o2, ho2, hcl2, hml2⟩ := isCL_eq h.inv hym hxm
    have hoo : o1 = o2 := by
      cases o1 with
      | none =>
        cases o2 with
        | none => rfl
        | some t =>
          cases t
          · cases hml1.2 ((hml2.1 rfl).symm h.inv)
          · cases hcl1.2 ((hcl2.1 rfl).symm h.inv)
      | some t =>
        cases t
        · exact (hml2.2 ((hml1.1 rfl).symm h.inv)).symm
        · exact (hcl2.2 ((hcl1.1 rfl).symm h.inv)).symm
    subst hoo
    cases o1 with
    | none =>
      obtain ⟨v, w, h1, h2, h3⟩ := m1.2.2 ho1
      obtain ⟨v', w', h1', h2', h3'⟩ := m2.2.2 ho2
      rw [h1] at h2'
      rw [h2] at h1'
      cases h1'
      cases h2'
      rw [h3, h3', hk]
    | some t =>
      cases t
      · rw [m1.1 ho1, m2.1 ho2]
      · rw [m1.2.1 ho1, m2.2.1 ho2]
  · have c1 : ∀ v, mget? o.similarity i j ≠ some v := fun v hv => c ((C45_shape h hr i j).1 ⟨v, hv⟩)
    have c2 : ∀ v, mget? o.similarity j i ≠ some v := fun v hv => c ((C45_shape h hr j i).1 ⟨v, hv⟩).symm
    cases e1 : mget? o.similarity i j with
    | some v => exact absurd e1 (c1 v)
    | none =>
      cases e2 : mget? o.similarity j i with
      | some v => exact absurd e2 (c2 v)
      | none => rfl

/-- The labels are those of the solver (asked for `min nb_clusters n` clusters on the modified
matrix), renamed by first appearance over the sorted managed IDs. -/
theorem C45_labels {env : SpecEnv V κ} {m : Manager α} (h : Reachable m) {vectors : Option (Dict α V)}
    {nb : Option Int} {o : SpecObject α κ} (hr : specCluster env m vectors nb = .ok o) :
    ∃ n labels, nb = some n ∧ 2 ≤ n ∧ env.solve (min n.toNat m.managed.length) o.similarity = .ok labels ∧
      dkeys o.predicted = m.managed.insertionSort (· ≤ ·) ∧ FirstAppearanceOrder (dvals o.predicted) ∧
      ∀ (i j : Nat) (x y : α), m.managed[i]? = some x → m.managed[j]? = some y →
        (dget? o.predicted x = dget? o.predicted y ↔ labels[i]? = labels[j]?) := by
  obtain ⟨vs, n, rows, labels, rfl, rfl, hn, -, -, hk, -, hs, hlen, hp⟩ := specCluster_parts h.inv hr
  obtain ⟨r, e, h1, h2, h3, -⟩ := rename_managed h.inv (new := m.managed.zip labels) (dkeys_zip hlen)
  rw [hp] at e
  cases e
  rw [hk] at hs
  refine ⟨n, labels, rfl, hn, hs, h1, h3, fun i j x y hx hy => ?_⟩
  have hnd : m.managed.Nodup := h.inv.d.nodup
  rw [← h2 x (List.mem_of_getElem? hx) y (List.mem_of_getElem? hy), dget?_zip hnd hx, dget?_zip hnd hy]

/-- Nothing after the solver repairs the labels: the constraints are respected exactly when the
solver's own labels respect them. -/
theorem C45_constraints {env : SpecEnv V κ} {m : Manager α} (h : Reachable m) {vectors : Option (Dict α V)}
    {nb : Option Int} {o : SpecObject α κ} (hr : specCluster env m vectors nb = .ok o) :
    ∃ labels, env.solve o.nbClusters o.similarity = .ok labels ∧
      (LabelsRespect m o.predicted ↔
        ∀ (i j : Nat) (x y : α), m.managed[i]? = some x → m.managed[j]? = some y →
          (m.getInferred x y = .ok (some .mustLink) → labels[i]? = labels[j]?) ∧
          (m.getInferred x y = .ok (some .cannotLink) → labels[i]? ≠ labels[j]?)) := by
  obtain ⟨vs, n, rows, labels, rfl, rfl, hn, -, -, hk, -, hs, -⟩ := specCluster_parts h.inv hr
  obtain ⟨n', labels', h1, -, h2, -, -, h3⟩ := C45_labels h hr
  cases h1
  rw [hk] at hs
  rw [hs] at h2
  cases h2
  refine ⟨labels, by rw [hk]; exact hs, ?_⟩
  constructor
  · intro hl i j x y hx hy
    have := h3 i j x y hx hy
    exact ⟨fun c => this.1 ((hl x y).1 c), fun c e => (hl x y).2 c (this.2 e)⟩
  · intro hl x y
    constructor
    · intro hc
      obtain ⟨hx, hy⟩ := mem_of_getInferred h.inv hc
      obtain ⟨i, hi⟩ := List.mem_iff_getElem?.1 hx
      obtain ⟨j, hj⟩ := List.mem_iff_getElem?.1 hy
      exact (h3 i j x y hi hj).2 ((hl i j x y hi hj).1 hc)
    · intro hc
      obtain ⟨hx, hy⟩ := mem_of_getInferred h.inv hc
      obtain ⟨i, hi⟩ := List.mem_iff_getElem?.1 hx
      obtain ⟨j, hj⟩ := List.mem_iff_getElem?.1 hy
      exact fun he => (hl i j x y hi hj).2 hc ((h3 i j x y hi hj).1 he)

/-- The only ways to fail, on a manager with at least one ID, all of whose IDs have vectors: a bad
argument, an error of the solver, or a list of labels that is too short. -/
theorem C45_no_failure {env : SpecEnv V κ} {m : Manager α} (h : Reachable m) (hne : m.managed ≠ [])
    {vectors : Dict α V} (hv : HasVectors m vectors) {n : Int} (hn : 2 ≤ n)
    (hs : ∀ S, (∀ i j, (∃ v, mget? S i j = some v) ↔ i < m.managed.length ∧ j < m.managed.length) →
      ∃ labels, env.solve (min n.toNat m.managed.length) S = .ok labels ∧ m.managed.length ≤ labels.length) :
    ∃ o, specCluster env m (some vectors) (some n) = .ok o := by
  obtain ⟨rows, e1⟩ := stackRows_total hv hne
  obtain ⟨hrows, -⟩ := stackRows_ok e1
  have hE := entries_of_rows rows env.kernel env.one
  rw [← hrows.length_eq] at hE
  obtain ⟨S, e2, hS⟩ := specImprint_ok (env := env) h.inv hE
  obtain ⟨labels, e3, hlen⟩ := hs S fun i j => by
    rw [hS i j]
    by_cases c : i < m.managed.length ∧ j < m.managed.length
    · simp [c]
    · rw [if_neg c]; simp [c]
  obtain ⟨r, e5, -⟩ := rename_managed h.inv (new := m.managed.zip labels) (dkeys_zip hlen)
  refine ⟨⟨min n.toNat m.managed.length, S, r⟩, ?_⟩
  have hd : dofList (m.managed.zip labels) = m.managed.zip labels := dofList_of_nodup (by
    have := dkeys_zip hlen
    unfold dkeys at this
    rw [this]; exact h.inv.d.nodup)
  unfold specCluster
  simp only [bind, Except.bind, pure, Except.pure]
  rw [if_neg (by omega : ¬ n < 2), e1]
  simp only
  rw [e2]
  simp only
  rw [e3]
  simp only
  rw [specItems_ok hlen]
  simp only
  rw [hd, e5]

/-- Refused calls: a `ValueError` for an argument out of its domain or when there is no data ID. -/
theorem C45_refused (env : SpecEnv V κ) (m : Manager α) (vectors : Option (Dict α V)) (nb : Option Int)
    (hbad : vectors = none ∨ nb = none ∨ (∃ n, nb = some n ∧ n < 2) ∨ m.managed = []) :
    ∃ w, specCluster env m vectors nb = .error (.valueError w) := by
  unfold specCluster
  cases vectors with
  | none => exact ⟨_, rfl⟩
  | some vs =>
    cases nb with
    | none => exact ⟨_, rfl⟩
    | some n =>
      simp only [bind, Except.bind, pure, Except.pure]
      by_cases hn : n < 2
      · rw [if_pos hn]; exact ⟨_, rfl⟩
      · rw [if_neg hn]
        rcases hbad with h | h | ⟨n', h, h'⟩ | h
        · cases h
        · cases h
        · cases h; exact absurd h' hn
        · have : stackRows m vs = .error (.valueError "vstack") := by
            unfold stackRows; rw [h]; rfl
          rw [this]
          exact ⟨_, rfl⟩

/-- A managed ID without vector is a `KeyError`. -/
theorem C45_missing_vector (env : SpecEnv V κ) (m : Manager α) {vectors : Dict α V} {n : Int} (hn : 2 ≤ n) {x : α}
    (hx : x ∈ m.managed) (hv : dget? vectors x = none) :
    specCluster env m (some vectors) (some n) = .error .keyError := by
  unfold specCluster
  simp only [bind, Except.bind, pure, Except.pure]
  rw [if_neg (by omega : ¬ n < 2), stackRows_missing hx hv]

/-- The constructor refuses exactly the other model names and fewer than two components. -/
theorem C45_init (model : String) (nbComponents : Option Int) :
    (∃ p, SpecParams.init model nbComponents = .ok p) ↔
      model = "SPEC" ∧ ∀ n, nbComponents = some n → 2 ≤ n := by
  unfold SpecParams.init
  by_cases hm : model = "SPEC"
  · rw [if_neg (by simp [hm])]
    cases nbComponents with
    | none => simp [hm]
    | some n =>
      by_cases hn : n < 2
      · simp [hm, hn]
      · simp [hm, hn, Int.not_lt.1 hn]
  · rw [if_pos hm]
    simp [hm]

/-! ### Examples -/

theorem specDemo_hasVectors : HasVectors specDemo specDemoVectors := by
  unfold HasVectors; simp only [exists_dget?_iff]; decide +kernel

/-- A whole call: the matrix is changed where there are constraints and only there; here the labels
of the solver separate the must-linked 1 and 3 from nobody but the others, and `1` comes first. -/
theorem specDemo_cluster :
    specCluster specDemoEnv specDemo (some specDemoVectors) (some 2) =
      .ok ⟨2, [[1, 1, 0, 3040], [1, 1, 0, 1040], [0, 0, 1, 2040], [4030, 4010, 4020, 1]], [(1, 0), (2, 1), (3, 0), (4, 1)]⟩ := by
  decide +kernel

example : Reachable specDemo ∧ HasVectors specDemo specDemoVectors ∧ specDemo.managed ≠ [] :=
  ⟨⟨_, _, rfl⟩, specDemo_hasVectors, by decide +kernel⟩

example : ∃ x y, specDemo.managed[1]? = some x ∧ specDemo.managed[2]? = some y ∧
    specDemo.getInferred x y = .ok (some .cannotLink) ∧ mget? [[1, 1, 0], [1, 1, 0], [0, 0, (1 : Nat)]] 1 2 = some 0 :=
  ⟨1, 2, by decide +kernel, by decide +kernel, by decide +kernel, by decide +kernel⟩

/-- The solver of the example always returns enough labels. -/
example (S : Mat Nat)
    (hS : ∀ i j, (∃ v, mget? S i j = some v) ↔ i < specDemo.managed.length ∧ j < specDemo.managed.length) :
    ∃ labels, specDemoEnv.solve 2 S = .ok labels ∧ specDemo.managed.length ≤ labels.length := by
  refine ⟨_, rfl, ?_⟩
  rw [List.length_map, List.length_range]
  have hlen : specDemo.managed.length = 4 := by decide +kernel
  obtain ⟨v, hv⟩ := (hS 3 3).2 (by omega)
  rw [hlen]
  by_contra hc
  unfold mget? at hv
  rw [List.getElem?_eq_none (by omega)] at hv
  cases hv

/-- A symmetric kernel. -/
example : ∃ o, specCluster { specDemoEnv with kernel := fun a b => a + b } specDemo (some specDemoVectors) (some 3) = .ok o ∧
    ∀ i j, mget? o.similarity i j = mget? o.similarity j i :=
  ⟨⟨3, [[1, 1, 0, 70], [1, 1, 0, 50], [0, 0, 1, 60], [70, 50, 60, 1]], [(1, 0), (2, 1), (3, 0), (4, 1)]⟩,
    by decide +kernel, C45_symmetric (env := { specDemoEnv with kernel := fun a b => a + b }) (fun v w => Nat.add_comm v w)
      (m := specDemo) ⟨_, _, rfl⟩ (vectors := some specDemoVectors) (nb := some 3) (by decide +kernel)⟩

example : SpecParams.init "SPEC" (some 2) = .ok ⟨"SPEC", some 2⟩ ∧
    SpecParams.init "CCSR" none = .error (.valueError "model") := by decide +kernel

end Verif
