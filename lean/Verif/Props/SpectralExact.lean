import Verif.Proofs.SpectralBlocks
import Verif.Props.Spectral
import Verif.Props.EndToEnd
import Verif.Proofs.HierDeep
import Mathlib.Analysis.SpecialFunctions.Exp

/-
C87: spectral clustering with an ideal solver, in exact arithmetic.
-/

namespace Verif

variable {α V : Type} [LinearOrder α]

/-- A call with another solver uses the same matrix. -/
theorem specCluster_run {env : SpecEnv V ℝ} {m : Manager α} (h : Inv m) {vectors : Option (Dict α V)} {nb : Option Int}
    {solve : Nat → Mat ℝ → Except PyErr (List Int)} {o : SpecObject α ℝ} (hr : specCluster { env with solve := solve } m vectors nb = .ok o)
    {labels : List Int} (hl : env.solve o.nbClusters o.similarity = .ok labels) (hlen : m.managed.length ≤ labels.length) :
    ∃ o', specCluster env m vectors nb = .ok o' ∧ o'.similarity = o.similarity ∧ o'.nbClusters = o.nbClusters := by
  obtain ⟨vs, n, rows, labels0, rfl, rfl, hn, hne, hrows, hk, e2, -, -, -⟩ := specCluster_parts h hr
  obtain ⟨r, e5, -⟩ := rename_managed h (new := m.managed.zip labels) (dkeys_zip hlen)
  refine ⟨⟨min n.toNat m.managed.length, o.similarity, r⟩, ?_, rfl, hk.symm⟩
  have hd : dofList (m.managed.zip labels) = m.managed.zip labels := dofList_of_nodup (by
    have := dkeys_zip hlen
    unfold dkeys at this
    rw [this]; exact h.d.nodup)
  have e1 : stackRows m vs = .ok rows := by
    unfold specCluster at hr
    simp only [bind, Except.bind, pure, Except.pure] at hr
    rw [if_neg (by omega : ¬ n < 2)] at hr
    cases e1 : stackRows m vs with
    | error _ => rw [e1] at hr; cases hr
    | ok rows' =>
      obtain ⟨h1, -⟩ := stackRows_ok e1
      congr 1
      refine List.ext_getElem? fun i => ?_
      by_cases hi : i < m.managed.length
      · have a1 := (List.forall₂_iff_get.1 h1).2 i hi (by rw [← h1.length_eq]; exact hi)
        have a2 := (List.forall₂_iff_get.1 hrows).2 i hi (by rw [← hrows.length_eq]; exact hi)
        rw [a1] at a2
        rw [List.getElem?_eq_getElem (by rw [← h1.length_eq]; exact hi), List.getElem?_eq_getElem (by rw [← hrows.length_eq]; exact hi)]
        simpa using a2
      · rw [List.getElem?_eq_none (by rw [← h1.length_eq]; omega), List.getElem?_eq_none (by rw [← hrows.length_eq]; omega)]
  have e2' : specImprint env m (rows.map fun v => rows.map fun w => env.kernel v w) = .ok o.similarity := e2
  unfold specCluster
  simp only [bind, Except.bind, pure, Except.pure]
  rw [if_neg (by omega : ¬ n < 2), e1]
  simp only
  rw [e2']
  simp only
  rw [← hk, hl]
  simp only
  rw [specItems_ok hlen]
  simp only
  rw [hd, e5]

/-- The entries of the matrix are not negative; they are not 0 exactly for similar IDs. -/
theorem spec_entries {env : SpecEnv V ℝ} (he : ExactSpec env) {m : Manager α} (h : Reachable m) {vectors : Dict α V} {nb : Option Int}
    {solve : Nat → Mat ℝ → Except PyErr (List Int)} {o : SpecObject α ℝ}
    (hr : specCluster { env with solve := solve } m (some vectors) nb = .ok o) :
    (∀ i j, entryR o.similarity i j = entryR o.similarity j i) ∧ (∀ i j, 0 ≤ entryR o.similarity i j) ∧
      ∀ (i j : Nat) (x y : α), m.managed[i]? = some x → m.managed[j]? = some y → (entryR o.similarity i j ≠ 0 ↔ Similar env.kernel m vectors x y) := by
  have entry : ∀ (i j : Nat) (x y : α), m.managed[i]? = some x → m.managed[j]? = some y →
      0 ≤ entryR o.similarity i j ∧ (entryR o.similarity i j ≠ 0 ↔ Similar env.kernel m vectors x y) := by
    intro i j x y hx hy
    obtain ⟨h1, h2, h3⟩ := C45_matrix h hr hx hy
    have hxm := List.mem_of_getElem? hx
    have hym := List.mem_of_getElem? hy
    obtain ⟨t, ht, -⟩ := isCL_eq h.inv hxm hym
    unfold entryR Similar
    rw [ht] at h1 h2 h3 ⊢
    rcases t with _ | _ | _
    · obtain ⟨v, w, e1, e2, e3⟩ := h3 rfl
      rw [e3]
      refine ⟨he.nonneg v w, fun hne => ⟨hxm, hym, .inr ⟨rfl, v, w, e1, e2, hne⟩⟩, ?_⟩
      rintro ⟨-, -, hc | ⟨-, v', w', e1', e2', hne⟩⟩
      · simp at hc
      · rw [e1] at e1'; rw [e2] at e2'; cases e1'; cases e2'; exact hne
    · rw [h1 rfl]; show (0 ≤ env.one ∧ (env.one ≠ 0 ↔ _)); rw [he.one]
      exact ⟨zero_le_one, fun _ => ⟨hxm, hym, .inl rfl⟩, fun _ => one_ne_zero⟩
    · rw [h2 rfl]; show (0 ≤ env.zero ∧ (env.zero ≠ 0 ↔ _)); rw [he.zero]
      exact ⟨le_rfl, fun hne => absurd rfl hne, fun hc => by simp at hc⟩
  refine ⟨fun i j => ?_, fun i j => ?_, fun i j x y hx hy => (entry i j x y hx hy).2⟩
  · unfold entryR
    rw [C45_symmetric (env := { env with solve := solve }) he.symm h hr i j]
  · by_cases c : i < m.managed.length ∧ j < m.managed.length
    · exact (entry i j _ _ (List.getElem?_eq_getElem c.1) (List.getElem?_eq_getElem c.2)).1
    · unfold entryR
      cases e : mget? o.similarity i j with
      | none => exact le_rfl
      | some v => exact absurd ((C45_shape h hr i j).1 ⟨v, e⟩) c

/-- A call with an ideal solver returns; its labels are optimal labels of a spectral embedding. -/
theorem spec_ideal {env : SpecEnv V ℝ} (he : ExactSpec env) {m : Manager α} (h : Reachable m) (hne : m.managed ≠ []) {vectors : Dict α V}
    (hv : HasVectors m vectors) {nb : Int} (hnb : 2 ≤ nb) :
    ∃ (o : SpecObject α ℝ) (U : Fin m.managed.length → Fin (min nb.toNat m.managed.length) → ℝ) (l : Fin m.managed.length → Int),
      specCluster env m (some vectors) (some nb) = .ok o ∧ SpecEmbedding (fun i j => entryR o.similarity i j) U ∧ SpecLabels U l ∧
      ∀ i j : Fin m.managed.length, dget? o.predicted m.managed[i] = dget? o.predicted m.managed[j] ↔ l i = l j := by
  obtain ⟨o0, e0⟩ := C45_no_failure (env := { env with solve := fun _ _ => .ok (List.replicate m.managed.length 0) }) h hne hv hnb
    (fun S _ => ⟨_, rfl, by simp⟩)
  obtain ⟨n0, -, hn0, -, -, -⟩ := C45_labels h e0
  cases hn0
  have hk0 : o0.nbClusters = min nb.toNat m.managed.length := by
    obtain ⟨vs, n, rows, labels, -, hn, -, -, -, hk, -⟩ := specCluster_parts h.inv e0
    cases hn; exact hk
  have hpos : 0 < m.managed.length := List.length_pos_iff.2 hne
  obtain ⟨g1, g2, -⟩ := spec_entries he h e0
  obtain ⟨U, labels, hs, hlen, hU, hL⟩ := he.solve (min nb.toNat m.managed.length) m.managed.length o0.similarity (by omega) (Nat.min_le_right _ _)
    (C45_shape h e0) g1 g2
  obtain ⟨o, e, hsim, -⟩ := specCluster_run h.inv e0 (by rw [hk0]; exact hs) hlen.ge
  refine ⟨o, U, fun i => labels.getD i 0, e, by rw [hsim]; exact hU, hL, fun i j => ?_⟩
  obtain ⟨n, labels', hn, -, hs', -, -, hp⟩ := C45_labels h e
  cases hn
  rw [hsim, hs] at hs'
  cases hs'
  refine (hp i j _ _ (List.getElem?_eq_getElem i.isLt) (List.getElem?_eq_getElem j.isLt)).trans ?_
  rw [List.getElem?_eq_getElem (by rw [hlen]; exact i.isLt), List.getElem?_eq_getElem (by rw [hlen]; exact j.isLt)]
  simp [List.getD_eq_getElem?_getD, hlen]

theorem spec_ideal' {env : SpecEnv V ℝ} (he : ExactSpec env) {m : Manager α} (h : Reachable m) {n k : Nat} (hn : m.managed.length = n)
    (hpos : 0 < n) {vectors : Dict α V} (hv : HasVectors m vectors) {nb : Int} (hnb : 2 ≤ nb) (hk : min nb.toNat n = k) :
    ∃ (o : SpecObject α ℝ) (U : Fin n → Fin k → ℝ) (l : Fin n → Int),
      specCluster env m (some vectors) (some nb) = .ok o ∧ SpecEmbedding (fun i j => entryR o.similarity i j) U ∧ SpecLabels U l ∧
      ∀ (i j : Fin n) (x y : α), m.managed[i.val]? = some x → m.managed[j.val]? = some y →
        (dget? o.predicted x = dget? o.predicted y ↔ l i = l j) := by
  subst hn hk
  obtain ⟨o, U, l, e, hU, hL, hp⟩ := spec_ideal he h (List.length_pos_iff.1 hpos) hv hnb
  refine ⟨o, U, l, e, hU, hL, fun i j x y hx hy => ?_⟩
  obtain ⟨h1, rfl⟩ := List.getElem?_eq_some_iff.1 hx
  obtain ⟨h2, rfl⟩ := List.getElem?_eq_some_iff.1 hy
  exact hp i j

/-- Chains of similar IDs and chains of entries that are not 0. -/
theorem spec_chain {env : SpecEnv V ℝ} (he : ExactSpec env) {m : Manager α} (h : Reachable m) {vectors : Dict α V} {nb : Option Int}
    {o : SpecObject α ℝ} (hr : specCluster env m (some vectors) nb = .ok o) (i j : Fin m.managed.length) :
    Relation.ReflTransGen (fun i j : Fin m.managed.length => entryR o.similarity i j ≠ 0) i j ↔
      SimilarChain env.kernel m vectors m.managed[i] m.managed[j] := by
  obtain ⟨-, -, hE⟩ := spec_entries he h hr
  constructor
  · intro hc
    induction hc with
    | refl => exact .refl
    | tail _ hbc ih =>
      exact ih.tail ((hE _ _ _ _ (List.getElem?_eq_getElem (Fin.isLt _)) (List.getElem?_eq_getElem (Fin.isLt _))).1 hbc)
  · intro hc
    have key : ∀ y, SimilarChain env.kernel m vectors m.managed[i] y → ∀ j : Fin m.managed.length, m.managed[j] = y →
        Relation.ReflTransGen (fun i j : Fin m.managed.length => entryR o.similarity i j ≠ 0) i j := by
      intro y hc
      induction hc with
      | refl =>
        intro j hj
        have : j = i := Fin.ext ((List.Nodup.getElem_inj_iff h.inv.d.nodup).1 hj)
        subst this; exact .refl
      | tail hab hbc ih =>
        rename_i y z
        intro j hj
        obtain ⟨k, hk, hky⟩ := List.mem_iff_getElem.1 hbc.1
        refine (ih ⟨k, hk⟩ hky).tail ?_
        refine (hE k j y z ?_ ?_).2 hbc
        · rw [List.getElem?_eq_getElem hk, hky]
        · rw [← hj]; exact List.getElem?_eq_getElem j.isLt
    exact key _ hc j rfl

/-- If the IDs fall into as many classes of similar IDs as clusters are asked for, the clusters are these classes. `cls` numbers the
classes. -/
theorem C87_components {env : SpecEnv V ℝ} (he : ExactSpec env) {m : Manager α} (h : Reachable m) (hne : m.managed ≠ [])
    {vectors : Dict α V} (hv : HasVectors m vectors) {nb : Int} (hnb : 2 ≤ nb) {k : Nat} (hk : min nb.toNat m.managed.length = k) {cls : α → Fin k}
    (hsurj : ∀ a, ∃ x ∈ m.managed, cls x = a)
    (hcls : ∀ x ∈ m.managed, ∀ y ∈ m.managed, cls x = cls y ↔ SimilarChain env.kernel m vectors x y) :
    ∃ o, specCluster env m (some vectors) (some nb) = .ok o ∧ ∀ x ∈ m.managed, ∀ y ∈ m.managed,
      (dget? o.predicted x = dget? o.predicted y ↔ SimilarChain env.kernel m vectors x y) := by
  subst hk
  obtain ⟨o, U, l, e, hU, hL, hp⟩ := spec_ideal he h hne hv hnb
  refine ⟨o, e, fun x hx y hy => ?_⟩
  obtain ⟨i, hi, rfl⟩ := List.mem_iff_getElem.1 hx
  obtain ⟨j, hj, rfl⟩ := List.mem_iff_getElem.1 hy
  have hs : Function.Surjective fun i : Fin m.managed.length => cls m.managed[i] := by
    intro a
    obtain ⟨x, hx, rfl⟩ := hsurj a
    obtain ⟨i, hi, rfl⟩ := List.mem_iff_getElem.1 hx
    exact ⟨⟨i, hi⟩, rfl⟩
  have hc : ∀ i j : Fin m.managed.length, cls m.managed[i] = cls m.managed[j] ↔
      Relation.ReflTransGen (fun i j : Fin m.managed.length => entryR o.similarity i j ≠ 0) i j := by
    intro i j
    exact (hcls _ (List.getElem_mem _) _ (List.getElem_mem _)).trans (spec_chain he h e i j).symm
  have h0 := (spec_entries he h e).2.1
  have hrows := specEmbedding_rows (W := fun i j => entryR o.similarity i j) (fun i j => h0 i j) hs hc hU
  have := specLabels_classes hs hrows hL ⟨i, hi⟩ ⟨j, hj⟩
  rw [← hcls _ hx _ hy]
  exact (hp ⟨i, hi⟩ ⟨j, hj⟩).trans this

/-- With complete constraints, and as many clusters asked for as there are must-link classes, the clusters are the must-link classes. -/
theorem C87_complete {env : SpecEnv V ℝ} (he : ExactSpec env) {m : Manager α} (h : Reachable m) (hcomp : m.complete = true)
    {vectors : Dict α V} (hv : HasVectors m vectors) {nb : Int} (hnb : 2 ≤ nb) (hk : nb = m.components.length) :
    ∃ o, specCluster env m (some vectors) (some nb) = .ok o ∧ ∀ x ∈ m.managed, ∀ y ∈ m.managed,
      (dget? o.predicted x = dget? o.predicted y ↔ m.getInferred x y = .ok (some .mustLink)) := by
  obtain ⟨p1, -, p3, p4, -⟩ := C12_components_partition h
  have hne : m.managed ≠ [] := by
    intro h0
    rw [h0, List.perm_nil, List.flatten_eq_nil_iff] at p3
    cases hc : m.components with
    | nil => rw [hc] at hk; simp at hk; omega
    | cons c l => exact (p1 c (by rw [hc]; exact List.mem_cons_self)).1 (p3 c (by rw [hc]; exact List.mem_cons_self))
  have hchain : ∀ x ∈ m.managed, ∀ y ∈ m.managed, SimilarChain env.kernel m vectors x y ↔ m.getInferred x y = .ok (some .mustLink) := by
    intro x hx y hy
    constructor
    · intro hc
      rw [inferred_ml_iff h.inv hx hy]
      clear hy
      induction hc with
      | refl => exact MustLinked.refl m _
      | tail _ hbc ih =>
        obtain ⟨hb, hc, hml | ⟨hn, -⟩⟩ := hbc
        · exact ih.trans ((inferred_ml_iff h.inv hb hc).1 hml)
        · obtain ⟨t, ht⟩ := (C13_completude_exact h).1 hcomp _ hb _ hc
          rw [hn] at ht; cases ht
    · intro hml; exact .single ⟨hx, hy, .inl hml⟩
  have hlen := components_le h.inv
  classical
  have hidx : ∀ x ∈ m.managed, ∃ i : Fin m.components.length, x ∈ m.components[i] := by
    intro x hx
    obtain ⟨c, hc, hxc⟩ := List.mem_flatten.1 (p3.mem_iff.2 hx)
    obtain ⟨i, hi, rfl⟩ := List.mem_iff_getElem.1 hc
    exact ⟨⟨i, hi⟩, hxc⟩
  have hpos : 0 < m.components.length := by omega
  let cls : α → Fin m.components.length := fun x => if hx : x ∈ m.managed then (hidx x hx).choose else ⟨0, hpos⟩
  have hmem : ∀ x, x ∈ m.managed → x ∈ m.components[cls x] := fun x hx => by
    simp only [cls, dif_pos hx]; exact (hidx x hx).choose_spec
  have hmem' : ∀ x, x ∈ m.managed → ∀ i, cls x = i → x ∈ m.components[i] := fun x hx i hi => by subst hi; exact hmem x hx
  have huniq : ∀ (i j : Fin m.components.length) (x : α), x ∈ m.components[i] → x ∈ m.components[j] → i = j := by
    intro i j x hi hj
    have := component_unique h.inv (List.getElem_mem i.isLt) (List.getElem_mem j.isLt) hi hj
    exact Fin.ext ((List.Nodup.getElem_inj_iff (components_nodup m)).1 this)
  obtain ⟨o, e, ho⟩ := C87_components he h hne hv hnb (k := m.components.length) (by omega) (cls := cls) (fun a => by
      obtain ⟨x, hx⟩ := List.exists_mem_of_ne_nil _ (p1 _ (List.getElem_mem a.isLt)).1
      have hxm : x ∈ m.managed := p3.mem_iff.1 (List.mem_flatten.2 ⟨_, List.getElem_mem a.isLt, hx⟩)
      exact ⟨x, hxm, huniq _ _ x (hmem x hxm) hx⟩) (fun x hx y hy => by
      rw [hchain x hx y hy, ← p4 x hx y hy]
      constructor
      · intro hc; exact ⟨_, List.getElem_mem (cls x).isLt, hmem x hx, hmem' y hy _ hc.symm⟩
      · rintro ⟨c, hc, hxc, hyc⟩
        obtain ⟨i, hi, rfl⟩ := List.mem_iff_getElem.1 hc
        exact (huniq _ ⟨i, hi⟩ x (hmem x hx) hxc).trans (huniq ⟨i, hi⟩ _ y hyc (hmem y hy)))
  exact ⟨o, e, fun x hx y hy => (ho x hx y hy).trans (hchain x hx y hy)⟩

/-! ### Cannot-links that are ignored -/

/-- Six IDs: 1 and 2 cannot-linked, 3 and 4 cannot-linked. -/
def sixDemo : Manager Nat := runOps (Manager.init [1, 2, 3, 4, 5, 6])
  [.addConstraint 1 2 "CANNOT_LINK" 1, .addConstraint 3 4 "CANNOT_LINK" 1]

/-- Four points at 0 and two points at `t`. -/
def sixVectors (t : ℝ) : Dict Nat ℝ := [(1, 0), (2, 0), (3, 0), (4, 0), (5, t), (6, t)]

/-- The blocks of the two places. -/
def sixBlock (i : Fin 6) : Fin 2 := if i.val < 4 then 0 else 1

/-- The matrix of `sixDemo`, `e` being the similarity of the two places. -/
def sixMatrix (e : ℝ) : Fin 6 → Fin 6 → ℝ := fun i j =>
  (![![1, 0, 1, 1, e, e], ![0, 1, 1, 1, e, e], ![1, 1, 1, 0, e, e], ![1, 1, 0, 1, e, e], ![e, e, e, e, 1, 1], ![e, e, e, e, 1, 1]] : Fin 6 → Fin 6 → ℝ) i j

theorem sixMatrix_blocks {e : ℝ} (h0 : 0 < e) (h1 : e < 1 / 2) : TwoBlocks (sixMatrix e) sixBlock (1 / 2) (1 / 2) e where
  symm i j := by fin_cases i <;> fin_cases j <;> rfl
  nonneg i j := by fin_cases i <;> fin_cases j <;> simp [sixMatrix] <;> exact h0.le
  degree i := by
    fin_cases i <;> simp [sixMatrix, Fin.sum_univ_succ] <;> positivity
  onto a := by fin_cases a; exact ⟨0, rfl⟩; exact ⟨5, rfl⟩
  same i j h := by
    have hne : ∀ i, (∑ j, if j = i then 0 else sixMatrix e i j) ≠ 0 := by
      intro i; fin_cases i <;> simp [sixMatrix, Fin.sum_univ_succ] <;> positivity
    unfold specDegree
    rw [if_neg (hne i), if_neg (hne j)]
    fin_cases i <;> fin_cases j <;> first | (exact absurd h (by decide)) | (simp [sixMatrix, Fin.sum_univ_succ]; try ring)
  bound u := by
    simp [sixMatrix, Fin.sum_univ_succ, blockSum, sixBlock]
    nlinarith [sq_nonneg (u 0 + u 1 - u 2 - u 3), sq_nonneg (u 4 - u 5)]
  exact_ u hu := by
    have a1 : u 1 = u 0 := hu _ _ rfl
    have a2 : u 2 = u 0 := hu _ _ rfl
    have a3 : u 3 = u 0 := hu _ _ rfl
    have a5 : u 5 = u 4 := hu _ _ rfl
    simp [sixMatrix, Fin.sum_univ_succ, blockSum, sixBlock]
    rw [a1, a2, a3, a5]
    ring
  p_pos := by norm_num
  q_pos := by norm_num
  e_lt := by nlinarith

theorem sixEntries {env : SpecEnv ℝ ℝ} (hone : env.one = 1) (hzero : env.zero = 0) (hk : env.kernel = fun v w => Real.exp (-(v - w) ^ 2)) {t : ℝ}
    {nb : Option Int} {o : SpecObject Nat ℝ} (hr : specCluster env sixDemo (some (sixVectors t)) nb = .ok o) (i j : Fin 6) :
    entryR o.similarity i j = sixMatrix (Real.exp (-t ^ 2)) i j := by
  have hm : Reachable sixDemo := ⟨_, _, rfl⟩
  have hman : sixDemo.managed = [1, 2, 3, 4, 5, 6] := by decide +kernel
  have hmat := fun (i j x y : Nat) (hx : [1, 2, 3, 4, 5, 6][i]? = some x) (hy : [1, 2, 3, 4, 5, 6][j]? = some y) =>
    C45_matrix hm hr (i := i) (j := j) (x := x) (y := y) (by rw [hman]; exact hx) (by rw [hman]; exact hy)
  have hinf : ∀ x ∈ [1, 2, 3, 4, 5, 6], ∀ y ∈ [1, 2, 3, 4, 5, 6], sixDemo.getInferred x y =
      .ok (if x = y then some .mustLink else if (x = 1 ∧ y = 2) ∨ (x = 2 ∧ y = 1) ∨ (x = 3 ∧ y = 4) ∨ (x = 4 ∧ y = 3) then some .cannotLink else none) := by
    decide +kernel
  have hone' : ∀ (i : Fin 6) x, [1, 2, 3, 4, 5, 6][i.val]? = some x → x = i.val + 1 := by decide
  have hvec : ∀ x ∈ [1, 2, 3, 4, 5, 6], dget? (sixVectors t) x = some (if x < 5 then 0 else t) := by
    intro x hx
    fin_cases hx <;> simp [sixVectors, dget?]
  have hx : [1, 2, 3, 4, 5, 6][i.val]? = some (i.val + 1) := by fin_cases i <;> rfl
  have hy : [1, 2, 3, 4, 5, 6][j.val]? = some (j.val + 1) := by fin_cases j <;> rfl
  have hxm := List.mem_of_getElem? hx
  have hym := List.mem_of_getElem? hy
  obtain ⟨m1, m2, m3⟩ := hmat i j _ _ hx hy
  rw [hinf _ hxm _ hym] at m1 m2 m3
  unfold entryR
  rw [hvec _ hxm, hvec _ hym, hk] at m3
  rw [hone] at m1
  rw [hzero] at m2
  fin_cases i <;> fin_cases j <;> simp at m1 m2 m3 <;> simp [m1, m2, m3, sixMatrix]

/-- Also with an ideal solver, exact arithmetic and the kernel of the code, spectral clustering ignores cannot-links: whatever the solver
chooses and however far the two places are from each other (at least 1), the four points at 0 are one cluster. -/
theorem C87_violated {env : SpecEnv ℝ ℝ} (he : ExactSpec env) (hk : env.kernel = fun v w => Real.exp (-(v - w) ^ 2)) {t : ℝ} (ht : 1 ≤ |t|) :
    ∃ o, specCluster env sixDemo (some (sixVectors t)) (some 2) = .ok o ∧ sixDemo.getInferred 1 2 = .ok (some .cannotLink) ∧
      sixDemo.getInferred 3 4 = .ok (some .cannotLink) ∧ dget? o.predicted 1 = dget? o.predicted 2 ∧ dget? o.predicted 3 = dget? o.predicted 4 ∧
      dget? o.predicted 1 ≠ dget? o.predicted 5 := by
  have hm : Reachable sixDemo := ⟨_, _, rfl⟩
  have hman : sixDemo.managed = [1, 2, 3, 4, 5, 6] := by decide +kernel
  have hv : HasVectors sixDemo (sixVectors t) := by
    intro x hx
    rw [hman] at hx
    fin_cases hx <;> simp [sixVectors, dget?]
  obtain ⟨o, U, l, e, hU, hL, hp⟩ := spec_ideal' he hm (n := 6) (by rw [hman]; rfl) (by decide) hv (nb := 2) (by decide) (k := 2) (by decide)
  have hW : (fun i j : Fin 6 => entryR o.similarity i j) = sixMatrix (Real.exp (-t ^ 2)) := by
    funext i j; exact sixEntries he.one he.zero hk e i j
  rw [hW] at hU
  have hlt : Real.exp (-t ^ 2) < 1 / 2 := by
    have h1 : (1 : ℝ) ≤ t ^ 2 := by rw [← sq_abs]; nlinarith
    have h2 : Real.exp (-t ^ 2) ≤ Real.exp (-1) := Real.exp_le_exp.2 (by linarith)
    have h3 : Real.exp (-1) < 1 / 2 := by
      rw [Real.exp_neg, ← one_div]
      exact one_div_lt_one_div_of_lt two_pos (by have := Real.add_one_lt_exp (one_ne_zero); linarith)
    linarith
  have hB := sixMatrix_blocks (Real.exp_pos (-t ^ 2)) hlt
  have hl := specLabels_classes hB.onto (hB.rows hU) hL
  refine ⟨o, e, by decide +kernel, by decide +kernel, ?_, ?_, fun h0 => ?_⟩
  · exact (hp 0 1 1 2 (by rw [hman]; rfl) (by rw [hman]; rfl)).2 ((hl 0 1).2 rfl)
  · exact (hp 2 3 3 4 (by rw [hman]; rfl) (by rw [hman]; rfl)).2 ((hl 2 3).2 rfl)
  · exact absurd ((hl 0 4).1 ((hp 0 4 1 5 (by rw [hman]; rfl) (by rw [hman]; rfl)).1 h0)) (by decide)

/-- There are such functions, also with the kernel of the code. -/
theorem exactSpec_exists : ∃ env : SpecEnv ℝ ℝ, ExactSpec env ∧ env.kernel = fun v w => Real.exp (-(v - w) ^ 2) := by
  obtain ⟨solve, hs⟩ := exists_ideal
  refine ⟨⟨fun v w => Real.exp (-(v - w) ^ 2), 1, 0, solve⟩, ⟨rfl, rfl, fun v w => ?_, fun v w => (Real.exp_pos _).le, hs⟩, rfl⟩
  show Real.exp _ = Real.exp _
  congr 1; ring

/-- Two groups with all cannot-links between them and nothing inside. -/
def fourDemo : Manager Nat := runOps (Manager.init [1, 2, 3, 4])
  [.addConstraint 1 3 "CANNOT_LINK" 1, .addConstraint 1 4 "CANNOT_LINK" 1, .addConstraint 2 3 "CANNOT_LINK" 1, .addConstraint 2 4 "CANNOT_LINK" 1]

/- The hypotheses of `C87_components`, with constraints that are not complete and vectors that suggest other clusters. -/
example {env : SpecEnv ℝ ℝ} (hk : env.kernel = fun v w => Real.exp (-(v - w) ^ 2)) :
    Reachable fourDemo ∧ fourDemo.complete = false ∧ HasVectors fourDemo ([(1, 0), (2, 9), (3, 0), (4, 9)] : Dict Nat ℝ) ∧
    ∀ x ∈ fourDemo.managed, ∀ y ∈ fourDemo.managed, (if x < 3 then (0 : Fin 2) else 1) = (if y < 3 then 0 else 1) ↔
      SimilarChain env.kernel fourDemo ([(1, 0), (2, 9), (3, 0), (4, 9)] : Dict Nat ℝ) x y := by
  have hman : fourDemo.managed = [1, 2, 3, 4] := by decide +kernel
  have hinf : ∀ x ∈ [1, 2, 3, 4], ∀ y ∈ [1, 2, 3, 4],
      fourDemo.getInferred x y = .ok (if x = y then some .mustLink else if (x < 3 ↔ y < 3) then none else some .cannotLink) := by
    decide +kernel
  have hv : HasVectors fourDemo ([(1, 0), (2, 9), (3, 0), (4, 9)] : Dict Nat ℝ) := by
    intro x hx
    rw [hman] at hx
    fin_cases hx <;> simp [dget?]
  refine ⟨⟨_, _, rfl⟩, by decide +kernel, hv, fun x hx y hy => ?_⟩
  constructor
  · intro h
    refine .single ⟨hx, hy, ?_⟩
    obtain ⟨v, hv1⟩ := hv x hx
    obtain ⟨w, hw1⟩ := hv y hy
    rw [hman] at hx hy
    rw [hinf x hx y hy]
    by_cases hxy : x = y
    · left; rw [if_pos hxy]
    · right
      refine ⟨?_, v, w, hv1, hw1, by rw [hk]; exact (Real.exp_pos _).ne'⟩
      rw [if_neg hxy, if_pos]
      by_cases h1 : x < 3 <;> by_cases h2 : y < 3 <;> simp [h1, h2] at h ⊢
  · intro hc
    clear hy
    induction hc with
    | refl => rfl
    | @tail b c _ hbc ih =>
      rw [ih]
      obtain ⟨hb, hc, h1⟩ := hbc
      rw [hman] at hb hc
      rw [hinf _ hb _ hc] at h1
      by_cases e : b = c
      · rw [e]
      · rw [if_neg e] at h1
        by_cases e1 : b < 3 <;> by_cases e2 : c < 3 <;> simp [e1, e2] at h1 ⊢

/- Complete constraints with two classes, contradicted by the vectors. -/
example : ∃ m : Manager Nat, Reachable m ∧ m.complete = true ∧ (2 : Int) = m.components.length ∧
    HasVectors m ([(1, 0), (2, 0), (3, 5)] : Dict Nat ℝ) := by
  refine ⟨runOps (Manager.init [1, 2, 3]) [.addConstraint 1 3 "MUST_LINK" 1, .addConstraint 1 2 "CANNOT_LINK" 1], ⟨_, _, rfl⟩,
    by decide +kernel, by decide +kernel, ?_⟩
  intro x hx
  have hman : (runOps (Manager.init [1, 2, 3]) [.addConstraint 1 3 "MUST_LINK" 1, .addConstraint 1 2 "CANNOT_LINK" 1]).managed = [1, 2, 3] := by
    decide +kernel
  rw [hman] at hx
  fin_cases hx <;> simp [dget?]

end Verif
