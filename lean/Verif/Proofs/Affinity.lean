import Verif.Proofs.ApRun
import Verif.Proofs.Spectral

/-
Affinity propagation: the method `cluster`.
-/

namespace Verif

section
variable {α : Type} [LinearOrder α]

theorem dget?_zipIdx {l : List α} (hn : l.Nodup) (k : Nat) (x : α) (i : Nat) :
    dget? (l.zipIdx k) x = some i ↔ k ≤ i ∧ l[i - k]? = some x := by
  induction l generalizing k with
  | nil => simp [dget?]
  | cons a l ih =>
    obtain ⟨ha, hn'⟩ := List.nodup_cons.1 hn
    rw [List.zipIdx_cons]
    simp only [dget?]
    by_cases hax : a = x
    · subst hax
      simp only [if_true, Option.some.injEq]
      constructor
      · rintro rfl; simp
      · rintro ⟨h1, h2⟩
        by_contra hne
        have : i - k = (i - k - 1) + 1 := by omega
        rw [this, List.getElem?_cons_succ] at h2
        exact ha (List.mem_of_getElem? h2)
    · rw [if_neg hax, ih hn' (k + 1)]
      constructor
      · rintro ⟨h1, h2⟩
        refine ⟨by omega, ?_⟩
        have : i - k = (i - (k + 1)) + 1 := by omega
        rw [this, List.getElem?_cons_succ]
        exact h2
      · rintro ⟨h1, h2⟩
        have hne : i ≠ k := by
          rintro rfl
          simp at h2
          exact hax h2
        have : i - k = (i - (k + 1)) + 1 := by omega
        rw [this, List.getElem?_cons_succ] at h2
        exact ⟨by omega, h2⟩

theorem apIdx_eq {m : Manager α} (h : Inv m) (x : α) (i : Nat) :
    dget? (dofList m.managed.zipIdx) x = some i ↔ m.managed[i]? = some x := by
  have hn : m.managed.Nodup := h.d.nodup
  rw [dofList_of_nodup (by simpa using hn), dget?_zipIdx hn]
  simp

theorem getElem?_inj_of_nodup {l : List α} (hn : l.Nodup) {i j : Nat} {x : α} (hi : l[i]? = some x) (hj : l[j]? = some x) :
    i = j := by
  obtain ⟨h1, rfl⟩ := List.getElem?_eq_some_iff.1 hi
  obtain ⟨h2, e⟩ := List.getElem?_eq_some_iff.1 hj
  exact ((List.Nodup.getElem_inj_iff hn).1 e).symm

/-- Lines 205 and 212-213: the components as lists of positions. -/
theorem apMls_ok {m : Manager α} (h : Inv m) :
    ∃ mls, (m.components.mapM fun c => c.mapM fun x => dget (dofList m.managed.zipIdx) x : Except PyErr (List (List Nat))) = .ok mls ∧
      mls.length = m.components.length ∧ Closures m.managed.length mls ∧
      ∀ (k : Nat) (P : List Nat) (c : List α), mls[k]? = some P → m.components[k]? = some c →
        ∀ i, i ∈ P ↔ ∃ x ∈ c, m.managed[i]? = some x := by
  have hn : m.managed.Nodup := h.d.nodup
  have hrow : ∀ c ∈ m.components, ∃ P, (c.mapM fun x => dget (dofList m.managed.zipIdx) x : Except PyErr (List Nat)) = .ok P :=
    fun c hc => mapM_total fun x hx => by
      obtain ⟨i, hi⟩ := List.mem_iff_getElem?.1 (mem_component_iff h hc hx).1
      exact ⟨i, dget_of_dget? ((apIdx_eq h x i).2 hi)⟩
  obtain ⟨mls, hm⟩ := mapM_total (l := m.components)
    (f := fun c => (c.mapM fun x => dget (dofList m.managed.zipIdx) x : Except PyErr (List Nat))) hrow
  have hf := mapM_ok_iff.1 hm
  have hmem : ∀ (k : Nat) (P : List Nat) (c : List α), mls[k]? = some P → m.components[k]? = some c →
      ∀ i, i ∈ P ↔ ∃ x ∈ c, m.managed[i]? = some x := by
    intro k P c hP hc i
    obtain ⟨h1, rfl⟩ := List.getElem?_eq_some_iff.1 hP
    obtain ⟨h2, rfl⟩ := List.getElem?_eq_some_iff.1 hc
    have hr := (List.forall₂_iff_get.1 hf).2 k h2 h1
    simp only [List.get_eq_getElem] at hr
    have hf2 := (mapM_ok_iff.1 hr).imp fun a b hab => (apIdx_eq h a b).1 (dget_eq_ok.1 hab)
    constructor
    · intro hi
      obtain ⟨x, hx, hxi⟩ := forall₂_mem_right hf2 hi
      exact ⟨x, hx, hxi⟩
    · rintro ⟨x, hx, hxi⟩
      obtain ⟨j, hj, hxj⟩ := forall₂_mem_left hf2 hx
      rw [getElem?_inj_of_nodup hn hxi hxj]
      exact hj
  have hcomp : ∀ P ∈ mls, ∃ (k : Nat) (c : List α), mls[k]? = some P ∧ m.components[k]? = some c := by
    intro P hP
    obtain ⟨k, hk⟩ := List.mem_iff_getElem?.1 hP
    have : k < m.components.length := by
      rw [hf.length_eq]; exact (List.getElem?_eq_some_iff.1 hk).1
    exact ⟨k, _, hk, List.getElem?_eq_getElem this⟩
  refine ⟨mls, hm, hf.length_eq.symm, ⟨?_, ?_, ?_, ?_⟩, hmem⟩
  · intro P hP
    obtain ⟨k, c, hk, hc⟩ := hcomp P hP
    have hcm := List.mem_of_getElem? hc
    obtain ⟨x, hx⟩ := List.exists_mem_of_ne_nil c (component_ne_nil h hcm)
    obtain ⟨i, hi⟩ := List.mem_iff_getElem?.1 (mem_component_iff h hcm hx).1
    intro e
    have := (hmem k P c hk hc i).2 ⟨x, hx, hi⟩
    rw [e] at this
    cases this
  · intro P hP i hi
    obtain ⟨k, c, hk, hc⟩ := hcomp P hP
    obtain ⟨x, -, hx⟩ := (hmem k P c hk hc i).1 hi
    exact (List.getElem?_eq_some_iff.1 hx).1
  · rw [List.pairwise_iff_getElem]
    intro a b ha hb hab i hi hi'
    have ha' : a < m.components.length := by rw [hf.length_eq]; exact ha
    have hb' : b < m.components.length := by rw [hf.length_eq]; exact hb
    obtain ⟨x, hx, hxi⟩ := (hmem a _ _ (List.getElem?_eq_getElem ha) (List.getElem?_eq_getElem ha') i).1 hi
    obtain ⟨y, hy, hyi⟩ := (hmem b _ _ (List.getElem?_eq_getElem hb) (List.getElem?_eq_getElem hb') i).1 hi'
    rw [hxi] at hyi
    cases hyi
    exact (List.pairwise_iff_getElem.1 (components_disjoint h)) a b ha' hb' hab x hx hy
  · intro i hi
    obtain ⟨c, hc, hx⟩ := exists_component h (List.getElem_mem hi)
    obtain ⟨k, hk⟩ := List.mem_iff_getElem?.1 hc
    have hk' : k < mls.length := by rw [← hf.length_eq]; exact (List.getElem?_eq_some_iff.1 hk).1
    exact ⟨mls[k], List.getElem_mem hk',
      (hmem k _ c (List.getElem?_eq_getElem hk') hk i).2 ⟨_, hx, List.getElem?_eq_getElem hi⟩⟩

theorem apCannotLinks_ok {m : Manager α} (h : Inv m) :
    ∃ cls, apCannotLinks m = .ok cls ∧ ∀ c ∈ cls, c.1 < m.managed.length ∧ c.2 < m.managed.length := by
  have hpairs : ∀ q ∈ ((List.range m.managed.length).flatMap fun i =>
      ((List.range m.managed.length).filter fun j => decide (i < j)).map fun j => (i, j)),
      q.1 < m.managed.length ∧ q.2 < m.managed.length := by
    intro q hq
    rw [List.mem_flatMap] at hq
    obtain ⟨i, hi, hq⟩ := hq
    rw [List.mem_map] at hq
    obtain ⟨j, hj, rfl⟩ := hq
    rw [List.mem_filter, List.mem_range] at hj
    rw [List.mem_range] at hi
    exact ⟨hi, hj.1⟩
  unfold apCannotLinks
  simp only
  generalize ((List.range m.managed.length).flatMap fun i =>
      ((List.range m.managed.length).filter fun j => decide (i < j)).map fun j => (i, j)) = pairs at hpairs
  obtain ⟨cls, hcls⟩ := filterM_total (l := pairs) (f := fun q => (do
      let c ← m.getAdded (← lget m.managed q.1) (← lget m.managed q.2)
      return decide (c.map Prod.fst = some CType.cannotLink) : Except PyErr Bool)) fun q hq => by
    obtain ⟨h1, h2⟩ := hpairs q hq
    obtain ⟨o, ho⟩ := getAdded_total h (List.getElem_mem h1) (List.getElem_mem h2)
    refine ⟨decide (o.map Prod.fst = some CType.cannotLink), ?_⟩
    simp only [lget_ok.2 (List.getElem?_eq_getElem h1), lget_ok.2 (List.getElem?_eq_getElem h2), ho, bind, Except.bind]
    rfl
  refine ⟨cls, hcls, fun c hc => ?_⟩
  rw [(filterM_ok hcls).2, List.mem_filter] at hc
  exact hpairs c hc.1

omit [LinearOrder α] in
theorem apItems_ok {l : List α} {labels : List Int} (h : labels.length = l.length) :
    labels.zipIdx.mapM (apEntry l) = .ok (l.zip labels) := by
  rw [mapM_ok_iff, List.forall₂_iff_get]
  refine ⟨by simp [h], fun i h1 h2 => ?_⟩
  simp only [List.length_zipIdx] at h1
  have h3 : i < l.length := by omega
  simp only [List.get_eq_getElem, List.getElem_zipIdx, List.getElem_zip, apEntry, Nat.zero_add]
  rw [lget_ok.2 (List.getElem?_eq_getElem h3)]
  rfl

end

section
variable {α V κ μ θ : Type} [LinearOrder α] [LinearOrder κ]

/-- The parts of a call on usable arguments, and the result when the run returns one label per ID. -/
theorem apCluster_eq {env : ApEnv V κ μ θ} {p : ApParams} {m : Manager α} (h : Inv m) {vectors : Dict α V} {rows : List V}
    (hrows : stackRows m vectors = .ok rows) {mls : List (List Nat)}
    (hmls : (m.components.mapM fun c => c.mapM fun x => dget (dofList m.managed.zipIdx) x :
      Except PyErr (List (List Nat))) = .ok mls) {cls : List (Nat × Nat)} (hcls : apCannotLinks m = .ok cls)
    {labels : List Int} (hrun : apRun env p (rows.map fun v => rows.map fun w => env.neg (env.dist v w)) mls cls = .ok labels)
    (hlen : labels.length = m.managed.length) :
    apCluster env p m (some vectors) none = renameClusters (m.managed.zip labels) := by
  have hd : dofList (m.managed.zip labels) = m.managed.zip labels := dofList_of_nodup (by
    have := dkeys_zip (l := m.managed) (r := labels) (by omega)
    unfold dkeys at this
    rw [this]; exact h.d.nodup)
  unfold apCluster
  simp only [hrows, bind, Except.bind]
  rw [hmls]
  simp only
  rw [hcls]
  simp only
  rw [hrun]
  simp only
  rw [apItems_ok hlen]
  simp only
  rw [hd]

omit [LinearOrder κ] in
/-- The similarity of two IDs, at their positions. -/
theorem simRows {env : ApEnv V κ μ θ} {m : Manager α} {vectors : Dict α V} {rows : List V}
    (hf : List.Forall₂ (fun x v => dget? vectors x = some v) m.managed rows) {i j : Nat} {s : κ} :
    mget? (rows.map fun v => rows.map fun w => env.neg (env.dist v w)) i j = some s ↔
      ∃ x y v w, m.managed[i]? = some x ∧ m.managed[j]? = some y ∧ dget? vectors x = some v ∧ dget? vectors y = some w ∧
        env.neg (env.dist v w) = s := by
  have get : ∀ {k : Nat} {v : V}, rows[k]? = some v ↔ ∃ x, m.managed[k]? = some x ∧ dget? vectors x = some v := by
    intro k v
    constructor
    · intro hv
      obtain ⟨hk, rfl⟩ := List.getElem?_eq_some_iff.1 hv
      have hk' : k < m.managed.length := by rw [hf.length_eq]; exact hk
      exact ⟨_, List.getElem?_eq_getElem hk', (List.forall₂_iff_get.1 hf).2 k hk' hk⟩
    · rintro ⟨x, hx, hv⟩
      obtain ⟨hk', rfl⟩ := List.getElem?_eq_some_iff.1 hx
      have hk : k < rows.length := by rw [← hf.length_eq]; exact hk'
      have := (List.forall₂_iff_get.1 hf).2 k hk' hk
      simp only [List.get_eq_getElem] at this
      rw [hv] at this
      cases this
      exact List.getElem?_eq_getElem hk
  unfold mget?
  rw [Option.bind_eq_some_iff]
  constructor
  · rintro ⟨row, h1, h2⟩
    rw [List.getElem?_map, Option.map_eq_some_iff] at h1
    obtain ⟨v, hv, rfl⟩ := h1
    rw [List.getElem?_map, Option.map_eq_some_iff] at h2
    obtain ⟨w, hw, rfl⟩ := h2
    obtain ⟨x, hx, hxv⟩ := get.1 hv
    obtain ⟨y, hy, hyw⟩ := get.1 hw
    exact ⟨x, y, v, w, hx, hy, hxv, hyw, rfl⟩
  · rintro ⟨x, y, v, w, hx, hy, hxv, hyw, rfl⟩
    refine ⟨rows.map fun w => env.neg (env.dist v w), ?_, ?_⟩
    · rw [List.getElem?_map, get.2 ⟨x, hx, hxv⟩]; rfl
    · rw [List.getElem?_map, get.2 ⟨y, hy, hyw⟩]; rfl

/-- Line 304: when the run is skipped. -/
theorem apEqual_iff {env : ApEnv V κ μ θ} {m : Manager α} (h : Inv m) {vectors : Dict α V} {rows : List V}
    (hf : List.Forall₂ (fun x v => dget? vectors x = some v) m.managed rows) (hne : m.managed ≠ []) :
    ∃ b, apSkips (rows.map fun v => rows.map fun w => env.neg (env.dist v w)) = .ok b ∧
      (b = true ↔ m.managed.length = 1 ∨ Equidistant env m vectors) := by
  have hlen : (rows.map fun v => rows.map fun w => env.neg (env.dist v w)).length = m.managed.length := by
    rw [List.length_map, hf.length_eq]
  unfold apSkips
  rw [hlen]
  by_cases h1 : m.managed.length = 1
  · rw [if_pos h1]
    exact ⟨true, rfl, by simp [h1]⟩
  · rw [if_neg h1]
    have h0 : m.managed.length ≠ 0 := by
      intro c; exact hne (List.eq_nil_of_length_eq_zero c)
    have hsq := square_of_rows rows fun v w => env.neg (env.dist v w)
    obtain ⟨b, e, hb⟩ := apEqual_ok hsq (by rw [← hf.length_eq]; omega)
    refine ⟨b, e, ?_⟩
    rw [hb]
    have hn : m.managed.Nodup := h.d.nodup
    constructor
    · rintro ⟨s, hs⟩
      right
      refine ⟨s, fun x hx y hy hxy v w hv hw => ?_⟩
      obtain ⟨i, hi⟩ := List.mem_iff_getElem?.1 hx
      obtain ⟨j, hj⟩ := List.mem_iff_getElem?.1 hy
      exact hs i j _ (fun e => by rw [e, hj] at hi; cases hi; exact hxy rfl) ((simRows hf).2 ⟨x, y, v, w, hi, hj, hv, hw, rfl⟩)
    · rintro (c | ⟨s, hs⟩)
      · exact absurd c h1
      · refine ⟨s, fun i j v hij hv => ?_⟩
        obtain ⟨x, y, v', w', hi, hj, hx, hy, rfl⟩ := (simRows hf).1 hv
        exact hs x (List.mem_of_getElem? hi) y (List.mem_of_getElem? hj)
          (fun e => hij (by rw [e] at hi; exact getElem?_inj_of_nodup hn hi hj)) v' w' hx hy

end

end Verif
