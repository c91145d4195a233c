import Verif.Proofs.KMeans
import Verif.Proofs.Inertia
import Verif.Proofs.LabelCount
import Verif.Proofs.Vectors

/-
The number of clusters of COP-KMeans (C88).
-/

namespace Verif

variable {α V δ : Type} [LinearOrder α] [LinearOrder δ]

theorem kmAssignAll_inPass {m : Manager α} {nb : Nat} {centroids : Dict Int V} {dist : Dict α (Dict Int δ)} {fuel : Nat}
    {s : List α × Dict α Int} (hs : InPass m nb centroids dist s) {new : Dict α Int}
    (e : kmAssignAll m m.managed nb centroids dist fuel s = .ok new) : InPass m nb centroids dist ([], new) := by
  induction fuel generalizing s with
  | zero =>
    unfold kmAssignAll at e
    split at e
    · rename_i h0
      cases e
      rw [← h0]; exact hs
    · cases e
  | succ fuel ih =>
    rw [kmAssignAll.eq_def] at e
    simp only at e
    cases hl : s.1.getLast? with
    | none =>
      rw [hl] at e
      cases e
      have h0 : s.1 = [] := List.getLast?_eq_none_iff.1 hl
      rw [← h0]; exact hs
    | some x =>
      rw [hl] at e
      simp only at e
      cases e1 : kmAssign m m.managed nb centroids dist x (s.1.dropLast, s.2) with
      | error _ => rw [e1] at e; cases e
      | ok s' =>
        rw [e1] at e
        exact ih (.step hs hl e1) e

/-- The states of a pass lead to its result. -/
theorem kmPass_inPass {env : KMeansEnv α V δ} {m : Manager α} {vectors : Dict α V} {nb : Nat} {c c' : Dict Int V} {new : Dict α Int}
    (e : kmPass env m vectors nb c = .ok (new, c')) :
    ∃ dist, kmDistances env m vectors c = .ok dist ∧ InPass m nb c dist ([], new) ∧ kmCentroids env m vectors new = .ok c' := by
  unfold kmPass at e
  cases e1 : kmDistances env m vectors c with
  | error _ => rw [e1] at e; cases e
  | ok dist =>
    rw [e1] at e
    simp only [bind, Except.bind, pure, Except.pure] at e
    cases e2 : kmAssignAll m m.managed nb c dist m.managed.length (m.managed, dofList (m.managed.map fun x => (x, -1))) with
    | error _ => rw [e2] at e; cases e
    | ok new' =>
      rw [e2] at e
      simp only at e
      cases e3 : kmCentroids env m vectors new' with
      | error _ => rw [e3] at e; cases e
      | ok cs =>
        rw [e3] at e
        cases e
        exact ⟨dist, rfl, kmAssignAll_inPass .start e2, e3⟩

theorem kmLoop_last {env : KMeansEnv α V δ} {m : Manager α} {vectors : Dict α V} {nb left : Nat} {l new : Dict α Int} {c cs : Dict Int V}
    (hc : RunCentroids env m vectors nb c) (e : kmLoop env m vectors nb (left + 1) l c = .ok (new, cs)) :
    ∃ c0, RunCentroids env m vectors nb c0 ∧ kmPass env m vectors nb c0 = .ok (new, cs) := by
  induction left generalizing l c with
  | zero =>
    rw [kmLoop.eq_def] at e
    simp only [bind, Except.bind] at e
    cases e1 : kmPass env m vectors nb c with
    | error _ => rw [e1] at e; cases e
    | ok p =>
      rw [e1] at e
      simp only at e
      cases e2 : kmConverged env l p.1 c p.2 with
      | error _ => rw [e2] at e; cases e
      | ok b =>
        rw [e2] at e
        cases b <;> (cases e; exact ⟨c, hc, e1⟩)
  | succ left ih =>
    rw [kmLoop.eq_def] at e
    simp only [bind, Except.bind] at e
    cases e1 : kmPass env m vectors nb c with
    | error _ => rw [e1] at e; cases e
    | ok p =>
      rw [e1] at e
      simp only at e
      cases e2 : kmConverged env l p.1 c p.2 with
      | error _ => rw [e2] at e; cases e
      | ok b =>
        rw [e2] at e
        cases b with
        | true => cases e; exact ⟨c, hc, e1⟩
        | false => exact ih (.pass hc (new := p.1) e1) e

/-- The result is the renamed result of a pass of the run. -/
theorem kmCluster_last {env : KMeansEnv α V δ} {m : Manager α} {vectors : Dict α V} {nb : Int} {maxIteration : Nat}
    (hmax : 1 ≤ maxIteration) {r : Dict α Int} {cs : Dict Int V}
    (hr : kmCluster env maxIteration m (some vectors) (some nb) = .ok (r, cs)) :
    ∃ c0 new c1, RunCentroids env m vectors (min nb.toNat m.managed.length) c0 ∧
      kmPass env m vectors (min nb.toNat m.managed.length) c0 = .ok (new, c1) ∧ renameClusters new = .ok r := by
  obtain ⟨left, rfl⟩ : ∃ left, maxIteration = left + 1 := ⟨maxIteration - 1, by omega⟩
  unfold kmCluster at hr
  simp only at hr
  split at hr
  · cases hr
  · unfold kmCOP at hr
    simp only [bind, Except.bind] at hr
    cases e0 : kmInitialize env m.managed vectors (min nb.toNat m.managed.length) with
    | error _ => rw [e0] at hr; cases hr
    | ok c =>
      rw [e0] at hr
      simp only at hr
      cases e1 : kmLoop env m vectors (min nb.toNat m.managed.length) (left + 1) (dofList (m.managed.map fun x => (x, -1))) c with
      | error _ => rw [e1] at hr; cases hr
      | ok p =>
        rw [e1] at hr
        simp only at hr
        obtain ⟨c0, h1, h2⟩ := kmLoop_last (.init e0) e1
        cases e2 : renameClusters p.1 with
        | error _ => rw [e2] at hr; cases hr
        | ok r' =>
          rw [e2] at hr
          simp only at hr
          cases e3 : kmCentroids env m vectors p.1 with
          | error _ => rw [e3] at hr; cases hr
          | ok fc =>
            rw [e3] at hr
            cases hr
            exact ⟨c0, p.1, p.2, h1, h2, e2⟩

theorem kmInitialize_keys {env : KMeansEnv α V δ} {ids : List α} {vectors : Dict α V} {nb : Nat} {c : Dict Int V}
    (e : kmInitialize env ids vectors nb = .ok c) :
    dkeys c = (List.range nb).map (fun i : Nat => (i : Int)) ∧ ∀ i < nb, ∃ x v, ((env.shuffle ids).take nb)[i]? = some x ∧
      dget? vectors x = some v ∧ dget? c (i : Int) = some v := by
  unfold kmInitialize at e
  simp only at e
  cases e1 : (List.range nb).mapM (kmInitEntry vectors ((env.shuffle ids).take nb)) with
  | error _ => rw [e1] at e; cases e
  | ok items =>
    rw [e1] at e
    cases e
    have hF := mapM_ok_iff.1 e1
    have hstep : ∀ (i : Nat) (p : Int × V), kmInitEntry vectors ((env.shuffle ids).take nb) i = .ok p →
        p.1 = (i : Int) ∧ ∃ x, ((env.shuffle ids).take nb)[i]? = some x ∧ dget? vectors x = some p.2 := by
      intro i p hp
      unfold kmInitEntry at hp
      split at hp
      · rename_i x hx
        cases hd : dget vectors x with
        | error _ => rw [hd] at hp; cases hp
        | ok v =>
          rw [hd] at hp
          cases hp
          exact ⟨rfl, x, hx, dget_eq_ok.1 hd⟩
      · cases hp
    have hmap : items.map Prod.fst = (List.range nb).map fun (c : Nat) => (c : Int) := by
      clear e1
      generalize List.range nb = l at hF
      induction hF with
      | nil => rfl
      | @cons a b l1 l2 h1 h2 ih => rw [List.map_cons, List.map_cons, ih, (hstep a b h1).1]
    have hnd : (items.map Prod.fst).Nodup := by
      rw [hmap]
      refine List.Nodup.map ?_ List.nodup_range
      intro a b hab
      simp only at hab; omega
    rw [dofList_of_nodup hnd]
    refine ⟨hmap, fun i hi => ?_⟩
    have hlen := hF.length_eq
    rw [List.length_range] at hlen
    have h1 := List.forall₂_iff_get.1 hF
    have hi' : i < items.length := by omega
    obtain ⟨h2, x, h3, h4⟩ := hstep _ _ (h1.2 i (by simpa using hi) hi')
    simp only [List.get_eq_getElem, List.getElem_range] at h2 h3 h4
    refine ⟨x, _, h3, h4, ?_⟩
    rw [← h2]
    exact dget?_of_mem hnd (List.getElem_mem hi')

/-- Counting clusters before the renaming. -/
theorem kmCount {m : Manager α} (h : Inv m) (hne : m.managed ≠ []) {new r : Dict α Int} (hk : dkeys new = m.managed)
    (e : renameClusters new = .ok r) : LabelsAre (dvals r) (dvals new).dedup.length := by
  obtain ⟨r', e1, e2, e3, e4, -⟩ := rename_managed h hk
  rw [e] at e1
  cases e1
  refine labels_count_on (ids := m.managed) h.d.nodup hne e2 e4 (fun x => (dget? new x).getD 0) ?_ (List.nodup_dedup _) ?_
  · intro x hx y hy
    rw [← e3 x hx y hy]
    obtain ⟨a, ha⟩ := dget?_isSome_of_mem (show x ∈ dkeys new by rw [hk]; exact hx)
    obtain ⟨b, hb⟩ := dget?_isSome_of_mem (show y ∈ dkeys new by rw [hk]; exact hy)
    rw [ha, hb]
    simp
  · intro d
    rw [List.mem_dedup, mem_dvals (by rw [hk]; exact h.d.nodup)]
    constructor
    · rintro ⟨x, hx⟩
      exact ⟨x, by rw [← hk]; exact mem_dkeys_of_dget? hx, by rw [hx]; rfl⟩
    · rintro ⟨x, hx, rfl⟩
      obtain ⟨a, ha⟩ := dget?_isSome_of_mem (show x ∈ dkeys new by rw [hk]; exact hx)
      exact ⟨x, by rw [ha]; rfl⟩

/-! ### Without cannot-links -/

section
variable {env : KMeansEnv α V δ} (he : env.Ok) {m : Manager α} (h : Inv m) {vectors : Dict α V} (hv : HasVectors m vectors)
  {nb : Nat} (hnb : 0 < nb) (hnb' : nb ≤ m.managed.length)
include he h hv hnb hnb'

theorem inPass_keys (hcl : ∀ x y, ¬ CannotLinked m x y) {c : Dict Int V} (hc : RunCentroids env m vectors nb c)
    {dist : Dict α (Dict Int δ)} (hd : kmDistances env m vectors c = .ok dist) {s : List α × Dict α Int} (hs : InPass m nb c dist s) :
    ∀ x ∈ m.managed, x ∉ s.1 → ∃ k ∈ dkeys c, dget? s.2 x = some k := by
  have hne : m.managed ≠ [] := List.length_pos_iff.1 (by omega)
  have hci := hc.inv he h hv hnb hnb'
  obtain ⟨dist', e1, ht⟩ := kmDistances_ok (env := env) h hv hne hci
  rw [hd] at e1; cases e1
  induction hs with
  | start => exact fun x hx hnx => absurd hx hnx
  | @step s z s' hs hl e ih =>
    obtain ⟨s'', label, f1, -, f3, f4, -, f6, f7⟩ := kmAssign_nearest he h hv hnb hnb' hc hd hs hl
    rw [e] at f1
    cases f1
    have hp := hs.inv h hv hci ht
    have hp' := (InPass.step hs hl e).inv h hv hci ht
    have hzm := hp.sub z (List.mem_of_getLast? hl)
    intro x hx hxs
    by_cases hml : m.getInferred z x = .ok (some .mustLink)
    · obtain ⟨q, hq⟩ := List.exists_mem_of_ne_nil _ hci.ne
      obtain ⟨hA, -⟩ := f4 ⟨q.1, (admissible_iff h hzm).2 ⟨List.mem_map_of_mem hq, fun y _ _ => hcl z y⟩⟩
      exact ⟨label, hA.1, f6 x hml⟩
    · rw [f7 x hml]
      refine ih x hx fun hxt => ?_
      have h1 := (hp.todo x hx).2 hxt
      rw [← f7 x hml] at h1
      exact hxs ((hp'.todo x hx).1 h1)

/-- Without cannot-links the keys of the centroids stay below `nb`. -/
theorem runCentroids_low (hcl : ∀ x y, ¬ CannotLinked m x y) {c : Dict Int V} (hc : RunCentroids env m vectors nb c) :
    ∀ k ∈ dkeys c, 0 ≤ k ∧ k < nb := by
  induction hc with
  | init e =>
    intro k hk
    rw [(kmInitialize_keys e).1] at hk
    obtain ⟨i, hi, rfl⟩ := List.mem_map.1 hk
    have := List.mem_range.1 hi
    omega
  | @pass c new c' hc e ih =>
    have hne : m.managed ≠ [] := List.length_pos_iff.1 (by omega)
    obtain ⟨new', cs, e1, hd⟩ := kmPass_ok he h hv hne nb (hc.inv he h hv hnb hnb')
    rw [e] at e1
    cases e1
    obtain ⟨dist, d1, d2, -⟩ := kmPass_inPass e
    intro k hk
    have hkn : dkeys new = m.managed := hd.pass.keys
    obtain ⟨x, hx⟩ := (mem_dvals (by rw [hkn]; exact h.d.nodup)).1 ((hd.keys k).1 hk)
    obtain ⟨k', hk', hx'⟩ := inPass_keys he h hv hnb hnb' hcl hc d1 d2 x (by rw [← hkn]; exact mem_dkeys_of_dget? hx) (by simp)
    rw [hx] at hx'
    cases hx'
    exact ih k hk'

end

theorem kmNearest_congr {row row' : Dict Int δ} {possible : List Int} (h : ∀ c ∈ possible, dget row c = dget row' c) :
    kmNearest row possible = kmNearest row' possible := by
  unfold kmNearest
  have : possible.mapM (fun c => (do return (← dget row c, c) : Except PyErr (δ × Int))) =
      possible.mapM (fun c => (do return (← dget row' c, c) : Except PyErr (δ × Int))) := by
    apply mapM_same
    intro c hc
    rw [h c hc]
  rw [this]

theorem kmChoose_free {m : Manager α} (h : Inv m) (hcl : ∀ x y, ¬ CannotLinked m x y) {nb : Nat} {centroids : Dict Int V}
    (hne : centroids ≠ []) {dist : Dict α (Dict Int δ)} {new : Dict α Int} (hk : dkeys new = m.managed) {x : α}
    (hx : x ∈ m.managed) {row : Dict Int δ} (hdist : dget? dist x = some row) :
    kmChoose m m.managed nb centroids dist new x = kmNearest row (dkeys centroids) := by
  obtain ⟨l, hl, hl2⟩ := kmNotCompatible_ok h hk hx
  have hl0 : l = [] := by
    rw [List.eq_nil_iff_forall_not_mem]
    intro c hc
    obtain ⟨-, y, -, -, hy⟩ := (hl2 c).1 hc
    exact hcl x y hy
  subst hl0
  unfold kmChoose
  rw [hl]
  simp only [bind, Except.bind, dget_of_dget? hdist]
  have : ((dkeys centroids).filter fun c => decide (c ∉ ([] : List Int))) = dkeys centroids := by simp
  rw [this, if_neg]
  intro h0
  exact hne (by simpa [dkeys] using h0)

/-! ### Every ID alone -/

/-- Every ID has its own centroid. -/
structure Alone (m : Manager α) (vec : α → V) (c : Dict Int V) (k : α → Int) : Prop where
  own : ∀ x ∈ m.managed, dget? c (k x) = some (vec x)
  inj : ∀ x ∈ m.managed, ∀ y ∈ m.managed, k x = k y → x = y
  all : ∀ j ∈ dkeys c, ∃ x ∈ m.managed, j = k x

/-- Different labels give every ID its own centroid. -/
theorem alone_of_labels {env : KMeansEnv α V δ} (he : env.Ok) (hmean : ∀ v, env.mean [v] = v) {m : Manager α} (h : Inv m)
    {vectors : Dict α V} {vec : α → V} (hvec : ∀ x ∈ m.managed, dget? vectors x = some (vec x)) {new : Dict α Int}
    (hk : dkeys new = m.managed) (hd : ∀ x ∈ m.managed, ∀ y ∈ m.managed, dget? new x = dget? new y → x = y) {c : Dict Int V}
    (e : kmCentroids env m vectors new = .ok c) (hcs : ∀ j, j ∈ dkeys c ↔ j ∈ dvals new) : Alone m vec c (labelFn new) := by
  have hl : ∀ x ∈ m.managed, dget? new x = some (labelFn new x) := fun x hx => labelFn_spec (by rw [hk]; exact hx)
  have hnd : (dkeys new).Nodup := by rw [hk]; exact h.d.nodup
  have hinj : ∀ x ∈ m.managed, ∀ y ∈ m.managed, labelFn new x = labelFn new y → x = y := fun x hx y hy hxy =>
    hd x hx y hy (by rw [hl x hx, hl y hy, hxy])
  refine ⟨fun x hx => ?_, hinj, fun j hj => ?_⟩
  · rw [kmCentroids_eq he hnd hk hvec hl e ((mem_dvals hnd).2 ⟨x, hl x hx⟩)]
    have : (m.managed.filter fun y => decide (labelFn new y = labelFn new x)) = [x] := by
      have h1 : (m.managed.filter fun y => decide (labelFn new y = labelFn new x)) = m.managed.filter fun y => decide (y = x) := by
        refine List.filter_congr fun y hy => ?_
        simp only [decide_eq_decide]
        exact ⟨fun h0 => hinj y hy x hx h0, fun h0 => by rw [h0]⟩
      rw [h1]
      have h2 := List.Nodup.filter (fun y => decide (y = x)) h.d.nodup
      have h3 : ∀ y, y ∈ (m.managed.filter fun y => decide (y = x)) ↔ y ∈ [x] := by
        intro y
        simp only [List.mem_filter, decide_eq_true_eq, List.mem_singleton]
        exact ⟨fun h0 => h0.2, fun h0 => ⟨h0 ▸ hx, h0⟩⟩
      exact List.perm_singleton.1 ((List.perm_ext_iff_of_nodup h2 (List.nodup_singleton x)).2 h3)
    rw [this, List.map_singleton, hmean]
  · obtain ⟨x, hx⟩ := (mem_dvals hnd).1 ((hcs j).1 hj)
    have hxm : x ∈ m.managed := by rw [← hk]; exact mem_dkeys_of_dget? hx
    refine ⟨x, hxm, ?_⟩
    have := hl x hxm
    rw [hx] at this
    exact Option.some.inj this

section
variable {env : KMeansEnv α V δ} (he : env.Ok) {m : Manager α} (h : Inv m) {vectors : Dict α V} {vec : α → V}
  (hvec : ∀ x ∈ m.managed, dget? vectors x = some (vec x)) (hinj : ∀ x ∈ m.managed, ∀ y ∈ m.managed, vec x = vec y → x = y)
  (hmetric : ∀ v w, v ≠ w → env.metric v v < env.metric v w)
  (hml : ∀ x y, m.getInferred x y = .ok (some .mustLink) → x = y)
  {nb : Nat} (hnb : 0 < nb) (hnb' : nb ≤ m.managed.length)
include he h hvec hinj hmetric hml hnb hnb'

/-- If every ID has its own centroid, it stays there. -/
theorem Alone.inPass {c : Dict Int V} {k : α → Int} (hal : Alone m vec c k) (hc : RunCentroids env m vectors nb c)
    {dist : Dict α (Dict Int δ)} (hd : kmDistances env m vectors c = .ok dist) {s : List α × Dict α Int} (hs : InPass m nb c dist s) :
    ∀ x ∈ m.managed, x ∉ s.1 → dget? s.2 x = some (k x) := by
  have hv : HasVectors m vectors := fun x hx => ⟨_, hvec x hx⟩
  have hne : m.managed ≠ [] := List.length_pos_iff.1 (by omega)
  have hci := hc.inv he h hv hnb hnb'
  obtain ⟨dist', e1, ht⟩ := kmDistances_ok (env := env) h hv hne hci
  rw [hd] at e1; cases e1
  induction hs with
  | start => exact fun x hx hnx => absurd hx hnx
  | @step s z s' hs hl e ih =>
    obtain ⟨s'', label, f1, -, f3, f4, -, f6, f7⟩ := kmAssign_nearest he h hv hnb hnb' hc hd hs hl
    rw [e] at f1
    cases f1
    have hp := hs.inv h hv hci ht
    have hp' := (InPass.step hs hl e).inv h hv hci ht
    have hzt := List.mem_of_getLast? hl
    have hzm := hp.sub z hzt
    have hkz : k z ∈ dkeys c := mem_dkeys_of_dget? (hal.own z hzm)
    have hadm : Admissible m c s.2 z (k z) := by
      refine (admissible_iff h hzm).2 ⟨hkz, fun y hy hyk => ?_⟩
      exfalso
      have h0 := hci.nonneg _ hkz
      by_cases hyt : y ∈ s.1
      · have := (hp.todo y hy).2 hyt
        rw [hyk] at this
        have := Option.some.inj this
        omega
      · have h1 := ih y hy hyt
        rw [hyk] at h1
        have h2 := hal.inj z hzm y hy (Option.some.inj h1)
        exact hyt (h2 ▸ hzt)
    obtain ⟨g1, g2⟩ := f4 ⟨_, hadm⟩
    have hlab : label = k z := by
      obtain ⟨y, hy, rfl⟩ := hal.all label g1.1
      by_contra hne
      have h1 := g2 _ hadm _ _ _ (hvec z hzm) (hal.own y hy) (hal.own z hzm)
      have h2 := hmetric (vec z) (vec y) fun h0 => hne (by rw [hinj z hzm y hy h0])
      exact absurd h1 (not_le.2 h2)
    intro x hx hxs
    by_cases hxz : x = z
    · subst hxz; rw [f3, hlab]
    · have hnm : m.getInferred z x ≠ .ok (some .mustLink) := fun h0 => hxz (hml _ _ h0).symm
      rw [f7 x hnm]
      refine ih x hx fun hxt => ?_
      have h1 := (hp.todo x hx).2 hxt
      rw [← f7 x hnm] at h1
      exact hxs ((hp'.todo x hx).1 h1)

omit hvec hinj hmetric hml hnb hnb' he in
theorem kmAssign_sublist {nb : Nat} {c : Dict Int V} {dist : Dict α (Dict Int δ)} {ids : List α} {x : α} {s s' : List α × Dict α Int}
    (e : kmAssign m ids nb c dist x s = .ok s') : s'.1.Sublist s.1 := by
  have key : ∀ (l : List α) (s s' : List α × Dict α Int), l.foldlM (kmLink m x) s = .ok s' → s'.1.Sublist s.1 := by
    intro l
    induction l with
    | nil => intro s s' e; cases e; exact List.Sublist.refl _
    | cons y l ih =>
      intro s s' e
      rw [List.foldlM_cons] at e
      cases e1 : kmLink m x s y with
      | error _ => rw [e1] at e; cases e
      | ok t =>
        rw [e1] at e
        refine (ih t s' e).trans ?_
        unfold kmLink at e1
        cases e2 : m.getInferred x y with
        | error _ => rw [e2] at e1; cases e1
        | ok o =>
          rw [e2] at e1
          simp only [bind, Except.bind] at e1
          split at e1
          · cases e3 : dget s.2 x with
            | error _ => rw [e3] at e1; cases e1
            | ok v => rw [e3] at e1; cases e1; exact List.erase_sublist
          · cases e1; exact List.Sublist.refl _
  unfold kmAssign at e
  cases e1 : kmChoose m ids nb c dist s.2 x with
  | error _ => rw [e1] at e; cases e
  | ok v => rw [e1] at e; exact key ids (s.1, dset s.2 x v) s' e

omit hinj hmetric in
/-- One step when there are no must-links. -/
theorem inPass_step_mem {c : Dict Int V} (hc : RunCentroids env m vectors nb c)
    {dist : Dict α (Dict Int δ)} (hd : kmDistances env m vectors c = .ok dist) {s s' : List α × Dict α Int} (hs : InPass m nb c dist s)
    {z : α} (hl : s.1.getLast? = some z) (e : kmAssign m m.managed nb c dist z (s.1.dropLast, s.2) = .ok s') :
    ∀ x, x ∈ s'.1 ↔ x ∈ s.1 ∧ x ≠ z := by
  have hv : HasVectors m vectors := fun x hx => ⟨_, hvec x hx⟩
  have hne : m.managed ≠ [] := List.length_pos_iff.1 (by omega)
  have hci := hc.inv he h hv hnb hnb'
  obtain ⟨dist', e1, ht⟩ := kmDistances_ok (env := env) h hv hne hci
  rw [hd] at e1; cases e1
  have hp := hs.inv h hv hci ht
  have hzt := List.mem_of_getLast? hl
  have hzm := hp.sub z hzt
  obtain ⟨row, hr1, hr2⟩ := ht.row hv hzm
  obtain ⟨lab, s'', f1, -, -, -, f3, -⟩ := kmAssign_ok (nb := nb) h (s := (s.1.dropLast, s.2)) hp.keys
    (hp.nodup.sublist (List.dropLast_sublist _)) hzm hci.nonneg hr1 hr2
  rw [e] at f1
  cases f1
  have hsplit : s.1.dropLast ++ [z] = s.1 := List.dropLast_append_getLast? z hl
  have hnd := hp.nodup
  rw [← hsplit, List.nodup_append] at hnd
  intro x
  rw [f3]
  constructor
  · rintro ⟨h1, h2⟩
    refine ⟨List.mem_of_mem_dropLast h1, ?_⟩
    rintro rfl
    exact h2 ⟨hzm, MustLinked.refl m x⟩
  · rintro ⟨h1, h2⟩
    rw [← hsplit, List.mem_append, List.mem_singleton] at h1
    refine ⟨h1.resolve_right h2, fun h3 => h2 ?_⟩
    exact (hml z x ((inferred_ml_iff h hzm h3.1).2 h3.2)).symm

/-- Two IDs that are assigned first and take the two initial centroids leave no cluster to the others, which are cannot-linked to
both. -/
theorem hubs_inPass {L : List α} {a b : α} (hman : m.managed = L ++ [a, b])
    (hleaf : ∀ x ∈ L, m.getInferred x a = .ok (some .cannotLink) ∧ m.getInferred x b = .ok (some .cannotLink))
    {c : Dict Int V} {i j : Int} (hij : i ≠ j) (hkeys : ∀ k, k ∈ dkeys c ↔ k = i ∨ k = j) (hi : dget? c i = some (vec a))
    (hj : dget? c j = some (vec b)) (hc : RunCentroids env m vectors nb c)
    {dist : Dict α (Dict Int δ)} (hd : kmDistances env m vectors c = .ok dist) {s : List α × Dict α Int} (hs : InPass m nb c dist s) :
    s.1.Sublist m.managed ∧ ((b ∈ s.1 → ∀ x ∈ m.managed, x ∈ s.1) ∧ (a ∈ s.1 → ∀ x ∈ L, x ∈ s.1)) ∧
      (a ∉ s.1 → dget? s.2 a = some i) ∧ (b ∉ s.1 → dget? s.2 b = some j) ∧
      ∀ x ∈ m.managed, x ∉ s.1 → ∀ y ∈ m.managed, y ∉ s.1 → dget? s.2 x = dget? s.2 y → x = y := by
  have hv : HasVectors m vectors := fun x hx => ⟨_, hvec x hx⟩
  have hne : m.managed ≠ [] := List.length_pos_iff.1 (by omega)
  have hci := hc.inv he h hv hnb hnb'
  obtain ⟨dist', e1, ht⟩ := kmDistances_ok (env := env) h hv hne hci
  rw [hd] at e1; cases e1
  have hnd : (L ++ [a, b]).Nodup := by rw [← hman]; exact h.d.nodup
  have ham : a ∈ m.managed := by rw [hman]; simp
  have hbm : b ∈ m.managed := by rw [hman]; simp
  have hnd' := hnd
  rw [List.nodup_append] at hnd'
  obtain ⟨-, hnd2, hnd3⟩ := hnd'
  have hab : a ≠ b := by
    intro h0
    simp [h0] at hnd2
  have hcase' : ∀ x ∈ m.managed, x = b ∨ x = a ∨ x ∈ L := by
    intro x hx
    rw [hman] at hx
    rcases List.mem_append.1 hx with h1 | h1
    · exact .inr (.inr h1)
    · rcases List.mem_cons.1 h1 with h1 | h1
      · exact .inr (.inl h1)
      · exact .inl (List.mem_singleton.1 h1)
  induction hs with
  | start =>
    exact ⟨List.Sublist.refl _, ⟨fun _ x hx => hx, fun _ x hx => by rw [hman]; simp [hx]⟩, fun h0 => absurd ham h0, fun h0 => absurd hbm h0, fun x hx hnx => absurd hx hnx⟩
  | @step s z s' hs hl e ih =>
    obtain ⟨s'', label, f1, -, f3, f4, f5, f6, f7⟩ := kmAssign_nearest he h hv hnb hnb' hc hd hs hl
    rw [e] at f1
    cases f1
    have hp := hs.inv h hv hci ht
    have hp' := (InPass.step hs hl e).inv h hv hci ht
    have hzt := List.mem_of_getLast? hl
    have hzm := hp.sub z hzt
    obtain ⟨ih1, ⟨ih5, ih6⟩, ih2, ih3, ih4⟩ := ih
    have hmem := inPass_step_mem he h hvec hml hnb hnb' hc hd hs hl e
    have hsplit : s.1.dropLast ++ [z] = s.1 := List.dropLast_append_getLast? z hl
    have hsub : s'.1.Sublist m.managed := ((kmAssign_sublist h e).trans (List.dropLast_sublist _)).trans ih1
    have hsame : ∀ x, x ≠ z → dget? s'.2 x = dget? s.2 x := fun x hxz => f7 x fun h0 => hxz (hml _ _ h0).symm
    have hnew : ∀ x, x ≠ z → x ∉ s'.1 → x ∉ s.1 := fun x hxz hx hxs => hx ((hmem x).2 ⟨hxs, hxz⟩)
    -- what is after `z` in the list is assigned
    have hafter : ∀ x l1 l2, m.managed = l1 ++ z :: l2 → x ∈ l2 → x ∉ s.1 := by
      intro x l1 l2 h0 hx hxs
      have hzx : z ≠ x := by
        rintro rfl
        have := h.d.nodup
        change m.managed.Nodup at this
        rw [h0, List.nodup_append] at this
        exact (List.nodup_cons.1 this.2.1).1 hx
      have hx1 : x ∈ s.1.dropLast := by
        rw [← hsplit, List.mem_append, List.mem_singleton] at hxs
        exact hxs.resolve_right hzx.symm
      have hs2 : [x, z].Sublist (l1 ++ z :: l2) := by
        rw [← h0]
        refine List.Sublist.trans ?_ ih1
        rw [← hsplit]
        exact (List.singleton_sublist.2 hx1).append (List.Sublist.refl [z])
      have hs3 : [z, x].Sublist (l1 ++ z :: l2) :=
        ((List.singleton_sublist.2 hx).cons_cons z).trans (List.sublist_append_right _ _)
      have hn : (l1 ++ z :: l2).Nodup := by rw [← h0]; exact h.d.nodup
      have hidx : (l1 ++ z :: l2).Pairwise fun u w => (l1 ++ z :: l2).idxOf u < (l1 ++ z :: l2).idxOf w := by
        rw [List.pairwise_iff_getElem]
        intro p q hp hq hpq
        rw [hn.idxOf_getElem, hn.idxOf_getElem]
        exact hpq
      have h1 := hidx.sublist hs2
      have h2 := hidx.sublist hs3
      simp only [List.pairwise_cons, List.mem_singleton, forall_eq] at h1 h2
      have := h1.1
      have := h2.1
      omega
    have hcase := hcase' z hzm
    have haL : a ∉ L := fun h0 => hnd3 a h0 a (by simp) rfl
    have hbL : b ∉ L := fun h0 => hnd3 b h0 b (by simp) rfl
    have hLL : z ∈ L → a ∉ s.1 ∧ b ∉ s.1 := by
      intro hzL
      obtain ⟨l1, l2, rfl⟩ := List.append_of_mem hzL
      exact ⟨hafter a l1 (l2 ++ [a, b]) (by rw [hman]; simp) (by simp), hafter b l1 (l2 ++ [a, b]) (by rw [hman]; simp) (by simp)⟩
    have hza : z = a → b ∉ s.1 := by
      intro h0
      exact hafter b L [b] (by rw [hman, h0]) (by simp)
    have hi0 : 0 ≤ i := hci.nonneg i ((hkeys i).2 (.inl rfl))
    have hj0 : 0 ≤ j := hci.nonneg j ((hkeys j).2 (.inr rfl))
    have htodo : ∀ y ∈ m.managed, y ∈ s.1 → ∀ k, 0 ≤ k → dget? s.2 y ≠ some k := by
      intro y hy hys k hk h0
      have := (hp.todo y hy).2 hys
      rw [h0] at this
      have := Option.some.inj this
      omega
    have hbi : ∀ {u v : Int} {p q : α}, dget? c u = some (vec p) → dget? c v = some (vec q) → p = z → q ∈ m.managed → p ≠ q →
        (∀ k, k ∈ dkeys c ↔ k = u ∨ k = v) → Admissible m c s.2 z u → label = u := by
      intro u v p q hu hw hpz hq hpq hk hadm
      obtain ⟨g1, g2⟩ := f4 ⟨_, hadm⟩
      rcases (hk label).1 g1.1 with h0 | h0
      · exact h0
      · exfalso
        subst hpz
        subst h0
        have h1 := g2 _ hadm _ _ _ (hvec p hzm) hw hu
        exact absurd h1 (not_le.2 (hmetric _ _ fun h2 => hpq (hinj p hzm q hq h2)))
    have hlb : z = b → label = j := by
      intro h0
      refine hbi (u := j) (v := i) hj hi h0.symm ham hab.symm (fun k => (hkeys k).trans or_comm) ?_
      exact (admissible_iff h hzm).2 ⟨(hkeys j).2 (.inr rfl), fun y hy hyj => absurd hyj (htodo y hy (ih5 (h0 ▸ hzt) y hy) j hj0)⟩
    have hla : z = a → label = i := by
      intro h0
      refine hbi (u := i) (v := j) hi hj h0.symm hbm hab hkeys ?_
      refine (admissible_iff h hzm).2 ⟨(hkeys i).2 (.inl rfl), fun y hy hyi => ?_⟩
      exfalso
      rcases hcase' y hy with rfl | rfl | h1
      · rw [ih3 (hza h0)] at hyi
        exact hij (Option.some.inj hyi).symm
      · exact htodo y hy (h0 ▸ hzt) i hi0 hyi
      · exact htodo y hy (ih6 (h0 ▸ hzt) y h1) i hi0 hyi
    have hlL : z ∈ L → ∀ x, dget? s.2 x ≠ some label := by
      intro hzL
      refine (f5 ?_).2
      rintro ⟨k, hk1, hk2⟩
      rcases (hkeys k).1 hk1 with rfl | rfl
      · exact hk2 a ham (ih2 (hLL hzL).1) (hleaf z hzL).1
      · exact hk2 b hbm (ih3 (hLL hzL).2) (hleaf z hzL).2
    have hdiff : ∀ y ∈ m.managed, y ≠ z → y ∉ s'.1 → dget? s'.2 y ≠ some label := by
      intro y hy hyz hys
      rw [hsame y hyz]
      have hys' := hnew y hyz hys
      rcases hcase with h0 | h0 | h0
      · exact absurd (ih5 (h0 ▸ hzt) y hy) hys'
      · rcases hcase' y hy with rfl | rfl | h1
        · rw [ih3 hys', hla h0]
          exact fun h2 => hij (Option.some.inj h2).symm
        · exact absurd h0.symm hyz
        · exact absurd (ih6 (h0 ▸ hzt) y h1) hys'
      · exact hlL h0 y
    refine ⟨hsub, ⟨fun hb => ?_, fun ha x hx => ?_⟩, fun ha => ?_, fun hb => ?_, fun x hx hxs y hy hys hxy => ?_⟩
    · exfalso
      obtain ⟨h1, h2⟩ := (hmem b).1 hb
      rcases hcase with h0 | h0 | h0
      · exact h2 h0.symm
      · exact hza h0 h1
      · exact (hLL h0).2 h1
    · obtain ⟨h1, h2⟩ := (hmem a).1 ha
      refine (hmem x).2 ⟨ih6 h1 x hx, ?_⟩
      rintro rfl
      exact (hLL hx).1 h1
    · by_cases h0 : a = z
      · have := hla h0.symm
        rw [h0, f3, this]
      · rw [hsame a h0]; exact ih2 (hnew a h0 ha)
    · by_cases h0 : b = z
      · have := hlb h0.symm
        rw [h0, f3, this]
      · rw [hsame b h0]; exact ih3 (hnew b h0 hb)
    · by_cases hxz : x = z
      · by_cases hyz : y = z
        · rw [hxz, hyz]
        · exfalso
          rw [hxz, f3] at hxy
          exact hdiff y hy hyz hys hxy.symm
      · by_cases hyz : y = z
        · exfalso
          rw [hyz, f3] at hxy
          exact hdiff x hx hxz hxs hxy
        · rw [hsame x hxz, hsame y hyz] at hxy
          exact ih4 x hx (hnew x hxz hxs) y hy (hnew y hyz hys) hxy

end

end Verif
