import Verif.Proofs.DBScan

/-
The density labels of C-DBScan.
-/

set_option linter.unusedSectionVars false

namespace Verif

variable {α V δ : Type} [LinearOrder α] [LinearOrder δ] {env : DbEnv α V δ} {p : DbParams δ} {m : Manager α}
  {table : Dict α (Dict α δ)} {vectors : Dict α V}

structure LabInv (env : DbEnv α V δ) (p : DbParams δ) (m : Manager α) (vectors : Dict α V) (P : List α)
    (s : Dict α DLabel × Dict α (List α)) : Prop where
  keys : dkeys s.1 = m.managed
  labelled : ∀ x ∈ P, dget? s.1 x ≠ some .unlabeled
  core : ∀ x, dget? s.1 x = some .core → ∃ S : List α, S.Nodup ∧ p.minSamples ≤ S.length ∧
    (∀ y ∈ S, y ∈ m.managed ∧ Near env p vectors x y) ∧ NoCL m S
  noise : ∀ x, dget? s.1 x = some .noise → ∀ S : List α, S.Nodup →
    (∀ y ∈ S, y ∈ m.managed ∧ Near env p vectors x y ∧ dget? s.1 y ≠ some .singleCore) → S.length < p.minSamples
  single : ∀ x, dget? s.1 x = some .singleCore → ∃ c y z, c ∈ m.managed ∧ Near env p vectors c x ∧
    Near env p vectors c y ∧ Near env p vectors c z ∧ CannotLinked m y z

theorem dbSingle_get {l : List α} {s : Dict α DLabel × Dict α (List α)} (y : α) :
    dget? (l.foldl (fun s y => (dset s.1 y .singleCore, dset s.2 y [y])) s).1 y =
      if y ∈ l then some .singleCore else dget? s.1 y := by
  induction l generalizing s with
  | nil => simp
  | cons a l ih =>
    rw [List.foldl_cons, ih]
    simp only [dget?_dset]
    by_cases h1 : y ∈ l
    · rw [if_pos h1, if_pos (by simp [h1])]
    · rw [if_neg h1]
      by_cases h2 : a = y
      · rw [if_pos h2, if_pos (by simp [h2])]
      · rw [if_neg h2, if_neg (by simp [h1, Ne.symm h2])]

theorem dbSingle_keys {l : List α} {s : Dict α DLabel × Dict α (List α)} (hl : ∀ y ∈ l, y ∈ dkeys s.1) :
    dkeys (l.foldl (fun s y => (dset s.1 y .singleCore, dset s.2 y [y])) s).1 = dkeys s.1 := by
  induction l generalizing s with
  | nil => rfl
  | cons a l ih =>
    have hk : dkeys (dset s.1 a DLabel.singleCore) = dkeys s.1 := dkeys_dset_of_mem _ (hl a (by simp))
    rw [List.foldl_cons, ih (by
      intro y hy
      show y ∈ dkeys (dset s.1 a DLabel.singleCore)
      rw [hk]; exact hl y (by simp [hy]))]
    exact hk

theorem labStep_ok (h : Inv m) (hT : DbTable p m table)
    (hN : ∀ x ∈ m.managed, ∀ y ∈ m.managed, (∃ d, pairDistance table (x, y) = .ok d ∧ d ≤ p.eps) ↔ Near env p vectors x y)
    {P : List α} {s : Dict α DLabel × Dict α (List α)} (hs : LabInv env p m vectors P s) {x : α} (hx : x ∈ m.managed) :
    ∃ s', dbLocalStep p m table m.managed s x = .ok s' ∧ LabInv env p m vectors (P ++ [x]) s' := by
  obtain ⟨v, hv⟩ := dget?_isSome_of_mem (d := s.1) (k := x) (by rw [hs.keys]; exact hx)
  unfold dbLocalStep
  rw [dget_of_dget? hv]
  simp only [bind, Except.bind]
  by_cases hsc : v = .singleCore
  · subst hsc
    rw [if_neg (by simp)]
    refine ⟨s, rfl, { hs with labelled := fun y hy => ?_ }⟩
    rcases List.mem_append.1 hy with hy | hy
    · exact hs.labelled y hy
    · rw [List.mem_singleton] at hy; subst hy; rw [hv]; simp
  · rw [if_pos (by simpa using hsc)]
    obtain ⟨r, e1, hrn, hrm, hrx, hr⟩ := dbNeighbors_ok hT hs.keys h.d.nodup hx
    obtain ⟨b, e2, hb⟩ := dbConflict_ok h hrm hrm
    have hxs : dget? s.1 x ≠ some .singleCore := by rw [hv]; simpa using hsc
    have hr' : ∀ y, y ∈ r ↔ y ∈ m.managed ∧ Near env p vectors x y ∧ dget? s.1 y ≠ some .singleCore := by
      intro y
      rw [hr y]
      refine and_congr_right fun hy => ?_
      rw [hN x hx y hy, and_comm]
    simp only [e1, e2]
    have hlab : ∀ (w : DLabel), dkeys (dset s.1 x w) = m.managed := fun w => by
      rw [dkeys_dset_of_mem _ (by rw [hs.keys]; exact hx)]; exact hs.keys
    have hnon : ∀ (w : DLabel), w ≠ .singleCore → ∀ y, dget? (dset s.1 x w) y ≠ some .singleCore → dget? s.1 y ≠ some .singleCore := by
      intro w hw y hy
      rw [dget?_dset] at hy
      split at hy
      · rename_i he; rw [← he]; exact hxs
      · exact hy
    have hunl : ∀ (w : DLabel), w ≠ .unlabeled → ∀ y ∈ P ++ [x], dget? (dset s.1 x w) y ≠ some .unlabeled := by
      intro w hw y hy
      rw [dget?_dset]
      split
      · simpa using hw
      · rename_i hne
        rcases List.mem_append.1 hy with hy | hy
        · exact hs.labelled y hy
        · rw [List.mem_singleton] at hy; exact absurd hy.symm hne
    by_cases hlen : r.length < p.minSamples
    · rw [if_pos hlen]
      refine ⟨_, rfl, ⟨hlab _, hunl _ (by simp), fun y hy => ?_, fun y hy S hSn hS => ?_, fun y hy => ?_⟩⟩
      · simp only [dget?_dset] at hy
        split at hy
        · cases hy
        · exact hs.core y hy
      · have hS' : ∀ z ∈ S, z ∈ m.managed ∧ Near env p vectors y z ∧ dget? s.1 z ≠ some .singleCore := fun z hz =>
          ⟨(hS z hz).1, (hS z hz).2.1, hnon .noise (by simp) z (hS z hz).2.2⟩
        simp only [dget?_dset] at hy
        split at hy
        · rename_i he
          subst he
          have : S.length ≤ r.length := (List.subperm_of_subset hSn fun z hz => (hr' z).2 (hS' z hz)).length_le
          omega
        · exact hs.noise y hy S hSn hS'
      · simp only [dget?_dset] at hy
        split at hy
        · cases hy
        · exact hs.single y hy
    · rw [if_neg hlen]
      cases b with
      | true =>
        simp only [if_true]
        obtain ⟨y, hy, z, hz, hcl⟩ := hb.1 rfl
        refine ⟨_, rfl, ⟨?_, fun w hw => ?_, fun w hw => ?_, fun w hw S hSn hS => ?_, fun w hw => ?_⟩⟩
        · rw [dbSingle_keys (fun w hw => by rw [hs.keys]; exact hrm w hw)]; exact hs.keys
        · rw [dbSingle_get]
          split
          · simp
          · rename_i hwr
            rcases List.mem_append.1 hw with hw | hw
            · exact hs.labelled w hw
            · rw [List.mem_singleton] at hw; subst hw; exact absurd (hrx hxs) hwr
        · rw [dbSingle_get] at hw
          split at hw
          · cases hw
          · exact hs.core w hw
        · rw [dbSingle_get] at hw
          split at hw
          · cases hw
          · refine hs.noise w hw S hSn fun u hu => ⟨(hS u hu).1, (hS u hu).2.1, ?_⟩
            have := (hS u hu).2.2
            rw [dbSingle_get] at this
            split at this
            · simp at this
            · exact this
        · rw [dbSingle_get] at hw
          split at hw
          · rename_i hwr
            exact ⟨x, y, z, hx, ((hr' w).1 hwr).2.1, ((hr' y).1 hy).2.1, ((hr' z).1 hz).2.1, hcl⟩
          · exact hs.single w hw
      | false =>
        simp only [Bool.false_eq_true, if_false]
        refine ⟨_, rfl, ⟨hlab _, hunl _ (by simp), fun y hy => ?_, fun y hy S hSn hS => ?_, fun y hy => ?_⟩⟩
        · simp only [dget?_dset] at hy
          split at hy
          · rename_i he
            subst he
            refine ⟨r, hrn, by omega, fun y hy => ⟨hrm y hy, ((hr' y).1 hy).2.1⟩, fun y hy z hz hcl => ?_⟩
            exact absurd (hb.2 ⟨y, hy, z, hz, hcl⟩) (by simp)
          · exact hs.core y hy
        · simp only [dget?_dset] at hy
          split at hy
          · cases hy
          · exact hs.noise y hy S hSn fun z hz => ⟨(hS z hz).1, (hS z hz).2.1, hnon .core (by simp) z (hS z hz).2.2⟩
        · simp only [dget?_dset] at hy
          split at hy
          · cases hy
          · exact hs.single y hy

theorem dbLabels_ok (h : Inv m) (ha : DbAssumptions env p) {o : DbObject α}
    (hr : dbCluster env p m (some vectors) none = .ok o) : DensityLabels env p m vectors o.labels := by
  unfold dbCluster at hr
  simp only [bind, Except.bind] at hr
  cases et : distanceTable m vectors env.metric with
  | error _ => rw [et] at hr; cases hr
  | ok table =>
    rw [et] at hr
    simp only at hr
    have hT : DbTable p m table := dbTable_of_ok ha et
    have hN : ∀ x ∈ m.managed, ∀ y ∈ m.managed, (∃ d, pairDistance table (x, y) = .ok d ∧ d ≤ p.eps) ↔ Near env p vectors x y := by
      intro x hx y hy
      obtain ⟨d, e, vs, v, w, e1, h1, h2, h3⟩ := distanceTable_ok et (p := (x, y)) hx hy
      cases e1
      constructor
      · rintro ⟨d', hd', hle⟩
        rw [e] at hd'; cases hd'
        exact ⟨v, w, h1, h2, h3 ▸ hle⟩
      · rintro ⟨v', w', h1', h2', hle⟩
        rw [h1] at h1'; rw [h2] at h2'
        cases h1'; cases h2'
        exact ⟨d, e, h3 ▸ hle⟩
    have h0 : LabInv env p m vectors [] (dofList (m.managed.map fun x => (x, DLabel.unlabeled)), ([] : Dict α (List α))) := by
      have hget : ∀ x w, dget? (dofList (m.managed.map fun x => (x, DLabel.unlabeled))) x = some w → w = .unlabeled := by
        intro x w hw
        rw [dget?_dofList_map] at hw
        split at hw
        · cases hw; rfl
        · cases hw
      refine ⟨?_, by simp, fun x hx => absurd (hget x _ hx) (by simp), fun x hx => absurd (hget x _ hx) (by simp),
        fun x hx => absurd (hget x _ hx) (by simp)⟩
      show dkeys (dofList _) = _
      rw [dkeys_dofList_map]
      exact ounion_nil_of_nodup h.d.nodup
    obtain ⟨s, e, hs⟩ := foldlM_inv (f := dbLocalStep p m table m.managed) (I := LabInv env p m vectors) (L := m.managed)
      (fun P x s hP hs => by
        obtain ⟨Q, e⟩ := hP
        exact labStep_ok h hT hN hs (by rw [e]; simp)) h0
    have hL : dbLocals p m table m.managed = .ok s := e
    rw [hL] at hr
    simp only at hr
    have : o.labels = s.1 := by
      cases e2 : dbCores env m m.managed s.1 s.2 with
      | error _ => rw [e2] at hr; cases hr
      | ok core =>
        rw [e2] at hr
        simp only at hr
        cases e3 : dbMergeAll env p m table core s.2 with
        | error _ => rw [e3] at hr; cases hr
        | ok q =>
          rw [e3] at hr
          simp only at hr
          unfold dbFinish at hr
          simp only [bind, Except.bind] at hr
          split at hr
          · cases hr
          · split at hr
            · cases hr
            · cases hr; rfl
    rw [this]
    exact ⟨hs.keys, hs.labelled, hs.core, hs.noise, hs.single⟩

end Verif
