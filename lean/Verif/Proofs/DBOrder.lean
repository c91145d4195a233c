import Verif.Proofs.DBConnect

/-
Two runs of C-DBScan with different orders of the sets.
-/

set_option linter.unusedSectionVars false

namespace Verif

variable {α V δ : Type} [LinearOrder α] [LinearOrder δ] {env env' : DbEnv α V δ} {p : DbParams δ} {m : Manager α}
  {table : Dict α (Dict α δ)}

/-- Two runs of a loop. -/
theorem foldlM_two {ι σ τ ε : Type} {f : σ → ι → Except ε σ} {g : τ → ι → Except ε τ} {R : σ → τ → Prop} {L : List ι}
    (step : ∀ x ∈ L, ∀ s t s' t', R s t → f s x = .ok s' → g t x = .ok t' → R s' t') {s s' : σ} {t t' : τ} (h : R s t)
    (e : L.foldlM f s = .ok s') (e' : L.foldlM g t = .ok t') : R s' t' := by
  induction L generalizing s t with
  | nil => cases e; cases e'; exact h
  | cons x L ih =>
    rw [List.foldlM_cons] at e e'
    cases e1 : f s x with
    | error _ => rw [e1] at e; cases e
    | ok s1 =>
      cases e2 : g t x with
      | error _ => rw [e2] at e'; cases e'
      | ok t1 =>
        rw [e1] at e
        rw [e2] at e'
        exact ih (fun y hy => step y (by simp [hy])) (step x (by simp) s t s1 t1 h e1 e2) e e'

/-- Two dictionaries of clusters with the same keys in the same order, and the same sets. -/
structure SameSets (d d' : Dict α (List α)) : Prop where
  keys : dkeys d = dkeys d'
  nodup : (dkeys d).Nodup
  pts : ∀ k q q', dget? d k = some q → dget? d' k = some q' → q.Perm q'

theorem SameSets.refl {d : Dict α (List α)} (h : (dkeys d).Nodup) : SameSets d d :=
  ⟨rfl, h, fun k q q' e e' => by rw [e] at e'; cases e'; exact .refl _⟩

theorem SameSets.set {d d' : Dict α (List α)} (h : SameSets d d') (k : α) {q q' : List α} (hq : q.Perm q') :
    SameSets (dset d k q) (dset d' k q') := by
  refine ⟨?_, nodup_dkeys_dset k q h.nodup, fun a r r' e e' => ?_⟩
  · rw [dkeys_dset, dkeys_dset, h.keys]
  · rw [dget?_dset] at e e'
    split at e
    · rename_i he
      rw [if_pos he] at e'
      cases e; cases e'
      exact hq
    · rename_i he
      rw [if_neg he] at e'
      exact h.pts a r r' e e'

theorem SameSets.pop {d d' : Dict α (List α)} (h : SameSets d d') (k : α) : SameSets (dpop d k) (dpop d' k) := by
  refine ⟨?_, nodup_dkeys_dpop k h.nodup, fun a r r' e e' => ?_⟩
  · rw [dkeys_dpop, dkeys_dpop, h.keys]
  · rw [dget?_dpop] at e e'
    split at e
    · cases e
    · rename_i he
      rw [if_neg he] at e'
      exact h.pts a r r' e e'

theorem SameSets.forall₂ {d d' : Dict α (List α)} (h : SameSets d d') :
    List.Forall₂ (fun a b => a.1 = b.1 ∧ a.2.Perm b.2) d d' := by
  obtain ⟨hk, hn, hp⟩ := h
  have hlen : d.length = d'.length := by
    have := congrArg List.length hk
    simpa [dkeys] using this
  refine List.forall₂_iff_get.2 ⟨hlen, fun i h1 h2 => ?_⟩
  have hkey : (d.get ⟨i, h1⟩).1 = (d'.get ⟨i, h2⟩).1 := by
    have := congrArg (fun l => l[i]?) hk
    simpa [dkeys, h1, h2] using this
  refine ⟨hkey, hp (d.get ⟨i, h1⟩).1 _ _ (dget?_of_mem hn (List.get_mem _ _)) ?_⟩
  rw [hkey]
  exact dget?_of_mem (by rw [← hk]; exact hn) (List.get_mem _ _)

theorem enum_perm (h : SetOrder env.enum) (h' : SetOrder env'.enum) {l l' : List α} (hl : ∀ x, x ∈ l ↔ x ∈ l') :
    (env.enum l).Perm (env'.enum l') := by
  refine (List.perm_ext_iff_of_nodup (h l).1 (h' l').1).2 fun x => ?_
  rw [(h l).2 x, (h' l').2 x, hl x]

/-! ### Core clusters -/

theorem dbTake_spec {c : α} {l : List α} {s t : Dict α α × List α} (e : l.foldlM (dbTake env c) s = .ok t) :
    dkeys t.1 = dkeys s.1 ∧
      (∀ z, dget? t.1 z = if z ∈ l ∧ dget? s.1 z = some env.none then some c else dget? s.1 z) ∧
      ∀ z, z ∈ t.2 ↔ z ∈ s.2 ∨ (z ∈ l ∧ dget? s.1 z = some env.none) := by
  induction l generalizing s with
  | nil => cases e; simp
  | cons a l ih =>
    rw [List.foldlM_cons] at e
    unfold dbTake at e
    cases ev : dget s.1 a with
    | error _ => rw [ev] at e; cases e
    | ok v =>
      have hv := dget_eq_ok.1 ev
      rw [ev] at e
      simp only [bind, Except.bind] at e
      by_cases hvn : v = env.none
      · rw [if_pos hvn] at e
        subst hvn
        obtain ⟨h1, h2, h3⟩ := ih e
        refine ⟨h1.trans (dkeys_dset_of_mem _ (mem_dkeys_of_dget? hv)), fun z => ?_, fun z => ?_⟩
        · rw [h2 z]
          simp only [dget?_dset]
          by_cases hz : a = z
          · subst hz
            simp [hv]
          · simp [hz, Ne.symm hz]
        · rw [h3 z]
          simp only [dget?_dset, List.mem_append, List.mem_singleton, List.mem_cons]
          by_cases hz : a = z
          · subst hz
            simp [hv]
          · simp [hz, Ne.symm hz]
      · rw [if_neg hvn] at e
        obtain ⟨h1, h2, h3⟩ := ih e
        refine ⟨h1, fun z => ?_, fun z => ?_⟩
        · rw [h2 z]
          by_cases hz : z = a
          · subst hz
            simp [hv, hvn]
          · simp [hz]
        · rw [h3 z]
          by_cases hz : z = a
          · subst hz
            simp [hv, hvn]
          · simp [hz]

/-- Two dictionaries of assignments that agree up to the strings for "not assigned". -/
structure SameAssigned (env env' : DbEnv α V δ) (d d' : Dict α α) : Prop where
  keys : dkeys d = dkeys d'
  nodup : (dkeys d).Nodup
  free : ∀ z, dget? d z = some env.none ↔ dget? d' z = some env'.none
  val : ∀ z v v', dget? d z = some v → dget? d' z = some v' → v = v' ∨ v = env.none ∧ v' = env'.none

theorem dbLinkStep_two (h : SetOrder env.enum) (h' : SetOrder env'.enum)
    {labels : Dict α DLabel} {locals clustersOf : Dict α (List α)} {x c y : α} (hc : env.none = c ↔ env'.none = c) {points : List α}
    {s t s' t' : Dict α α × Dict α (List α)} (h1 : SameAssigned env env' s.1 t.1) (h2 : SameSets s.2 t.2)
    (e : dbLinkStep env labels locals clustersOf x c points s y = .ok s')
    (e' : dbLinkStep env' labels locals clustersOf x c points t y = .ok t') :
    SameAssigned env env' s'.1 t'.1 ∧ SameSets s'.2 t'.2 := by
  unfold dbLinkStep at e e'
  simp only [bind, Except.bind] at e e'
  cases ep : dbPartner labels locals clustersOf y with
  | error _ => rw [ep] at e; cases e
  | ok o =>
    rw [ep] at e e'
    simp only at e e'
    cases ea : (dbAll env points o).foldlM (dbTake env c) (s.1, []) with
    | error _ => rw [ea] at e; cases e
    | ok a =>
      cases eb : (dbAll env' points o).foldlM (dbTake env' c) (t.1, []) with
      | error _ => rw [eb] at e'; cases e'
      | ok b =>
        rw [ea] at e
        rw [eb] at e'
        simp only at e e'
        cases eo : dget s.2 c with
        | error _ => rw [eo] at e; cases e
        | ok old =>
          cases eo' : dget t.2 c with
          | error _ => rw [eo'] at e'; cases e'
          | ok old' =>
            rw [eo] at e
            rw [eo'] at e'
            cases e
            cases e'
            obtain ⟨a1, a2, a3⟩ := dbTake_spec ea
            obtain ⟨b1, b2, b3⟩ := dbTake_spec eb
            have hall : ∀ z, z ∈ dbAll env points o ↔ z ∈ dbAll env' points o := fun z => by
              cases o with
              | none => rfl
              | some others => exact ((h _).2 z).trans ((h' _).2 z).symm
            refine ⟨⟨?_, ?_, fun z => ?_, fun z v v' hv hv' => ?_⟩, h2.set c (enum_perm h h' fun z => ?_)⟩
            · exact a1.trans (h1.keys.trans b1.symm)
            · show (dkeys a.1).Nodup
              rw [a1]; exact h1.nodup
            · simp only [a2 z, b2 z, hall z, h1.free z]
              split
              · simp only [Option.some.injEq]
                exact ⟨fun h => (hc.1 h.symm).symm, fun h => (hc.2 h.symm).symm⟩
              · exact h1.free z
            · simp only [a2 z, hall z, h1.free z] at hv
              simp only [b2 z] at hv'
              split at hv
              · rename_i hz
                rw [if_pos hz] at hv'
                cases hv; cases hv'
                exact .inl rfl
              · rename_i hz
                rw [if_neg hz] at hv'
                exact h1.val z v v' hv hv'
            · have hold := (h2.pts c old old' (dget_eq_ok.1 eo) (dget_eq_ok.1 eo')).mem_iff (a := z)
              simp only [List.mem_append, hold, a3 z, b3 z, hall z, h1.free z]

theorem dbOwn_mem {ids : List α} {labels : Dict α DLabel} {locals : Dict α (List α)} {x : α} {own : α × List α}
    (e : dbOwn labels locals (dbClustersOf ids locals) x = .ok own) : own.1 = x ∨ own.1 ∈ dkeys locals := by
  unfold dbOwn at e
  simp only [bind, Except.bind] at e
  split at e
  · cases e
  · split at e
    · cases e; exact .inl rfl
    · split at e
      · split at e
        · cases e
        · cases e; exact .inl rfl
      · split at e
        · cases e
        · rename_i c ec
          split at e
          · cases e
          · cases e
            rename_i er
            exact .inr (mem_dkeys_of_dget? (dget_eq_ok.1 er))

theorem dbCores_two (h : SetOrder env.enum) (h' : SetOrder env'.enum) {ids : List α}
    (hnone : ∀ x ∈ ids, env.none = x ↔ env'.none = x)
    {labels : Dict α DLabel} {locals core core' : Dict α (List α)} (hl : ∀ c ∈ dkeys locals, c ∈ ids)
    (e : dbCores env m ids labels locals = .ok core) (e' : dbCores env' m ids labels locals = .ok core') : SameSets core core' := by
  unfold dbCores at e e'
  simp only [bind, Except.bind] at e e'
  cases ec : dbCompatible m ids with
  | error _ => rw [ec] at e; cases e
  | ok compatible =>
    rw [ec] at e e'
    simp only at e e'
    split at e
    · cases e
    · rename_i s0 es
      split at e'
      · cases e'
      · rename_i t0 et
        have hI := foldlM_two (R := fun (s t : List α × Dict α α × Dict α (List α)) =>
          s.1 = t.1 ∧ SameAssigned env env' s.2.1 t.2.1 ∧ SameSets s.2.2 t.2.2)
          (fun x hxi s t s' t' hR e e' => by
            obtain ⟨h1, h2, h4⟩ := hR
            unfold dbMergeStep at e e'
            rw [← h1] at e'
            by_cases hx : x ∉ s.1
            · rw [if_pos hx] at e e'
              simp only [bind, Except.bind] at e e'
              cases ey : dget compatible x with
              | error _ => rw [ey] at e; cases e
              | ok ys =>
                rw [ey] at e e'
                simp only at e e'
                by_cases hys : ys = []
                · rw [if_pos hys] at e e'
                  cases e; cases e'
                  exact ⟨rfl, h2, h4⟩
                · rw [if_neg hys] at e e'
                  cases eo : dbOwn labels locals (dbClustersOf ids locals) x with
                  | error _ => rw [eo] at e; cases e
                  | ok own =>
                    rw [eo] at e e'
                    simp only at e e'
                    have hoi : own.1 ∈ ids := by
                      rcases dbOwn_mem eo with h5 | h5
                      · rw [h5]; exact hxi
                      · exact hl _ h5
                    split at e
                    · cases e
                    · rename_i a ea
                      split at e'
                      · cases e'
                      · rename_i b eb
                        cases e; cases e'
                        have := foldlM_two (f := dbLinkStep env labels locals (dbClustersOf ids locals) x own.1 own.2)
                          (g := dbLinkStep env' labels locals (dbClustersOf ids locals) x own.1 own.2)
                          (R := fun (s t : Dict α α × Dict α (List α)) => SameAssigned env env' s.1 t.1 ∧ SameSets s.2 t.2)
                          (fun y _ s t s' t' hR e e' => dbLinkStep_two h h' (hnone _ hoi) hR.1 hR.2 e e')
                          ⟨h2, h4⟩ ea eb
                        exact ⟨rfl, this⟩
            · rw [if_neg hx] at e e'
              cases e; cases e'
              exact ⟨h1, h2, h4⟩)
          (by
            refine ⟨rfl, ⟨?_, nodup_dkeys_dofList _, fun z => ?_, fun z v v' hv hv' => ?_⟩, SameSets.refl (nodup_dkeys_dofList _)⟩
            · rw [dkeys_dofList_map, dkeys_dofList_map]
            · simp only [dget?_dofList_map]
              split <;> simp
            · simp only [dget?_dofList_map] at hv hv'
              split at hv
              · rename_i hz
                rw [if_pos hz] at hv'
                cases hv; cases hv'
                exact .inr ⟨rfl, rfl⟩
              · cases hv) es et
        obtain ⟨-, h2, h4⟩ := hI
        split at e
        · cases e
        · rename_i c1 e1
          split at e'
          · cases e'
          · rename_i c2 e2
            have hc := foldlM_two (R := SameSets) (fun x hxi s t s' t' hR e e' => by
              unfold dbClean at e e'
              simp only [bind, Except.bind] at e e'
              cases ea : dget s x with
              | error _ => rw [ea] at e; cases e
              | ok a =>
                cases eb : dget t x with
                | error _ => rw [eb] at e'; cases e'
                | ok b =>
                  rw [ea] at e
                  rw [eb] at e'
                  simp only at e e'
                  have hab := hR.pts x a b (dget_eq_ok.1 ea) (dget_eq_ok.1 eb)
                  by_cases ha : a = []
                  · have hb : b = [] := by rw [ha] at hab; exact hab.nil_eq.symm
                    rw [if_pos ha] at e
                    rw [if_pos hb] at e'
                    cases e; cases e'
                    exact hR.pop x
                  · have hb : b ≠ [] := by rintro rfl; exact ha hab.eq_nil
                    rw [if_neg ha] at e
                    rw [if_neg hb] at e'
                    cases ew : dget s0.2.1 x with
                    | error _ => rw [ew] at e; cases e
                    | ok w =>
                      cases ew' : dget t0.2.1 x with
                      | error _ => rw [ew'] at e'; cases e'
                      | ok w' =>
                        rw [ew] at e
                        rw [ew'] at e'
                        simp only at e e'
                        have hww : w = x ↔ w' = x := by
                          rcases h2.val x w w' (dget_eq_ok.1 ew) (dget_eq_ok.1 ew') with rfl | ⟨rfl, rfl⟩
                          · rfl
                          · exact hnone x hxi
                        by_cases hw : w ≠ x
                        · rw [if_pos hw] at e
                          rw [if_pos (fun he => hw (hww.2 he))] at e'
                          cases e; cases e'
                          exact hR.pop x
                        · rw [if_neg hw] at e
                          rw [if_neg (fun he => he (hww.1 (not_not.1 hw)))] at e'
                          cases e; cases e'
                          exact hR) h4 e1 e2
            exact foldlM_two (R := SameSets) (fun x _ s t s' t' hR e e' => by
              unfold dbCleanSingle at e e'
              simp only [bind, Except.bind] at e e'
              rw [← hR.keys] at e'
              by_cases hx : x ∈ dkeys s
              · rw [if_pos hx] at e e'
                cases ea : dget s x with
                | error _ => rw [ea] at e; cases e
                | ok a =>
                  cases eb : dget t x with
                  | error _ => rw [eb] at e'; cases e'
                  | ok b =>
                    rw [ea] at e
                    rw [eb] at e'
                    simp only at e e'
                    rw [← (hR.pts x a b (dget_eq_ok.1 ea) (dget_eq_ok.1 eb)).length_eq] at e'
                    by_cases hl : a.length < 2
                    · rw [if_pos hl] at e e'
                      cases e; cases e'
                      exact hR.pop x
                    · rw [if_neg hl] at e e'
                      cases e; cases e'
                      exact hR
              · rw [if_neg hx] at e e'
                cases e; cases e'
                exact hR) hc e e'

/-! ### Growing the core clusters -/

theorem forall₂_unique {ι κ : Type} {R : ι → κ → Prop} (hR : ∀ a b b', R a b → R a b' → b = b') {l : List ι} {r r' : List κ}
    (h : List.Forall₂ R l r) (h' : List.Forall₂ R l r') : r = r' := by
  induction h generalizing r' with
  | nil => cases h'; rfl
  | cons h1 _ ih =>
    cases h' with
    | cons h2 h3 => rw [hR _ _ _ h1 h2, ih h3]

theorem mapM_perm {ι κ ε : Type} {f : ι → Except ε κ} {l l' : List ι} {r r' : List κ} (hl : l.Perm l')
    (e : l.mapM f = .ok r) (e' : l'.mapM f = .ok r') : r.Perm r' := by
  obtain ⟨w, hw, hp⟩ := List.perm_comp_forall₂ hl (mapM_ok_iff.1 e')
  rw [forall₂_unique (fun a b b' h1 h2 => by rw [h1] at h2; exact Except.ok.inj h2) (mapM_ok_iff.1 e) hw]
  exact hp

theorem dbMin_perm {l l' : List δ} (hl : l.Perm l') {a a' : δ} (e : dbMin l = .ok a) (e' : dbMin l' = .ok a') : a = a' := by
  unfold dbMin at e e'
  cases h : l.min? with
  | none => rw [h] at e; cases e
  | some b =>
    cases h' : l'.min? with
    | none => rw [h'] at e'; cases e'
    | some b' =>
      rw [h] at e; rw [h'] at e'
      cases e; cases e'
      obtain ⟨h1, h2⟩ := min?_spec h
      obtain ⟨h3, h4⟩ := min?_spec h'
      exact le_antisymm (h2 _ (hl.mem_iff.2 h3)) (h4 _ (hl.mem_iff.1 h1))

theorem dbDistances_two {core core' : List α} (hc : core.Perm core') {locals : Dict α (List α)} {d d' : Dict α δ}
    (e : dbDistances table core locals = .ok d) (e' : dbDistances table core' locals = .ok d') : d = d' := by
  unfold dbDistances at e e'
  simp only [bind, Except.bind] at e e'
  split at e
  · cases e
  · rename_i rows er
    split at e'
    · cases e'
    · rename_i rows' er'
      cases e; cases e'
      have h1 := List.forall₂_iff_get.1 (mapM_ok_iff.1 er)
      have h2 := List.forall₂_iff_get.1 (mapM_ok_iff.1 er')
      have : rows = rows' := by
        refine List.ext_get (h1.1.symm.trans h2.1) fun i hi hi' => ?_
        have hil : i < locals.length := by rw [h1.1]; exact hi
        have e1 := h1.2 i hil hi
        have e2 := h2.2 i hil hi'
        generalize locals.get ⟨i, hil⟩ = q at e1 e2
        generalize rows.get ⟨i, hi⟩ = b at e1
        generalize rows'.get ⟨i, hi'⟩ = b' at e2
        have hp : (core.flatMap fun x => q.2.map fun y => (x, y)).Perm (core'.flatMap fun x => q.2.map fun y => (x, y)) :=
          hc.flatMap_right _
        cases em : (core.flatMap fun x => q.2.map fun y => (x, y)).mapM (fun p => pairDistance table p) with
        | error _ => rw [em] at e1; cases e1
        | ok ds =>
          cases em' : (core'.flatMap fun x => q.2.map fun y => (x, y)).mapM (fun p => pairDistance table p) with
          | error _ => rw [em'] at e2; cases e2
          | ok ds' =>
            rw [em] at e1
            rw [em'] at e2
            simp only at e1 e2
            cases en : dbMin ds with
            | error _ => rw [en] at e1; cases e1
            | ok v =>
              cases en' : dbMin ds' with
              | error _ => rw [en'] at e2; cases e2
              | ok v' =>
                rw [en] at e1
                rw [en'] at e2
                cases e1; cases e2
                rw [dbMin_perm (mapM_perm hp em em') en en']
      rw [this]

theorem dbGrow_two (h : SetOrder env.enum) (h' : SetOrder env'.enum) (hm : Inv m) {fuel : Nat} {core core' : List α}
    (hc : core.Perm core') {locals : Dict α (List α)} (hcm : ∀ x ∈ core, x ∈ m.managed)
    (hlm : ∀ c pts, dget? locals c = some pts → ∀ x ∈ pts, x ∈ m.managed) {s s' : List α × Dict α (List α)}
    (e : dbGrow env p m table fuel (core, locals) = .ok s) (e' : dbGrow env' p m table fuel (core', locals) = .ok s') :
    s.1.Perm s'.1 ∧ s.2 = s'.2 ∧ (∀ x ∈ s.1, x ∈ m.managed) ∧ ∀ c pts, dget? s.2 c = some pts → ∀ x ∈ pts, x ∈ m.managed := by
  induction fuel generalizing core core' locals with
  | zero =>
    unfold dbGrow at e e'
    by_cases hl : locals ≠ []
    · simp only [hl, if_true, ne_eq, not_false_eq_true] at e; cases e
    · simp only [hl, if_false] at e e'
      cases e; cases e'
      exact ⟨hc, rfl, hcm, hlm⟩
  | succ fuel ih =>
    unfold dbGrow at e e'
    by_cases hl : locals ≠ []
    · simp only [if_pos hl, bind, Except.bind] at e e'
      cases e1 : dbDistances table core locals with
      | error _ => rw [e1] at e; cases e
      | ok d =>
        cases e1' : dbDistances table core' locals with
        | error _ => rw [e1'] at e'; cases e'
        | ok d' =>
          have hd := dbDistances_two hc e1 e1'
          subst hd
          rw [e1] at e
          rw [e1'] at e'
          simp only at e e'
          cases e2 : dbClosest d with
          | error _ => rw [e2] at e; cases e
          | ok c =>
            rw [e2] at e e'
            simp only at e e'
            cases e3 : dget d c with
            | error _ => rw [e3] at e; cases e
            | ok v =>
              rw [e3] at e e'
              simp only at e e'
              by_cases h1 : p.eps < v
              · rw [if_pos h1] at e e'
                cases e; cases e'
                exact ⟨hc, rfl, hcm, hlm⟩
              · rw [if_neg h1] at e e'
                cases e4 : dget locals c with
                | error _ => rw [e4] at e; cases e
                | ok pts =>
                  rw [e4] at e e'
                  simp only at e e'
                  have hpm := hlm c pts (dget_eq_ok.1 e4)
                  have hcm' : ∀ x ∈ core', x ∈ m.managed := fun x hx => hcm x (hc.mem_iff.2 hx)
                  obtain ⟨b, e5, hb⟩ := dbConflict_ok hm hcm hpm
                  obtain ⟨b', e5', hb'⟩ := dbConflict_ok hm hcm' hpm
                  have hbb : b = b' := by
                    rw [Bool.eq_iff_iff, hb, hb']
                    simp only [hc.mem_iff]
                  subst hbb
                  rw [e5] at e
                  rw [e5'] at e'
                  simp only at e e'
                  cases b with
                  | true =>
                    simp only [if_true] at e e'
                    cases e; cases e'
                    exact ⟨hc, rfl, hcm, hlm⟩
                  | false =>
                    simp only [Bool.false_eq_true, if_false] at e e'
                    refine ih (enum_perm h h' fun x => by simp only [List.mem_append, hc.mem_iff]) (fun x hx => ?_)
                      (fun a q ha => ?_) e e'
                    · rw [(h _).2 x, List.mem_append] at hx
                      rcases hx with hx | hx
                      · exact hcm x hx
                      · exact hpm x hx
                    · rw [dget?_dpop] at ha
                      split at ha
                      · cases ha
                      · exact hlm a q ha
    · simp only [hl, if_false] at e e'
      cases e; cases e'
      exact ⟨hc, rfl, hcm, hlm⟩

theorem dbMergeAll_two (h : SetOrder env.enum) (h' : SetOrder env'.enum) (hm : Inv m) {core core' locals : Dict α (List α)}
    (hc : SameSets core core') (hcm : ∀ c pts, dget? core c = some pts → ∀ x ∈ pts, x ∈ m.managed)
    (hlm : ∀ c pts, dget? locals c = some pts → ∀ x ∈ pts, x ∈ m.managed) {s s' : Dict α (List α) × Dict α (List α)}
    (e : dbMergeAll env p m table core locals = .ok s) (e' : dbMergeAll env' p m table core' locals = .ok s') :
    SameSets s.1 s'.1 ∧ s.2 = s'.2 := by
  unfold dbMergeAll at e e'
  rw [← hc.keys] at e'
  have := foldlM_two (f := dbGrowStep env p m table) (g := dbGrowStep env' p m table) (s := (core, locals)) (t := (core', locals))
    (R := fun (s t : Dict α (List α) × Dict α (List α)) => SameSets s.1 t.1 ∧ s.2 = t.2 ∧
      (∀ c pts, dget? s.1 c = some pts → ∀ x ∈ pts, x ∈ m.managed) ∧
      ∀ c pts, dget? s.2 c = some pts → ∀ x ∈ pts, x ∈ m.managed)
    (fun x _ s t s' t' hR e e' => by
      obtain ⟨h1, h2, h3, h4⟩ := hR
      unfold dbGrowStep at e e'
      rw [← h2] at e'
      simp only [bind, Except.bind] at e e'
      cases ea : dget s.1 x with
      | error _ => rw [ea] at e; cases e
      | ok a =>
        cases eb : dget t.1 x with
        | error _ => rw [eb] at e'; cases e'
        | ok b =>
          rw [ea] at e
          rw [eb] at e'
          simp only at e e'
          split at e
          · cases e
          · rename_i u eu
            split at e'
            · cases e'
            · rename_i w ew
              cases e; cases e'
              obtain ⟨i1, i2, i3, i4⟩ := dbGrow_two h h' hm (h1.pts x a b (dget_eq_ok.1 ea) (dget_eq_ok.1 eb))
                (h3 x a (dget_eq_ok.1 ea)) h4 eu ew
              refine ⟨h1.set x i1, i2, fun c pts hc => ?_, i4⟩
              simp only [dget?_dset] at hc
              split at hc
              · cases hc; exact i3
              · exact h3 c pts hc) ⟨hc, rfl, hcm, hlm⟩ e e'
  exact ⟨this.1, this.2.1⟩

/-! ### Final clusters -/

theorem renameClusters_congr {d d' : Dict α Int} (hn : (dkeys d).Nodup) (hn' : (dkeys d').Nodup)
    (hd : ∀ x, dget? d x = dget? d' x) : renameClusters d = renameClusters d' := by
  have hget : dget d = dget d' := by
    funext x
    cases e : dget? d x with
    | some v => rw [dget_of_dget? e, dget_of_dget? ((hd x).symm.trans e)]
    | none =>
      have e' := (hd x).symm.trans e
      unfold dget
      rw [e, e']
  have hk : (dkeys d).Perm (dkeys d') := (List.perm_ext_iff_of_nodup hn hn').2 fun x => by
    rw [← exists_dget?_iff, ← exists_dget?_iff, hd x]
  have hs : (dkeys d).insertionSort (· ≤ ·) = (dkeys d').insertionSort (· ≤ ·) := by
    refine List.Perm.eq_of_pairwise' (r := (· ≤ ·)) ?_ ?_ ?_
    · exact List.pairwise_insertionSort _ _
    · exact List.pairwise_insertionSort _ _
    · exact (List.perm_insertionSort _ _).trans (hk.trans (List.perm_insertionSort _ _).symm)
  have hstep : renameStep d = renameStep d' := by
    funext s x
    unfold renameStep
    rw [hget]
  unfold renameClusters
  rw [hs, hstep, hget]

theorem dbFinish_two {ids : List α} {labels : Dict α DLabel} {cores cores' rest : Dict α (List α)} (hc : SameSets cores cores')
    {o o' : DbObject α} (e : dbFinish p ids labels cores rest = .ok o) (e' : dbFinish p ids labels cores' rest = .ok o') :
    o' = { o with cores := o'.cores } ∧ SameSets o.cores o'.cores := by
  have h0 : ∀ {c c' : Dict α (List α)}, List.Forall₂ (fun a b => a.1 = b.1 ∧ a.2.Perm b.2) c c' → ∀ (s t : Dict α Int × Int),
      s.2 = t.2 → (dkeys s.1).Nodup → (dkeys t.1).Nodup → (∀ x, dget? s.1 x = dget? t.1 x) →
      ((dvals c).foldl dbFinalCore s).2 = ((dvals c').foldl dbFinalCore t).2 ∧
        (dkeys ((dvals c).foldl dbFinalCore s).1).Nodup ∧ (dkeys ((dvals c').foldl dbFinalCore t).1).Nodup ∧
        ∀ x, dget? ((dvals c).foldl dbFinalCore s).1 x = dget? ((dvals c').foldl dbFinalCore t).1 x := by
    intro c c' hF
    induction hF with
    | nil => intro s t h1 h2 h3 h4; exact ⟨h1, h2, h3, h4⟩
    | @cons a b c c' hab _ ih =>
      intro s t h1 h2 h3 h4
      refine ih _ _ ?_ ?_ ?_ ?_
      · show s.2 + 1 = t.2 + 1; rw [h1]
      · exact nodup_dbPredict h2
      · exact nodup_dbPredict h3
      · intro x
        show dget? (dbPredict a.2 s.2 s.1) x = dget? (dbPredict b.2 t.2 t.1) x
        rw [dget?_dbPredict, dget?_dbPredict, h1, h4 x]
        simp only [hab.2.mem_iff]
  unfold dbFinish at e e'
  simp only [bind, Except.bind] at e e'
  obtain ⟨i1, i2, i3, i4⟩ := h0 hc.forall₂ ([], 0) ([], 0) rfl (by simp) (by simp) (fun _ => rfl)
  split at e
  · cases e
  · rename_i t et
    split at e'
    · cases e'
    · rename_i u eu
      have hR := foldlM_two (f := dbFinalLocal p) (g := dbFinalLocal p) (s := (rest, (dvals cores).foldl dbFinalCore ([], 0)))
        (t := (rest, (dvals cores').foldl dbFinalCore ([], 0))) (R := fun (s t : Dict α (List α) × Dict α Int × Int) => s.1 = t.1 ∧ s.2.2 = t.2.2 ∧
          (dkeys s.2.1).Nodup ∧ (dkeys t.2.1).Nodup ∧ ∀ x, dget? s.2.1 x = dget? t.2.1 x)
        (fun x _ s t s' t' hR e e' => by
          obtain ⟨h1, h2, h3, h4, h5⟩ := hR
          unfold dbFinalLocal at e e'
          have hmem : ∀ y, y ∈ dkeys t.2.1 ↔ y ∈ dkeys s.2.1 := fun y => by
            rw [← exists_dget?_iff, ← exists_dget?_iff, h5 y]
          simp only [← h1, ← h2, hmem, bind, Except.bind] at e e'
          split at e
          · cases e
          · rename_i points ep
            rw [ep] at e'
            simp only at e'
            split at e
            · cases e
            · rename_i r er
              rw [er] at e'
              simp only at e'
              by_cases hen : p.enough r.length = true
              · rw [if_pos hen] at e e'
                cases e; cases e'
                refine ⟨rfl, rfl, nodup_dbPredict h3, nodup_dbPredict h4, fun y => ?_⟩
                simp only [dget?_dbPredict, h5 y]
              · rw [if_neg hen] at e e'
                cases e; cases e'
                exact ⟨rfl, h2, h3, h4, h5⟩) ⟨rfl, i1, i2, i3, i4⟩ et eu
      obtain ⟨j1, j2, j3, j4, j5⟩ := hR
      rw [← renameClusters_congr j3 j4 j5] at e'
      split at e
      · cases e
      · rename_i r er
        rw [er] at e'
        cases e; cases e'
        refine ⟨?_, hc⟩
        simp only [j1]

end Verif
