import Verif.Proofs.DBLabels
import Verif.Proofs.DBFinal
import Verif.Spec.DBConnect

/-
What the points of a cluster of C-DBScan have in common.
-/

set_option linter.unusedSectionVars false

namespace Verif

variable {α V δ : Type} [LinearOrder α] [LinearOrder δ] {env : DbEnv α V δ} {p : DbParams δ} {m : Manager α}
  {table : Dict α (Dict α δ)} {vectors : Dict α V}

/-! ### Local clusters -/

/-- What the local clusters are, `P` being the IDs already treated. -/
structure StarInv (env : DbEnv α V δ) (p : DbParams δ) (m : Manager α) (vectors : Dict α V) (P : List α)
    (s : Dict α DLabel × Dict α (List α)) : Prop where
  keys : dkeys s.1 = m.managed
  core : ∀ x, dget? s.1 x = some .core → x ∈ P
  star : ∀ c pts, dget? s.2 c = some pts →
    (dget? s.1 c = some .core ∧ ∀ y ∈ pts, Near env p vectors c y) ∨ (dget? s.1 c = some .singleCore ∧ pts = [c])

theorem dbSingle_locals {l : List α} {s : Dict α DLabel × Dict α (List α)} (c : α) :
    dget? (l.foldl (fun s y => (dset s.1 y DLabel.singleCore, dset s.2 y [y])) s).2 c =
      if c ∈ l then some [c] else dget? s.2 c := by
  induction l generalizing s with
  | nil => simp
  | cons a l ih =>
    rw [List.foldl_cons, ih]
    by_cases h1 : c ∈ l
    · simp [h1]
    · by_cases h2 : c = a
      · subst h2; simp [h1, dget?_dset]
      · simp [h1, h2, dget?_dset, Ne.symm h2]

theorem starStep_ok (h : Inv m) (hT : DbTable p m table)
    (hN : ∀ x ∈ m.managed, ∀ y ∈ m.managed, (∃ d, pairDistance table (x, y) = .ok d ∧ d ≤ p.eps) ↔ Near env p vectors x y)
    {P : List α} {s : Dict α DLabel × Dict α (List α)} (hs : StarInv env p m vectors P s) {x : α} (hx : x ∈ m.managed)
    (hxP : x ∉ P) :
    ∃ s', dbLocalStep p m table m.managed s x = .ok s' ∧ StarInv env p m vectors (P ++ [x]) s' := by
  obtain ⟨v, hv⟩ := dget?_isSome_of_mem (d := s.1) (k := x) (by rw [hs.keys]; exact hx)
  unfold dbLocalStep
  rw [dget_of_dget? hv]
  simp only [bind, Except.bind]
  by_cases hsc : v = .singleCore
  · rw [if_neg (by simpa using hsc)]
    exact ⟨s, rfl, hs.keys, fun y hy => by simp [hs.core y hy], hs.star⟩
  · rw [if_pos (by simpa using hsc)]
    obtain ⟨r, e1, hrn, hrm, hrx, hr⟩ := dbNeighbors_ok hT hs.keys h.d.nodup hx
    obtain ⟨b, e2, hb⟩ := dbConflict_ok h hrm hrm
    simp only [e1, e2]
    have hlab : ∀ (w : DLabel), dkeys (dset s.1 x w) = m.managed := fun w => by
      rw [dkeys_dset_of_mem _ (by rw [hs.keys]; exact hx)]; exact hs.keys
    have hnk : dget? s.2 x = none := by
      cases e : dget? s.2 x with
      | none => rfl
      | some pts =>
        rcases hs.star x pts e with h1 | h1
        · exact absurd (hs.core x h1.1) hxP
        · rw [hv] at h1; exact absurd (Option.some.inj h1.1) hsc
    by_cases hlen : r.length < p.minSamples
    · rw [if_pos hlen]
      refine ⟨_, rfl, hlab _, fun y hy => ?_, fun c pts hc => ?_⟩
      · simp only [dget?_dset] at hy
        split at hy
        · cases hy
        · simp [hs.core y hy]
      · simp only at hc
        have hcx : x ≠ c := by rintro rfl; rw [hnk] at hc; cases hc
        simp only [dget?_dset, if_neg hcx]
        exact hs.star c pts hc
    · rw [if_neg hlen]
      cases b with
      | true =>
        simp only [if_true]
        refine ⟨_, rfl, ?_, fun y hy => ?_, fun c pts hc => ?_⟩
        · rw [dbSingle_keys (fun y hy => by rw [hs.keys]; exact hrm y hy)]; exact hs.keys
        · rw [dbSingle_get] at hy
          split at hy
          · cases hy
          · simp [hs.core y hy]
        · rw [dbSingle_locals] at hc
          rw [dbSingle_get]
          split at hc
          · rename_i hcr
            cases hc
            rw [if_pos hcr]
            exact .inr ⟨rfl, rfl⟩
          · rename_i hcr
            rw [if_neg hcr]
            exact hs.star c pts hc
      | false =>
        simp only [Bool.false_eq_true, if_false]
        refine ⟨_, rfl, hlab _, fun y hy => ?_, fun c pts hc => ?_⟩
        · simp only [dget?_dset] at hy
          split at hy
          · rename_i he; subst he; simp
          · simp [hs.core y hy]
        · simp only [dget?_dset] at hc ⊢
          split at hc
          · rename_i he
            subst he
            cases hc
            rw [if_pos rfl]
            refine .inl ⟨rfl, fun y hy => ?_⟩
            have := (hr y).1 hy
            exact (hN x hx y this.1).1 this.2.2
          · rename_i he
            rw [if_neg he]
            exact hs.star c pts hc

/-! ### Growing the core clusters -/

theorem dbDistances_pair {core : List α} {locals : Dict α (List α)} (hn : (dkeys locals).Nodup) {d : Dict α δ}
    (e : dbDistances table core locals = .ok d) {c : α} {v : δ} (hv : dget? d c = some v) {pts : List α}
    (hc : dget? locals c = some pts) : ∃ x ∈ core, ∃ y ∈ pts, pairDistance table (x, y) = .ok v := by
  unfold dbDistances at e
  simp only [bind, Except.bind] at e
  split at e
  · cases e
  · rename_i rows er
    cases e
    have hF := mapM_ok_iff.1 er
    have hrow : ∀ a ∈ locals, ∀ b : α × δ, (do
        let ds ← (core.flatMap fun x => a.2.map fun y => (x, y)).mapM fun p => pairDistance table p
        return (a.1, ← dbMin ds) : Except PyErr (α × δ)) = .ok b →
        b.1 = a.1 ∧ ∃ x ∈ core, ∃ y ∈ a.2, pairDistance table (x, y) = .ok b.2 := by
      intro a _ b hab
      cases e1 : (core.flatMap fun x => a.2.map fun y => (x, y)).mapM (fun p => pairDistance table p) with
      | error e' => rw [e1] at hab; cases hab
      | ok ds =>
        rw [e1] at hab
        simp only [bind, Except.bind] at hab
        unfold dbMin at hab
        cases e2 : ds.min? with
        | none => rw [e2] at hab; cases hab
        | some w =>
          rw [e2] at hab
          cases hab
          refine ⟨rfl, ?_⟩
          obtain ⟨q, hq, hqe⟩ := forall₂_mem_right (mapM_ok_iff.1 e1) (min?_spec e2).1
          obtain ⟨x, hx, hq⟩ := List.mem_flatMap.1 hq
          obtain ⟨y, hy, rfl⟩ := List.mem_map.1 hq
          exact ⟨x, hx, y, hy, hqe⟩
    have hfst : rows.map Prod.fst = dkeys locals := by
      have : List.Forall₂ (fun a (b : α × δ) => b.1 = a) (locals.map Prod.fst) rows := by
        rw [List.forall₂_map_left_iff]
        refine (List.forall₂_iff_get.2 ?_)
        obtain ⟨hl, hg⟩ := List.forall₂_iff_get.1 hF
        exact ⟨hl, fun i h1 h2 => (hrow _ (List.get_mem _ _) _ (hg i h1 h2)).1⟩
      exact forall₂_fst this
    rw [dofList_of_nodup (by rw [hfst]; exact hn)] at hv
    obtain ⟨a, ha, hab⟩ := forall₂_mem_right hF (mem_of_dget? hv)
    obtain ⟨h1, h2⟩ := hrow a ha _ hab
    have : a.2 = pts := by
      have h3 := dget?_of_mem hn (k := a.1) (v := a.2) ha
      rw [← h1, hc] at h3
      exact (Option.some.inj h3).symm
    rw [← this]
    exact h2

/-- Growing keeps what is kept by the union of two clusters at a distance within the radius. -/
theorem dbGrow_gen {G : List α → Prop}
    (hG : ∀ core pts, G core → G pts → (∃ x ∈ core, ∃ y ∈ pts, ∃ d, pairDistance table (x, y) = .ok d ∧ d ≤ p.eps) →
      G (env.enum (core ++ pts))) {fuel : Nat} {s s' : List α × Dict α (List α)}
    (e : dbGrow env p m table fuel s = .ok s') (hc : G s.1) (hn : (dkeys s.2).Nodup)
    (hl : ∀ c pts, dget? s.2 c = some pts → G pts) :
    G s'.1 ∧ (dkeys s'.2).Nodup ∧ ∀ c pts, dget? s'.2 c = some pts → dget? s.2 c = some pts := by
  induction fuel generalizing s with
  | zero =>
    unfold dbGrow at e
    split at e
    · cases e
    · cases e; exact ⟨hc, hn, fun _ _ h => h⟩
  | succ fuel ih =>
    unfold dbGrow at e
    split at e
    · simp only [bind, Except.bind] at e
      cases e1 : dbDistances table s.1 s.2 with
      | error _ => rw [e1] at e; cases e
      | ok d =>
        rw [e1] at e
        simp only at e
        cases e2 : dbClosest d with
        | error _ => rw [e2] at e; cases e
        | ok c =>
          rw [e2] at e
          simp only at e
          cases e3 : dget d c with
          | error _ => rw [e3] at e; cases e
          | ok v =>
            rw [e3] at e
            simp only at e
            by_cases h1 : p.eps < v
            · rw [if_pos h1] at e
              cases e
              exact ⟨hc, hn, fun _ _ h => h⟩
            · rw [if_neg h1] at e
              cases e4 : dget s.2 c with
              | error _ => rw [e4] at e; cases e
              | ok pts =>
                rw [e4] at e
                simp only at e
                cases e5 : dbConflict m s.1 pts with
                | error _ => rw [e5] at e; cases e
                | ok b =>
                  rw [e5] at e
                  simp only at e
                  cases b with
                  | true =>
                    simp only [if_true] at e
                    cases e
                    exact ⟨hc, hn, fun _ _ h => h⟩
                  | false =>
                    simp only [Bool.false_eq_true, if_false] at e
                    have hpts := dget_eq_ok.1 e4
                    obtain ⟨x, hx, y, hy, hd⟩ := dbDistances_pair hn e1 (dget_eq_ok.1 e3) hpts
                    have hget : ∀ a q, dget? (dpop s.2 c) a = some q → dget? s.2 a = some q := fun a q ha => by
                      rw [dget?_dpop] at ha
                      split at ha
                      · cases ha
                      · exact ha
                    obtain ⟨i1, i2, i3⟩ := ih e (hG _ _ hc (hl c pts hpts) ⟨x, hx, y, hy, v, hd, le_of_not_gt h1⟩)
                      (nodup_dkeys_dpop c hn) (fun a q ha => hl a q (hget a q ha))
                    exact ⟨i1, i2, fun a q ha => hget a q (i3 a q ha)⟩
    · cases e; exact ⟨hc, hn, fun _ _ h => h⟩

theorem dbMergeAll_gen {G : List α → Prop}
    (hG : ∀ core pts, G core → G pts → (∃ x ∈ core, ∃ y ∈ pts, ∃ d, pairDistance table (x, y) = .ok d ∧ d ≤ p.eps) →
      G (env.enum (core ++ pts))) {core locals : Dict α (List α)} {s' : Dict α (List α) × Dict α (List α)}
    (e : dbMergeAll env p m table core locals = .ok s') (hc : ∀ c pts, dget? core c = some pts → G pts)
    (hn : (dkeys locals).Nodup) (hl : ∀ c pts, dget? locals c = some pts → G pts) :
    (∀ c pts, dget? s'.1 c = some pts → G pts) ∧ ∀ c pts, dget? s'.2 c = some pts → dget? locals c = some pts := by
  have key : ∀ (L : List α) (s : Dict α (List α) × Dict α (List α)),
      L.foldlM (dbGrowStep env p m table) s = .ok s' → (∀ c pts, dget? s.1 c = some pts → G pts) → (dkeys s.2).Nodup →
      (∀ c pts, dget? s.2 c = some pts → G pts) →
      (∀ c pts, dget? s'.1 c = some pts → G pts) ∧ ∀ c pts, dget? s'.2 c = some pts → dget? s.2 c = some pts := by
    intro L
    induction L with
    | nil => intro s e hc _ _; cases e; exact ⟨hc, fun _ _ h => h⟩
    | cons x L ih =>
      intro s e hc hn hl
      rw [List.foldlM_cons] at e
      unfold dbGrowStep at e
      simp only [bind, Except.bind] at e
      cases e1 : dget s.1 x with
      | error _ => rw [e1] at e; cases e
      | ok c =>
        rw [e1] at e
        simp only at e
        cases e2 : dbGrow env p m table s.2.length (c, s.2) with
        | error _ => rw [e2] at e; cases e
        | ok t =>
          rw [e2] at e
          obtain ⟨h1, h2, h3⟩ := dbGrow_gen hG e2 (hc x c (dget_eq_ok.1 e1)) hn hl
          obtain ⟨i1, i2⟩ := ih _ e (fun a q ha => by
            simp only [dget?_dset] at ha
            split at ha
            · cases ha; exact h1
            · exact hc a q ha) h2 (fun a q ha => hl a q (h3 a q ha))
          exact ⟨i1, fun a q ha => h3 a q (i2 a q ha)⟩
  exact key _ _ e hc hn hl

/-! ### The lists of the core clusters have no duplicate -/

theorem foldlM_stays {ι σ ε : Type} {f : σ → ι → Except ε σ} {I : σ → Prop}
    (step : ∀ s x s', f s x = .ok s' → I s → I s') {L : List ι} {s s' : σ} (e : L.foldlM f s = .ok s') (h : I s) : I s' := by
  induction L generalizing s with
  | nil => cases e; exact h
  | cons x L ih =>
    rw [List.foldlM_cons] at e
    cases e1 : f s x with
    | error _ => rw [e1] at e; cases e
    | ok t => rw [e1] at e; exact ih e (step s x t e1 h)

theorem dbCores_nodup (henum : SetOrder env.enum) {ids : List α} {labels : Dict α DLabel} {locals core : Dict α (List α)}
    (e : dbCores env m ids labels locals = .ok core) {c : α} {pts : List α} (hc : dget? core c = some pts) : pts.Nodup := by
  have hlink : ∀ {clustersOf : Dict α (List α)} {x c : α} {points : List α} (s : Dict α α × Dict α (List α)) (y : α)
      (s' : Dict α α × Dict α (List α)), dbLinkStep env labels locals clustersOf x c points s y = .ok s' →
      (∀ c pts, dget? s.2 c = some pts → pts.Nodup) → ∀ c pts, dget? s'.2 c = some pts → pts.Nodup := by
    intro clustersOf x c points s y s' e hs a q ha
    unfold dbLinkStep at e
    simp only [bind, Except.bind] at e
    split at e
    · cases e
    · split at e
      · cases e
      · split at e
        · cases e
        · cases e
          simp only [dget?_dset] at ha
          split at ha
          · cases ha; exact (henum _).1
          · exact hs a q ha
  unfold dbCores at e
  simp only [bind, Except.bind] at e
  split at e
  · cases e
  · split at e
    · cases e
    · rename_i compatible _ s es
      split at e
      · cases e
      · rename_i core' e1
        have h1 : ∀ c pts, dget? s.2.2 c = some pts → pts.Nodup :=
          foldlM_stays (I := fun s : List α × Dict α α × Dict α (List α) => ∀ c pts, dget? s.2.2 c = some pts → pts.Nodup)
            (fun s x s' e hs => by
              unfold dbMergeStep at e
              split at e
              · simp only [bind, Except.bind] at e
                split at e
                · cases e
                · split at e
                  · cases e; exact hs
                  · split at e
                    · cases e
                    · split at e
                      · cases e
                      · rename_i t et
                        cases e
                        exact foldlM_stays (I := fun s : Dict α α × Dict α (List α) => ∀ c pts, dget? s.2 c = some pts → pts.Nodup)
                          (fun s y s' => hlink s y s') et hs
              · cases e; exact hs) es (fun c pts hc => by
              simp only [dget?_dofList_map] at hc
              split at hc
              · cases hc; simp
              · cases hc)
        have hpop : ∀ (d : Dict α (List α)) (x : α), (∀ c pts, dget? d c = some pts → pts.Nodup) →
            ∀ c pts, dget? (dpop d x) c = some pts → pts.Nodup := fun d x hd a q ha => by
          rw [dget?_dpop] at ha
          split at ha
          · cases ha
          · exact hd a q ha
        have h2 := foldlM_stays (I := fun d : Dict α (List α) => ∀ c pts, dget? d c = some pts → pts.Nodup)
          (fun d x d' e hd => by
            unfold dbClean at e
            simp only [bind, Except.bind] at e
            split at e
            · cases e
            · split at e
              · cases e; exact hpop d x hd
              · split at e
                · cases e
                · split at e
                  · cases e; exact hpop d x hd
                  · cases e; exact hd) e1 h1
        exact foldlM_stays (I := fun d : Dict α (List α) => ∀ c pts, dget? d c = some pts → pts.Nodup)
          (fun d x d' e hd => by
            unfold dbCleanSingle at e
            simp only [bind, Except.bind] at e
            split at e
            · split at e
              · cases e
              · split at e
                · cases e; exact hpop d x hd
                · cases e; exact hd
            · cases e; exact hd) e h2 c pts hc

/-! ### The recorded clusters -/

theorem dbFinish_recorded {labels : Dict α DLabel} {cores locals : Dict α (List α)} {ids : List α} {o : DbObject α}
    (e : dbFinish p ids labels cores locals = .ok o) :
    o.labels = labels ∧ o.cores = cores ∧
      ∀ c pts, dget? o.locals c = some pts → ∃ q, dget? locals c = some q ∧ ∀ z ∈ pts, z ∈ q := by
  unfold dbFinish at e
  simp only [bind, Except.bind] at e
  split at e
  · cases e
  · rename_i t et
    split at e
    · cases e
    · cases e
      refine ⟨rfl, rfl, ?_⟩
      refine foldlM_stays (I := fun s : Dict α (List α) × Dict α Int × Int =>
        ∀ c pts, dget? s.1 c = some pts → ∃ q, dget? locals c = some q ∧ ∀ z ∈ pts, z ∈ q) (fun s x s' e hs => ?_) et
        (fun c pts hc => ⟨pts, hc, fun _ h => h⟩)
      unfold dbFinalLocal at e
      simp only [bind, Except.bind] at e
      split at e
      · cases e
      · rename_i points ep
        split at e
        · cases e
        · rename_i rest er
          have hsub : ∀ z ∈ rest, z ∈ points := fun z hz => (dbRemove_perm er).mem_iff.1 (by simp [hz])
          have hset : ∀ c pts, dget? (dset s.1 x rest) c = some pts → ∃ q, dget? locals c = some q ∧ ∀ z ∈ pts, z ∈ q := by
            intro c pts hc
            simp only [dget?_dset] at hc
            split at hc
            · rename_i he
              subst he
              cases hc
              obtain ⟨q, hq, hz⟩ := hs x points (dget_eq_ok.1 ep)
              exact ⟨q, hq, fun z hzr => hz z (hsub z hzr)⟩
            · exact hs c pts hc
          split at e <;> cases e <;> exact hset

theorem nearTable (et : distanceTable m vectors env.metric = .ok table) :
    ∀ x ∈ m.managed, ∀ y ∈ m.managed, (∃ d, pairDistance table (x, y) = .ok d ∧ d ≤ p.eps) ↔ Near env p vectors x y := by
  intro x hx y hy
  obtain ⟨d, e, vs, v, w, e1, h1, h2, h3⟩ := distanceTable_ok et (p := (x, y)) hx hy
  cases e1
  constructor
  · rintro ⟨d', hd', hle⟩
    rw [e] at hd'; cases hd'
    exact ⟨v, w, h1, h2, h3 ▸ hle⟩
  · rintro ⟨v', w', h1', h2', hle⟩
    rw [h1] at h1'; rw [h2] at h2'
    cases h1'; cases h2'
    exact ⟨d, e, h3 ▸ hle⟩

/-- A property of the recorded clusters holds if it holds of the local clusters and of the core clusters
before they grow, and of the union of two clusters with it that are within the radius. -/
theorem dbCluster_gen (h : Inv m) (ha : DbAssumptions env p) (hne : m.managed ≠ []) (hv : HasVectors m vectors)
    {o : DbObject α} (hr : dbCluster env p m (some vectors) none = .ok o) {G : List α → Prop}
    (hsub : ∀ pts, G pts → ∀ x ∈ pts, x ∈ m.managed)
    (hG : ∀ core pts, G core → G pts → (∃ x ∈ core, ∃ y ∈ pts, Near env p vectors x y) → G (env.enum (core ++ pts)))
    (hcore : ∀ x pts, x ∈ m.managed → pts.Nodup → 2 ≤ pts.length → (∀ z ∈ pts, z ∈ m.managed) →
      (dget? o.labels x = some .core ∧ ∀ z ∈ pts, Near env p vectors x z ∨ MustLinked m x z) ∨
        (∀ z ∈ pts, z = x ∨ MustLinked m x z) → G pts)
    (hlocal : ∀ x pts, x ∈ m.managed → (∀ z ∈ pts, z ∈ m.managed) →
      (dget? o.labels x = some .core ∧ ∀ z ∈ pts, Near env p vectors x z) ∨
        (dget? o.labels x = some .singleCore ∧ pts = [x]) → G pts) :
    (dkeys o.cores).Nodup ∧ (∀ c pts, dget? o.cores c = some pts → G pts) ∧
      ∀ c pts, dget? o.locals c = some pts → ∃ q, G q ∧ ∀ z ∈ pts, z ∈ q := by
  obtain ⟨table, et⟩ := distanceTable_total (metric := env.metric) hne hv
  have hT : DbTable p m table := dbTable_of_ok ha et
  have hN := nearTable (env := env) (p := p) et
  obtain ⟨⟨labels, locals⟩, e1, hL⟩ := dbLocals_ok h hT
  obtain ⟨s, e1', hS⟩ := foldlM_inv (f := dbLocalStep p m table m.managed) (I := StarInv env p m vectors) (L := m.managed)
    (s := (dofList (m.managed.map fun x => (x, DLabel.unlabeled)), ([] : Dict α (List α))))
    (fun P x s hP hs => by
      obtain ⟨Q, e⟩ := hP
      obtain ⟨hx, hxP⟩ := mem_mid h.d.nodup e
      exact starStep_ok h hT hN hs hx hxP)
    (by
      refine ⟨?_, fun x hx => ?_, fun c pts hc => by simp [dget?] at hc⟩
      · show dkeys (dofList _) = _
        rw [dkeys_dofList_map]
        exact ounion_nil_of_nodup h.d.nodup
      · simp only [dget?_dofList_map] at hx
        split at hx <;> cases hx)
  have he : s = (labels, locals) := by
    have : dbLocals p m table m.managed = .ok s := e1'
    rw [e1] at this
    exact (Except.ok.inj this).symm
  subst he
  obtain ⟨core, e2, hcn, hcores⟩ := dbCores_ok (env := env) ha.enum h hL
  have hcl : ∀ x pts, dget? core x = some pts → Cluster m pts := fun x pts hx => by
    obtain ⟨h1, h2, h3, -⟩ := hcores x pts hx
    have := h2.good h hL h1
    exact ⟨by rintro rfl; simp at h3, this⟩
  have hlocals : Locals m locals := ⟨hL.nodup, fun c pts hc => by
    have := hL.pts c pts hc
    exact ⟨List.ne_nil_of_mem this.1, this.2⟩⟩
  obtain ⟨⟨cores, rest⟩, e3, hk, -, hrest, -⟩ := dbMergeAll_ok ha.enum h hT hcn hcl hlocals
  have hfin : dbFinish p m.managed labels cores rest = .ok o := by
    rw [← hr]
    unfold dbCluster
    simp only [bind, Except.bind]
    rw [et]
    simp only
    rw [e1]
    simp only
    rw [e2]
    simp only
    rw [e3]
  obtain ⟨hol, hoc, horest⟩ := dbFinish_recorded hfin
  rw [hol] at hcore hlocal
  have hGl : ∀ c pts, dget? locals c = some pts → G pts := fun c pts hc => by
    have hg := hL.pts c pts hc
    refine hlocal c pts (hg.2.1 c hg.1) hg.2.1 (hS.star c pts hc)
  have hGc : ∀ c pts, dget? core c = some pts → G pts := fun c pts hc => by
    obtain ⟨h1, ⟨own, ho, hz⟩, h3, -⟩ := hcores c pts hc
    refine hcore c pts h1 (dbCores_nodup ha.enum e2 hc) h3 (hcl c pts hc).2.1 ?_
    rcases ho with ⟨-, rfl⟩ | ⟨-, ho⟩
    · refine .inr fun z hzp => ?_
      rcases hz z hzp with h4 | h4
      · exact .inl (by simpa using h4)
      · exact .inr h4.2
    · rcases hS.star c own ho with ⟨h5, h6⟩ | ⟨-, rfl⟩
      · refine .inl ⟨h5, fun z hzp => ?_⟩
        rcases hz z hzp with h4 | h4
        · exact .inl (h6 z h4)
        · exact .inr h4.2
      · refine .inr fun z hzp => ?_
        rcases hz z hzp with h4 | h4
        · exact .inl (by simpa using h4)
        · exact .inr h4.2
  obtain ⟨h1, h2⟩ := dbMergeAll_gen (G := G) (env := env) (p := p) (table := table) (m := m)
    (fun core pts hc hp ⟨x, hx, y, hy, hd⟩ =>
      hG core pts hc hp ⟨x, hx, y, hy, (hN x (hsub core hc x hx) y (hsub pts hp y hy)).1 hd⟩) e3 hGc hL.nodup hGl
  refine ⟨by rw [hoc, hk]; exact hcn, fun c pts hc => h1 c pts (by rw [← hoc]; exact hc), fun c pts hc => ?_⟩
  obtain ⟨q, hq, hz⟩ := horest c pts hc
  exact ⟨q, hGl c q (h2 c q hq), hz⟩

end Verif
