import Verif.Proofs.DBKeep
import Verif.Proofs.Queries
import Verif.Spec.DBSeparated

/-
C-DBScan when the radius separates the classes.
-/

set_option linter.unusedSectionVars false

namespace Verif

variable {α V δ : Type} [LinearOrder α] [LinearOrder δ] {env : DbEnv α V δ} {p : DbParams δ} {m : Manager α}
  {table : Dict α (Dict α δ)} {vectors : Dict α V} {f : α → Nat}

/-! ### Local clusters -/

theorem length_le_classSize {ids S : List α} {x : α} (hS : S.Nodup) (h : ∀ y ∈ S, y ∈ ids ∧ f x = f y) :
    S.length ≤ classSize ids f (f x) := by
  unfold classSize
  exact (List.subperm_of_subset hS fun y hy => by
    rw [List.mem_filter]; exact ⟨(h y hy).1, by simpa using (h y hy).2.symm⟩).length_le

theorem classSize_le_length {ids S : List α} {x : α} (hn : ids.Nodup) (h : ∀ y ∈ ids, f x = f y → y ∈ S) :
    classSize ids f (f x) ≤ S.length := by
  unfold classSize
  exact (List.subperm_of_subset (hn.filter _) fun y hy => by
    rw [List.mem_filter] at hy; exact h y hy.1 (by simpa using Eq.symm (of_decide_eq_true hy.2))).length_le

/-- The local clusters, `P` being the IDs already treated. -/
structure SepInv (p : DbParams δ) (m : Manager α) (f : α → Nat) (P : List α) (s : Dict α DLabel × Dict α (List α)) :
    Prop where
  keys : dkeys s.1 = m.managed
  label : ∀ x, dget? s.1 x ≠ some .singleCore
  noise : ∀ x, dget? s.1 x = some .noise → x ∈ P ∧ ¬ Dense p m.managed f x
  locals : ∀ c pts, dget? s.2 c = some pts → c ∈ P ∧ Dense p m.managed f c ∧ ∀ z, z ∈ pts ↔ z ∈ m.managed ∧ f c = f z

theorem sepStep_ok (h : Inv m) (hT : DbTable p m table) (hf : Satisfies m f)
    (hN : ∀ x ∈ m.managed, ∀ y ∈ m.managed, (∃ d, pairDistance table (x, y) = .ok d ∧ d ≤ p.eps) ↔ f x = f y)
    {P : List α} {s : Dict α DLabel × Dict α (List α)} (hs : SepInv p m f P s) {x : α} (hx : x ∈ m.managed) :
    ∃ s', dbLocalStep p m table m.managed s x = .ok s' ∧ SepInv p m f (P ++ [x]) s' := by
  obtain ⟨v, hv⟩ := dget?_isSome_of_mem (d := s.1) (k := x) (by rw [hs.keys]; exact hx)
  unfold dbLocalStep
  rw [dget_of_dget? hv]
  simp only [bind, Except.bind]
  rw [if_pos (by simpa [hv] using hs.label x)]
  obtain ⟨r, e1, hrn, hrm, -, hr⟩ := dbNeighbors_ok hT hs.keys h.d.nodup hx
  obtain ⟨b, e2, hb⟩ := dbConflict_ok h hrm hrm
  simp only [e1, e2]
  have hr' : ∀ y, y ∈ r ↔ y ∈ m.managed ∧ f x = f y := fun y => by
    rw [hr y]
    constructor
    · rintro ⟨h1, -, h2⟩; exact ⟨h1, (hN x hx y h1).1 h2⟩
    · rintro ⟨h1, h2⟩; exact ⟨h1, hs.label y, (hN x hx y h1).2 h2⟩
  have hlen : r.length = classSize m.managed f (f x) :=
    le_antisymm (length_le_classSize hrn fun y hy => (hr' y).1 hy)
      (classSize_le_length h.d.nodup fun y hy hxy => (hr' y).2 ⟨hy, hxy⟩)
  have hlab : ∀ (w : DLabel), dkeys (dset s.1 x w) = m.managed := fun w => by
    rw [dkeys_dset_of_mem _ (by rw [hs.keys]; exact hx)]; exact hs.keys
  have hbf : b = false := by
    cases b with
    | false => rfl
    | true =>
      obtain ⟨y, hy, z, hz, hyz⟩ := hb.1 rfl
      exact absurd (((hr' y).1 hy).2.symm.trans ((hr' z).1 hz).2) (satisfies_sep hf hyz)
  subst hbf
  by_cases hl : r.length < p.minSamples
  · rw [if_pos hl]
    refine ⟨_, rfl, hlab _, fun y hy => ?_, fun y hy => ?_, fun c pts hc => ?_⟩
    · simp only [dget?_dset] at hy
      split at hy
      · cases hy
      · exact hs.label y hy
    · simp only [dget?_dset] at hy
      split at hy
      · rename_i he
        subst he
        exact ⟨by simp, fun hd => by unfold Dense at hd; omega⟩
      · have := hs.noise y hy
        exact ⟨by simp [this.1], this.2⟩
    · have := hs.locals c pts hc
      exact ⟨by simp [this.1], this.2⟩
  · rw [if_neg hl]
    simp only [Bool.false_eq_true, if_false]
    refine ⟨_, rfl, hlab _, fun y hy => ?_, fun y hy => ?_, fun c pts hc => ?_⟩
    · simp only [dget?_dset] at hy
      split at hy
      · cases hy
      · exact hs.label y hy
    · simp only [dget?_dset] at hy
      split at hy
      · cases hy
      · have := hs.noise y hy
        exact ⟨by simp [this.1], this.2⟩
    · simp only [dget?_dset] at hc
      split at hc
      · rename_i he
        subst he
        cases hc
        exact ⟨by simp, by unfold Dense; omega, hr'⟩
      · have := hs.locals c pts hc
        exact ⟨by simp [this.1], this.2⟩

/-! ### Core clusters -/

theorem dbTake_taken {c : α} {l : List α} {s t : Dict α α × List α} (e : l.foldlM (dbTake env c) s = .ok t) {z : α}
    (hz : (z ∈ l ∧ dget? s.1 z = some env.none) ∨ z ∈ s.2) : z ∈ t.2 := by
  induction l generalizing s with
  | nil => cases e; simpa using hz
  | cons a l ih =>
    rw [List.foldlM_cons] at e
    cases e1 : dbTake env c s a with
    | error _ => rw [e1] at e; cases e
    | ok s1 =>
      rw [e1] at e
      refine ih e ?_
      unfold dbTake at e1
      simp only [bind, Except.bind] at e1
      cases e2 : dget s.1 a with
      | error _ => rw [e2] at e1; cases e1
      | ok v =>
        rw [e2] at e1
        simp only at e1
        have hv := dget_eq_ok.1 e2
        by_cases hvn : v = env.none
        · rw [if_pos hvn] at e1
          cases e1
          by_cases haz : a = z
          · exact .inr (by simp [haz])
          · rcases hz with ⟨h1, h2⟩ | h1
            · refine .inl ⟨by simpa [Ne.symm haz] using h1, ?_⟩
              simp only [dget?_dset, if_neg haz]
              exact h2
            · exact .inr (by simp [h1])
        · rw [if_neg hvn] at e1
          cases e1
          rcases hz with ⟨h1, h2⟩ | h1
          · refine .inl ⟨?_, h2⟩
            rcases List.mem_cons.1 h1 with rfl | h1
            · rw [hv] at h2; exact absurd (Option.some.inj h2) hvn
            · exact h1
          · exact .inr h1

theorem dbLink_taken (henum : SetOrder env.enum) {labels : Dict α DLabel} {locals clustersOf : Dict α (List α)} {x : α}
    {own : List α} {s s' : Dict α α × Dict α (List α)} {y : α}
    (e : dbLinkStep env labels locals clustersOf x x own s y = .ok s') {z : α}
    (hz : (z ∈ own ∧ dget? s.1 z = some env.none) ∨ ∃ pts, dget? s.2 x = some pts ∧ z ∈ pts) :
    ∃ pts, dget? s'.2 x = some pts ∧ z ∈ pts := by
  unfold dbLinkStep at e
  simp only [bind, Except.bind] at e
  split at e
  · cases e
  · rename_i o eo
    split at e
    · cases e
    · rename_i t et
      split at e
      · cases e
      · rename_i old eold
        cases e
        refine ⟨env.enum (old ++ t.2 ++ [x, y]), by simp only [dget?_dset, if_true], ?_⟩
        rw [(henum _).2 z]
        rcases hz with ⟨h1, h2⟩ | ⟨pts, h1, h2⟩
        · have hin : z ∈ dbAll env own o := by
            cases o with
            | none => exact h1
            | some others => exact ((henum _).2 z).2 (by simp [h1])
          have := dbTake_taken et (.inl ⟨hin, h2⟩)
          simp [this]
        · have h3 := dget_eq_ok.1 eold
          rw [h1] at h3
          cases h3
          simp [h2]

theorem dbMerge_taken (henum : SetOrder env.enum) {labels : Dict α DLabel} {locals clustersOf compatible : Dict α (List α)}
    (hc : ∀ x ∈ m.managed, ∃ ys, dget? compatible x = some ys ∧ ys.Sublist m.managed ∧
      ∀ y, y ∈ ys ↔ y ∈ m.managed ∧ MustLinked m x y) {x : α} (hx : x ∈ m.managed)
    {own : List α} (hlab : ∃ v, dget? labels x = some v ∧ v ≠ .noise) (ho : dget? locals x = some own)
    {s s' : List α × Dict α α × Dict α (List α)} (ha : x ∉ s.1)
    (e : dbMergeStep env labels locals clustersOf compatible s x = .ok s') {z : α} (hz : z ∈ own)
    (hzn : dget? s.2.1 z = some env.none) : ∃ pts, dget? s'.2.2 x = some pts ∧ z ∈ pts := by
  unfold dbMergeStep at e
  rw [if_pos ha] at e
  obtain ⟨ys, hys, -, hmem⟩ := hc x hx
  rw [dget_of_dget? hys] at e
  simp only [bind, Except.bind] at e
  have hnil : ys ≠ [] := List.ne_nil_of_mem ((hmem x).2 ⟨hx, MustLinked.refl m x⟩)
  rw [if_neg hnil] at e
  have hown : dbOwn labels locals clustersOf x = .ok (x, own) := by
    unfold dbOwn
    obtain ⟨v, hv, hvn⟩ := hlab
    rw [dget_of_dget? hv]
    simp only [bind, Except.bind]
    rw [if_neg hvn, if_pos (mem_dkeys_of_dget? ho), dget_of_dget? ho]
    rfl
  rw [hown] at e
  simp only at e
  split at e
  · cases e
  · rename_i t et
    cases e
    cases ys with
    | nil => exact absurd rfl hnil
    | cons y ys =>
      rw [List.foldlM_cons] at et
      cases e1 : dbLinkStep env labels locals clustersOf x x own s.2 y with
      | error _ => rw [e1] at et; cases et
      | ok s1 =>
        rw [e1] at et
        exact foldlM_stays (I := fun s : Dict α α × Dict α (List α) => ∃ pts, dget? s.2 x = some pts ∧ z ∈ pts)
          (fun s y s' e hs => dbLink_taken henum e (.inr hs)) et (dbLink_taken henum e1 (.inl ⟨hz, hzn⟩))

theorem foldlM_reach {ι σ ε : Type} {f : σ → ι → Except ε σ} {J : σ → Prop} {x : ι}
    (est : ∀ s s', f s x = .ok s' → J s') (stay : ∀ s y s', f s y = .ok s' → J s → J s') {L : List ι} (hx : x ∈ L)
    {s s' : σ} (e : L.foldlM f s = .ok s') : J s' := by
  induction L generalizing s with
  | nil => cases hx
  | cons a L ih =>
    rw [List.foldlM_cons] at e
    cases e1 : f s a with
    | error _ => rw [e1] at e; cases e
    | ok s1 =>
      rw [e1] at e
      rcases List.mem_cons.1 hx with rfl | hx
      · exact foldlM_stays stay e (est _ _ e1)
      · exact ih hx e

/-- A class of at least two IDs, each of which has the whole class as local cluster, has exactly one core cluster. -/
theorem dbCores_class (henum : SetOrder env.enum) (h : Inv m) {labels : Dict α DLabel} {locals core : Dict α (List α)}
    (hL : LocInv m m.managed (labels, locals)) {C : α → Prop} {x y : α} (hxm : x ∈ m.managed) (hym : y ∈ m.managed)
    (hCx : C x) (hCy : C y) (hne : x ≠ y)
    (hC : ∀ k ∈ m.managed, C k → (∃ v, dget? labels k = some v ∧ v ≠ .noise) ∧
      ∃ own, dget? locals k = some own ∧ ∀ z ∈ m.managed, C z → z ∈ own)
    (hml : ∀ k z, MustLinked m k z → (C z ↔ C k))
    (hloc : ∀ k own, dget? locals k = some own → ∀ z ∈ own, (C z ↔ C k))
    (e : dbCores env m m.managed labels locals = .ok core) :
    ∃ k, C k ∧ (∃ pts, dget? core k = some pts ∧ ∀ z ∈ m.managed, C z → z ∈ pts) ∧
      ∀ k' ∈ m.managed, C k' → k' ∈ dkeys core → k' = k := by
  obtain ⟨compatible, ec, hc⟩ := dbCompatible_ok h
  have hn : m.managed.Nodup := h.d.nodup
  have h0 : CoreInv m labels locals (dofList (m.managed.map fun x => (x, env.none)),
      dofList (m.managed.map fun x => (x, ([] : List α)))) := by
    refine ⟨?_, ?_, ?_⟩
    · show dkeys (dofList _) = _
      rw [dkeys_dofList_map]
      exact ounion_nil_of_nodup hn
    · show dkeys (dofList _) = _
      rw [dkeys_dofList_map]
      exact ounion_nil_of_nodup hn
    · intro x pts hx
      simp only [dget?_dofList_map] at hx
      split at hx
      · rename_i hxm
        cases hx
        by_cases hnz : dget? labels x = some .noise
        · exact ⟨[x], .inl ⟨hnz, rfl⟩, by simp⟩
        · rcases hL.done x hxm with h1 | h1
          · exact absurd h1 hnz
          · obtain ⟨own, ho⟩ := dget?_isSome_of_mem h1
            exact ⟨own, .inr ⟨hnz, ho⟩, by simp⟩
      · cases hx
  obtain ⟨s, es, hs, -, hkept⟩ := foldlM_inv (f := dbMergeStep env labels locals (dbClustersOf m.managed locals) compatible)
    (I := fun P s => CoreInv m labels locals s.2 ∧ s.1 = P ∧
      ((∃ k ∈ P, C k ∧ k ≠ env.none ∧ (∀ z ∈ m.managed, C z → dget? s.2.1 z = some k) ∧
          ∃ pts, dget? s.2.2 k = some pts ∧ ∀ z ∈ m.managed, C z → z ∈ pts) ∨
        ((∀ k ∈ P, C k → k = env.none) ∧ ∀ z ∈ m.managed, C z → dget? s.2.1 z = some env.none)))
    (L := m.managed) (fun P k s hP hs => by
      obtain ⟨Q, e⟩ := hP
      obtain ⟨hs, hsP, hI⟩ := hs
      obtain ⟨hk, hkP⟩ := mem_mid hn e
      obtain ⟨s', e', hs', h1, h2, -⟩ :=
        dbMergeStep_ok (clustersOf := dbClustersOf m.managed locals) henum h hL hc hk hs (by rw [hsP]; exact hkP)
      obtain ⟨own, ys, ho, hys, hA, hT⟩ := dbMerge_assigned henum hL hc hk (by rw [hsP]; exact hkP) e'
      refine ⟨s', e', hs', by rw [h1, hsP], ?_⟩
      have hside : ∀ z, z ∈ own ∨ z ∈ ys → (C z ↔ C k) := by
        rintro z (hz | hz)
        · rcases ho with ⟨-, rfl⟩ | ⟨-, ho⟩
          · rw [List.mem_singleton] at hz; rw [hz]
          · exact hloc k own ho z hz
        · exact hml k z (hys z hz)
      rcases hI with ⟨k', hk', hCk', hkn, hkk, pts, hpts, hin⟩ | ⟨hI1, hI2⟩
      · refine .inl ⟨k', by simp [hk'], hCk', hkn, fun z hz hCz => ?_, pts, ?_, hin⟩
        · rcases hA z with h5 | ⟨h5, -, -⟩
          · rw [h5]; exact hkk z hz hCz
          · rw [hkk z hz hCz] at h5
            exact absurd (Option.some.inj h5) hkn
        · rw [h2 k' (by rintro rfl; exact hkP hk')]; exact hpts
      · by_cases hCk : C k
        · by_cases hkn : k = env.none
          · refine .inr ⟨fun z hz hCz => ?_, fun z hz hCz => ?_⟩
            · rcases List.mem_append.1 hz with hz | hz
              · exact hI1 z hz hCz
              · rw [List.mem_singleton] at hz; rw [hz]; exact hkn
            · rcases hA z with h5 | ⟨-, h5, -⟩
              · rw [h5]; exact hI2 z hz hCz
              · rw [h5, hkn]
          · obtain ⟨hlab, own', ho', hown'⟩ := hC k hk hCk
            have hoo : own = own' := by
              rcases ho with ⟨h6, -⟩ | ⟨-, ho⟩
              · obtain ⟨v, hv, hvn⟩ := hlab
                rw [hv] at h6
                exact absurd (Option.some.inj h6) hvn
              · rw [ho] at ho'; exact Option.some.inj ho'
            subst hoo
            have htk : ∀ z ∈ m.managed, C z → ∃ pts, dget? s'.2.2 k = some pts ∧ z ∈ pts := fun z hz hCz =>
              dbMerge_taken henum hc hk hlab ho' (by rw [hsP]; exact hkP) e' (hown' z hz hCz) (hI2 z hz hCz)
            refine .inl ⟨k, by simp, hCk, hkn, fun z hz hCz => hT z (hown' z hz hCz) (hI2 z hz hCz), ?_⟩
            obtain ⟨pts, hpts, -⟩ := htk k hk hCk
            refine ⟨pts, hpts, fun z hz hCz => ?_⟩
            obtain ⟨pts', hpts', hz'⟩ := htk z hz hCz
            rw [hpts] at hpts'
            cases hpts'
            exact hz'
        · refine .inr ⟨fun z hz hCz => ?_, fun z hz hCz => ?_⟩
          · rcases List.mem_append.1 hz with hz | hz
            · exact hI1 z hz hCz
            · rw [List.mem_singleton] at hz; rw [hz] at hCz; exact absurd hCz hCk
          · rcases hA z with h5 | ⟨-, -, h5⟩
            · rw [h5]; exact hI2 z hz hCz
            · exact absurd ((hside z h5).1 hCz) hCk)
    (s := ([], dofList (m.managed.map fun x => (x, env.none)), dofList (m.managed.map fun x => (x, ([] : List α)))))
    ⟨h0, rfl, .inr ⟨by simp, fun z hz _ => by simp only [dget?_dofList_map, if_pos hz]⟩⟩
  obtain ⟨k, hkm, hCk, -, hkk, pts, hpts, hin⟩ : ∃ k ∈ m.managed, C k ∧ k ≠ env.none ∧
      (∀ z ∈ m.managed, C z → dget? s.2.1 z = some k) ∧
      ∃ pts, dget? s.2.2 k = some pts ∧ ∀ z ∈ m.managed, C z → z ∈ pts := by
    rcases hkept with h1 | ⟨h1, -⟩
    · exact h1
    · exact absurd ((h1 x hxm hCx).trans (h1 y hym hCy).symm) hne
  have hlen : 2 ≤ pts.length := by
    have hxp := hin x hxm hCx
    have hyp := hin y hym hCy
    match pts, hxp, hyp with
    | [a], hxp, hyp =>
      rw [List.mem_singleton] at hxp hyp
      exact absurd (hxp.trans hyp.symm) hne
    | a :: b :: l, _, _ => simp
  have hpop : ∀ (d : Dict α (List α)) (z : α), z ≠ k → dget? d k = some pts → dget? (dpop d z) k = some pts := fun d z hz hd => by
    rw [dget?_dpop, if_neg (Ne.symm hz)]; exact hd
  unfold dbCores at e
  simp only [bind, Except.bind] at e
  rw [ec] at e
  simp only at e
  rw [es] at e
  simp only at e
  split at e
  · cases e
  · rename_i core' e1
    have hclean : ∀ (d d' : Dict α (List α)) (z : α), dbClean s.2.1 d z = .ok d' → d' = d ∨ d' = dpop d z := by
      intro d d' z e
      unfold dbClean at e
      simp only [bind, Except.bind] at e
      split at e
      · cases e
      · split at e
        · cases e; exact .inr rfl
        · split at e
          · cases e
          · split at e <;> cases e
            · exact .inr rfl
            · exact .inl rfl
    have hsingle : ∀ (d d' : Dict α (List α)) (z : α), dbCleanSingle d z = .ok d' → d' = d ∨ d' = dpop d z := by
      intro d d' z e
      unfold dbCleanSingle at e
      simp only [bind, Except.bind] at e
      split at e
      · split at e
        · cases e
        · split at e <;> cases e
          · exact .inr rfl
          · exact .inl rfl
      · cases e; exact .inl rfl
    have hgone : ∀ (d d' : Dict α (List α)) (z a : α), d' = d ∨ d' = dpop d z → dget? d a = none → dget? d' a = none := by
      rintro d d' z a (rfl | rfl) hd
      · exact hd
      · rw [dget?_dpop]; split
        · rfl
        · exact hd
    refine ⟨k, hCk, ⟨pts, ?_, hin⟩, fun k' hk' hCk' hkc => ?_⟩
    · have h1 := foldlM_stays (I := fun d : Dict α (List α) => dget? d k = some pts)
        (fun d z d' e hd => by
          by_cases hzk : z = k
          · subst hzk
            unfold dbClean at e
            simp only [bind, Except.bind] at e
            rw [dget_of_dget? hd, dget_of_dget? (hkk z hkm hCk)] at e
            simp only at e
            rw [if_neg (by rintro rfl; simp at hlen), if_neg (by simp)] at e
            cases e
            exact hd
          · rcases hclean d d' z e with rfl | rfl
            · exact hd
            · exact hpop d z hzk hd) e1 hpts
      exact foldlM_stays (I := fun d : Dict α (List α) => dget? d k = some pts)
        (fun d z d' e hd => by
          by_cases hzk : z = k
          · subst hzk
            unfold dbCleanSingle at e
            simp only [bind, Except.bind] at e
            rw [if_pos (mem_dkeys_of_dget? hd), dget_of_dget? hd] at e
            simp only at e
            rw [if_neg (by omega)] at e
            cases e
            exact hd
          · rcases hsingle d d' z e with rfl | rfl
            · exact hd
            · exact hpop d z hzk hd) e h1
    · by_contra hkk'
      have h1 : dget? core' k' = none := foldlM_reach (J := fun d : Dict α (List α) => dget? d k' = none) (x := k')
        (fun d d' e => by
          unfold dbClean at e
          simp only [bind, Except.bind] at e
          split at e
          · cases e
          · split at e
            · cases e; rw [dget?_dpop, if_pos rfl]
            · rw [dget_of_dget? (hkk k' hk' hCk')] at e
              simp only at e
              rw [if_pos (Ne.symm hkk')] at e
              cases e
              rw [dget?_dpop, if_pos rfl])
        (fun d z d' e hd => hgone d d' z k' (hclean d d' z e) hd) hk' e1
      have h2 : dget? core k' = none := foldlM_stays (I := fun d : Dict α (List α) => dget? d k' = none)
        (fun d z d' e hd => hgone d d' z k' (hsingle d d' z e) hd) e h1
      obtain ⟨q, hq⟩ := dget?_isSome_of_mem hkc
      rw [h2] at hq
      cases hq

/-! ### Growing -/

theorem dbGrow_gen₂ {G H : List α → Prop}
    (hG : ∀ core pts, G core → H pts → (∃ x ∈ core, ∃ y ∈ pts, ∃ d, pairDistance table (x, y) = .ok d ∧ d ≤ p.eps) →
      G (env.enum (core ++ pts))) {fuel : Nat} {s s' : List α × Dict α (List α)}
    (e : dbGrow env p m table fuel s = .ok s') (hc : G s.1) (hn : (dkeys s.2).Nodup)
    (hl : ∀ c pts, dget? s.2 c = some pts → H pts) :
    G s'.1 ∧ (dkeys s'.2).Nodup ∧ ∀ c pts, dget? s'.2 c = some pts → dget? s.2 c = some pts := by
  induction fuel generalizing s with
  | zero =>
    unfold dbGrow at e
    split at e
    · cases e
    · cases e; exact ⟨hc, hn, fun _ _ h => h⟩
  | succ fuel ih =>
    unfold dbGrow at e
    split at e
    · simp only [bind, Except.bind] at e
      cases e1 : dbDistances table s.1 s.2 with
      | error _ => rw [e1] at e; cases e
      | ok d =>
        rw [e1] at e
        simp only at e
        cases e2 : dbClosest d with
        | error _ => rw [e2] at e; cases e
        | ok c =>
          rw [e2] at e
          simp only at e
          cases e3 : dget d c with
          | error _ => rw [e3] at e; cases e
          | ok v =>
            rw [e3] at e
            simp only at e
            by_cases h1 : p.eps < v
            · rw [if_pos h1] at e
              cases e
              exact ⟨hc, hn, fun _ _ h => h⟩
            · rw [if_neg h1] at e
              cases e4 : dget s.2 c with
              | error _ => rw [e4] at e; cases e
              | ok pts =>
                rw [e4] at e
                simp only at e
                cases e5 : dbConflict m s.1 pts with
                | error _ => rw [e5] at e; cases e
                | ok b =>
                  rw [e5] at e
                  simp only at e
                  cases b with
                  | true =>
                    simp only [if_true] at e
                    cases e
                    exact ⟨hc, hn, fun _ _ h => h⟩
                  | false =>
                    simp only [Bool.false_eq_true, if_false] at e
                    have hpts := dget_eq_ok.1 e4
                    obtain ⟨x, hx, y, hy, hd⟩ := dbDistances_pair hn e1 (dget_eq_ok.1 e3) hpts
                    have hget : ∀ a q, dget? (dpop s.2 c) a = some q → dget? s.2 a = some q := fun a q ha => by
                      rw [dget?_dpop] at ha
                      split at ha
                      · cases ha
                      · exact ha
                    obtain ⟨i1, i2, i3⟩ := ih e (hG _ _ hc (hl c pts hpts) ⟨x, hx, y, hy, v, hd, le_of_not_gt h1⟩)
                      (nodup_dkeys_dpop c hn) (fun a q ha => hl a q (hget a q ha))
                    exact ⟨i1, i2, fun a q ha => hget a q (i3 a q ha)⟩
    · cases e; exact ⟨hc, hn, fun _ _ h => h⟩

theorem dbMergeAll_gen₂ {G H : List α → Prop}
    (hG : ∀ core pts, G core → H pts → (∃ x ∈ core, ∃ y ∈ pts, ∃ d, pairDistance table (x, y) = .ok d ∧ d ≤ p.eps) →
      G (env.enum (core ++ pts))) {core locals : Dict α (List α)} {s' : Dict α (List α) × Dict α (List α)}
    (e : dbMergeAll env p m table core locals = .ok s') (hc : ∀ c pts, dget? core c = some pts → G pts)
    (hn : (dkeys locals).Nodup) (hl : ∀ c pts, dget? locals c = some pts → H pts) :
    (∀ c pts, dget? s'.1 c = some pts → G pts) ∧ ∀ c pts, dget? s'.2 c = some pts → dget? locals c = some pts := by
  have key : ∀ (L : List α) (s : Dict α (List α) × Dict α (List α)),
      L.foldlM (dbGrowStep env p m table) s = .ok s' → (∀ c pts, dget? s.1 c = some pts → G pts) → (dkeys s.2).Nodup →
      (∀ c pts, dget? s.2 c = some pts → H pts) →
      (∀ c pts, dget? s'.1 c = some pts → G pts) ∧ ∀ c pts, dget? s'.2 c = some pts → dget? s.2 c = some pts := by
    intro L
    induction L with
    | nil => intro s e hc _ _; cases e; exact ⟨hc, fun _ _ h => h⟩
    | cons x L ih =>
      intro s e hc hn hl
      rw [List.foldlM_cons] at e
      unfold dbGrowStep at e
      simp only [bind, Except.bind] at e
      cases e1 : dget s.1 x with
      | error _ => rw [e1] at e; cases e
      | ok c =>
        rw [e1] at e
        simp only at e
        cases e2 : dbGrow env p m table s.2.length (c, s.2) with
        | error _ => rw [e2] at e; cases e
        | ok t =>
          rw [e2] at e
          obtain ⟨h1, h2, h3⟩ := dbGrow_gen₂ hG e2 (hc x c (dget_eq_ok.1 e1)) hn hl
          obtain ⟨i1, i2⟩ := ih _ e (fun a q ha => by
            simp only [dget?_dset] at ha
            split at ha
            · cases ha; exact h1
            · exact hc a q ha) h2 (fun a q ha => hl a q (h3 a q ha))
          exact ⟨i1, fun a q ha => h3 a q (i2 a q ha)⟩
  exact key _ _ e hc hn hl

/-! ### The recorded clusters -/

structure SepClusters (p : DbParams δ) (m : Manager α) (f : α → Nat) (o : DbObject α) : Prop where
  nodup : (dkeys o.cores).Nodup
  /-- a core cluster is a part of a class with enough IDs, or a must-link group -/
  cores : ∀ k pts, dget? o.cores k = some pts → k ∈ m.managed ∧ k ∈ pts ∧ (∀ z ∈ pts, z ∈ m.managed) ∧
    ((Dense p m.managed f k ∧ ∀ z ∈ pts, f k = f z) ∨ (¬ Dense p m.managed f k ∧ ∀ z, z ∈ pts ↔ MustLinked m k z))
  /-- a local cluster is a part of a class with enough IDs -/
  locals : ∀ k pts, dget? o.locals k = some pts → Dense p m.managed f k ∧ ∀ z ∈ pts, z ∈ m.managed ∧ f k = f z
  dense : ∀ x ∈ m.managed, ∀ y ∈ m.managed, Dense p m.managed f x → f x = f y → x ≠ y → ∃ k, f x = f k ∧
    (∃ pts, dget? o.cores k = some pts ∧ ∀ z ∈ m.managed, f x = f z → z ∈ pts) ∧
    ∀ k' ∈ dkeys o.cores, f x = f k' → k' = k
  sparse : ∀ x ∈ m.managed, ∀ y ∈ m.managed, ¬ Dense p m.managed f x → MustLinked m x y → x ≠ y →
    ∃ k, MustLinked m x k ∧ k ∈ dkeys o.cores

theorem Dense.congr {ids : List α} {x y : α} (hxy : f x = f y) : Dense p ids f x ↔ Dense p ids f y := by
  unfold Dense; rw [hxy]

theorem dbCluster_separated (h : Inv m) (ha : DbAssumptions env p) (hne : m.managed ≠ []) (hv : HasVectors m vectors)
    {o : DbObject α} (hr : dbCluster env p m (some vectors) none = .ok o) (hf : Satisfies m f)
    (hs : RadiusSeparates env p vectors m.managed f) : SepClusters p m f o := by
  obtain ⟨table, et⟩ := distanceTable_total (metric := env.metric) hne hv
  have hT : DbTable p m table := dbTable_of_ok ha et
  have hN : ∀ x ∈ m.managed, ∀ y ∈ m.managed, (∃ d, pairDistance table (x, y) = .ok d ∧ d ≤ p.eps) ↔ f x = f y :=
    fun x hx y hy => (nearTable (env := env) (p := p) et x hx y hy).trans (hs x hx y hy)
  obtain ⟨⟨labels, locals⟩, e1, hL⟩ := dbLocals_ok h hT
  obtain ⟨s, e1', hS⟩ := foldlM_inv (f := dbLocalStep p m table m.managed) (I := SepInv p m f) (L := m.managed)
    (s := (dofList (m.managed.map fun x => (x, DLabel.unlabeled)), ([] : Dict α (List α))))
    (fun P x s hP hs => by
      obtain ⟨Q, e⟩ := hP
      exact sepStep_ok h hT hf hN hs (mem_mid h.d.nodup e).1)
    (by
      refine ⟨?_, fun x hx => ?_, fun x hx => ?_, fun c pts hc => by simp [dget?] at hc⟩
      · show dkeys (dofList _) = _
        rw [dkeys_dofList_map]
        exact ounion_nil_of_nodup h.d.nodup
      · simp only [dget?_dofList_map] at hx
        split at hx <;> cases hx
      · simp only [dget?_dofList_map] at hx
        split at hx <;> cases hx)
  have he : s = (labels, locals) := by
    have : dbLocals p m table m.managed = .ok s := e1'
    rw [e1] at this
    exact (Except.ok.inj this).symm
  subst he
  obtain ⟨core, e2, hcn, hcores⟩ := dbCores_ok (env := env) ha.enum h hL
  have hcl : ∀ x pts, dget? core x = some pts → Cluster m pts := fun x pts hx => by
    obtain ⟨h1, h2, h3, -⟩ := hcores x pts hx
    have := h2.good h hL h1
    exact ⟨by rintro rfl; simp at h3, this⟩
  have hlocals : Locals m locals := ⟨hL.nodup, fun c pts hc => by
    have := hL.pts c pts hc
    exact ⟨List.ne_nil_of_mem this.1, this.2⟩⟩
  obtain ⟨⟨cores, rest⟩, e3, hk, hcl', hrest, hold⟩ := dbMergeAll_ok ha.enum h hT hcn hcl hlocals
  have hfin : dbFinish p m.managed labels cores rest = .ok o := by
    rw [← hr]
    unfold dbCluster
    simp only [bind, Except.bind]
    rw [et]
    simp only
    rw [e1]
    simp only
    rw [e2]
    simp only
    rw [e3]
  obtain ⟨-, hoc, horest⟩ := dbFinish_recorded hfin
  have hmlf : ∀ {k z : α}, MustLinked m k z → f k = f z := fun hkz => satisfies_chain hf hkz
  have hmlm : ∀ {k z : α}, k ∈ m.managed → MustLinked m k z → z ∈ m.managed := fun hk hkz => hkz.mem h hk
  -- the core clusters before they grow
  have hgen := dbMergeAll_gen₂ (env := env) (p := p) (table := table) (m := m)
    (G := fun pts => (∃ c ∈ m.managed, Dense p m.managed f c ∧ ∀ z ∈ pts, z ∈ m.managed ∧ f c = f z) ∨
      (∃ c ∈ m.managed, ¬ Dense p m.managed f c ∧ ∀ z ∈ pts, MustLinked m c z))
    (H := fun pts => ∃ c ∈ m.managed, Dense p m.managed f c ∧ ∀ z ∈ pts, z ∈ m.managed ∧ f c = f z)
    (by
      rintro A B hA ⟨c', hc', hd', hB⟩ ⟨x, hx, y, hy, hxy⟩
      rcases hA with ⟨c, hc, hd, hA⟩ | ⟨c, hc, hd, hA⟩
      · refine .inl ⟨c, hc, hd, fun z hz => ?_⟩
        rw [(ha.enum _).2 z, List.mem_append] at hz
        have hxy' := (hN x (hA x hx).1 y (hB y hy).1).1 hxy
        rcases hz with hz | hz
        · exact hA z hz
        · exact ⟨(hB z hz).1, ((hA x hx).2.trans hxy').trans ((hB y hy).2.symm.trans (hB z hz).2)⟩
      · have hxy' := (hN x (hmlm hc (hA x hx)) y (hB y hy).1).1 hxy
        exact absurd ((Dense.congr (((hmlf (hA x hx)).trans hxy').trans (hB y hy).2.symm)).2 hd') hd)
    e3
    (by
      intro c pts hc
      obtain ⟨h1, ⟨own, ho, hz⟩, -, -⟩ := hcores c pts hc
      rcases ho with ⟨h2, rfl⟩ | ⟨-, ho⟩
      · refine .inr ⟨c, h1, (hS.noise c h2).2, fun z hzp => ?_⟩
        rcases hz z hzp with h4 | h4
        · rw [List.mem_singleton] at h4; rw [h4]; exact MustLinked.refl m c
        · exact h4.2
      · obtain ⟨-, h3, h4⟩ := hS.locals c own ho
        refine .inl ⟨c, h1, h3, fun z hzp => ?_⟩
        rcases hz z hzp with h5 | h5
        · exact (h4 z).1 h5
        · exact ⟨h5.1, hmlf h5.2⟩)
    hL.nodup
    (by
      intro c pts hc
      obtain ⟨h2, h3, h4⟩ := hS.locals c pts hc
      exact ⟨c, h2, h3, fun z hz => (h4 z).1 hz⟩)
  refine ⟨by rw [hoc]; exact hk.symm ▸ hcn, fun k pts hkp => ?_, fun k pts hkp => ?_, fun x hx y hy hd hxy hne' => ?_,
    fun x hx y hy hd hxy hne' => ?_⟩
  · rw [hoc] at hkp
    obtain ⟨old, ho, hoz⟩ := hold k pts hkp
    obtain ⟨h1, -, -, hW⟩ := hcores k old ho
    have hkin : k ∈ pts := hoz k (hW k h1 (MustLinked.refl m k))
    refine ⟨h1, hkin, (hcl' k pts hkp).2.1, ?_⟩
    rcases hgen.1 k pts hkp with ⟨c, hc, hd, hz⟩ | ⟨c, hc, hd, hz⟩
    · have hck := (hz k hkin).2
      exact .inl ⟨(Dense.congr hck).1 hd, fun z hzp => hck.symm.trans (hz z hzp).2⟩
    · have hck := hz k hkin
      refine .inr ⟨fun hd' => hd ((Dense.congr (hmlf hck)).2 hd'), fun z => ⟨fun hzp => (hck.symm h).trans (hz z hzp), fun hkz => ?_⟩⟩
      exact hoz z (hW z (hmlm h1 hkz) hkz)
  · obtain ⟨q, hq, hz⟩ := horest k pts hkp
    obtain ⟨-, h3, h4⟩ := hS.locals k q (hgen.2 k q hq)
    exact ⟨h3, fun z hzp => (h4 z).1 (hz z hzp)⟩
  · have hloc : ∀ k ∈ m.managed, f x = f k → ∃ own, dget? locals k = some own := fun k hk hxk => by
      rcases hL.done k hk with h1 | h1
      · exact absurd ((Dense.congr hxk).1 hd) (hS.noise k h1).2
      · exact dget?_isSome_of_mem h1
    obtain ⟨k, h1, ⟨pts, h2, h3⟩, h4⟩ := dbCores_class (C := fun z => f x = f z) ha.enum h hL hx hy rfl hxy hne'
      (fun k hk hxk => by
        obtain ⟨own, ho⟩ := hloc k hk hxk
        obtain ⟨v, hv⟩ := dget?_isSome_of_mem (d := labels) (k := k) (by rw [hL.keys]; exact hk)
        refine ⟨⟨v, hv, ?_⟩, own, ho, fun z hz hxz => ?_⟩
        · rintro rfl
          exact (hS.noise k hv).2 ((Dense.congr hxk).1 hd)
        · exact ((hS.locals k own ho).2.2 z).2 ⟨hz, hxk.symm.trans hxz⟩)
      (fun k z hkz => by rw [hmlf hkz])
      (fun k own ho z hz => by rw [(((hS.locals k own ho).2.2 z).1 hz).2])
      e2
    have hkc : k ∈ dkeys cores := by
      rw [show dkeys cores = dkeys core from hk]; exact mem_dkeys_of_dget? h2
    obtain ⟨pts', hp'⟩ := dget?_isSome_of_mem hkc
    obtain ⟨old, ho, hoz⟩ := hold k pts' hp'
    rw [h2] at ho
    cases ho
    refine ⟨k, h1, ⟨pts', by rw [hoc]; exact hp', fun z hz hxz => hoz z (h3 z hz hxz)⟩, fun k' hk' hxk' => ?_⟩
    rw [hoc, show dkeys cores = dkeys core from hk] at hk'
    obtain ⟨q, hq⟩ := dget?_isSome_of_mem hk'
    exact h4 k' (hcores k' q hq).1 hxk' hk'
  · obtain ⟨k, hxk, hkc⟩ := dbCores_kept ha.enum h hL hx hy hxy hne' (fun k own hk z hz => by
      obtain ⟨h2, h3, h4⟩ := hS.locals k own hk
      have hno : ∀ w, f k = f w → ¬ MustLinked m x w := fun w hkw hxw =>
        hd ((Dense.congr ((hmlf hxw).trans hkw.symm)).2 h3)
      exact iff_of_false (hno z ((h4 z).1 hz).2) (hno k rfl)) e2
    exact ⟨k, hxk, by rw [hoc]; show k ∈ dkeys cores; rw [show dkeys cores = dkeys core from hk]; exact hkc⟩

end Verif
