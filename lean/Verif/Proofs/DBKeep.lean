import Verif.Proofs.DBConnect
import Verif.Spec.DBKeep

/-
A must-link group that is far from the other IDs keeps one of its core clusters.
-/

set_option linter.unusedSectionVars false

namespace Verif

variable {α V δ : Type} [LinearOrder α] [LinearOrder δ] {env : DbEnv α V δ} {p : DbParams δ} {m : Manager α}
  {table : Dict α (Dict α δ)} {vectors : Dict α V}

/-! ### Who is assigned to whom -/

theorem dbTake_assigned {c : α} {l : List α} {s t : Dict α α × List α} (e : l.foldlM (dbTake env c) s = .ok t) (z : α) :
    dget? t.1 z = if z ∈ l ∧ dget? s.1 z = some env.none then some c else dget? s.1 z := by
  induction l generalizing s with
  | nil => cases e; simp
  | cons a l ih =>
    rw [List.foldlM_cons] at e
    cases e1 : dbTake env c s a with
    | error _ => rw [e1] at e; cases e
    | ok s1 =>
      rw [e1] at e
      have h1 := ih e
      unfold dbTake at e1
      simp only [bind, Except.bind] at e1
      cases e2 : dget s.1 a with
      | error _ => rw [e2] at e1; cases e1
      | ok v =>
        rw [e2] at e1
        simp only at e1
        have hv := dget_eq_ok.1 e2
        by_cases hvn : v = env.none
        · rw [if_pos hvn] at e1
          cases e1
          simp only [dget?_dset] at h1
          rw [h1]
          subst hvn
          by_cases haz : a = z
          · subst haz
            simp [hv]
          · have : z ≠ a := Ne.symm haz
            simp [haz, this]
        · rw [if_neg hvn] at e1
          cases e1
          rw [h1]
          by_cases haz : a = z
          · subst haz
            have : dget? s.1 a ≠ some env.none := by rw [hv]; simpa using hvn
            simp [this]
          · have : z ≠ a := Ne.symm haz
            simp [this]

/-- What a step does to the assignments: an ID that was not assigned may be assigned to `x`, if it is in `own` or in `ys`. -/
def Assigns (none x : α) (own ys : List α) (s s' : Dict α α) : Prop :=
  ∀ z, dget? s' z = dget? s z ∨ (dget? s z = some none ∧ dget? s' z = some x ∧ (z ∈ own ∨ z ∈ ys))

theorem dbLink_assigned (henum : SetOrder env.enum) {labels : Dict α DLabel} {locals clustersOf : Dict α (List α)}
    (hL : LocInv m m.managed (labels, locals)) {x : α} {own : List α} {s s' : Dict α α × Dict α (List α)} {y : α}
    (hy : y ∈ m.managed) (e : dbLinkStep env labels locals clustersOf x x own s y = .ok s') :
    Assigns env.none x own [y] s.1 s'.1 ∧ ∀ z ∈ own, dget? s.1 z = some env.none → dget? s'.1 z = some x := by
  unfold dbLinkStep at e
  simp only [bind, Except.bind] at e
  split at e
  · cases e
  · rename_i o eo
    split at e
    · cases e
    · rename_i t et
      split at e
      · cases e
      · cases e
        have hop : ∀ others, o = some others → others = [y] := by
          rintro others rfl
          unfold dbPartner at eo
          obtain ⟨v, hv⟩ := dget?_isSome_of_mem (d := labels) (k := y) (by rw [hL.keys]; exact hy)
          rw [dget_of_dget? hv] at eo
          simp only [bind, Except.bind] at eo
          by_cases hvn : v = .noise
          · rw [if_pos hvn] at eo; cases eo
          · rw [if_neg hvn] at eo
            rcases hL.done y hy with h1 | h1
            · simp only [hv, Option.some.injEq] at h1; exact absurd h1 hvn
            · rw [if_pos h1] at eo; cases eo; rfl
        have hall : ∀ z, z ∈ dbAll env own o → z ∈ own ∨ z = y := by
          intro z hz
          cases o with
          | none => exact .inl hz
          | some others =>
            have := hop others rfl
            subst this
            have := ((henum _).2 z).1 hz
            simpa using this
        have hown : ∀ z ∈ own, z ∈ dbAll env own o := by
          intro z hz
          cases o with
          | none => exact hz
          | some others => exact ((henum _).2 z).2 (by simp [hz])
        have ht := dbTake_assigned et
        simp only at ht
        refine ⟨fun z => ?_, fun z hz hn => ?_⟩
        · simp only
          rw [ht z]
          by_cases h1 : z ∈ dbAll env own o ∧ dget? s.1 z = some env.none
          · rw [if_pos h1]
            refine .inr ⟨h1.2, rfl, ?_⟩
            rcases hall z h1.1 with h2 | h2
            · exact .inl h2
            · exact .inr (by simp [h2])
          · rw [if_neg h1]; exact .inl rfl
        · simp only
          rw [ht z, if_pos ⟨hown z hz, hn⟩]

theorem dbLinks_assigned (henum : SetOrder env.enum) {labels : Dict α DLabel} {locals clustersOf : Dict α (List α)}
    (hL : LocInv m m.managed (labels, locals)) {x : α} {own ys : List α} {s s' : Dict α α × Dict α (List α)}
    (hys : ∀ y ∈ ys, y ∈ m.managed) (e : ys.foldlM (dbLinkStep env labels locals clustersOf x x own) s = .ok s') :
    Assigns env.none x own ys s.1 s'.1 ∧ (ys ≠ [] → ∀ z ∈ own, dget? s.1 z = some env.none → dget? s'.1 z = some x) := by
  induction ys generalizing s with
  | nil => cases e; exact ⟨fun z => .inl rfl, fun h => absurd rfl h⟩
  | cons y ys ih =>
    rw [List.foldlM_cons] at e
    cases e1 : dbLinkStep env labels locals clustersOf x x own s y with
    | error _ => rw [e1] at e; cases e
    | ok s1 =>
      rw [e1] at e
      obtain ⟨h1, h2⟩ := dbLink_assigned henum hL (hys y (by simp)) e1
      obtain ⟨h3, -⟩ := ih (fun z hz => hys z (by simp [hz])) e
      refine ⟨fun z => ?_, fun _ z hz hn => ?_⟩
      · have hone : z ∈ own ∨ z ∈ [y] → z ∈ own ∨ z ∈ y :: ys := by
          rintro (h | h)
          · exact .inl h
          · rw [List.mem_singleton] at h; exact .inr (by simp [h])
        have htwo : z ∈ own ∨ z ∈ ys → z ∈ own ∨ z ∈ y :: ys := by
          rintro (h | h)
          · exact .inl h
          · exact .inr (by simp [h])
        rcases h1 z with a | ⟨a, b, c⟩ <;> rcases h3 z with a' | ⟨a', b', c'⟩
        · exact .inl (a'.trans a)
        · exact .inr ⟨a ▸ a', b', htwo c'⟩
        · exact .inr ⟨a, a'.trans b, hone c⟩
        · exact .inr ⟨a, b', hone c⟩
      · have h4 := h2 z hz hn
        rcases h3 z with a | ⟨-, b, -⟩
        · exact a.trans h4
        · exact b

theorem dbMerge_assigned (henum : SetOrder env.enum) {labels : Dict α DLabel} {locals clustersOf compatible : Dict α (List α)}
    (hL : LocInv m m.managed (labels, locals))
    (hc : ∀ x ∈ m.managed, ∃ ys, dget? compatible x = some ys ∧ ys.Sublist m.managed ∧
      ∀ y, y ∈ ys ↔ y ∈ m.managed ∧ MustLinked m x y) {x : α} (hx : x ∈ m.managed)
    {s s' : List α × Dict α α × Dict α (List α)} (ha : x ∉ s.1)
    (e : dbMergeStep env labels locals clustersOf compatible s x = .ok s') :
    ∃ own ys, ((dget? labels x = some .noise ∧ own = [x]) ∨ (dget? labels x ≠ some .noise ∧ dget? locals x = some own)) ∧
      (∀ y ∈ ys, MustLinked m x y) ∧ Assigns env.none x own ys s.2.1 s'.2.1 ∧
      ∀ z ∈ own, dget? s.2.1 z = some env.none → dget? s'.2.1 z = some x := by
  unfold dbMergeStep at e
  rw [if_pos ha] at e
  obtain ⟨ys, hys, -, hmem⟩ := hc x hx
  rw [dget_of_dget? hys] at e
  simp only [bind, Except.bind] at e
  have hnil : ys ≠ [] := List.ne_nil_of_mem ((hmem x).2 ⟨hx, MustLinked.refl m x⟩)
  rw [if_neg hnil] at e
  have hown : ∃ own, dbOwn labels locals clustersOf x = .ok (x, own) ∧
      ((dget? labels x = some .noise ∧ own = [x]) ∨ (dget? labels x ≠ some .noise ∧ dget? locals x = some own)) := by
    unfold dbOwn
    obtain ⟨v, hv⟩ := dget?_isSome_of_mem (d := labels) (k := x) (by rw [hL.keys]; exact hx)
    rw [dget_of_dget? hv]
    simp only [bind, Except.bind]
    by_cases hvn : v = .noise
    · rw [if_pos hvn]; exact ⟨[x], rfl, .inl ⟨by rw [hv, hvn], rfl⟩⟩
    · rw [if_neg hvn]
      rcases hL.done x hx with h1 | h1
      · simp only [hv, Option.some.injEq] at h1; exact absurd h1 hvn
      · rw [if_pos h1]
        obtain ⟨own, ho⟩ := dget?_isSome_of_mem h1
        rw [dget_of_dget? ho]
        exact ⟨own, rfl, .inr ⟨by rw [hv]; simpa using hvn, ho⟩⟩
  obtain ⟨own, eo, ho⟩ := hown
  rw [eo] at e
  simp only at e
  split at e
  · cases e
  · rename_i t et
    cases e
    obtain ⟨h1, h2⟩ := dbLinks_assigned henum hL (fun y hy => ((hmem y).1 hy).1) et
    exact ⟨own, ys, ho, fun y hy => ((hmem y).1 hy).2, h1, h2 hnil⟩

/-! ### A core cluster is kept -/

/-- A must-link group of at least two IDs, such that no local cluster has IDs inside and outside the group, keeps a core
cluster. -/
theorem dbCores_kept (henum : SetOrder env.enum) (h : Inv m) {labels : Dict α DLabel} {locals core : Dict α (List α)}
    (hL : LocInv m m.managed (labels, locals)) {x y : α} (hxm : x ∈ m.managed) (hym : y ∈ m.managed)
    (hxy : MustLinked m x y) (hne : x ≠ y)
    (hloc : ∀ k own, dget? locals k = some own → ∀ z ∈ own, (MustLinked m x z ↔ MustLinked m x k))
    (e : dbCores env m m.managed labels locals = .ok core) : ∃ k, MustLinked m x k ∧ k ∈ dkeys core := by
  obtain ⟨compatible, ec, hc⟩ := dbCompatible_ok h
  have hn : m.managed.Nodup := h.d.nodup
  have hml : ∀ k z, MustLinked m k z → (MustLinked m x z ↔ MustLinked m x k) := fun k z hkz =>
    ⟨fun hz => hz.trans (hkz.symm h), fun hk => hk.trans hkz⟩
  have h0 : CoreInv m labels locals (dofList (m.managed.map fun x => (x, env.none)),
      dofList (m.managed.map fun x => (x, ([] : List α)))) := by
    refine ⟨?_, ?_, ?_⟩
    · show dkeys (dofList _) = _
      rw [dkeys_dofList_map]
      exact ounion_nil_of_nodup hn
    · show dkeys (dofList _) = _
      rw [dkeys_dofList_map]
      exact ounion_nil_of_nodup hn
    · intro x pts hx
      simp only [dget?_dofList_map] at hx
      split at hx
      · rename_i hxm
        cases hx
        by_cases hnz : dget? labels x = some .noise
        · exact ⟨[x], .inl ⟨hnz, rfl⟩, by simp⟩
        · rcases hL.done x hxm with h1 | h1
          · exact absurd h1 hnz
          · obtain ⟨own, ho⟩ := dget?_isSome_of_mem h1
            exact ⟨own, .inr ⟨hnz, ho⟩, by simp⟩
      · cases hx
  obtain ⟨s, es, hs, -, hwhole, hkept⟩ := foldlM_inv (f := dbMergeStep env labels locals (dbClustersOf m.managed locals) compatible)
    (I := fun P s => CoreInv m labels locals s.2 ∧ s.1 = P ∧ (∀ x ∈ P, ∀ pts, dget? s.2.2 x = some pts → Whole m x pts) ∧
      ((∃ k ∈ P, MustLinked m x k ∧ k ≠ env.none ∧ dget? s.2.1 k = some k) ∨
        ((∀ k ∈ P, MustLinked m x k → k = env.none) ∧
          ∀ z ∈ m.managed, MustLinked m x z → dget? s.2.1 z = some env.none)))
    (L := m.managed) (fun P k s hP hs => by
      obtain ⟨Q, e⟩ := hP
      obtain ⟨hs, hsP, hw, hI⟩ := hs
      obtain ⟨hk, hkP⟩ := mem_mid hn e
      obtain ⟨s', e', hs', h1, h2, new, h3, h4⟩ :=
        dbMergeStep_ok (clustersOf := dbClustersOf m.managed locals) henum h hL hc hk hs (by rw [hsP]; exact hkP)
      obtain ⟨own, ys, ho, hys, hA, hT⟩ := dbMerge_assigned henum hL hc hk (by rw [hsP]; exact hkP) e'
      refine ⟨s', e', hs', by rw [h1, hsP], fun y hy pts hpts => ?_, ?_⟩
      · by_cases hyk : y = k
        · subst hyk
          rw [h3] at hpts
          cases hpts
          exact h4
        · rw [h2 y hyk] at hpts
          rcases List.mem_append.1 hy with hy | hy
          · exact hw y hy pts hpts
          · rw [List.mem_singleton] at hy; exact absurd hy hyk
      · have hown : k ∈ own := (own_good h hL hk ho).1
        have hside : ∀ z, z ∈ own ∨ z ∈ ys → (MustLinked m x z ↔ MustLinked m x k) := by
          rintro z (hz | hz)
          · rcases ho with ⟨-, rfl⟩ | ⟨-, ho⟩
            · rw [List.mem_singleton] at hz; rw [hz]
            · exact hloc k own ho z hz
          · exact hml k z (hys z hz)
        rcases hI with ⟨k', hk', hxk', hkn, hkk⟩ | ⟨hI1, hI2⟩
        · refine .inl ⟨k', by simp [hk'], hxk', hkn, ?_⟩
          rcases hA k' with h5 | ⟨h5, -, -⟩
          · rw [h5]; exact hkk
          · rw [hkk] at h5
            exact absurd (Option.some.inj h5) hkn
        · by_cases hxk : MustLinked m x k
          · by_cases hkn : k = env.none
            · refine .inr ⟨fun z hz hxz => ?_, fun z hz hxz => ?_⟩
              · rcases List.mem_append.1 hz with hz | hz
                · exact hI1 z hz hxz
                · rw [List.mem_singleton] at hz; rw [hz]; exact hkn
              · rcases hA z with h5 | ⟨-, h5, -⟩
                · rw [h5]; exact hI2 z hz hxz
                · rw [h5, hkn]
            · exact .inl ⟨k, by simp, hxk, hkn, hT k hown (hI2 k hk hxk)⟩
          · refine .inr ⟨fun z hz hxz => ?_, fun z hz hxz => ?_⟩
            · rcases List.mem_append.1 hz with hz | hz
              · exact hI1 z hz hxz
              · rw [List.mem_singleton] at hz; rw [hz] at hxz; exact absurd hxz hxk
            · rcases hA z with h5 | ⟨-, -, h5⟩
              · rw [h5]; exact hI2 z hz hxz
              · exact absurd ((hside z h5).1 hxz) hxk)
    (s := ([], dofList (m.managed.map fun x => (x, env.none)), dofList (m.managed.map fun x => (x, ([] : List α)))))
    ⟨h0, rfl, by simp, .inr ⟨by simp, fun z hz _ => by simp only [dget?_dofList_map, if_pos hz]⟩⟩
  obtain ⟨k, hkm, hxk, -, hkk⟩ : ∃ k ∈ m.managed, MustLinked m x k ∧ k ≠ env.none ∧ dget? s.2.1 k = some k := by
    rcases hkept with h1 | ⟨h1, -⟩
    · exact h1
    · exact absurd ((h1 x hxm (MustLinked.refl m x)).trans (h1 y hym hxy).symm) hne
  obtain ⟨pts, hpts⟩ := dget?_isSome_of_mem (d := s.2.2) (k := k) (by rw [hs.ckeys]; exact hkm)
  have hW := hwhole k hkm pts hpts
  have hlen : 2 ≤ pts.length := by
    have hxp := hW x hxm (hxk.symm h)
    have hyp := hW y hym ((hxk.symm h).trans hxy)
    match pts, hxp, hyp with
    | [a], hxp, hyp =>
      rw [List.mem_singleton] at hxp hyp
      exact absurd (hxp.trans hyp.symm) hne
    | a :: b :: l, _, _ => simp
  have hpop : ∀ (d : Dict α (List α)) (z : α), z ≠ k → dget? d k = some pts → dget? (dpop d z) k = some pts := fun d z hz hd => by
    rw [dget?_dpop, if_neg (Ne.symm hz)]; exact hd
  unfold dbCores at e
  simp only [bind, Except.bind] at e
  rw [ec] at e
  simp only at e
  rw [es] at e
  simp only at e
  split at e
  · cases e
  · rename_i core' e1
    have h1 := foldlM_stays (I := fun d : Dict α (List α) => dget? d k = some pts)
      (fun d z d' e hd => by
        unfold dbClean at e
        simp only [bind, Except.bind] at e
        by_cases hzk : z = k
        · subst hzk
          rw [dget_of_dget? hd, dget_of_dget? hkk] at e
          simp only at e
          rw [if_neg (by rintro rfl; simp at hlen), if_neg (by simp)] at e
          cases e
          exact hd
        · split at e
          · cases e
          · split at e
            · cases e; exact hpop d z hzk hd
            · split at e
              · cases e
              · split at e
                · cases e; exact hpop d z hzk hd
                · cases e; exact hd) e1 hpts
    have h2 := foldlM_stays (I := fun d : Dict α (List α) => dget? d k = some pts)
      (fun d z d' e hd => by
        unfold dbCleanSingle at e
        simp only [bind, Except.bind] at e
        by_cases hzk : z = k
        · subst hzk
          split at e
          · rw [dget_of_dget? hd] at e
            simp only at e
            rw [if_neg (by omega)] at e
            cases e
            exact hd
          · cases e; exact hd
        · split at e
          · split at e
            · cases e
            · split at e
              · cases e; exact hpop d z hzk hd
              · cases e; exact hd
          · cases e; exact hd) e h1
    exact ⟨k, hxk, mem_dkeys_of_dget? h2⟩

/-- A must-link group of at least two IDs that is far from the others has a core cluster in the object. -/
theorem dbCluster_kept (h : Inv m) (ha : DbAssumptions env p) (hne : m.managed ≠ []) (hv : HasVectors m vectors)
    {o : DbObject α} (hr : dbCluster env p m (some vectors) none = .ok o) {x y : α} (hxm : x ∈ m.managed)
    (hym : y ∈ m.managed) (hxy : MustLinked m x y) (hxne : x ≠ y)
    (hfar : ∀ k ∈ m.managed, ∀ z ∈ m.managed, Near env p vectors k z → (MustLinked m x z ↔ MustLinked m x k)) :
    ∃ k, MustLinked m x k ∧ k ∈ dkeys o.cores := by
  obtain ⟨table, et⟩ := distanceTable_total (metric := env.metric) hne hv
  have hT : DbTable p m table := dbTable_of_ok ha et
  have hN := nearTable (env := env) (p := p) et
  obtain ⟨⟨labels, locals⟩, e1, hL⟩ := dbLocals_ok h hT
  obtain ⟨s, e1', hS⟩ := foldlM_inv (f := dbLocalStep p m table m.managed) (I := StarInv env p m vectors) (L := m.managed)
    (s := (dofList (m.managed.map fun x => (x, DLabel.unlabeled)), ([] : Dict α (List α))))
    (fun P x s hP hs => by
      obtain ⟨Q, e⟩ := hP
      obtain ⟨hx, hxP⟩ := mem_mid h.d.nodup e
      exact starStep_ok h hT hN hs hx hxP)
    (by
      refine ⟨?_, fun x hx => ?_, fun c pts hc => by simp [dget?] at hc⟩
      · show dkeys (dofList _) = _
        rw [dkeys_dofList_map]
        exact ounion_nil_of_nodup h.d.nodup
      · simp only [dget?_dofList_map] at hx
        split at hx <;> cases hx)
  have he : s = (labels, locals) := by
    have : dbLocals p m table m.managed = .ok s := e1'
    rw [e1] at this
    exact (Except.ok.inj this).symm
  subst he
  obtain ⟨core, e2, hcn, hcores⟩ := dbCores_ok (env := env) ha.enum h hL
  have hcl : ∀ x pts, dget? core x = some pts → Cluster m pts := fun x pts hx => by
    obtain ⟨h1, h2, h3, -⟩ := hcores x pts hx
    have := h2.good h hL h1
    exact ⟨by rintro rfl; simp at h3, this⟩
  have hlocals : Locals m locals := ⟨hL.nodup, fun c pts hc => by
    have := hL.pts c pts hc
    exact ⟨List.ne_nil_of_mem this.1, this.2⟩⟩
  obtain ⟨⟨cores, rest⟩, e3, hk, -, hrest, -⟩ := dbMergeAll_ok ha.enum h hT hcn hcl hlocals
  have hfin : dbFinish p m.managed labels cores rest = .ok o := by
    rw [← hr]
    unfold dbCluster
    simp only [bind, Except.bind]
    rw [et]
    simp only
    rw [e1]
    simp only
    rw [e2]
    simp only
    rw [e3]
  obtain ⟨-, hoc, -⟩ := dbFinish_recorded hfin
  obtain ⟨k, hxk, hkc⟩ := dbCores_kept ha.enum h hL hxm hym hxy hxne (fun k own hk z hz => by
    have hg := hL.pts k own hk
    rcases hS.star k own hk with ⟨-, h1⟩ | ⟨-, rfl⟩
    · exact hfar k (hg.2.1 k hg.1) z (hg.2.1 z hz) (h1 z hz)
    · rw [List.mem_singleton] at hz; rw [hz]) e2
  exact ⟨k, hxk, by rw [hoc]; show k ∈ dkeys cores; rw [show dkeys cores = dkeys core from hk]; exact hkc⟩

end Verif
