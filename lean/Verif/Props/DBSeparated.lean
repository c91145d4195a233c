import Verif.Proofs.DBSeparated
import Verif.Props.DBKeep
import Verif.Proofs.Session

/-
Property C110: when C-DBScan finds classes that the radius separates. Specification vocabulary:
`Verif/Spec/DBSeparated.lean`; `classSize` is in `Verif/Spec/HierSeparated.lean`.
-/

namespace Verif

variable {α V δ : Type} [LinearOrder α] [LinearOrder δ]

/-- If the radius separates the classes and the constraints agree with them, two IDs are together in the result exactly
when they are in one class and this class has `min_samples` IDs, or they are must-linked. -/
theorem C110_together {env : DbEnv α V δ} {p : DbParams δ} (ha : DbAssumptions env p) {m : Manager α} (h : Reachable m)
    {vectors : Dict α V} {nb : Option Int} {o : DbObject α} (hr : dbCluster env p m (some vectors) nb = .ok o)
    {d : Dict α Int} (hd : o.predicted = some d) {f : α → Nat} (hf : Satisfies m f)
    (hs : RadiusSeparates env p vectors m.managed f) {x y : α} (hx : x ∈ m.managed) (hy : y ∈ m.managed) :
    dget? d x = dget? d y ↔
      (f x = f y ∧ Dense p m.managed f x) ∨ m.getInferred x y = .ok (some .mustLink) := by
  rw [inferred_ml_iff h.inv hx hy]
  obtain ⟨vs, e, rfl, hv, hne⟩ := dbCluster_ok_args hr
  cases e
  have hS := dbCluster_separated h.inv ha hne hv hr hf hs
  obtain ⟨d1, hd1, hl1, hl2⟩ := C59_labels_of_clusters ha h hr
  rw [hd] at hd1
  cases hd1
  obtain ⟨d2, -, -, hd2, -, -, -, hperm, -, hneg⟩ := C41_labels ha h hr
  rw [hd] at hd2
  cases hd2
  have hcore : ∀ q ∈ o.cores, dget? o.cores q.1 = some q.2 := fun q hq => dget?_of_mem hS.nodup (k := q.1) (v := q.2) hq
  constructor
  · intro e
    obtain ⟨c, hc⟩ := dget?_isSome_of_mem (hperm.mem_iff.2 hx)
    have hc' : dget? d y = some c := e ▸ hc
    by_cases hc0 : 0 ≤ c
    · obtain ⟨w, hw⟩ := (hl1 x).1 ⟨c, hc, hc0⟩
      obtain ⟨w', hw'⟩ := (hl1 y).1 ⟨c, hc', hc0⟩
      obtain rfl := (hl2 x y w w' hw hw').1 e
      cases w with
      | inl k =>
        obtain ⟨pts, hk, hxp⟩ := lastCore_mem hw
        obtain ⟨pts', hk', hyp⟩ := lastCore_mem hw'
        have h1 := hcore _ hk
        have h2 := hcore _ hk'
        simp only at h1 h2
        rw [h1] at h2
        cases h2
        obtain ⟨-, -, -, h3⟩ := hS.cores k pts h1
        rcases h3 with ⟨h3, h4⟩ | ⟨h3, h4⟩
        · exact .inl ⟨(h4 x hxp).symm.trans (h4 y hyp), (Dense.congr (h4 x hxp)).1 h3⟩
        · exact .inr ((((h4 x).1 hxp).symm h.inv).trans ((h4 y).1 hyp))
      | inr k =>
        obtain ⟨-, pts, hk, hxp, -⟩ := hw
        obtain ⟨-, pts', hk', hyp, -⟩ := hw'
        rw [hk] at hk'
        cases hk'
        obtain ⟨h3, h4⟩ := hS.locals k pts hk
        exact .inl ⟨(h4 x hxp).2.symm.trans (h4 y hyp).2, (Dense.congr (h4 x hxp).2).1 h3⟩
    · exact .inr (hneg x y c hc hc' (not_le.1 hc0) ▸ MustLinked.refl m x)
  · intro e
    by_cases hxy : x = y
    · rw [hxy]
    by_cases hdense : Dense p m.managed f x
    · have hfxy : f x = f y := by
        rcases e with e | e
        · exact e.1
        · exact satisfies_chain hf e
      obtain ⟨k, -, ⟨pts, hpts, hin⟩, huniq⟩ := hS.dense x hx y hy hdense hfxy hxy
      have hown : ∀ z ∈ m.managed, f x = f z → Owner p o.cores o.locals z (.inl k) := by
        intro z hz hxz
        obtain ⟨w, hw⟩ := lastCore_exists (mem_of_dget? hpts) (hin z hz hxz)
        obtain ⟨q, hq, hzq⟩ := lastCore_mem hw
        have h1 := hcore _ hq
        simp only at h1
        obtain ⟨-, -, -, h3⟩ := hS.cores w q h1
        have hwz : f w = f z := by
          rcases h3 with h3 | h3
          · exact h3.2 z hzq
          · exact satisfies_chain hf ((h3.2 z).1 hzq)
        rw [← huniq w (mem_dkeys_of_dget? h1) (hxz.trans hwz.symm)]
        exact hw
      exact (hl2 x y _ _ (hown x hx rfl) (hown y hy hfxy)).2 rfl
    · have hml : MustLinked m x y := by
        rcases e with e | e
        · exact absurd e.2 hdense
        · exact e
      obtain ⟨k, hxk, hkc⟩ := hS.sparse x hx y hy hdense hml hxy
      have hall : ∀ q ∈ o.cores, (x ∈ q.2 ↔ y ∈ q.2) := by
        intro q hq
        have hside : ∀ z, MustLinked m x z → z ∈ q.2 → ∀ w, MustLinked m x w → w ∈ q.2 := by
          intro z hxz hzq w hxw
          obtain ⟨-, -, -, h3⟩ := hS.cores q.1 q.2 (hcore q hq)
          rcases h3 with h3 | h3
          · exact absurd ((Dense.congr ((satisfies_chain hf hxz).trans (h3.2 z hzq).symm)).2 h3.1) hdense
          · exact (h3.2 w).2 (((h3.2 z).1 hzq).trans ((hxz.symm h.inv).trans hxw))
        exact ⟨fun h1 => hside x (MustLinked.refl m x) h1 y hml, fun h1 => hside y hml h1 x (MustLinked.refl m x)⟩
      obtain ⟨pts, hpts⟩ := dget?_isSome_of_mem hkc
      have hxin : x ∈ pts := by
        obtain ⟨-, -, -, h3⟩ := hS.cores k pts hpts
        rcases h3 with h3 | h3
        · exact absurd ((Dense.congr (satisfies_chain hf hxk)).2 h3.1) hdense
        · exact (h3.2 x).2 (hxk.symm h.inv)
      obtain ⟨w, hw⟩ := lastCore_exists (mem_of_dget? hpts) hxin
      have hw' : LastCore o.cores y w := by
        obtain ⟨A, q, B, e, hin, hB⟩ := hw
        exact ⟨A, q, B, e, (hall (w, q) (by rw [e]; simp)).1 hin,
          fun b hb hyb => hB b hb ((hall b (by rw [e]; simp [hb])).2 hyb)⟩
      exact (hl2 x y (.inl w) (.inl w) hw hw').2 rfl

/-- So the clusters are the classes exactly when each class has `min_samples` IDs or is one must-link group. -/
theorem C110_classes {env : DbEnv α V δ} {p : DbParams δ} (ha : DbAssumptions env p) {m : Manager α} (h : Reachable m)
    {vectors : Dict α V} {nb : Option Int} {o : DbObject α} (hr : dbCluster env p m (some vectors) nb = .ok o)
    {d : Dict α Int} (hd : o.predicted = some d) {f : α → Nat} (hf : Satisfies m f)
    (hs : RadiusSeparates env p vectors m.managed f) :
    (∀ x ∈ m.managed, ∀ y ∈ m.managed, (dget? d x = dget? d y ↔ f x = f y)) ↔
      ∀ x ∈ m.managed, Dense p m.managed f x ∨ ∀ y ∈ m.managed, f x = f y → m.getInferred x y = .ok (some .mustLink) := by
  constructor
  · intro hall x hx
    by_cases hdense : Dense p m.managed f x
    · exact .inl hdense
    · refine .inr fun y hy hxy => ?_
      rcases (C110_together ha h hr hd hf hs hx hy).1 ((hall x hx y hy).2 hxy) with h1 | h1
      · exact absurd h1.2 hdense
      · exact h1
  · intro hall x hx y hy
    rw [C110_together ha h hr hd hf hs hx hy]
    constructor
    · rintro (h1 | h1)
      · exact h1.1
      · exact satisfies_chain hf ((inferred_ml_iff h.inv hx hy).1 h1)
    · intro hxy
      rcases hall x hx with h1 | h1
      · exact .inl ⟨hxy, h1⟩
      · exact .inr (h1 y hy hxy)

/-- In particular, with `min_samples` at most the size of each class, no annotation is needed and no annotation that
agrees with the classes does any harm: the clusters are the classes. -/
theorem C110_no_annotation_needed {env : DbEnv α V δ} {p : DbParams δ} (ha : DbAssumptions env p) {m : Manager α}
    (h : Reachable m) {vectors : Dict α V} (hv : HasVectors m vectors) (hne : m.managed ≠ []) {f : α → Nat}
    (hf : Satisfies m f) (hs : RadiusSeparates env p vectors m.managed f)
    (hdense : ∀ x ∈ m.managed, p.minSamples ≤ classSize m.managed f (f x)) :
    ∃ o d, dbCluster env p m (some vectors) none = .ok o ∧ o.predicted = some d ∧ (dkeys d).Perm m.managed ∧
      ∀ x ∈ m.managed, ∀ y ∈ m.managed, (dget? d x = dget? d y ↔ f x = f y) := by
  obtain ⟨o, d, k, j, hr, hd, -⟩ := dbCluster_ok h.inv ha hne hv
  obtain ⟨d2, -, -, hd2, -, -, -, hperm, -⟩ := C41_labels ha h hr
  rw [hd] at hd2
  cases hd2
  exact ⟨o, d, hr, hd, hperm, (C110_classes ha h hr hd hf hs).2 fun x hx => .inl (hdense x hx)⟩

/-- Which IDs are in a regular cluster: an ID that is not alone in its class is in one exactly when its class has
`min_samples` IDs or it is must-linked to another ID. -/
theorem C110_regular {env : DbEnv α V δ} {p : DbParams δ} (ha : DbAssumptions env p) {m : Manager α} (h : Reachable m)
    {vectors : Dict α V} {nb : Option Int} {o : DbObject α} (hr : dbCluster env p m (some vectors) nb = .ok o)
    {d : Dict α Int} (hd : o.predicted = some d) {f : α → Nat} (hf : Satisfies m f)
    (hs : RadiusSeparates env p vectors m.managed f) {x : α} (hx : x ∈ m.managed)
    (hx2 : ∃ y ∈ m.managed, y ≠ x ∧ f x = f y) :
    (∃ c, dget? d x = some c ∧ 0 ≤ c) ↔
      Dense p m.managed f x ∨ ∃ y, y ≠ x ∧ m.getInferred x y = .ok (some .mustLink) := by
  obtain ⟨d2, -, -, hd2, -, -, -, hperm, -, hneg⟩ := C41_labels ha h hr
  rw [hd] at hd2
  cases hd2
  constructor
  · rintro ⟨c, hc, hc0⟩
    have hl := C56_density_labels ha h hr
    rcases C83_regular ha h hr hd hc hc0 with ⟨k, hk, hkx⟩ | h1 | h1
    · left
      obtain ⟨S, hS, hmin, hSm, -⟩ := hl.core k hk
      have hkm : k ∈ m.managed := by rw [← hl.keys]; exact mem_dkeys_of_dget? hk
      have hfk := (hs k hkm x hx).1 hkx
      rw [← Dense.congr hfk]
      exact hmin.trans (length_le_classSize hS fun y hy => ⟨(hSm y hy).1, (hs k hkm y (hSm y hy).1).1 (hSm y hy).2⟩)
    · exact .inr h1
    · obtain ⟨c', y, z, hc', -, h2, h3, h4⟩ := hl.single x h1
      obtain ⟨hy, hz⟩ := CannotLinked.mem h.inv h4
      exact absurd (((hs c' hc' y hy).1 h2).symm.trans ((hs c' hc' z hz).1 h3)) (satisfies_sep hf h4)
  · intro hor
    have hy : ∃ y ∈ m.managed, y ≠ x ∧ dget? d x = dget? d y := by
      rcases hor with h1 | ⟨y, hyx, h1⟩
      · obtain ⟨y, hy, hyx, hxy⟩ := hx2
        exact ⟨y, hy, hyx, (C110_together ha h hr hd hf hs hx hy).2 (.inl ⟨hxy, h1⟩)⟩
      · obtain ⟨-, hy⟩ := mem_of_getInferred h.inv h1
        exact ⟨y, hy, hyx, (C110_together ha h hr hd hf hs hx hy).2 (.inr h1)⟩
    obtain ⟨y, hy, hyx, e⟩ := hy
    obtain ⟨c, hc⟩ := dget?_isSome_of_mem (hperm.mem_iff.2 hx)
    refine ⟨c, hc, ?_⟩
    by_contra hc0
    exact hyx (hneg x y c hc (e ▸ hc) (not_le.1 hc0)).symm

/-! ### Each theorem applied to a concrete case -/

/-! A class of three, `"NONE"` (here 0) being one of the IDs, a class of three of which two are must-linked, and two
annotations that agree with the classes. -/

def dbSep : Manager Nat := runOps (Manager.init [0, 7, 2, 8, 3, 9])
  [.addConstraint 0 2 "MUST_LINK" 1, .addConstraint 2 7 "CANNOT_LINK" 1]

def dbSepVectors : Dict Nat Int := [(0, 0), (2, 1), (3, 2), (7, 50), (8, 51), (9, 52)]

def dbSepClass (x : Nat) : Nat := if x ≤ 3 then 0 else 1

theorem dbSep_satisfies : Satisfies dbSep dbSepClass :=
  satisfies_of_managed (Reachable.inv ⟨_, _, rfl⟩) (by decide +kernel)

theorem dbSep_radius (k : Nat) : RadiusSeparates dbDemoEnv (dbNatParams 3 k) dbSepVectors dbSep.managed dbSepClass := by
  have : RadiusSeparates dbDemoEnv (dbNatParams 3 0) dbSepVectors dbSep.managed dbSepClass := by
    unfold RadiusSeparates; decide +kernel
  exact this

theorem dbSep_hasVectors : HasVectors dbSep dbSepVectors := by
  unfold HasVectors; simp only [exists_dget?_iff]; decide +kernel

/-- `min_samples` is 3: the classes are found. -/
def dbSepFound : DbObject Nat :=
  ⟨some [(0, 0), (2, 0), (3, 0), (7, 1), (8, 1), (9, 1)],
    [(0, .core), (7, .core), (2, .core), (8, .core), (3, .core), (9, .core)], [(7, []), (8, []), (9, [])],
    [(7, [8, 9, 7]), (2, [0, 2, 3])], 2, 0, 2⟩

theorem dbSep_found : dbCluster dbDemoEnv (dbNatParams 3 3) dbSep (some dbSepVectors) none = .ok dbSepFound := by
  decide +kernel

/-- `min_samples` is 4: only the must-linked IDs are together. -/
def dbSepNoise : DbObject Nat :=
  ⟨some [(0, 0), (2, 0), (7, -1), (8, -2), (3, -3), (9, -4)],
    [(0, .noise), (7, .noise), (2, .noise), (8, .noise), (3, .noise), (9, .noise)], [], [(0, [0, 2]), (2, [0, 2])], 1, 4, 5⟩

theorem dbSep_noise : dbCluster dbDemoEnv (dbNatParams 3 4) dbSep (some dbSepVectors) none = .ok dbSepNoise := by
  decide +kernel

example :=
  C110_together (dbDemo_ok 3 3) ⟨_, _, rfl⟩ dbSep_found rfl dbSep_satisfies (dbSep_radius 3) (x := 8) (y := 9)
    (by decide +kernel) (by decide +kernel)

example := C110_together (dbDemo_ok 3 4) ⟨_, _, rfl⟩ dbSep_noise rfl dbSep_satisfies (dbSep_radius 4) (x := 0) (y := 2)
  (by decide +kernel) (by decide +kernel)

/- `C110_classes`: both sides hold with `min_samples` 3, both fail with 4. -/
example : (∀ x ∈ dbSep.managed, Dense (dbNatParams 3 3) dbSep.managed dbSepClass x) ∧
    ¬ ∃ x ∈ dbSep.managed, Dense (dbNatParams 3 4) dbSep.managed dbSepClass x := by
  unfold Dense; decide +kernel

example := C110_classes (dbDemo_ok 3 3) ⟨_, _, rfl⟩ dbSep_found rfl dbSep_satisfies (dbSep_radius 3)

example := C110_classes (dbDemo_ok 3 4) ⟨_, _, rfl⟩ dbSep_noise rfl dbSep_satisfies (dbSep_radius 4)

example := C110_no_annotation_needed (dbDemo_ok 3 3) ⟨_, _, rfl⟩ dbSep_hasVectors (by decide +kernel) dbSep_satisfies
  (dbSep_radius 3) (by decide +kernel)

/- `C110_regular`: with `min_samples` 4, 0 is in a regular cluster, being must-linked to 2, and 3 is not. -/
example := C110_regular (dbDemo_ok 3 4) ⟨_, _, rfl⟩ dbSep_noise rfl dbSep_satisfies (dbSep_radius 4) (x := 0)
  (by decide +kernel) (by decide +kernel)

example := C110_regular (dbDemo_ok 3 4) ⟨_, _, rfl⟩ dbSep_noise rfl dbSep_satisfies (dbSep_radius 4) (x := 3)
  (by decide +kernel) (by decide +kernel)

/-- It is not enough that the classes are far apart and that every ID of a class is within the radius of another, as
DBSCAN asks: here all the IDs are core points of DBSCAN, the classes are the clusters of DBSCAN and are more than 40 times
the radius apart, the annotation agrees with them, and 7 is ignored though it is density-connected to 6. -/
theorem C110_chain_not_found : ∃ (m : Manager Nat) (vectors : Dict Nat Int) (f : Nat → Nat) (o : DbObject Nat) (d : Dict Nat Int),
    Reachable m ∧ DbAssumptions dbDemoEnv (dbNatParams 2 1) ∧
    dbCluster dbDemoEnv (dbNatParams 2 1) m (some vectors) none = .ok o ∧ o.predicted = some d ∧ Satisfies m f ∧
    (∀ x ∈ m.managed, ∀ y ∈ m.managed, f x ≠ f y → ¬ Near dbDemoEnv (dbNatParams 80 1) vectors x y) ∧
    (∀ x ∈ m.managed, ∀ y ∈ m.managed, f x = f y → ∃ z ∈ m.managed, Near dbDemoEnv (dbNatParams 2 1) vectors x z ∧
      Near dbDemoEnv (dbNatParams 2 1) vectors z y) ∧
    (∀ x ∈ m.managed, (dbNatParams 2 1).minSamples ≤ classSize m.managed f (f x)) ∧
    f 6 = f 7 ∧ Near dbDemoEnv (dbNatParams 2 1) vectors 6 7 ∧ dget? d 6 ≠ dget? d 7 := by
  refine ⟨dbClose, dbCloseVectors, fun x => if x = 1 then 0 else 1, _, [(5, 0), (6, 0), (1, -1), (7, -2)], ⟨_, _, rfl⟩,
    dbDemo_ok 2 1, dbClose_cluster, rfl, satisfies_of_managed (Reachable.inv ⟨_, _, rfl⟩) (by decide +kernel), ?_, ?_, ?_, rfl,
    ⟨11, 13, rfl, rfl, ?_⟩, ?_⟩ <;> decide +kernel

end Verif
