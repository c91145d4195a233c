import Verif.Proofs.DBKeep
import Verif.Props.DBConnect

/-
C103: when C-DBScan keeps must-linked IDs together.
-/

namespace Verif

variable {α V δ : Type} [LinearOrder α] [LinearOrder δ]

theorem Isolated.sides {env : DbEnv α V δ} {p : DbParams δ} {m : Manager α} (h : Inv m) {vectors : Dict α V} {x : α}
    (hx : x ∈ m.managed) (hi : Isolated env p m vectors x) :
    ∀ k ∈ m.managed, ∀ z ∈ m.managed, Near env p vectors k z → (MustLinked m x z ↔ MustLinked m x k) := by
  intro k hk z hz hn
  constructor
  · intro hxz
    by_contra hxk
    exact (hi z k ((inferred_ml_iff h hx hz).2 hxz) hk fun e => hxk ((inferred_ml_iff h hx hk).1 e)).2 hn
  · intro hxk
    by_contra hxz
    exact (hi k z ((inferred_ml_iff h hx hk).2 hxk) hz fun e => hxz ((inferred_ml_iff h hx hz).1 e)).1 hn

/-- The recorded clusters are inside or outside an isolated must-link group. -/
theorem dbCluster_sides {env : DbEnv α V δ} {p : DbParams δ} (ha : DbAssumptions env p) {m : Manager α} (h : Inv m)
    (hne : m.managed ≠ []) {vectors : Dict α V} (hv : HasVectors m vectors) {o : DbObject α}
    (hr : dbCluster env p m (some vectors) none = .ok o) {x : α} (hx : x ∈ m.managed) (hi : Isolated env p m vectors x) :
    (dkeys o.cores).Nodup ∧
      (∀ c pts, dget? o.cores c = some pts → ∀ a ∈ pts, ∀ b ∈ pts, (MustLinked m x a ↔ MustLinked m x b)) ∧
      ∀ c pts, dget? o.locals c = some pts → ∀ a ∈ pts, ∀ b ∈ pts, (MustLinked m x a ↔ MustLinked m x b) := by
  have hs := hi.sides h hx
  have hml : ∀ k z, MustLinked m k z → (MustLinked m x z ↔ MustLinked m x k) := fun k z hkz =>
    ⟨fun hz => hz.trans (hkz.symm h), fun hk => hk.trans hkz⟩
  have hstar : ∀ (k : α) (pts : List α), k ∈ m.managed → (∀ z ∈ pts, z ∈ m.managed) →
      (∀ z ∈ pts, z = k ∨ Near env p vectors k z ∨ MustLinked m k z) →
      (∀ z ∈ pts, z ∈ m.managed) ∧ ∀ a ∈ pts, ∀ b ∈ pts, (MustLinked m x a ↔ MustLinked m x b) := by
    intro k pts hk hm hz
    have hkz : ∀ z ∈ pts, (MustLinked m x z ↔ MustLinked m x k) := fun z hzp => by
      rcases hz z hzp with rfl | h1 | h1
      · exact Iff.rfl
      · exact hs k hk z (hm z hzp) h1
      · exact hml k z h1
    exact ⟨hm, fun a ha b hb => (hkz a ha).trans (hkz b hb).symm⟩
  obtain ⟨hn, h1, h2⟩ := dbCluster_gen h ha hne hv hr
    (G := fun pts => (∀ z ∈ pts, z ∈ m.managed) ∧ ∀ a ∈ pts, ∀ b ∈ pts, (MustLinked m x a ↔ MustLinked m x b))
    (fun _ hG => hG.1)
    (by
      rintro core pts ⟨hc1, hc2⟩ ⟨hp1, hp2⟩ ⟨u, hu, w, hw, huw⟩
      have hmem : ∀ z, z ∈ env.enum (core ++ pts) ↔ z ∈ core ∨ z ∈ pts := fun z => by
        rw [(ha.enum _).2 z, List.mem_append]
      have hlink := hs u (hc1 u hu) w (hp1 w hw) huw
      have hu' : ∀ z ∈ env.enum (core ++ pts), (MustLinked m x z ↔ MustLinked m x u) := fun z hz => by
        rcases (hmem z).1 hz with h3 | h3
        · exact hc2 z h3 u hu
        · exact (hp2 z h3 w hw).trans hlink
      refine ⟨fun z hz => ?_, fun a ha b hb => (hu' a ha).trans (hu' b hb).symm⟩
      rcases (hmem z).1 hz with h3 | h3
      · exact hc1 z h3
      · exact hp1 z h3)
    (fun k pts hk _ _ hm hz => hstar k pts hk hm fun z hzp => by
      rcases hz with ⟨-, h3⟩ | h3
      · exact .inr (h3 z hzp)
      · rcases h3 z hzp with h4 | h4
        · exact .inl h4
        · exact .inr (.inr h4))
    (fun k pts hk hm hz => hstar k pts hk hm fun z hzp => by
      rcases hz with ⟨-, h3⟩ | ⟨-, rfl⟩
      · exact .inr (.inl (h3 z hzp))
      · exact .inl (by simpa using hzp))
  refine ⟨hn, fun c pts hc => (h1 c pts hc).2, fun c pts hc a ha b hb => ?_⟩
  obtain ⟨q, hq, hz⟩ := h2 c pts hc
  exact hq.2 a (hz a ha) b (hz b hb)

/-- A must-link group of at least two IDs that is far from the other IDs is exactly one regular cluster. -/
theorem C103_isolated_group {env : DbEnv α V δ} {p : DbParams δ} (ha : DbAssumptions env p) {m : Manager α} (h : Reachable m)
    {vectors : Dict α V} {nb : Option Int} {o : DbObject α} (hr : dbCluster env p m (some vectors) nb = .ok o)
    {d : Dict α Int} (hd : o.predicted = some d) {x y : α} (hxy : m.getInferred x y = .ok (some .mustLink)) (hne : x ≠ y)
    (hi : Isolated env p m vectors x) :
    ∃ c, 0 ≤ c ∧ ∀ z, dget? d z = some c ↔ m.getInferred x z = .ok (some .mustLink) := by
  obtain ⟨vs, e, rfl, hv, hnm⟩ := dbCluster_ok_args hr
  cases e
  obtain ⟨hx, hy⟩ := mem_of_getInferred h.inv hxy
  obtain ⟨k, hxk, hkc⟩ := dbCluster_kept h.inv ha hnm hv hr hx hy ((inferred_ml_iff h.inv hx hy).1 hxy) hne (hi.sides h.inv hx)
  obtain ⟨hn, hs1, hs2⟩ := dbCluster_sides ha h.inv hnm hv hr hx hi
  obtain ⟨kp, hkp⟩ := dget?_isSome_of_mem hkc
  -- a core cluster with an ID of the group has all of them
  have hall : ∀ q ∈ o.cores, ∀ a ∈ q.2, MustLinked m x a → ∀ b, b ∈ m.managed → MustLinked m x b → b ∈ q.2 := by
    intro q hq a haq hxa b hb hxb
    have hg := dget?_of_mem hn (k := q.1) (v := q.2) hq
    obtain ⟨h1, h2, -, h4, -⟩ := C58_core_clusters ha h hr hg
    have hxq : MustLinked m x q.1 := (hs1 q.1 q.2 hg q.1 h2 a haq).2 hxa
    exact h4 b ((inferred_ml_iff h.inv h1 hb).2 ((hxq.symm h.inv).trans hxb))
  obtain ⟨d', hd', hl1, hl2⟩ := C59_labels_of_clusters ha h hr
  rw [hd] at hd'
  cases hd'
  have hxin : ∃ q ∈ o.cores, x ∈ q.2 := by
    obtain ⟨h1, h2, -, h4, -⟩ := C58_core_clusters ha h hr hkp
    exact ⟨(k, kp), mem_of_dget? hkp, h4 x ((inferred_ml_iff h.inv h1 hx).2 (hxk.symm h.inv))⟩
  obtain ⟨q, hq, hxq⟩ := hxin
  obtain ⟨w, hw⟩ := lastCore_exists hq hxq
  have howner : ∀ z ∈ m.managed, MustLinked m x z → Owner p o.cores o.locals z (.inl w) := by
    intro z hz hxz
    obtain ⟨A, pts, B, e, hin, hB⟩ := hw
    refine ⟨A, pts, B, e, hall (w, pts) (by rw [e]; simp) x hin (MustLinked.refl m x) z hz hxz, fun q hq hzq => ?_⟩
    exact hB q hq (hall q (by rw [e]; simp [hq]) z hzq hxz x hx (MustLinked.refl m x))
  obtain ⟨c, hc, hc0⟩ := (hl1 x).2 ⟨_, howner x hx (MustLinked.refl m x)⟩
  refine ⟨c, hc0, fun z => ⟨fun hz => ?_, fun hz => ?_⟩⟩
  · obtain ⟨d2, -, -, hd2, -, -, -, hperm, -, -⟩ := C41_labels ha h hr
    rw [hd] at hd2
    cases hd2
    have hzm : z ∈ m.managed := hperm.mem_iff.1 (mem_dkeys_of_dget? hz)
    obtain ⟨k', pts, hk', hxp, hzp⟩ := dbCluster_common ha h hr hd hc hz hc0 hn
    refine (inferred_ml_iff h.inv hx hzm).2 ?_
    rcases hk' with hk' | hk'
    · exact (hs1 k' pts hk' x hxp z hzp).1 (MustLinked.refl m x)
    · exact (hs2 k' pts hk' x hxp z hzp).1 (MustLinked.refl m x)
  · obtain ⟨-, hzm⟩ := mem_of_getInferred h.inv hz
    rw [(hl2 z x _ _ (howner z hzm ((inferred_ml_iff h.inv hx hzm).1 hz)) (howner x hx (MustLinked.refl m x))).2 rfl]
    exact hc

/-- If any two managed IDs that are not must-linked are further apart than the radius, the clusters are the must-link groups. -/
theorem C103_separated {env : DbEnv α V δ} {p : DbParams δ} (ha : DbAssumptions env p) {m : Manager α} (h : Reachable m)
    {vectors : Dict α V} {nb : Option Int} {o : DbObject α} (hr : dbCluster env p m (some vectors) nb = .ok o)
    {d : Dict α Int} (hd : o.predicted = some d)
    (hsep : ∀ x ∈ m.managed, ∀ y ∈ m.managed, Near env p vectors x y → m.getInferred x y = .ok (some .mustLink))
    {x y : α} (hx : x ∈ m.managed) (hy : y ∈ m.managed) :
    dget? d x = dget? d y ↔ m.getInferred x y = .ok (some .mustLink) := by
  have hi : ∀ x ∈ m.managed, Isolated env p m vectors x := by
    intro x hx y z hxy hz hxz
    obtain ⟨-, hy⟩ := mem_of_getInferred h.inv hxy
    have hxy' := (inferred_ml_iff h.inv hx hy).1 hxy
    refine ⟨fun hn => hxz ?_, fun hn => hxz ?_⟩
    · exact (inferred_ml_iff h.inv hx hz).2 (hxy'.trans ((inferred_ml_iff h.inv hy hz).1 (hsep y hy z hz hn)))
    · exact (inferred_ml_iff h.inv hx hz).2
        (hxy'.trans (((inferred_ml_iff h.inv hz hy).1 (hsep z hz y hy hn)).symm h.inv))
  obtain ⟨d2, k, j, hd2, -, -, -, hperm, -, hneg⟩ := C41_labels ha h hr
  rw [hd] at hd2
  cases hd2
  constructor
  · intro e
    obtain ⟨c, hc⟩ := dget?_isSome_of_mem (hperm.mem_iff.2 hx)
    have hc' : dget? d y = some c := e ▸ hc
    by_cases hc0 : 0 ≤ c
    · have hb := C83_no_gap ha h hr hd hc hc' hc0
      clear hc hc' e
      refine (inferred_ml_iff h.inv hx hy).2 ?_
      induction hb with
      | refl => exact MustLinked.refl m x
      | tail _ hb ih =>
        obtain ⟨h1, h2, h3⟩ := hb
        refine (ih h1).trans ?_
        rcases h3 with h3 | h3 | h3
        · exact (inferred_ml_iff h.inv h1 h2).1 (hsep _ h1 _ h2 h3)
        · exact ((inferred_ml_iff h.inv h2 h1).1 (hsep _ h2 _ h1 h3)).symm h.inv
        · exact (inferred_ml_iff h.inv h1 h2).1 h3
    · obtain rfl := hneg x y c hc hc' (not_le.1 hc0)
      exact (inferred_ml_iff h.inv hx hx).2 (MustLinked.refl m x)
  · intro e
    by_cases hxy : x = y
    · rw [hxy]
    · obtain ⟨c, -, hc⟩ := C103_isolated_group ha h hr hd e hxy (hi x hx)
      rw [(hc x).2 ((inferred_ml_iff h.inv hx hx).2 (MustLinked.refl m x)), (hc y).2 e]

/-! ### Each theorem applied to a concrete case -/

/-! Data of the examples and of the witness. In `dbTwin` the IDs 12 and 13 are must-linked and have the same vector, 11 is within the
radius of them and of 10, and 1 and 2 are far away. -/

def dbTwin : Manager Nat := runOps (Manager.init [10, 11, 12, 13, 1, 2]) [.addConstraint 12 13 "MUST_LINK" 1]

def dbTwinVectors : Dict Nat Int := [(1, 100), (2, 101), (10, 0), (11, 3), (12, 6), (13, 6)]

def dbTwinObject : DbObject Nat :=
  ⟨some [(1, 0), (2, 0), (10, 1), (11, 1), (12, -1), (13, -2)],
    [(10, .core), (11, .core), (12, .core), (13, .core), (1, .core), (2, .core)],
    [(10, []), (11, [12, 13]), (12, [12, 13]), (13, [12, 13])], [(10, [11, 10]), (1, [1, 2])], 2, 2, 4⟩

theorem dbTwin_cluster : dbCluster dbDemoEnv (dbNatParams 3 2) dbTwin (some dbTwinVectors) none = .ok dbTwinObject := by
  decide +kernel

/-- Without isolation, must-linked IDs need not be in any cluster: 12 and 13 have the same vector and are must-linked, three IDs are
within the radius of each of them, there is no cannot-link, and both are ignored, with two different labels. -/
theorem C103_must_linked_ignored : ∃ (m : Manager Nat) (vectors : Dict Nat Int) (o : DbObject Nat) (d : Dict Nat Int),
    Reachable m ∧ DbAssumptions dbDemoEnv (dbNatParams 3 2) ∧
    dbCluster dbDemoEnv (dbNatParams 3 2) m (some vectors) none = .ok o ∧ o.predicted = some d ∧
    (∀ x ∈ m.managed, ∀ y ∈ m.managed, m.getInferred x y ≠ .ok (some .cannotLink)) ∧
    m.getInferred 12 13 = .ok (some .mustLink) ∧ dget? vectors 12 = dget? vectors 13 ∧
    dget? o.labels 12 = some .core ∧ dget? o.labels 13 = some .core ∧ dget? d 12 = some (-1) ∧ dget? d 13 = some (-2) := by
  refine ⟨dbTwin, dbTwinVectors, dbTwinObject, _, ⟨_, _, rfl⟩, dbDemo_ok 3 2, dbTwin_cluster, rfl, ?_, ?_, rfl, rfl, rfl, rfl, rfl⟩ <;>
    decide +kernel

/-- Two must-link groups far from each other, `"NONE"` (here 0) being one of the IDs, and one ID alone. -/
def dbGroups : Manager Nat := runOps (Manager.init [0, 4, 2, 3, 1, 5])
  [.addConstraint 0 1 "MUST_LINK" 1, .addConstraint 2 3 "MUST_LINK" 1, .addConstraint 3 4 "MUST_LINK" 1]

def dbGroupsVectors : Dict Nat Int := [(0, 0), (1, 9), (2, 40), (3, 60), (4, 42), (5, 90)]

def dbGroupsObject : DbObject Nat :=
  ⟨some [(0, 0), (1, 0), (2, 1), (3, 1), (4, 1), (5, -1)],
    [(0, .noise), (4, .core), (2, .core), (3, .noise), (1, .noise), (5, .noise)], [],
    [(0, [0, 1]), (4, [3, 4, 2]), (3, [4, 2, 3]), (1, [0, 1])], 2, 1, 3⟩

theorem dbGroups_cluster : dbCluster dbDemoEnv (dbNatParams 3 2) dbGroups (some dbGroupsVectors) none = .ok dbGroupsObject := by
  decide +kernel

example : Reachable dbGroups ∧ DbAssumptions dbDemoEnv (dbNatParams 3 2) ∧
    dbCluster dbDemoEnv (dbNatParams 3 2) dbGroups (some dbGroupsVectors) none = .ok dbGroupsObject ∧
    dbGroups.getInferred 0 1 = .ok (some .mustLink) ∧ dbGroups.getInferred 2 4 = .ok (some .mustLink) ∧
    (∀ x ∈ dbGroups.managed, ∀ y ∈ dbGroups.managed, Near dbDemoEnv (dbNatParams 3 2) dbGroupsVectors x y →
      dbGroups.getInferred x y = .ok (some .mustLink)) := by
  refine ⟨⟨_, _, rfl⟩, dbDemo_ok 3 2, dbGroups_cluster, ?_, ?_, ?_⟩ <;> decide +kernel

/- `C103_isolated_group` for one group only: in `dbGroups` the group of 2. -/
example : Isolated dbDemoEnv (dbNatParams 3 2) dbGroups dbGroupsVectors 2 := by
  intro y z hxy hz hxz
  obtain ⟨-, hy⟩ := mem_of_getInferred (Reachable.inv ⟨_, _, rfl⟩) hxy
  have key : ∀ y ∈ dbGroups.managed, ∀ z ∈ dbGroups.managed, dbGroups.getInferred 2 y = .ok (some .mustLink) →
      dbGroups.getInferred 2 z ≠ .ok (some .mustLink) →
      ¬ Near dbDemoEnv (dbNatParams 3 2) dbGroupsVectors y z ∧ ¬ Near dbDemoEnv (dbNatParams 3 2) dbGroupsVectors z y := by
    decide +kernel
  exact key y hy z hz hxy hxz

end Verif
