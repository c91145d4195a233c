import Verif.Proofs.DBConnect
import Verif.Props.DBScan
import Verif.Props.HierExport

/-
C83: the clusters of C-DBScan compared with those of DBSCAN.
-/

namespace Verif

variable {α V δ : Type} [LinearOrder α] [LinearOrder δ]

/-- Two IDs with a common label of a regular cluster are in one recorded cluster. -/
theorem dbCluster_common {env : DbEnv α V δ} {p : DbParams δ} (ha : DbAssumptions env p) {m : Manager α} (h : Reachable m)
    {vectors : Dict α V} {nb : Option Int} {o : DbObject α} (hr : dbCluster env p m (some vectors) nb = .ok o)
    {d : Dict α Int} (hd : o.predicted = some d) {x y : α} {c : Int} (hx : dget? d x = some c) (hy : dget? d y = some c)
    (hc : 0 ≤ c) (hn : (dkeys o.cores).Nodup) :
    ∃ k pts, (dget? o.cores k = some pts ∨ dget? o.locals k = some pts) ∧ x ∈ pts ∧ y ∈ pts := by
  obtain ⟨d', hd', h1, h2⟩ := C59_labels_of_clusters ha h hr
  rw [hd] at hd'
  cases hd'
  obtain ⟨w, hw⟩ := (h1 x).1 ⟨c, hx, hc⟩
  obtain ⟨w', hw'⟩ := (h1 y).1 ⟨c, hy, hc⟩
  have := (h2 x y w w' hw hw').1 (hx.trans hy.symm)
  subst this
  cases w with
  | inl k =>
    obtain ⟨pts, hp, hxp⟩ := lastCore_mem hw
    obtain ⟨pts', hp', hyp⟩ := lastCore_mem hw'
    have e := dget?_of_mem hn hp
    rw [dget?_of_mem hn hp'] at e
    cases e
    exact ⟨k, pts, .inl (dget?_of_mem hn hp), hxp, hyp⟩
  | inr k =>
    obtain ⟨-, pts, hp, hxp, -⟩ := hw
    obtain ⟨-, pts', hp', hyp, -⟩ := hw'
    rw [hp] at hp'
    cases hp'
    exact ⟨k, pts, .inr hp, hxp, hyp⟩

/-- No regular cluster bridges a gap: two of its IDs are joined by a chain of managed IDs where
consecutive IDs are within the radius of each other, or must-linked. -/
theorem C83_no_gap {env : DbEnv α V δ} {p : DbParams δ} (ha : DbAssumptions env p) {m : Manager α} (h : Reachable m)
    {vectors : Dict α V} {nb : Option Int} {o : DbObject α} (hr : dbCluster env p m (some vectors) nb = .ok o)
    {d : Dict α Int} (hd : o.predicted = some d) {x y : α} {c : Int} (hx : dget? d x = some c) (hy : dget? d y = some c)
    (hc : 0 ≤ c) : Bonded env p m vectors x y := by
  obtain ⟨vs, e, rfl, hv, hne⟩ := dbCluster_ok_args hr
  cases e
  have hsymm : ∀ a b, Bonded env p m vectors a b → Bonded env p m vectors b a := by
    have hb : ∀ a b, Bond env p m vectors a b → Bond env p m vectors b a := by
      rintro a b ⟨h1, h2, h3⟩
      refine ⟨h2, h1, ?_⟩
      rcases h3 with h3 | h3 | h3
      · exact .inr (.inl h3)
      · exact .inl h3
      · exact .inr (.inr ((inferred_ml_iff h.inv h2 h1).2 (((inferred_ml_iff h.inv h1 h2).1 h3).symm h.inv)))
    intro a b hab
    induction hab with
    | refl => exact .refl
    | tail _ h2 ih => exact Relation.ReflTransGen.head (hb _ _ h2) ih
  have hstar : ∀ (k : α) (pts : List α), k ∈ m.managed → (∀ z ∈ pts, z ∈ m.managed) →
      (∀ z ∈ pts, z = k ∨ Near env p vectors k z ∨ MustLinked m k z) →
      (∀ z ∈ pts, z ∈ m.managed) ∧ ∀ a ∈ pts, ∀ b ∈ pts, Bonded env p m vectors a b := by
    intro k pts hk hm hz
    refine ⟨hm, fun a ha b hb => ?_⟩
    have hkz : ∀ z ∈ pts, Bonded env p m vectors k z := fun z hzp => by
      rcases hz z hzp with rfl | h1 | h1
      · exact .refl
      · exact .single ⟨hk, hm z hzp, .inl h1⟩
      · exact .single ⟨hk, hm z hzp, .inr (.inr ((inferred_ml_iff h.inv hk (hm z hzp)).2 h1))⟩
    exact (hsymm _ _ (hkz a ha)).trans (hkz b hb)
  obtain ⟨hn, h1, h2⟩ := dbCluster_gen h.inv ha hne hv hr
    (G := fun pts => (∀ z ∈ pts, z ∈ m.managed) ∧ ∀ a ∈ pts, ∀ b ∈ pts, Bonded env p m vectors a b)
    (fun _ hG => hG.1)
    (by
      rintro core pts ⟨hc1, hc2⟩ ⟨hp1, hp2⟩ ⟨u, hu, w, hw, huw⟩
      have hmem : ∀ z, z ∈ env.enum (core ++ pts) ↔ z ∈ core ∨ z ∈ pts := fun z => by
        rw [(ha.enum _).2 z, List.mem_append]
      have hlink : Bonded env p m vectors u w := .single ⟨hc1 u hu, hp1 w hw, .inl huw⟩
      have hu' : ∀ z ∈ env.enum (core ++ pts), Bonded env p m vectors u z := fun z hz => by
        rcases (hmem z).1 hz with h3 | h3
        · exact hc2 u hu z h3
        · exact hlink.trans (hp2 w hw z h3)
      refine ⟨fun z hz => ?_, fun a ha b hb => (hsymm _ _ (hu' a ha)).trans (hu' b hb)⟩
      rcases (hmem z).1 hz with h3 | h3
      · exact hc1 z h3
      · exact hp1 z h3)
    (fun k pts hk _ _ hm hz => hstar k pts hk hm fun z hzp => by
      rcases hz with ⟨-, h3⟩ | h3
      · exact .inr (h3 z hzp)
      · rcases h3 z hzp with h4 | h4
        · exact .inl h4
        · exact .inr (.inr h4))
    (fun k pts hk hm hz => hstar k pts hk hm fun z hzp => by
      rcases hz with ⟨-, h3⟩ | ⟨-, rfl⟩
      · exact .inr (.inl (h3 z hzp))
      · exact .inl (by simpa using hzp))
  obtain ⟨k, pts, hk, hxp, hyp⟩ := dbCluster_common ha h hr hd hx hy hc hn
  rcases hk with hk | hk
  · exact (h1 k pts hk).2 x hxp y hyp
  · obtain ⟨q, hq, hz⟩ := h2 k pts hk
    exact hq.2 x (hz x hxp) y (hz y hyp)

/-- Why an ID is in a regular cluster: a `CORE` ID has it within the radius, or it is must-linked to another
ID, or it is a `SINGLE_CORE` ID. -/
theorem C83_regular {env : DbEnv α V δ} {p : DbParams δ} (ha : DbAssumptions env p) {m : Manager α} (h : Reachable m)
    {vectors : Dict α V} {nb : Option Int} {o : DbObject α} (hr : dbCluster env p m (some vectors) nb = .ok o)
    {d : Dict α Int} (hd : o.predicted = some d) {x : α} {c : Int} (hx : dget? d x = some c) (hc : 0 ≤ c) :
    (∃ k, dget? o.labels k = some .core ∧ Near env p vectors k x) ∨
      (∃ y, y ≠ x ∧ m.getInferred x y = .ok (some .mustLink)) ∨ dget? o.labels x = some .singleCore := by
  obtain ⟨vs, e, rfl, hv, hne⟩ := dbCluster_ok_args hr
  cases e
  obtain ⟨hn, h1, h2⟩ := dbCluster_gen h.inv ha hne hv hr
    (G := fun pts => ∀ z ∈ pts, z ∈ m.managed ∧ ((∃ k, dget? o.labels k = some .core ∧ Near env p vectors k z) ∨
      (∃ y, y ≠ z ∧ m.getInferred z y = .ok (some .mustLink)) ∨ dget? o.labels z = some .singleCore))
    (fun _ hG z hz => (hG z hz).1)
    (by
      rintro core pts hc hp - z hz
      rw [(ha.enum _).2 z, List.mem_append] at hz
      rcases hz with hz | hz
      · exact hc z hz
      · exact hp z hz)
    (by
      intro k pts hk hnd hlen hm hz z hzp
      refine ⟨hm z hzp, ?_⟩
      have hml : MustLinked m k z → z ≠ k → ∃ y, y ≠ z ∧ m.getInferred z y = .ok (some .mustLink) := fun h3 h4 =>
        ⟨k, Ne.symm h4, (inferred_ml_iff h.inv (hm z hzp) hk).2 (h3.symm h.inv)⟩
      rcases hz with ⟨h3, h4⟩ | h3
      · rcases h4 z hzp with h5 | h5
        · exact .inl ⟨k, h3, h5⟩
        · by_cases hzk : z = k
          · subst hzk
            obtain ⟨v, hvz⟩ := hv z hk
            exact .inl ⟨z, h3, v, v, hvz, hvz, ha.self v⟩
          · exact .inr (.inl (hml h5 hzk))
      · refine .inr (.inl ?_)
        by_cases hzk : z = k
        · subst hzk
          obtain ⟨y, hy, hyz⟩ : ∃ y ∈ pts, y ≠ z := by
            by_contra hno
            have : ∀ y ∈ pts, y = z := fun y hy => by
              by_contra hyz
              exact hno ⟨y, hy, hyz⟩
            have hle := (List.subperm_of_subset hnd (l₂ := [z]) fun y hy => by simp [this y hy]).length_le
            simp only [List.length_singleton] at hle
            omega
          rcases h3 y hy with h5 | h5
          · exact absurd h5 hyz
          · exact ⟨y, hyz, (inferred_ml_iff h.inv hk (hm y hy)).2 h5⟩
        · rcases h3 z hzp with h5 | h5
          · exact absurd h5 hzk
          · exact hml h5 hzk)
    (by
      intro k pts hk hm hz z hzp
      refine ⟨hm z hzp, ?_⟩
      rcases hz with ⟨h3, h4⟩ | ⟨h3, rfl⟩
      · exact .inl ⟨k, h3, h4 z hzp⟩
      · rw [List.mem_singleton] at hzp
        subst hzp
        exact .inr (.inr h3))
  obtain ⟨k, pts, hk, hxp, -⟩ := dbCluster_common ha h hr hd hx hx hc hn
  rcases hk with hk | hk
  · exact (h1 k pts hk x hxp).2
  · obtain ⟨q, hq, hz⟩ := h2 k pts hk
    exact (hq x (hz x hxp)).2

/-- Without constraints, the noise of DBSCAN is ignored: an ID that is within the radius of no core point has
a negative label. -/
theorem C83_noise {env : DbEnv α V δ} {p : DbParams δ} (ha : DbAssumptions env p) {m : Manager α} (h : Reachable m)
    (hu : Unconstrained m) {vectors : Dict α V} {nb : Option Int} {o : DbObject α}
    (hr : dbCluster env p m (some vectors) nb = .ok o) {d : Dict α Int} (hd : o.predicted = some d) {x : α} {c : Int}
    (hx : dget? d x = some c) (hno : ∀ k, DbscanCore env p m vectors k → ¬ Near env p vectors k x) : c < 0 := by
  by_contra hc
  have hl := C56_density_labels ha h hr
  rcases C83_regular ha h hr hd hx (not_lt.1 hc) with ⟨k, h1, h2⟩ | ⟨y, h1, h2⟩ | h1
  · obtain ⟨S, hS, hlen, hSm, -⟩ := hl.core k h1
    exact hno k ⟨by rw [← hl.keys]; exact mem_dkeys_of_dget? h1, S, hS, hlen, hSm⟩ h2
  · obtain ⟨h3, h4⟩ := mem_of_getInferred h.inv h2
    rw [hu x h3 y h4 (Ne.symm h1)] at h2
    cases h2
  · obtain ⟨_, y, z, -, -, -, -, hyz⟩ := hl.single x h1
    exact hu.cl h.inv y z hyz

/-! Data of the examples and witnesses: IDs on a line (3, 4, 5 and far away 1, 2), and a cross in the plane, with 1 in the
middle. -/

def dbLine : Manager Nat := Manager.init [3, 4, 5, 1, 2]

def dbLineVectors : Dict Nat Int := [(1, 100), (2, 102), (3, 0), (4, 2), (5, 4)]

def dbLineObject : DbObject Nat :=
  ⟨some [(1, 0), (2, 0), (3, 1), (4, 1), (5, -1)],
    [(3, .core), (4, .core), (5, .core), (1, .core), (2, .core)], [(3, []), (4, [5]), (5, [5])],
    [(3, [4, 3]), (1, [1, 2])], 2, 1, 3⟩

theorem dbLine_cluster : dbCluster dbDemoEnv (dbNatParams 2 2) dbLine (some dbLineVectors) none = .ok dbLineObject := by
  decide +kernel

def dbCross : Manager Nat := Manager.init [5, 2, 6, 7, 8, 3, 9, 10, 11, 4, 12, 13, 1]

def dbCrossVectors : Dict Nat (Int × Int) :=
  [(1, (0, 0)), (2, (10, 0)), (3, (0, 10)), (4, (-10, 0)), (5, (20, 0)), (6, (29, 0)), (7, (30, 0)),
    (8, (0, 20)), (9, (0, 29)), (10, (0, 30)), (11, (-20, 0)), (12, (-29, 0)), (13, (-30, 0))]

/-- Squares of distances in the plane. -/
def dbPlaneEnv : DbEnv Nat (Int × Int) Nat where
  metric a b := ((a.1 - b.1) ^ 2 + (a.2 - b.2) ^ 2).natAbs
  enum l := l.dedup
  none := 0

/-- `eps = 10`, `min_samples = 4`. -/
def dbPlaneParams : DbParams Nat := ⟨100, fun i => decide (10 ≤ i), 4⟩

theorem dbPlane_ok : DbAssumptions dbPlaneEnv dbPlaneParams where
  enum l := ⟨List.nodup_dedup l, fun _ => List.mem_dedup⟩
  self v := by show ((v.1 - v.1) ^ 2 + (v.2 - v.2) ^ 2).natAbs ≤ 100; simp

def dbCrossObject : DbObject Nat :=
  ⟨some [(1, 0), (2, 0), (3, 1), (4, 2), (5, 0), (6, 0), (7, 0), (8, 1), (9, 1), (10, 1), (11, 2), (12, 2), (13, 2)],
    [(5, .core), (2, .noise), (6, .noise), (7, .noise), (8, .core), (3, .noise), (9, .noise), (10, .noise), (11, .core),
      (4, .noise), (12, .noise), (13, .noise), (1, .core)], [],
    [(5, [1, 5, 2, 6, 7, 8, 3, 9, 10, 11, 4, 12, 13]), (8, [3, 9, 10, 8]), (11, [4, 12, 13, 11])], 3, 0, 3⟩

theorem dbCross_cluster : dbCluster dbPlaneEnv dbPlaneParams dbCross (some dbCrossVectors) none = .ok dbCrossObject := by
  decide +kernel

def nearB (env : DbEnv α V δ) (p : DbParams δ) (vectors : Dict α V) (x y : α) : Bool :=
  match dget? vectors x, dget? vectors y with
  | some v, some w => decide (env.metric v w ≤ p.eps)
  | _, _ => false

instance nearDecidable (env : DbEnv α V δ) (p : DbParams δ) (vectors : Dict α V) (x y : α) : Decidable (Near env p vectors x y) :=
  decidable_of_iff (nearB env p vectors x y = true) (by
    unfold Near nearB
    cases dget? vectors x <;> cases dget? vectors y <;> simp)

/- `C83_no_gap` and `C83_regular`: 5 and 3 are in one cluster of the constrained example, 1 and 6 are must-linked. -/
example : Reachable dbDemo ∧ DbAssumptions dbDemoEnv (dbNatParams 2 3) ∧
    ∃ o d, dbCluster dbDemoEnv (dbNatParams 2 3) dbDemo (some dbDemoVectors) none = .ok o ∧ o.predicted = some d ∧
      dget? d 5 = dget? d 3 ∧ dget? d 1 = dget? d 6 ∧ dget? d 1 ≠ dget? d 5 ∧ dget? d 9 = some (-2) := by
  refine ⟨⟨_, _, rfl⟩, dbDemo_ok 2 3, _, _, dbDemo_cluster, rfl, ?_⟩
  decide +kernel

/- `C83_noise`: 3 is far from the core points 1 and 2. -/
example : Reachable (Manager.init [1, 2, 3]) ∧ Unconstrained (Manager.init [1, 2, 3]) ∧
    (∃ o d, dbCluster dbDemoEnv (dbNatParams 2 2) (Manager.init [1, 2, 3]) (some [(1, 0), (2, 1), (3, 50)]) none = .ok o ∧
      o.predicted = some d ∧ dget? d 3 = some (-1) ∧ dget? d 1 = some 0) ∧
    DbscanCore dbDemoEnv (dbNatParams 2 2) (Manager.init [1, 2, 3]) [(1, 0), (2, 1), (3, 50)] 1 ∧
    ∀ k, DbscanCore dbDemoEnv (dbNatParams 2 2) (Manager.init [1, 2, 3]) [(1, 0), (2, 1), (3, 50)] k →
      ¬ Near dbDemoEnv (dbNatParams 2 2) [(1, 0), (2, 1), (3, 50)] k 3 := by
  refine ⟨Reachable.init _, init_unconstrained _, ⟨⟨some [(1, 0), (2, 0), (3, -1)], [(1, .core), (2, .core), (3, .noise)], [], [(1, [1, 2])], 1, 1, 2⟩,
    _, by decide +kernel, rfl, by decide +kernel, by decide +kernel⟩,
    ⟨by decide +kernel, [1, 2], by decide +kernel, by decide +kernel, by decide +kernel⟩, ?_⟩
  rintro k ⟨hk, S, hS, hlen, hSm⟩ hn
  have h1 : ∀ k ∈ (Manager.init [1, 2, 3]).managed, Near dbDemoEnv (dbNatParams 2 2) [(1, 0), (2, 1), (3, 50)] k 3 → k = 3 := by
    decide +kernel
  have h2 : ∀ y ∈ (Manager.init [1, 2, 3]).managed, Near dbDemoEnv (dbNatParams 2 2) [(1, 0), (2, 1), (3, 50)] 3 y → y = 3 := by
    decide +kernel
  obtain rfl := h1 k hk hn
  have := (List.subperm_of_subset hS (l₂ := [3]) fun y hy => by simp [h2 y (hSm y hy).1 (hSm y hy).2]).length_le
  have h3 : 2 ≤ S.length := hlen
  simp only [List.length_singleton] at this
  omega

/-- The converse of `C83_noise` fails, without any constraint: 4 and 5 are core points within the radius of each other, 4 is in a
regular cluster and 5 is ignored. So density-connected IDs can be separated. -/
theorem C83_core_ignored : ∃ (m : Manager Nat) (vectors : Dict Nat Int) (o : DbObject Nat) (d : Dict Nat Int),
    Reachable m ∧ Unconstrained m ∧ DbAssumptions dbDemoEnv (dbNatParams 2 2) ∧
    dbCluster dbDemoEnv (dbNatParams 2 2) m (some vectors) none = .ok o ∧ o.predicted = some d ∧
    DbscanCore dbDemoEnv (dbNatParams 2 2) m vectors 4 ∧ DbscanCore dbDemoEnv (dbNatParams 2 2) m vectors 5 ∧
    DensityConnected dbDemoEnv (dbNatParams 2 2) m vectors 4 5 ∧ dget? d 4 = some 1 ∧ dget? d 5 = some (-1) := by
  have h4 : DbscanCore dbDemoEnv (dbNatParams 2 2) dbLine dbLineVectors 4 :=
    ⟨by decide +kernel, [4, 5], by decide +kernel, by decide +kernel, by decide +kernel⟩
  have h5 : DbscanCore dbDemoEnv (dbNatParams 2 2) dbLine dbLineVectors 5 :=
    ⟨by decide +kernel, [4, 5], by decide +kernel, by decide +kernel, by decide +kernel⟩
  exact ⟨dbLine, dbLineVectors, dbLineObject, _, Reachable.init _, init_unconstrained _, dbDemo_ok 2 2, dbLine_cluster, rfl, h4, h5,
    ⟨4, .refl, .single ⟨h4, by decide +kernel, by decide +kernel⟩⟩, by decide +kernel, by decide +kernel⟩

/-- A regular cluster can contain two core points that are not density-connected, without any constraint: 1 and 5 are core points,
each in its own cluster of DBSCAN, and the cluster of 5 has swallowed 1. -/
theorem C83_not_connected : ∃ (m : Manager Nat) (vectors : Dict Nat (Int × Int)) (o : DbObject Nat) (d : Dict Nat Int),
    Reachable m ∧ Unconstrained m ∧ DbAssumptions dbPlaneEnv dbPlaneParams ∧
    dbCluster dbPlaneEnv dbPlaneParams m (some vectors) none = .ok o ∧ o.predicted = some d ∧
    DbscanCore dbPlaneEnv dbPlaneParams m vectors 1 ∧ DbscanCore dbPlaneEnv dbPlaneParams m vectors 5 ∧
    ¬ DensityConnected dbPlaneEnv dbPlaneParams m vectors 1 5 ∧ dget? d 1 = some 0 ∧ dget? d 5 = some 0 := by
  have hR : Reachable dbCross := Reachable.init _
  have hu : Unconstrained dbCross := init_unconstrained _
  have hcore : ∀ k, DbscanCore dbPlaneEnv dbPlaneParams dbCross dbCrossVectors k → k ∈ [5, 8, 11, 1] := by
    intro k hk
    have h1 := (C56_without_cannot_links dbPlane_ok hR (fun x hx y hy he => hu.cl hR.inv x y ((inferred_cl_iff hR.inv hx hy).1 he))
      dbCross_cluster hk.1).2.2 hk.2
    have h2 : ∀ k ∈ dbCross.managed, dget? dbCrossObject.labels k = some .core → k ∈ [5, 8, 11, 1] := by decide +kernel
    exact h2 k hk.1 h1
  refine ⟨dbCross, dbCrossVectors, dbCrossObject, _, hR, hu, dbPlane_ok, dbCross_cluster, rfl,
    ⟨by decide +kernel, [1, 2, 3, 4], by decide +kernel, by decide +kernel, by decide +kernel⟩,
    ⟨by decide +kernel, [5, 2, 6, 7], by decide +kernel, by decide +kernel, by decide +kernel⟩, ?_, by decide +kernel, by decide +kernel⟩
  rintro ⟨c, h1, h5⟩
  have hc : c = 5 := by
    clear h1
    induction h5 using Relation.ReflTransGen.head_induction_on with
    | refl => rfl
    | head hab _ ih =>
      subst ih
      have h2 : ∀ k ∈ [5, 8, 11, 1], Near dbPlaneEnv dbPlaneParams dbCrossVectors k 5 → k = 5 := by decide +kernel
      exact h2 _ (hcore _ hab.1) hab.2.2
  subst hc
  have h6 : ∀ b, Relation.ReflTransGen (Reaches dbPlaneEnv dbPlaneParams dbCross dbCrossVectors) 5 b → b ∈ [5, 2, 6, 7] := by
    intro b hb
    induction hb with
    | refl => simp
    | tail _ hbc ih =>
      have h7 : ∀ b ∈ [5, 2, 6, 7], b ∈ [5, 8, 11, 1] → ∀ c ∈ dbCross.managed,
          Near dbPlaneEnv dbPlaneParams dbCrossVectors b c → c ∈ [5, 2, 6, 7] := by decide +kernel
      exact h7 _ ih (hcore _ hbc.1) _ hbc.2.1 hbc.2.2
  exact absurd (h6 1 h1) (by decide)

end Verif
