import Verif.Props.KMeans
import Verif.Proofs.Inertia

/-
C95: the attribute `centroids` that a call of COP-KMeans leaves on the object.
-/

namespace Verif

variable {α V δ : Type} [LinearOrder α] [LinearOrder δ]

/-- After a call, `self.centroids` holds the mean of each of the returned clusters and nothing else, but under the
label `old a` that the cluster `a` had before the renaming. -/
theorem C95_centroids {env : KMeansEnv α V δ} (he : env.Ok) {m : Manager α} (h : Reachable m) {vectors : Dict α V}
    (hv : HasVectors m vectors) {model : String} {it : Int} {tol : Bool} {maxIteration : Nat}
    (hi : kmInit model it tol = .ok maxIteration) {nb : Option Int} {r : Dict α Int} {cs : Dict Int V}
    (hr : kmCluster env maxIteration m (some vectors) nb = .ok (r, cs)) :
    ∃ old : Int → Int, (∀ a ∈ dvals r, ∀ b ∈ dvals r, old a = old b → a = b) ∧ (dkeys cs).Nodup ∧
      (∀ c, c ∈ dkeys cs ↔ ∃ a ∈ dvals r, old a = c) ∧
      ∀ a ∈ dvals r, dget? cs (old a) =
        some (env.mean ((m.managed.filter fun x => decide (dget? r x = some a)).filterMap (dget? vectors))) := by
  obtain ⟨n, rfl, hn, hne⟩ := kmCluster_ok_args hr (kmInit_pos hi)
  obtain ⟨new, r', cs', e1, hp, e2, e3⟩ := kmCluster_ok he h.inv hv hne hn (kmInit_pos hi)
  rw [hr] at e1
  cases e1
  have hk : dkeys new = m.managed := hp.keys
  have hnn : (dkeys new).Nodup := by rw [hk]; exact h.inv.d.nodup
  obtain ⟨r', e2', hrk, hsp, -⟩ := rename_managed h.inv hk
  rw [e2] at e2'; cases e2'
  have hrn : (dkeys r).Nodup := by rw [hrk]; exact (List.perm_insertionSort _ _).nodup_iff.2 h.inv.d.nodup
  have hrm : ∀ x, x ∈ dkeys r ↔ x ∈ m.managed := fun x => by rw [hrk]; exact List.mem_insertionSort _
  obtain ⟨cs', e3', hcn, hck⟩ := kmCentroids_ok he h.inv hv hk
  rw [e3] at e3'; cases e3'
  have hlab : ∀ x ∈ m.managed, dget? new x = some ((dget? new x).getD 0) := by
    intro x hx
    obtain ⟨l, hl⟩ := dget?_isSome_of_mem (d := new) (k := x) (by rw [hk]; exact hx)
    rw [hl]; rfl
  have hrep : ∀ a ∈ dvals r, ∃ x, x ∈ m.managed ∧ dget? r x = some a := by
    intro a ha
    obtain ⟨x, hx⟩ := (mem_dvals hrn).1 ha
    exact ⟨x, (hrm x).1 (mem_dkeys_of_dget? hx), hx⟩
  -- the label of any ID of the cluster
  let old : Int → Int := fun a => ((m.managed.find? fun x => decide (dget? r x = some a)).bind (dget? new)).getD 0
  have hold : ∀ a x, x ∈ m.managed → dget? r x = some a → dget? new x = some (old a) := by
    intro a x hx hxa
    obtain ⟨y, hy⟩ : ∃ y, m.managed.find? (fun x => decide (dget? r x = some a)) = some y := by
      rw [← Option.isSome_iff_exists, List.find?_isSome]
      exact ⟨x, hx, by simpa using hxa⟩
    have hym := List.mem_of_find?_eq_some hy
    have hya : dget? r y = some a := by simpa using List.find?_some hy
    show dget? new x = some (((m.managed.find? fun x => decide (dget? r x = some a)).bind (dget? new)).getD 0)
    rw [hy, Option.bind_some, ← hlab y hym]
    exact (hsp x hx y hym).2 (by rw [hxa, hya])
  refine ⟨old, ?_, hcn, ?_, ?_⟩
  · intro a ha b hb hab
    obtain ⟨x, hx, hxa⟩ := hrep a ha
    obtain ⟨y, hy, hyb⟩ := hrep b hb
    have := (hsp x hx y hy).1 (by rw [hold a x hx hxa, hold b y hy hyb, hab])
    rw [hxa, hyb] at this
    exact Option.some.inj this
  · intro c
    rw [hck c]
    constructor
    · intro hc
      obtain ⟨x, hx⟩ := (mem_dvals hnn).1 hc
      have hxm : x ∈ m.managed := by rw [← hk]; exact mem_dkeys_of_dget? hx
      obtain ⟨a, ha⟩ := dget?_isSome_of_mem ((hrm x).2 hxm)
      refine ⟨a, (mem_dvals hrn).2 ⟨x, ha⟩, ?_⟩
      have := hold a x hxm ha
      rw [hx] at this
      exact (Option.some.inj this).symm
    · rintro ⟨a, ha, rfl⟩
      obtain ⟨x, hx, hxa⟩ := hrep a ha
      exact (mem_dvals hnn).2 ⟨x, hold a x hx hxa⟩
  · intro a ha
    obtain ⟨x0, hx0, hxa0⟩ := hrep a ha
    obtain ⟨v0, -⟩ := hv x0 hx0
    have hvec : ∀ x ∈ m.managed, dget? vectors x = some ((dget? vectors x).getD v0) := by
      intro x hx
      obtain ⟨v, hv⟩ := hv x hx
      rw [hv]; rfl
    rw [kmCentroids_eq he hnn hk hvec hlab e3 ((mem_dvals hnn).2 ⟨x0, hold a x0 hx0 hxa0⟩)]
    congr 2
    have hfilter : (m.managed.filter fun x => decide ((dget? new x).getD 0 = old a)) =
        m.managed.filter fun x => decide (dget? r x = some a) := by
      refine List.filter_congr fun x hx => ?_
      rw [decide_eq_decide]
      constructor
      · intro hl
        have h1 : dget? new x = dget? new x0 := by rw [hlab x hx, hl, hold a x0 hx0 hxa0]
        rw [(hsp x hx x0 hx0).1 h1, hxa0]
      · intro hxa
        rw [hold a x hx hxa]; rfl
    rw [hfilter]
    have hsub : ∀ x ∈ m.managed.filter (fun x => decide (dget? r x = some a)), x ∈ m.managed := fun x hx => List.mem_of_mem_filter hx
    generalize m.managed.filter (fun x => decide (dget? r x = some a)) = L at hsub
    induction L with
    | nil => rfl
    | cons x L ih =>
      rw [List.map_cons, List.filterMap_cons, hvec x (hsub x (by simp)), ih fun y hy => hsub y (by simp [hy])]
      rfl

/-- The labels differ in general: the centroid stored under the label of a cluster can be that of another cluster, and the
numbers used as labels need not be the same. -/
theorem C95_labels_differ : ∃ (env : KMeansEnv Nat Int Nat) (m : Manager Nat) (vectors : Dict Nat Int) (r : Dict Nat Int)
    (cs : Dict Int Int), env.Ok ∧ Reachable m ∧ HasVectors m vectors ∧
    kmCluster env 150 m (some vectors) (some 2) = .ok (r, cs) ∧
    ∃ a ∈ dvals r, ∃ c, dget? cs a = some c ∧
      c ≠ env.mean ((m.managed.filter fun x => decide (dget? r x = some a)).filterMap (dget? vectors)) :=
  ⟨kmDemoEnv, kmDemo, kmDemoVectors, [(1, 0), (2, 1), (3, 0), (5, 1), (9, 2)], [(2, 30), (1, 50), (0, 79)], kmDemoEnv_ok, ⟨_, _, rfl⟩,
    kmDemo_hasVectors, by decide +kernel, 0, by decide +kernel, 79, by decide +kernel, by decide +kernel⟩

/-- The label of the only cluster is not even a key of `self.centroids`. -/
theorem C95_missing_label : ∃ (env : KMeansEnv Nat Int Nat) (m : Manager Nat) (vectors : Dict Nat Int) (r : Dict Nat Int)
    (cs : Dict Int Int), env.Ok ∧ Reachable m ∧ HasVectors m vectors ∧
    kmCluster env 150 m (some vectors) (some 2) = .ok (r, cs) ∧ ∃ a ∈ dvals r, dget? cs a = none :=
  ⟨kmDemoEnv, Manager.init [1, 2, 3], [(1, 0), (2, 0), (3, 0)], [(1, 0), (2, 0), (3, 0)], [(1, 0)], kmDemoEnv_ok, ⟨_, [], rfl⟩,
    by unfold HasVectors; simp only [exists_dget?_iff]; decide +kernel, by decide +kernel, 0, by decide +kernel, by decide +kernel⟩

example := C95_centroids kmDemoEnv_ok (m := kmDemo) ⟨_, _, rfl⟩ kmDemo_hasVectors (model := "COP") (it := 150) (tol := false)
  (maxIteration := 150) (by decide) (nb := some 2) (r := [(1, 0), (2, 1), (3, 0), (5, 1), (9, 2)])
  (cs := [(2, 30), (1, 50), (0, 79)]) (by decide +kernel)

end Verif
