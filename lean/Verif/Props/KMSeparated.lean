import Verif.Proofs.KMSeparated
import Verif.Props.KMeans
import Verif.Props.HierSeparated
import Mathlib.Tactic.NormNum

/-
Property C105: COP-KMeans finds classes that are far apart if the initial centroids are in different classes.
Specification vocabulary: `Verif/Spec/KMSeparated.lean`, `Verif/Spec/HierSeparated.lean`.
-/

namespace Verif

variable {α V δ : Type} [LinearOrder α] [LinearOrder δ]

/-- Classes that agree with the constraints and whose centers are separated are the result of `cluster` with the right
number of clusters, whatever the number of iterations, if the initial centroids are in different classes. -/
theorem C105_classes {env : KMeansEnv α V δ} (he : env.Ok) {m : Manager α} (h : Reachable m) {vectors : Dict α V}
    (hv : HasVectors m vectors) {model : String} {it : Int} {tol : Bool} {maxIteration : Nat}
    (hi : kmInit model it tol = .ok maxIteration) {f : α → Nat} (hf : Satisfies m f)
    (hs : CentersSeparate env vectors m.managed f) (h2 : 2 ≤ classes f m.managed)
    (hini : ((initialIds env m.managed (classes f m.managed)).map f).Nodup) :
    ∃ r cs, kmCluster env maxIteration m (some vectors) (some (classes f m.managed : Nat)) = .ok (r, cs) ∧
      GivesClasses m.managed f r := by
  have hne : m.managed ≠ [] := by
    intro h0
    rw [h0] at h2
    simp [classes] at h2
  have hle : classes f m.managed ≤ m.managed.length := (classes_le h.inv hf).trans (components_le h.inv)
  obtain ⟨left, rfl⟩ : ∃ left, maxIteration = left + 1 := ⟨maxIteration - 1, by have := kmInit_pos hi; omega⟩
  obtain ⟨cs0, e0, hc0⟩ := kmInitialize_ok he hv hle (by omega)
  obtain ⟨σ, ho⟩ := kmInitialize_classes he hini hle e0
  obtain ⟨new, cs, e1, hd⟩ := kmLoop_ok he h.inv hv hne (classes f m.managed) (left := left)
    (clusters := dofList (m.managed.map fun x => (x, -1))) hc0 (.inl (by
      intro v hv
      obtain ⟨k, hk⟩ := (mem_dvals (nodup_dkeys_dofList _)).1 hv
      have := mem_of_dget?_dofList hk
      obtain ⟨x, -, hx⟩ := List.mem_map.1 this
      cases hx; rfl))
  obtain ⟨hk, hcls⟩ := kmLoop_classes he h.inv hf hs hv hne hc0 ho e1
  obtain ⟨r, e2, e2k, e2s, -⟩ := rename_managed h.inv hk
  obtain ⟨fc, e3, -⟩ := kmCentroids_ok he h.inv hv hk
  refine ⟨r, fc, ?_, e2k, fun x hx y hy => by rw [← e2s x hx y hy]; exact hcls x hx y hy⟩
  unfold kmCluster
  simp only
  rw [if_neg (by omega), show min ((classes f m.managed : Nat) : Int).toNat m.managed.length = classes f m.managed by omega]
  unfold kmCOP
  rw [e0]
  simp only [bind, Except.bind]
  rw [e1]
  simp only [e2, e3]
  rfl

/-- In exact arithmetic, it is enough that distances between classes are more than twice the distances inside. -/
theorem C105_gap {E : Type} [NormedAddCommGroup E] [NormedSpace ℝ E] {tolerance : ℝ} {enum : List Int → List Int}
    {shuffle : List α → List α} {vectors : Dict α E} {ids : List α} {f : α → Nat} {w b : ℝ} (h0 : 0 ≤ w)
    (hg : ClassGap vectors ids f w b) (hwb : 2 * w < b) :
    CentersSeparate (realKMeans tolerance enum shuffle) vectors ids f := centers_separate h0 hg hwb

/-! ### Data of the examples: three classes of two -/

def kmSepClass (x : Nat) : Nat := (x + 1) / 2

def kmSepVectors : Dict Nat Int := [(1, 0), (2, 10), (3, 1100), (4, 1110), (5, 2000), (6, 2010)]

theorem kmSep_gap : ∀ x ∈ [1, 2, 3, 4, 5, 6], ∀ y ∈ [1, 2, 3, 4, 5, 6], ∀ u v, dget? kmSepVectors x = some u →
    dget? kmSepVectors y = some v → (kmSepClass x = kmSepClass y → kmDemoEnv.metric u v ≤ 10) ∧
      (kmSepClass x ≠ kmSepClass y → 890 ≤ kmDemoEnv.metric u v) := by
  intro x hx y hy u v hu hv
  have : ∀ x ∈ [1, 2, 3, 4, 5, 6], ∀ y ∈ [1, 2, 3, 4, 5, 6], (match dget? kmSepVectors x, dget? kmSepVectors y with
      | some u, some v => decide ((kmSepClass x = kmSepClass y → kmDemoEnv.metric u v ≤ 10) ∧
        (kmSepClass x ≠ kmSepClass y → 890 ≤ kmDemoEnv.metric u v))
      | _, _ => true) = true := by decide +kernel
  have := this x hx y hy
  rw [hu, hv] at this
  exact of_decide_eq_true this

/-- Finding: the initial centroids are any IDs, whatever the constraints; with two of them in one class, `cluster` may
end with that class split and two others together, however far apart the classes are. -/
theorem C105_initial_needed : ∃ (env : KMeansEnv Nat Int Nat) (m : Manager Nat) (vectors : Dict Nat Int) (f : Nat → Nat)
    (r : Dict Nat Int) (cs : Dict Int Int), env.Ok ∧ Reachable m ∧ HasVectors m vectors ∧ Satisfies m f ∧
    (∀ x ∈ m.managed, ∀ y ∈ m.managed, ∀ u v, dget? vectors x = some u → dget? vectors y = some v →
      (f x = f y → env.metric u v ≤ 10) ∧ (f x ≠ f y → 890 ≤ env.metric u v)) ∧
    classes f m.managed = 3 ∧ kmCluster env 150 m (some vectors) (some 3) = .ok (r, cs) ∧ ¬ GivesClasses m.managed f r := by
  refine ⟨kmDemoEnv, Manager.init [3, 4, 6, 1, 2, 5], kmSepVectors, kmSepClass,
    [(1, 0), (2, 1), (3, 2), (4, 2), (5, 2), (6, 2)], [(2, 0), (1, 10), (0, 1555)],
    kmDemoEnv_ok, ⟨[3, 4, 6, 1, 2, 5], [], rfl⟩, ?_, init_satisfies _ _, ?_, by decide +kernel, by decide +kernel, ?_⟩
  · unfold HasVectors; simp only [exists_dget?_iff]; decide +kernel
  · have : (Manager.init [3, 4, 6, 1, 2, 5]).managed = [3, 4, 6, 1, 2, 5] := by decide +kernel
    rw [this]
    intro x hx y hy
    refine kmSep_gap x ?_ y ?_
    · revert x; decide
    · clear x hx; revert y; decide
  · rintro ⟨-, h⟩
    have := (h 1 (by decide +kernel) 2 (by decide +kernel)).2 (by decide)
    exact absurd this (by decide)

/-! ### Each theorem applied to a concrete case -/

/-- Real numbers, the first IDs as initial centroids. -/
noncomputable def kmSepReal : KMeansEnv Nat ℝ ℝ := realKMeans 1 (fun l => l.dedup) id

theorem kmSepReal_ok : kmSepReal.Ok where
  enum l := ⟨List.nodup_dedup l, fun _ => List.mem_dedup⟩
  shuffle l := List.Perm.refl l

theorem kmSepReal_separate : CentersSeparate kmSepReal sepReal (Manager.init [2, 4, 3, 5]).managed sepClass' := by
  have hm : (Manager.init [2, 4, 3, 5]).managed = [2, 4, 3, 5] := by decide +kernel
  refine C105_gap (w := 2) (b := 9) (by norm_num) ?_ (by norm_num)
  rw [hm]
  intro x hx y hy
  refine sepReal_gap x ?_ y ?_
  · revert x; decide
  · clear x hx; revert y; decide

example := C105_classes kmSepReal_ok (m := Manager.init [2, 4, 3, 5]) ⟨[2, 4, 3, 5], [], rfl⟩ (vectors := sepReal)
  (by unfold HasVectors; simp only [exists_dget?_iff]; decide +kernel) (model := "COP") (it := 150) (tol := false)
  (maxIteration := 150) (by decide +kernel)
  (f := sepClass') (init_satisfies _ _) kmSepReal_separate (by decide +kernel) (by
    have hc : classes sepClass' (Manager.init [2, 4, 3, 5]).managed = 2 := by decide +kernel
    have hm : (Manager.init [2, 4, 3, 5]).managed = [2, 4, 3, 5] := by decide +kernel
    rw [hc, hm]
    unfold initialIds kmSepReal realKMeans
    simp only [id]
    decide)

end Verif
