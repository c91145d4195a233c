import Verif.Proofs.HierSeparated
import Verif.Props.HierHeights
import Mathlib.Tactic.NormNum
import Mathlib.Algebra.Order.Field.Rat

/-
Property C104: the hierarchical clustering finds classes that are far apart. Specification vocabulary:
`Verif/Spec/HierSeparated.lean`; `classes` is in `Verif/Spec/Questions.lean` and `realHier` in
`Verif/Spec/Geometry.lean`.
-/

namespace Verif

variable {α V δ : Type} [LinearOrder α] [LinearOrder δ]

/-- Classes that the linkage separates and that agree with the constraints are found by the cut by iteration into as
many clusters as there are classes, whatever number the clustering was called with. -/
theorem C104_iteration {env : HierEnv V δ} {o o' : HObject α V} {m : Manager α} (h : Reachable m) {vectors : Dict α V}
    {nb : Option Int} {r : Dict α Int} (hr : o.cluster env m (some vectors) nb = (o', .ok r)) {f : α → Nat}
    (hf : Satisfies m f) (hs : LinkageSeparates env o.linkage vectors m.managed f) (h2 : 2 ≤ classes f m.managed) :
    ∃ r', o'.cut (classes f m.managed : Nat) .iteration = .ok r' ∧ GivesClasses m.managed f r' := by
  obtain ⟨vs, nb', root, st, -, hvs, -, -, -, rfl, hb, -⟩ := hier_ok h hr
  cases hvs
  obtain ⟨l, r', -, hE, e, hR⟩ := hCut_ok h.inv hb (classes f m.managed : Nat) .iteration
  refine ⟨r', e, hR.keys, fun x hx y hy => ?_⟩
  rw [hR.same x hx y hy]
  exact hE.classes_iteration h.inv hb hf (hb.mergesPure h.inv hf hs) h2 hx hy

/-- The result of `cluster` itself, which cuts by size, is the classes when any two classes together have more IDs
than any class. -/
theorem C104_cluster {env : HierEnv V δ} (o : HObject α V) {m : Manager α} (h : Reachable m) {vectors : Dict α V}
    (hv : HasVectors m vectors) {f : α → Nat} (hf : Satisfies m f)
    (hs : LinkageSeparates env o.linkage vectors m.managed f) (h2 : 2 ≤ classes f m.managed)
    (hsize : ∀ x ∈ m.managed, ∀ y ∈ m.managed, ∀ z ∈ m.managed, f x ≠ f y →
      classSize m.managed f (f z) < classSize m.managed f (f x) + classSize m.managed f (f y)) :
    ∃ o' r, o.cluster env m (some vectors) (some (classes f m.managed : Nat)) = (o', .ok r) ∧ GivesClasses m.managed f r := by
  have hne : m.managed ≠ [] := by
    intro h0
    rw [h0] at h2
    simp [classes] at h2
  obtain ⟨root, st, l, r, e, hb, hE, hR⟩ := hier_call (env := env) o h hv hne (nb := (classes f m.managed : Nat)) (by omega)
  have hle : classes f m.managed ≤ m.managed.length := (classes_le h.inv hf).trans (components_le h.inv)
  refine ⟨_, r, e, hR.keys, fun x hx y hy => ?_⟩
  rw [hR.same x hx y hy]
  rw [show min ((classes f m.managed : Nat) : Int) (m.managed.length : Int) = (classes f m.managed : Nat) by omega] at hE
  exact hE.classes_size h.inv hb hf (hb.mergesPure h.inv hf hs) hsize hx hy

/-- Single and complete linkage separate classes as soon as every distance inside a class is smaller than every
distance between classes. -/
theorem C104_single_complete {env : HierEnv V δ} {link : Linkage} (hl : link = .single ∨ link = .complete)
    {vectors : Dict α V} {ids : List α} {f : α → Nat} (hd : DistancesSeparate env vectors ids f) :
    LinkageSeparates env link vectors ids f := separates_single_complete hl hd

section
variable {E : Type} [NormedAddCommGroup E] [NormedSpace ℝ E]

/-- Average linkage, in exact arithmetic: distances between classes more than three times the distances inside. -/
theorem C104_average {vectors : Dict α E} {ids : List α} {f : α → Nat} {w b : ℝ} (hg : ClassGap vectors ids f w b)
    (hwb : 3 * w < b) : LinkageSeparates realHier .average vectors ids f := separates_average hg hwb

/-- Ward linkage, in exact arithmetic: the distance between classes more than half the size of any class times the
distances inside. -/
theorem C104_ward {vectors : Dict α E} {ids : List α} {f : α → Nat} {w b : ℝ} (hg : ClassGap vectors ids f w b)
    (hwb : ∀ x ∈ ids, classSize ids f (f x) * w < 2 * b) : LinkageSeparates realHier .ward vectors ids f :=
  separates_ward hg hwb

end

/-! ### Data of the examples -/

def sepObject (link : Linkage) : HObject Nat ℚ := ⟨link, [], none, []⟩

/-- One annotation: 1 and 3 are similar. -/
def sepManager : Manager Nat := runOps (Manager.init [1, 2, 3, 4, 5]) [.addConstraint 1 3 "MUST_LINK" 1]

/-- A class of three and two classes of one. -/
def sepClass (x : Nat) : Nat := if x ≤ 3 then 0 else x

def sepVectors : Dict Nat ℚ := [(1, 0), (2, 1), (3, 3), (4, 100), (5, 110)]

theorem sepManager_reachable : Reachable sepManager := ⟨_, _, rfl⟩

theorem sepManager_satisfies : Satisfies sepManager sepClass :=
  satisfies_of_managed sepManager_reachable.inv (by decide +kernel)

theorem distancesSeparate_of_check {env : HierEnv V δ} {vectors : Dict α V} {ids : List α} {f : α → Nat}
    (h : ∀ x ∈ ids, ∀ y ∈ ids, ∀ z ∈ ids, ∀ t ∈ ids, x ≠ y → f x = f y → f z ≠ f t →
      (match dget? vectors x, dget? vectors y, dget? vectors z, dget? vectors t with
        | some v, some w, some v', some w' => decide (env.metric v w < env.metric v' w')
        | _, _, _, _ => true) = true) : DistancesSeparate env vectors ids f := by
  intro x hx y hy z hz t ht h1 h2 h3 v w v' w' e1 e2 e3 e4
  have := h x hx y hy z hz t ht h1 h2 h3
  rw [e1, e2, e3, e4] at this
  exact of_decide_eq_true this

theorem sep_distances : DistancesSeparate lineEnv sepVectors sepManager.managed sepClass :=
  distancesSeparate_of_check (by decide +kernel)

def sepAfter : HObject Nat ℚ := ((sepObject .single).cluster lineEnv sepManager (some sepVectors) (some 3)).1

theorem sep_run : (sepObject .single).cluster lineEnv sepManager (some sepVectors) (some 3) =
    (sepAfter, .ok [(1, 0), (2, 1), (3, 0), (4, 2), (5, 2)]) := Prod.ext_iff.2 ⟨rfl, by decide +kernel⟩

/-- Finding: with classes of very different sizes, `cluster` does not find them even if they are far apart and their
number is given, because it splits the largest cluster; the cut by iteration of the same tree finds them. -/
theorem C104_size_needed : ∃ (m : Manager Nat) (vectors : Dict Nat ℚ) (f : Nat → Nat) (o o' : HObject Nat ℚ) (r : Dict Nat Int),
    Reachable m ∧ Satisfies m f ∧ DistancesSeparate lineEnv vectors m.managed f ∧ o.linkage = .single ∧
    o.cluster lineEnv m (some vectors) (some (classes f m.managed : Nat)) = (o', .ok r) ∧ ¬ GivesClasses m.managed f r ∧
    ∃ r', o'.cut (classes f m.managed : Nat) .iteration = .ok r' ∧ GivesClasses m.managed f r' := by
  have hc : classes sepClass sepManager.managed = 3 := by decide +kernel
  refine ⟨sepManager, sepVectors, sepClass, sepObject .single, sepAfter, _, sepManager_reachable, sepManager_satisfies,
    sep_distances, rfl, by rw [hc]; exact sep_run, ?_, C104_iteration sepManager_reachable sep_run sepManager_satisfies
      (C104_single_complete (.inl rfl) sep_distances) (by rw [hc]; decide)⟩
  rintro ⟨-, h⟩
  have := (h 1 (by decide +kernel) 2 (by decide +kernel)).2 (by decide)
  exact absurd this (by decide)

/-! The `ward` linkage: a class of four and two classes of one. -/

def wardManager : Manager Nat := Manager.init [1, 2, 3, 4, 5, 6]

def wardClass (x : Nat) : Nat := if x ≤ 4 then 0 else x

def wardVectors : Dict Nat ℚ := [(1, 0), (2, 8), (3, 12), (4, 20), (5, 1000), (6, 1021)]

def wardAfter : HObject Nat ℚ := ((sepObject .ward).cluster lineEnv wardManager (some wardVectors) (some 3)).1

/-- Finding: for the `ward` linkage of the package it is not enough that every distance inside a class is smaller than
every distance between classes: the sum over all pairs of the union grows with the size of the clusters, so that two
small classes are merged before a larger one is complete. -/
theorem C104_ward_needed : ∃ (m : Manager Nat) (vectors : Dict Nat ℚ) (f : Nat → Nat) (o o' : HObject Nat ℚ)
    (r r' : Dict Nat Int), Reachable m ∧ Satisfies m f ∧ DistancesSeparate lineEnv vectors m.managed f ∧ o.linkage = .ward ∧
    o.cluster lineEnv m (some vectors) (some (classes f m.managed : Nat)) = (o', .ok r) ∧ ¬ GivesClasses m.managed f r ∧
    o'.cut (classes f m.managed : Nat) .iteration = .ok r' ∧ ¬ GivesClasses m.managed f r' := by
  have hR : Reachable wardManager := ⟨[1, 2, 3, 4, 5, 6], [], rfl⟩
  have hc : classes wardClass wardManager.managed = 3 := by decide +kernel
  have hrun : (sepObject .ward).cluster lineEnv wardManager (some wardVectors) (some 3) =
    (wardAfter, .ok [(1, 0), (2, 0), (3, 0), (4, 1), (5, 2), (6, 2)]) := Prod.ext_iff.2 ⟨rfl, by decide +kernel⟩
  have hno : ¬ GivesClasses wardManager.managed wardClass [(1, 0), (2, 0), (3, 0), (4, 1), (5, 2), (6, 2)] := by
    rintro ⟨-, h⟩
    have := (h 1 (by decide +kernel) 4 (by decide +kernel)).2 (by decide)
    exact absurd this (by decide)
  exact ⟨wardManager, wardVectors, wardClass, sepObject .ward, wardAfter, _, _, hR, init_satisfies _ _,
    distancesSeparate_of_check (by decide +kernel), rfl, by rw [hc]; exact hrun, hno, by rw [hc]; decide +kernel, hno⟩

/-! ### Each theorem applied to a concrete case -/

example := C104_iteration sepManager_reachable sep_run sepManager_satisfies
  (C104_single_complete (.inl rfl) sep_distances) (by decide +kernel)

/-- Two classes of two, one of one. -/
def sepClass' (x : Nat) : Nat := x / 2

example := C104_cluster (env := lineEnv) (sepObject .complete) (m := Manager.init [2, 5, 3, 4, 6])
  (⟨[2, 5, 3, 4, 6], [], rfl⟩ : Reachable (Manager.init [2, 5, 3, 4, 6]))
  (vectors := [(2, 0), (3, 1), (4, 10), (5, 12), (6, 30)])
  (by unfold HasVectors; simp only [exists_dget?_iff]; decide +kernel) (f := sepClass') (init_satisfies _ _)
  (C104_single_complete (.inr rfl) (distancesSeparate_of_check (by decide +kernel))) (by decide +kernel) (by decide +kernel)

example : ((sepObject .complete).cluster lineEnv (Manager.init [2, 5, 3, 4, 6])
    (some [(2, 0), (3, 1), (4, 10), (5, 12), (6, 30)]) (some 3)).2 = .ok [(2, 0), (3, 0), (4, 1), (5, 1), (6, 2)] := by
  decide +kernel

noncomputable def sepReal : Dict Nat ℝ := [(2, 0), (3, 1), (4, 10), (5, 12)]

theorem sepReal_gap : ClassGap sepReal [2, 3, 4, 5] sepClass' 2 9 := by
  intro x hx y hy hxy u v hu hv
  simp only [List.mem_cons, List.not_mem_nil, or_false] at hx hy
  have e2 : dget? sepReal 2 = some 0 := rfl
  have e3 : dget? sepReal 3 = some 1 := rfl
  have e4 : dget? sepReal 4 = some 10 := rfl
  have e5 : dget? sepReal 5 = some 12 := rfl
  rcases hx with rfl | rfl | rfl | rfl <;> rcases hy with rfl | rfl | rfl | rfl <;> first
    | exact absurd rfl hxy
    | (simp only [e2, e3, e4, e5, Option.some.injEq] at hu hv
       subst hu hv
       simp only [sepClass', Real.dist_eq]
       norm_num [abs_of_nonneg, abs_of_neg])

example := C104_average sepReal_gap (by norm_num)

example := C104_ward sepReal_gap (by
  intro x hx
  have : classSize [2, 3, 4, 5] sepClass' (sepClass' x) = 2 := by
    revert x
    decide
  rw [this]; norm_num)

end Verif
