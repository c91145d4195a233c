import Verif.Proofs.HierChained
import Verif.Proofs.Session
import Verif.Props.HierSeparated
import Verif.Props.Inertia
import Verif.Props.DBScan

/-
Property C107: correct annotations and correct clusterings. Single linkage finds classes whose IDs are chained, and
annotations that agree with the classes never spoil a cut by iteration that gives them; for the other linkages, for the
cut by size that `cluster` does, for COP-KMeans and for C-DBScan one correct annotation can spoil a correct clustering.
Specification vocabulary: `Verif/Spec/HierChained.lean`; `annotate` is in `Verif/Spec/Sampling.lean`.
-/

namespace Verif

variable {α V δ : Type} [LinearOrder α] [LinearOrder δ]

/-- Single linkage, cut by iteration: chained classes that agree with the constraints are found. The distances inside
a class may be larger than those between classes. -/
theorem C107_iteration {env : HierEnv V δ} (hs : ∀ v w, env.metric v w = env.metric w v) {o o' : HObject α V}
    (hl : o.linkage = .single) {m : Manager α} (h : Reachable m) {vectors : Dict α V}
    {nb : Option Int} {r : Dict α Int} (hr : o.cluster env m (some vectors) nb = (o', .ok r)) {f : α → Nat}
    (hf : Satisfies m f) (hc : ChainsSeparate env m vectors f) (h2 : 2 ≤ classes f m.managed) :
    ∃ r', o'.cut (classes f m.managed : Nat) .iteration = .ok r' ∧ GivesClasses m.managed f r' := by
  obtain ⟨vs, nb', root, st, -, hvs, -, -, -, rfl, hb, -⟩ := hier_ok h hr
  cases hvs
  rw [hl] at hb
  obtain ⟨l, r', -, hE, e, hR⟩ := hCut_ok h.inv hb (classes f m.managed : Nat) .iteration
  refine ⟨r', e, hR.keys, fun x hx y hy => ?_⟩
  rw [hR.same x hx y hy]
  exact hE.classes_iteration h.inv hb hf (hb.mergesPure_chained hs h.inv hf hc) h2 hx hy

/-- The result of `cluster` itself, when any two classes together have more IDs than any class. -/
theorem C107_cluster {env : HierEnv V δ} (hs : ∀ v w, env.metric v w = env.metric w v) (o : HObject α V)
    (hl : o.linkage = .single) {m : Manager α} (h : Reachable m) {vectors : Dict α V}
    (hv : HasVectors m vectors) {f : α → Nat} (hf : Satisfies m f)
    (hc : ChainsSeparate env m vectors f) (h2 : 2 ≤ classes f m.managed)
    (hsize : ∀ x ∈ m.managed, ∀ y ∈ m.managed, ∀ z ∈ m.managed, f x ≠ f y →
      classSize m.managed f (f z) < classSize m.managed f (f x) + classSize m.managed f (f y)) :
    ∃ o' r, o.cluster env m (some vectors) (some (classes f m.managed : Nat)) = (o', .ok r) ∧ GivesClasses m.managed f r := by
  have hne : m.managed ≠ [] := by
    intro h0
    rw [h0] at h2
    simp [classes] at h2
  obtain ⟨root, st, l, r, e, hb, hE, hR⟩ := hier_call (env := env) o h hv hne (nb := (classes f m.managed : Nat)) (by omega)
  have hle : classes f m.managed ≤ m.managed.length := (classes_le h.inv hf).trans (components_le h.inv)
  refine ⟨_, r, e, hR.keys, fun x hx y hy => ?_⟩
  rw [hR.same x hx y hy]
  rw [show min ((classes f m.managed : Nat) : Int) (m.managed.length : Int) = (classes f m.managed : Nat) by omega] at hE
  rw [hl] at hb
  exact hE.classes_size h.inv hb hf (hb.mergesPure_chained hs h.inv hf hc) hsize hx hy

/-- Conversely, when no constraint is a cannot-link and no distance inside a class is also a distance between classes,
single linkage finds the classes (for any number of clusters asked for) only if they are chained. -/
theorem C107_chained {env : HierEnv V δ} (hs : ∀ v w, env.metric v w = env.metric w v) {o o' : HObject α V}
    (hl : o.linkage = .single) {m : Manager α} (h : Reachable m) (hno : ∀ x y, ¬ CannotLinked m x y) {vectors : Dict α V}
    {nb : Option Int} {r : Dict α Int} (hr : o.cluster env m (some vectors) nb = (o', .ok r)) {f : α → Nat}
    (ht : NoTies env vectors m.managed f) {k : Int} {r' : Dict α Int} (hcut : o'.cut k .iteration = .ok r')
    (hg : GivesClasses m.managed f r') : ChainsSeparate env m vectors f := by
  obtain ⟨vs, nb', root, st, -, hvs, -, -, -, rfl, hb, -⟩ := hier_ok h hr
  cases hvs
  rw [hl] at hb
  obtain ⟨l, r1, -, hE, e, hR⟩ := hCut_ok h.inv hb k .iteration
  have e' : hCut m.managed st root k .iteration = .ok r' := hcut
  rw [e] at e'
  cases e'
  exact hE.chained hs h.inv hb hno ht fun x hx y hy => (hR.same x hx y hy).symm.trans (hg.2 x hx y hy)

/-- Annotations that agree with the classes never spoil a correct cut by iteration of single linkage: if it gives the
classes with the must-links of `m`, it gives them with every consistent set of constraints that contains them. -/
theorem C107_never_spoiled {env : HierEnv V δ} (hs : ∀ v w, env.metric v w = env.metric w v) {o o' o1 o1' : HObject α V}
    (hl : o.linkage = .single) (hl1 : o1.linkage = .single) {m m1 : Manager α} (h : Reachable m) (h1 : Reachable m1)
    (hno : ∀ x y, ¬ CannotLinked m x y) (hk : KnowsAtLeast m m1) {vectors : Dict α V} {nb nb1 : Option Int}
    {r r1 : Dict α Int} (hr : o.cluster env m (some vectors) nb = (o', .ok r))
    (hr1 : o1.cluster env m1 (some vectors) nb1 = (o1', .ok r1)) {f : α → Nat} (hf : Satisfies m1 f)
    (ht : NoTies env vectors m.managed f) {k : Int} {r' : Dict α Int} (hcut : o'.cut k .iteration = .ok r')
    (hg : GivesClasses m.managed f r') (h2 : 2 ≤ classes f m1.managed) :
    ∃ r1', o1'.cut (classes f m1.managed : Nat) .iteration = .ok r1' ∧ GivesClasses m1.managed f r1' :=
  C107_iteration hs hl1 h1 hr1 hf ((C107_chained hs hl h hno hr ht hcut hg).more hk) h2

/-- The same for a batch of pairs annotated according to the classes. -/
theorem C107_session {env : HierEnv V δ} (hs : ∀ v w, env.metric v w = env.metric w v) {o o' : HObject α V}
    (hl : o.linkage = .single) {m : Manager α} (h : Reachable m) (hno : ∀ x y, ¬ CannotLinked m x y) {vectors : Dict α V}
    {nb : Option Int} {r : Dict α Int} (hr : o.cluster env m (some vectors) nb = (o', .ok r)) {f : α → Nat}
    (hf : Satisfies m f) (ht : NoTies env vectors m.managed f) {k : Int} {r' : Dict α Int}
    (hcut : o'.cut k .iteration = .ok r') (hg : GivesClasses m.managed f r') (h2 : 2 ≤ classes f m.managed)
    {batch : List (α × α)} (hb : ∀ p ∈ batch, p.1 ∈ m.managed ∧ p.2 ∈ m.managed) :
    ∃ m1 o1 r1 r2, annotate f m batch = .ok m1 ∧ o.cluster env m1 (some vectors) nb = (o1, .ok r1) ∧
      o1.cut (classes f m.managed : Nat) .iteration = .ok r2 ∧ GivesClasses m.managed f r2 := by
  obtain ⟨m1, e1, h1, hf1, ⟨k1, k2⟩, -⟩ := annotate_batch h hf hb
  have hk : KnowsAtLeast m m1 := by
    refine ⟨fun x => by rw [k1], fun x y hxy => ?_, fun x y hxy => (hno x y hxy).elim⟩
    by_cases hx : x ∈ m.managed
    · have hy := hxy.mem h.inv hx
      exact (inferred_ml_iff h1.inv (k1 ▸ hx) (k1 ▸ hy)).1 (k2 x y _ ((inferred_ml_iff h.inv hx hy).2 hxy))
    · rcases Relation.ReflTransGen.cases_head hxy with rfl | ⟨z, hz, -⟩
      · exact Relation.ReflTransGen.refl
      · exact (hx (AddedAs.mem (x := x) (y := z) h.inv hz).1).elim
  obtain ⟨vs, n, hvs, rfl, hn, hv, hne⟩ := hier_args hr
  cases hvs
  obtain ⟨root, st, l, r1, hr1, -⟩ := hier_call (env := env) o h1 (m := m1) (vectors := vectors)
    (fun x hx => hv x (k1 ▸ hx)) (by rw [k1]; exact hne) hn
  obtain ⟨r2, e2, hg2⟩ := C107_never_spoiled hs hl hl h h1 hno hk hr hr1 hf1 ht hcut hg (by rw [k1]; exact h2)
  rw [show classes f m1.managed = classes f m.managed by rw [k1]] at e2
  rw [k1] at hg2
  exact ⟨m1, _, r1, r2, e1, hr1, e2, hg2⟩

/-! ### One correct annotation that spoils a correct clustering -/

/-- Four IDs on a line. -/
def spoilVectors : Dict Nat ℚ := [(1, 10), (2, 2), (3, 7), (4, 5)]

/-- The IDs 1, 3 and 4 are similar. -/
def spoilClass (x : Nat) : Nat := if x = 2 then 1 else 0

/-- The annotation of the pair 1, 3. -/
def spoilManager : Manager Nat := runOps (Manager.init [1, 2, 3, 4]) [.addConstraint 1 3 "MUST_LINK" 1]

theorem givesClasses_of_check {ids : List Nat} {f : Nat → Nat} {r : Dict Nat Int}
    (h : dkeys r = ids.insertionSort (· ≤ ·) ∧ ∀ x ∈ ids, ∀ y ∈ ids,
      (decide (dget? r x = dget? r y) = decide (f x = f y))) : GivesClasses ids f r :=
  ⟨h.1, fun x hx y hy => by simpa using h.2 x hx y hy⟩

theorem not_givesClasses {ids : List Nat} {f : Nat → Nat} {r : Dict Nat Int} {x y : Nat} (hx : x ∈ ids) (hy : y ∈ ids)
    (h : decide (dget? r x = dget? r y) ≠ decide (f x = f y)) : ¬ GivesClasses ids f r := by
  rintro ⟨-, hg⟩
  exact h (by simpa using hg x hx y hy)

/-- Finding: with complete, average and ward linkage, without any constraint the clustering is exactly the classes,
both for `cluster` and for the cut by iteration; after the correct annotation that two IDs of one class are similar
neither of them is. The two IDs are put together at once, and the third one is then closer to the other class. -/
theorem C107_spoiled {link : Linkage} (hl : link ≠ .single) :
    ∃ (o o' o1 : HObject Nat ℚ) (ids : List Nat) (vectors : Dict Nat ℚ) (f : Nat → Nat) (p : Nat × Nat) (m1 : Manager Nat)
      (r r1 : Dict Nat Int), o.linkage = link ∧ classes f ids = 2 ∧
      o.cluster lineEnv (Manager.init ids) (some vectors) (some 2) = (o', .ok r) ∧ GivesClasses ids f r ∧
      o'.cut 2 .iteration = .ok r ∧
      p.1 ∈ ids ∧ p.2 ∈ ids ∧ annotate f (Manager.init ids) [p] = .ok m1 ∧
      o.cluster lineEnv m1 (some vectors) (some 2) = (o1, .ok r1) ∧ ¬ GivesClasses ids f r1 ∧
      o1.cut 2 .iteration = .ok r1 := by
  refine ⟨sepObject link, ((sepObject link).cluster lineEnv (Manager.init [1, 2, 3, 4]) (some spoilVectors) (some 2)).1,
    ((sepObject link).cluster lineEnv spoilManager (some spoilVectors) (some 2)).1, [1, 2, 3, 4], spoilVectors, spoilClass,
    (1, 3), spoilManager, [(1, 0), (2, 1), (3, 0), (4, 0)], [(1, 0), (2, 1), (3, 0), (4, 1)], rfl, by decide +kernel, ?_,
    givesClasses_of_check (by decide +kernel), ?_, by decide, by decide, by decide +kernel, ?_,
    not_givesClasses (x := 1) (y := 4) (by decide) (by decide) (by decide +kernel), ?_⟩
  · exact Prod.ext_iff.2 ⟨rfl, by revert hl; cases link <;> decide +kernel⟩
  · revert hl; cases link <;> decide +kernel
  · exact Prod.ext_iff.2 ⟨rfl, by revert hl; cases link <;> decide +kernel⟩
  · revert hl; cases link <;> decide +kernel

/-- Five IDs on a line. -/
def spoilVectors' : Dict Nat ℚ := [(1, 13), (2, 5), (3, 6), (4, 54), (5, 2)]

/-- The IDs 2, 3 and 5 are similar. -/
def spoilClass' (x : Nat) : Nat := if x = 1 then 1 else if x = 4 then 2 else 0

/-- The annotation of the pair 2, 1. -/
def spoilManager' : Manager Nat := runOps (Manager.init [1, 2, 3, 4, 5]) [.addConstraint 2 1 "CANNOT_LINK" 1]

theorem noTies_of_check {env : HierEnv V δ} {vectors : Dict α V} {ids : List α} {f : α → Nat}
    (h : ∀ x ∈ ids, ∀ y ∈ ids, ∀ z ∈ ids, ∀ t ∈ ids, x ≠ y → f x = f y → f z ≠ f t →
      (match dget? vectors x, dget? vectors y, dget? vectors z, dget? vectors t with
        | some v, some w, some v', some w' => decide (env.metric v w ≠ env.metric v' w')
        | _, _, _, _ => true) = true) : NoTies env vectors ids f := by
  intro x hx y hy z hz t ht h1 h2 h3 v w v' w' e1 e2 e3 e4
  have := h x hx y hy z hz t ht h1 h2 h3
  rw [e1, e2, e3, e4] at this
  exact of_decide_eq_true this

/-- Finding: with single linkage the same can happen to `cluster`, which cuts by size, although the cut by iteration
still gives the classes: a correct cannot-link changes the order in which the classes are merged. -/
theorem C107_spoiled_size :
    ∃ (o o' o1 : HObject Nat ℚ) (ids : List Nat) (vectors : Dict Nat ℚ) (f : Nat → Nat) (p : Nat × Nat) (m1 : Manager Nat)
      (r r1 : Dict Nat Int), o.linkage = .single ∧ classes f ids = 3 ∧ NoTies lineEnv vectors ids f ∧
      o.cluster lineEnv (Manager.init ids) (some vectors) (some 3) = (o', .ok r) ∧ GivesClasses ids f r ∧
      o'.cut 3 .iteration = .ok r ∧
      p.1 ∈ ids ∧ p.2 ∈ ids ∧ annotate f (Manager.init ids) [p] = .ok m1 ∧
      o.cluster lineEnv m1 (some vectors) (some 3) = (o1, .ok r1) ∧ ¬ GivesClasses ids f r1 ∧
      o1.cut 3 .iteration = .ok r :=
  ⟨sepObject .single, ((sepObject .single).cluster lineEnv (Manager.init [1, 2, 3, 4, 5]) (some spoilVectors') (some 3)).1,
    ((sepObject .single).cluster lineEnv spoilManager' (some spoilVectors') (some 3)).1, [1, 2, 3, 4, 5], spoilVectors',
    spoilClass', (2, 1), spoilManager', [(1, 0), (2, 1), (3, 1), (4, 2), (5, 1)], [(1, 0), (2, 1), (3, 1), (4, 0), (5, 2)],
    rfl, by decide +kernel, noTies_of_check (by decide +kernel), Prod.ext_iff.2 ⟨rfl, by decide +kernel⟩,
    givesClasses_of_check (by decide +kernel), by decide +kernel, by decide, by decide, by decide +kernel,
    Prod.ext_iff.2 ⟨rfl, by decide +kernel⟩,
    not_givesClasses (x := 1) (y := 4) (by decide) (by decide) (by decide +kernel), by decide +kernel⟩

def tieVectors : Dict Nat ℚ := [(1, 1), (2, 10), (3, 2), (4, 6), (5, 12)]

/-- The IDs 2 and 5 are similar, and so are 1, 3 and 4. -/
def tieClass (x : Nat) : Nat := if x = 2 ∨ x = 5 then 1 else 0

def tieManager : Manager Nat := runOps (Manager.init [1, 2, 3, 4, 5]) [.addConstraint 2 5 "MUST_LINK" 1]

/-- Finding: and to the cut by iteration of single linkage when a distance inside a class is also a distance between
classes, because the annotation changes the order of the clusters, which decides between equal distances. -/
theorem C107_ties_needed :
    ∃ (o o' o1 : HObject Nat ℚ) (ids : List Nat) (vectors : Dict Nat ℚ) (f : Nat → Nat) (p : Nat × Nat) (m1 : Manager Nat)
      (r r1 : Dict Nat Int), o.linkage = .single ∧ classes f ids = 2 ∧
      o.cluster lineEnv (Manager.init ids) (some vectors) (some 2) = (o', .ok r) ∧ GivesClasses ids f r ∧
      o'.cut 2 .iteration = .ok r ∧
      p.1 ∈ ids ∧ p.2 ∈ ids ∧ annotate f (Manager.init ids) [p] = .ok m1 ∧
      o.cluster lineEnv m1 (some vectors) (some 2) = (o1, .ok r1) ∧ ¬ GivesClasses ids f r1 ∧
      o1.cut 2 .iteration = .ok r1 :=
  ⟨sepObject .single, ((sepObject .single).cluster lineEnv (Manager.init [1, 2, 3, 4, 5]) (some tieVectors) (some 2)).1,
    ((sepObject .single).cluster lineEnv tieManager (some tieVectors) (some 2)).1, [1, 2, 3, 4, 5], tieVectors,
    tieClass, (2, 5), tieManager, [(1, 0), (2, 1), (3, 0), (4, 0), (5, 1)], [(1, 0), (2, 1), (3, 0), (4, 1), (5, 1)],
    rfl, by decide +kernel, Prod.ext_iff.2 ⟨rfl, by decide +kernel⟩,
    givesClasses_of_check (by decide +kernel), by decide +kernel, by decide, by decide, by decide +kernel,
    Prod.ext_iff.2 ⟨rfl, by decide +kernel⟩,
    not_givesClasses (x := 1) (y := 4) (by decide) (by decide) (by decide +kernel), by decide +kernel⟩

def spoilPoints : Dict Nat (Rat × Rat) := [(1, (1, 0)), (2, (0, 0)), (3, (12, 0)), (4, (4, 0))]

/-- Finding: COP-KMeans from the same initial centroids. The annotation is that two IDs of one class are similar, and
all the IDs end in one cluster. -/
theorem C107_spoiled_kmeans :
    ∃ (env : KMeansEnv Nat (Rat × Rat) Rat) (ids : List Nat) (vectors : Dict Nat (Rat × Rat)) (f : Nat → Nat) (p : Nat × Nat)
      (m1 : Manager Nat) (r r1 : Dict Nat Int) (cs cs1 : Dict Int (Rat × Rat)), env.Ok ∧ classes f ids = 2 ∧
      kmCluster env 150 (Manager.init ids) (some vectors) (some 2) = .ok (r, cs) ∧ GivesClasses ids f r ∧
      p.1 ∈ ids ∧ p.2 ∈ ids ∧ annotate f (Manager.init ids) [p] = .ok m1 ∧
      kmCluster env 150 m1 (some vectors) (some 2) = .ok (r1, cs1) ∧ ¬ GivesClasses ids f r1 :=
  ⟨cycleEnv fun l => l.all fun p => decide (squareDist p.1 p.2 < 1 / 10000), [1, 2, 3, 4], spoilPoints,
    fun x => if x = 3 then 1 else 0, (4, 2), runOps (Manager.init [1, 2, 3, 4]) [.addConstraint 4 2 "MUST_LINK" 1],
    [(1, 0), (2, 0), (3, 1), (4, 0)], [(1, 0), (2, 0), (3, 0), (4, 0)], [(0, 12, 0), (1, 5 / 3, 0)], [(0, 17 / 4, 0)],
    ⟨fun l => ⟨List.nodup_dedup l, fun _ => List.mem_dedup⟩, fun l => List.Perm.refl l⟩, by decide +kernel, by decide +kernel,
    givesClasses_of_check (by decide +kernel), by decide, by decide, by decide +kernel, by decide +kernel,
    not_givesClasses (x := 1) (y := 3) (by decide) (by decide) (by decide +kernel)⟩

/-- Finding: C-DBScan. The annotation is that two neighbours of one cluster are similar, and the third ID is left
alone. -/
theorem C107_spoiled_dbscan :
    ∃ (env : DbEnv Nat Int Nat) (eps minSamples : Nat) (ids : List Nat) (vectors : Dict Nat Int) (f : Nat → Nat) (p : Nat × Nat)
      (m1 : Manager Nat) (r r1 : Dict Nat Int), DbAssumptions env (dbNatParams eps minSamples) ∧ env.none ∉ ids ∧
      (dbCluster env (dbNatParams eps minSamples) (Manager.init ids) (some vectors) none).map (·.predicted) = .ok (some r) ∧
      GivesClasses ids f r ∧ p.1 ∈ ids ∧ p.2 ∈ ids ∧ annotate f (Manager.init ids) [p] = .ok m1 ∧
      (dbCluster env (dbNatParams eps minSamples) m1 (some vectors) none).map (·.predicted) = .ok (some r1) ∧
      ¬ GivesClasses ids f r1 :=
  ⟨dbDemoEnv, 2, 2, [1, 2, 3, 4], [(1, 5), (2, 2), (3, 4), (4, 8)], fun x => if x = 4 then 1 else 0, (2, 3),
    runOps (Manager.init [1, 2, 3, 4]) [.addConstraint 2 3 "MUST_LINK" 1], [(1, 0), (2, 0), (3, 0), (4, -1)],
    [(1, 0), (2, 1), (3, 1), (4, -1)], dbDemo_ok 2 2, by decide, by decide +kernel,
    givesClasses_of_check (by decide +kernel), by decide, by decide, by decide +kernel, by decide +kernel,
    not_givesClasses (x := 1) (y := 2) (by decide) (by decide) (by decide +kernel)⟩

/-! ### Each theorem applied to a concrete case -/

theorem lineEnv_symm (v w : ℚ) : lineEnv.metric v w = lineEnv.metric w v := by
  show (if v ≤ w then w - v else v - w) = if w ≤ v then v - w else w - v
  split <;> split
  · rw [le_antisymm ‹v ≤ w› ‹w ≤ v›]
  · rfl
  · rfl
  · exact absurd (le_of_lt (not_le.1 ‹¬ v ≤ w›)) ‹¬ w ≤ v›

/-- Two chained classes, with a distance of 9 inside the first one and of 5 between them. -/
def chainVectors : Dict Nat ℚ := [(1, 0), (2, 3), (3, 6), (4, 9), (5, 14), (6, 37 / 2)]

def chainClass (x : Nat) : Nat := if x ≤ 4 then 0 else 1

def chainManager : Manager Nat := Manager.init [1, 2, 3, 4, 5, 6]

theorem chainManager_reachable : Reachable chainManager := ⟨[1, 2, 3, 4, 5, 6], [], rfl⟩

def chainAfter : HObject Nat ℚ := ((sepObject .single).cluster lineEnv chainManager (some chainVectors) (some 2)).1

theorem chain_run : (sepObject .single).cluster lineEnv chainManager (some chainVectors) (some 2) =
    (chainAfter, .ok [(1, 0), (2, 0), (3, 0), (4, 0), (5, 1), (6, 1)]) :=
  Prod.ext_iff.2 ⟨rfl, by decide +kernel⟩

theorem chain_cut : chainAfter.cut 2 .iteration =
    .ok [(1, 0), (2, 0), (3, 0), (4, 0), (5, 1), (6, 1)] := by decide +kernel

theorem chain_free : ∀ x y, ¬ CannotLinked chainManager x y :=
  fun _ _ hxy => satisfies_sep (init_satisfies [1, 2, 3, 4, 5, 6] fun _ => 0) hxy rfl

theorem chain_noTies : NoTies lineEnv chainVectors chainManager.managed chainClass :=
  noTies_of_check (by decide +kernel)

theorem chain_classes : GivesClasses chainManager.managed chainClass
    [(1, 0), (2, 0), (3, 0), (4, 0), (5, 1), (6, 1)] := givesClasses_of_check (by decide +kernel)

theorem chain_chained : ChainsSeparate lineEnv chainManager chainVectors chainClass :=
  C107_chained lineEnv_symm rfl chainManager_reachable chain_free chain_run chain_noTies chain_cut chain_classes

example : ¬ DistancesSeparate lineEnv chainVectors chainManager.managed chainClass := fun h =>
  absurd (h 1 (by decide +kernel) 4 (by decide +kernel) 4 (by decide +kernel) 5 (by decide +kernel) (by decide) (by decide)
    (by decide) 0 9 9 14 rfl rfl rfl rfl) (by decide +kernel)

example := C107_iteration lineEnv_symm (o := sepObject .single) rfl chainManager_reachable chain_run (init_satisfies _ _)
  chain_chained (by decide +kernel)

example := C107_cluster lineEnv_symm (sepObject .single) rfl chainManager_reachable (vectors := chainVectors)
  (by unfold HasVectors; simp only [exists_dget?_iff]; decide +kernel) (init_satisfies _ _) chain_chained (by decide +kernel)
  (by decide +kernel)

/-- With annotations of the pairs 1, 4 and 2, 6. -/
def chainManager' : Manager Nat := runOps chainManager [.addConstraint 1 4 "MUST_LINK" 1, .addConstraint 2 6 "CANNOT_LINK" 1]

theorem chain_more : KnowsAtLeast chainManager chainManager' where
  ids x := by rw [show chainManager'.managed = chainManager.managed by decide +kernel]
  must x y hxy := by
    have e : x = y := satisfies_chain (init_satisfies [1, 2, 3, 4, 5, 6] id) hxy
    subst e
    exact Relation.ReflTransGen.refl
  cannot x y hxy := (chain_free x y hxy).elim

example := C107_never_spoiled lineEnv_symm (o := sepObject .single) (o1 := sepObject .single) rfl rfl chainManager_reachable
  (m1 := chainManager') ⟨_, _, rfl⟩ chain_free chain_more chain_run
  (o1' := ((sepObject .single).cluster lineEnv chainManager' (some chainVectors) (some 2)).1)
  (r1 := [(1, 0), (2, 0), (3, 0), (4, 0), (5, 1), (6, 1)])
  (nb1 := some 2) (Prod.ext_iff.2 ⟨rfl, by decide +kernel⟩) (f := chainClass)
  (satisfies_of_managed (Reachable.inv ⟨_, _, rfl⟩) (by decide +kernel)) chain_noTies chain_cut chain_classes (by decide +kernel)

example := C107_session lineEnv_symm (o := sepObject .single) rfl chainManager_reachable chain_free chain_run
  (init_satisfies _ _) chain_noTies chain_cut chain_classes (by decide +kernel) (batch := [(1, 4), (2, 6), (5, 6)])
  (by decide +kernel)

example := C107_spoiled (link := .average) (by decide)

end Verif
