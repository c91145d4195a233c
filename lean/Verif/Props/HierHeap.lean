import Verif.Proofs.HierHeap
import Verif.Props.HierChained

/-
Property C109: clusters and lists as objects in the hierarchical clustering, and what the client of an exported dictionary
can change. Specification vocabulary: `Verif/Spec/HierHeap.lean`. Models: `Verif/Model/HierHeap.lean` (objects),
`Verif/Model/Hierarchical.lean` and `Verif/Model/HierExport.lean` (values).
-/

namespace Verif

variable {α V δ : Type} [LinearOrder α] [LinearOrder δ]

/-- Whatever the objects of the program are, a hierarchical clustering with objects and one with values are created or
refused alike, and then return the same results in every sequence of calls of `cluster`, `compute_predicted_clusters` and
`to_dict`. An exported dictionary may be read at any later time: as long as the client changes nothing, it does not
change. -/
theorem C109_objects_refine_values (linkage : String) (h : HHeap α V) (calls : List (HCall α V δ)) :
    SameOutcome
      (fun o o' => ∀ lists, (o.run calls).1.heap.lists <+: lists → (o.run calls).2.map (HResult.read lists) = (o'.run calls).2)
      (HObjectH.init linkage h) (HObject.init linkage) :=
  (HObjAs.init linkage h).mono fun _ _ r => (HObjAs.run calls r).2.2

/-- After any calls, different IDs are different `Cluster` objects with different lists of members, none of these lists is
one that the program had before, and the lists and clusters that the program had before are as they were. -/
theorem C109_unshared {linkage : String} {h : HHeap α V} {o : HObjectH α V} (ho : HObjectH.init linkage h = .ok o)
    (calls : List (HCall α V δ)) :
    h.lists <+: (o.run calls).1.heap.lists ∧ h.clusters <+: (o.run calls).1.heap.clusters ∧
    (∀ k a, dget? (o.run calls).1.storage k = some a →
      ∃ r, (o.run calls).1.heap.clusters[a]? = some r ∧ r.id = k ∧ h.lists.length ≤ r.members ∧
        r.members < (o.run calls).1.heap.lists.length) ∧
    ∀ k k' a a' r r', k ≠ k' → dget? (o.run calls).1.storage k = some a → dget? (o.run calls).1.storage k' = some a' →
      (o.run calls).1.heap.clusters[a]? = some r → (o.run calls).1.heap.clusters[a']? = some r' →
      a ≠ a' ∧ r.members ≠ r'.members := by
  obtain ⟨o', -, r0⟩ := hObjAs_of_init ho
  have r := (HObjAs.run calls r0).1.stored
  refine ⟨r.keptLists, r.keptClusters, ?_, ?_⟩
  · intro k a hk
    obtain ⟨x, n, -, ob⟩ := r.obj k a hk
    exact ⟨x, ob.here, ob.id, r.fresh k a x hk ob.here, (List.getElem?_eq_some_iff.1 ob.members).1⟩
  · intro k k' a a' x x' hne hk hk' hx hx'
    refine ⟨?_, fun e => hne (r.own _ _ _ _ _ _ hk hk' hx hx' e)⟩
    rintro rfl
    exact hne (r.inj hk hk')

/-- `to_dict` hands out the lists of the clusters themselves: every list in the dictionary is the list `members` of the
stored cluster with that ID. -/
theorem C109_export_shares {linkage : String} {h : HHeap α V} {o : HObjectH α V} (ho : HObjectH.init linkage h = .ok o)
    (calls : List (HCall α V δ)) {k : Nat} {t : HTreeH} (ht : (o.run calls).1.export k = .ok t) :
    ∀ p ∈ t.shared, ∃ b r, dget? (o.run calls).1.storage p.1 = some b ∧ (o.run calls).1.heap.clusters[b]? = some r ∧
      r.members = p.2 := by
  obtain ⟨o', -, r0⟩ := hObjAs_of_init ho
  have r := (HObjAs.run calls r0).1.export k
  rw [ht] at r
  revert r
  cases (o'.run calls).1.export k with
  | error e => exact fun h => h.elim
  | ok t' => exact fun h => h.2

/-- When the client changes a list of an exported dictionary, all later calls behave as if the members of this one
cluster had been changed, and nothing else: neither the members of the clusters above and below it nor its centroid. -/
theorem C109_export_change {linkage : String} {h : HHeap α V} {o : HObjectH α V} (ho : HObjectH.init linkage h = .ok o)
    {o' : HObject α V} (ho' : HObject.init linkage = .ok o') (calls : List (HCall α V δ)) {k : Nat} {t : HTreeH}
    (ht : (o.run calls).1.export k = .ok t) {p : Nat × Nat} (hp : p ∈ t.shared) (l : List α) (later : List (HCall α V δ)) :
    (((o.run calls).1.change p.2 l).run later).2.map (HResult.read (((o.run calls).1.change p.2 l).run later).1.heap.lists) =
      (((o'.run calls).1.change p.1 l).run later).2 := by
  obtain ⟨b, c, hb, hc, e⟩ := C109_export_shares ho calls ht p hp
  obtain ⟨o1, h1, r0⟩ := hObjAs_of_init ho
  rw [ho'] at h1
  cases h1
  rw [← e]
  exact (HObjAs.run later ((HObjAs.run calls r0).1.change hb hc l)).2.2 _ (List.prefix_refl _)

/-- A call of `cluster` that returned has nothing in common with earlier calls: whatever the client then does with a list
that was there before the call (one from a dictionary exported earlier, for example), all later results are the same. -/
theorem C109_old_lists {linkage : String} {h : HHeap α V} {o : HObjectH α V} (ho : HObjectH.init linkage h = .ok o)
    (calls : List (HCall α V δ)) {env : HierEnv V δ} {m : Manager α} {vectors : Option (Dict α V)} {nb : Option Int}
    {o1 : HObjectH α V} {d : Dict α Int} (hd : (o.run calls).1.cluster env m vectors nb = (o1, .ok d)) {a : Nat}
    (ha : a < (o.run calls).1.heap.lists.length) (l : List α) (later : List (HCall α V δ)) :
    ((o1.change a l).run later).2.map (HResult.read ((o1.change a l).run later).1.heap.lists) =
      (o1.run later).2.map (HResult.read (o1.run later).1.heap.lists) := by
  obtain ⟨o', -, r0⟩ := hObjAs_of_init ho
  have r := ((HObjAs.run calls r0).1.cluster env m vectors nb).2.2.2.2 d (by rw [hd])
  rw [hd] at r
  rw [(HObjAs.run later (r.changeOld ha l)).2.2 _ (List.prefix_refl _), (HObjAs.run later r).2.2 _ (List.prefix_refl _)]

/-- Why line 313 merges a copy of `self.current_clusters`: removing the elements of a list from it while going through a copy
leaves nothing; going through the list itself leaves every second one. -/
theorem C109_copy_needed {l : List Nat} (hl : l.Nodup) {ints : Lists Nat} {a : Nat} (ha : ints[a]? = some l) :
    (∃ ints', hRemoveAllH a ints.length (l.length + 1) 0 (ints ++ [l]) = .ok ints' ∧ ints'[a]? = some []) ∧
    ∃ ints', hRemoveAllH a a (l.length + 1) 0 ints = .ok ints' ∧ ints'[a]? = some (everyOther l) := by
  refine ⟨?_, by simpa using hRemoveAllH_self a l [] (l.length + 1) ints (by simpa using hl) (by simpa using ha) (by omega)⟩
  have hlt := (List.getElem?_eq_some_iff.1 ha).1
  have := hRemoveAllH_same (l := l) (current := a) (children := ints.length) (by omega) (l.length + 1) 0 (ints ++ [l]) l (by omega)
    (by omega) (by simp) (getElem?_append_of ha)
  rw [List.drop_zero, foldlM_hRemove_all] at this
  revert this
  cases hRemoveAllH a ints.length (l.length + 1) 0 (ints ++ [l]) with
  | error e => exact fun h => h.elim
  | ok ints' => exact fun h => ⟨ints', rfl, h.2⟩

/-! ### The hypotheses can be met -/

/-- A program that already has a list, a list of numbers and a cluster. -/
def someHeap : HHeap Nat ℚ := ⟨[[7]], [[0, 0]], [⟨0, 0, [], 0, 0, 5⟩]⟩

def twoPairs : Dict Nat ℚ := [(1, 0), (2, 1), (3, 10), (4, 11)]

def firstCall : HCall Nat ℚ ℚ := .cluster lineEnv (Manager.init [1, 2, 3, 4]) (some twoPairs) (some 2)

def heapObject : HObjectH Nat ℚ := ⟨.single, [], none, [], someHeap⟩

theorem heapObject_init : HObjectH.init "single" someHeap = .ok heapObject := rfl

theorem firstTree : ∃ t, (heapObject.run [firstCall]).1.export 10 = .ok t ∧
    t.shared = [(6, 7), (4, 5), (0, 1), (1, 2), (5, 6), (2, 3), (3, 4)] := by
  have h : ((heapObject.run [firstCall]).1.export 10).toOption.map HTreeH.shared =
    some [(6, 7), (4, 5), (0, 1), (1, 2), (5, 6), (2, 3), (3, 4)] := by decide +kernel
  revert h
  cases (heapObject.run [firstCall]).1.export 10 with
  | error e => intro h; cases h
  | ok t => exact fun h => ⟨t, rfl, Option.some.inj h⟩

/-- Finding: a client who changes the dictionary that `to_dict` returned changes the later results of
`compute_predicted_clusters` with it. Here the list of one cluster, `[3, 4]`, is changed to `[1]`: the call that gave two
clusters now gives three. -/
theorem C109_export_change_seen : ∃ (o : HObjectH Nat ℚ) (calls : List (HCall Nat ℚ ℚ)) (t : HTreeH) (p : Nat × Nat),
    HObjectH.init "single" someHeap = .ok o ∧ (o.run calls).1.export 10 = .ok t ∧ p ∈ t.shared ∧
    (o.run calls).1.cut 2 .size = .ok [(1, 0), (2, 0), (3, 1), (4, 1)] ∧
    ((o.run calls).1.change p.2 [1]).cut 2 .size = .ok [(1, 0), (2, 1), (3, 2), (4, 2)] := by
  obtain ⟨t, h1, h2⟩ := firstTree
  exact ⟨heapObject, [firstCall], t, (5, 6), rfl, h1, by rw [h2]; decide, by decide +kernel, by decide +kernel⟩

-- C109_objects_refine_values: a call, a cut, an export, a second call with a constraint and a second export
example : SameOutcome
    (fun o o' => ∀ lists, (o.run [firstCall, .cut 3 .iteration, .export 5,
        .cluster lineEnv spoilManager (some spoilVectors) (some 2), .export 2]).1.heap.lists <+: lists →
      (o.run [firstCall, .cut 3 .iteration, .export 5, .cluster lineEnv spoilManager (some spoilVectors) (some 2),
        .export 2]).2.map (HResult.read lists) =
      (o'.run [firstCall, .cut 3 .iteration, .export 5, .cluster lineEnv spoilManager (some spoilVectors) (some 2),
        .export 2]).2)
    (HObjectH.init "single" someHeap) (HObject.init "single") := C109_objects_refine_values _ _ _

-- C109_unshared: the clusters 4 and 5 after one call
example : ∃ a a' r r', dget? (heapObject.run [firstCall]).1.storage 4 = some a ∧
    dget? (heapObject.run [firstCall]).1.storage 5 = some a' ∧ (heapObject.run [firstCall]).1.heap.clusters[a]? = some r ∧
    (heapObject.run [firstCall]).1.heap.clusters[a']? = some r' ∧ a ≠ a' ∧ r.members ≠ r'.members := by
  have h := C109_unshared heapObject_init [firstCall]
  obtain ⟨a, ha⟩ : ∃ a, dget? (heapObject.run [firstCall]).1.storage 4 = some a := ⟨5, by decide +kernel⟩
  obtain ⟨a', ha'⟩ : ∃ a, dget? (heapObject.run [firstCall]).1.storage 5 = some a := ⟨6, by decide +kernel⟩
  obtain ⟨r, hr, -⟩ := h.2.2.1 4 a ha
  obtain ⟨r', hr', -⟩ := h.2.2.1 5 a' ha'
  exact ⟨a, a', r, r', ha, ha', hr, hr', h.2.2.2 4 5 a a' r r' (by decide) ha ha' hr hr'⟩

-- C109_export_shares: the list of cluster 5
example : ∃ b r, dget? (heapObject.run [firstCall]).1.storage 5 = some b ∧
    (heapObject.run [firstCall]).1.heap.clusters[b]? = some r ∧ r.members = 6 := by
  obtain ⟨t, h1, h2⟩ := firstTree
  exact C109_export_shares heapObject_init [firstCall] h1 (5, 6) (by rw [h2]; decide)

-- C109_export_change: the same change, then a cut and an export
example : (((heapObject.run [firstCall]).1.change 6 [1]).run ([.cut 2 .size, .export 3] : List (HCall Nat ℚ ℚ))).2.map
      (HResult.read (((heapObject.run [firstCall]).1.change 6 [1]).run ([.cut 2 .size, .export 3] : List (HCall Nat ℚ ℚ))).1.heap.lists) =
    ((((⟨.single, [], none, []⟩ : HObject Nat ℚ).run [firstCall]).1.change 5 [1]).run ([.cut 2 .size, .export 3] : List (HCall Nat ℚ ℚ))).2 := by
  obtain ⟨t, h1, h2⟩ := firstTree
  exact C109_export_change heapObject_init (by rfl) [firstCall] h1 (p := (5, 6)) (by rw [h2]; decide) [1] _

-- C109_old_lists: the list 5 of the first call is emptied after a second call
example : ∃ o1, (((heapObject.run [firstCall]).1).cluster lineEnv spoilManager (some spoilVectors) (some 2)).1 = o1 ∧
    ((o1.change 5 []).run ([.cut 3 .size, .export 4] : List (HCall Nat ℚ ℚ))).2.map
        (HResult.read ((o1.change 5 []).run ([.cut 3 .size, .export 4] : List (HCall Nat ℚ ℚ))).1.heap.lists) =
      (o1.run ([.cut 3 .size, .export 4] : List (HCall Nat ℚ ℚ))).2.map
        (HResult.read (o1.run ([.cut 3 .size, .export 4] : List (HCall Nat ℚ ℚ))).1.heap.lists) := by
  obtain ⟨d, hd⟩ : ∃ d, (((heapObject.run [firstCall]).1).cluster lineEnv spoilManager (some spoilVectors) (some 2)).2 = .ok d :=
    ⟨[(1, 0), (2, 1), (3, 0), (4, 0)], by decide +kernel⟩
  exact ⟨_, rfl, C109_old_lists heapObject_init [firstCall] (Prod.ext rfl hd) (a := 5) (by decide +kernel) [] _⟩

-- C109_copy_needed: three current clusters
example := C109_copy_needed (l := [4, 7, 9]) (by decide) (ints := [[], [4, 7, 9]]) (a := 1) rfl
example : everyOther [4, 7, 9] = [7] := rfl

end Verif
