import Verif.Spec.HierHeap
import Verif.Proofs.DbHeap
import Verif.Proofs.OrderHier

/-
Lemmas for C109: clusters as objects and clusters as values give the same hierarchical clustering.
-/

set_option linter.unusedSectionVars false

namespace Verif

variable {α V δ : Type} [LinearOrder α] [LinearOrder δ]

/-- The object `r` at address `a` is the cluster `n` with ID `k`, in a storage `d`. -/
structure ObjAs (h : HHeap α V) (d : Dict Nat Nat) (k a : Nat) (r : HClusterH V) (n : HCluster α V) : Prop where
  here : h.clusters[a]? = some r
  id : r.id = k
  iteration : n.iteration = r.iteration
  depth : n.depth = r.depth
  centroid : n.centroid = r.centroid
  members : h.lists[r.members]? = some n.members
  children : List.Forall₂ (fun b c => dget? d c = some b) r.children n.children

/-- The storage `d` of addresses contains the clusters of the storage `st`, each with a list of members of its own
that did not exist in `h0`, whose objects are still there. -/
structure StoredAs (h0 h : HHeap α V) (d : Dict Nat Nat) (st : Dict Nat (HCluster α V)) : Prop where
  keys : dkeys st = dkeys d
  obj : ∀ k a, dget? d k = some a → ∃ r n, dget? st k = some n ∧ ObjAs h d k a r n
  own : ∀ k k' a a' r r', dget? d k = some a → dget? d k' = some a' → h.clusters[a]? = some r → h.clusters[a']? = some r' →
    r.members = r'.members → k = k'
  fresh : ∀ k a r, dget? d k = some a → h.clusters[a]? = some r → h0.lists.length ≤ r.members
  keptLists : h0.lists <+: h.lists
  keptClusters : h0.clusters <+: h.clusters

theorem ObjAs.clusterAt {h : HHeap α V} {d : Dict Nat Nat} {k a : Nat} {r : HClusterH V} {n : HCluster α V} (o : ObjAs h d k a r n) :
    clusterAt h a = .ok r := by
  unfold Verif.clusterAt; rw [o.here]

theorem ObjAs.membersAt {h : HHeap α V} {d : Dict Nat Nat} {k a : Nat} {r : HClusterH V} {n : HCluster α V} (o : ObjAs h d k a r n) :
    membersAt h a = .ok n.members := by
  unfold Verif.membersAt
  rw [o.clusterAt]
  exact listAt_of o.members

theorem StoredAs.get {h0 h : HHeap α V} {d : Dict Nat Nat} {st : Dict Nat (HCluster α V)} (s : StoredAs h0 h d st) (k : Nat) :
    SameOutcome (fun a n => ∃ r, dget? d k = some a ∧ dget? st k = some n ∧ ObjAs h d k a r n) (dget d k) (dget st k) := by
  unfold dget
  cases hd : dget? d k with
  | some a =>
    obtain ⟨r, n, h1, h2⟩ := s.obj k a hd
    rw [h1]
    exact ⟨r, rfl, rfl, h2⟩
  | none =>
    have : dget? st k = none := by
      rw [dget?_eq_none_iff, s.keys, ← dget?_eq_none_iff, hd]
    rw [this]
    exact rfl

/-- A new cluster is stored. -/
theorem StoredAs.add {h0 h : HHeap α V} {d : Dict Nat Nat} {st : Dict Nat (HCluster α V)} (s : StoredAs h0 h d st) {id : Nat}
    (hid : id ∉ dkeys d) {h' : HHeap α V} {r : HClusterH V} {n : HCluster α V} (hl : h.lists <+: h'.lists)
    (hc : h'.clusters = h.clusters ++ [r]) (h1 : r.id = id) (h2 : n.iteration = r.iteration) (h3 : n.depth = r.depth)
    (h4 : n.centroid = r.centroid) (h5 : h'.lists[r.members]? = some n.members)
    (h6 : List.Forall₂ (fun b c => dget? d c = some b) r.children n.children) (h7 : h0.lists.length ≤ r.members)
    (h8 : ∀ k a r', dget? d k = some a → h.clusters[a]? = some r' → r'.members ≠ r.members) :
    StoredAs h0 h' (dset d id h.clusters.length) (dset st id n) := by
  have hget : ∀ k a, dget? d k = some a → dget? (dset d id h.clusters.length) k = some a := by
    intro k a hk
    rw [dget?_dset, if_neg]
    · exact hk
    · rintro rfl; exact hid (mem_dkeys_of_dget? hk)
  have hch : ∀ {l l' : List Nat}, List.Forall₂ (fun b c => dget? d c = some b) l l' →
      List.Forall₂ (fun b c => dget? (dset d id h.clusters.length) c = some b) l l' :=
    fun hf => List.Forall₂.imp (fun b c e => hget c b e) hf
  have hold : ∀ {k a}, dget? d k = some a → a < h.clusters.length := by
    intro k a hk
    obtain ⟨r', n', -, o⟩ := s.obj k a hk
    exact (List.getElem?_eq_some_iff.1 o.here).1
  have hkeep : ∀ {a}, a < h.clusters.length → h'.clusters[a]? = h.clusters[a]? := by
    intro a ha
    rw [hc, List.getElem?_append_left ha]
  have hnew : h'.clusters[h.clusters.length]? = some r := by rw [hc]; simp
  have hkeepL : ∀ {a : Nat} {l : List α}, h.lists[a]? = some l → h'.lists[a]? = some l := by
    intro a l e
    obtain ⟨t, ht⟩ := hl
    rw [← ht]
    exact getElem?_append_of e
  constructor
  · rw [dkeys_dset, dkeys_dset, s.keys]
  · intro k a hk
    rw [dget?_dset] at hk
    split at hk
    · rename_i e
      subst e
      cases hk
      refine ⟨r, n, by rw [dget?_dset, if_pos rfl], ⟨hnew, h1, h2, h3, h4, h5, hch h6⟩⟩
    · rename_i e
      obtain ⟨r', n', e1, o⟩ := s.obj k a hk
      refine ⟨r', n', by rw [dget?_dset, if_neg e]; exact e1, ⟨?_, o.id, o.iteration, o.depth, o.centroid, hkeepL o.members, hch o.children⟩⟩
      rw [hkeep (hold hk)]; exact o.here
  · intro k k' a a' r1 r2 hk hk' e1 e2 he
    rw [dget?_dset] at hk hk'
    split at hk
    · rename_i e
      cases hk
      rw [hnew] at e1; cases e1
      split at hk'
      · rename_i e'; rw [← e, ← e']
      · rw [hkeep (hold hk')] at e2
        exact absurd he.symm (h8 _ _ _ hk' e2)
    · rw [hkeep (hold hk)] at e1
      split at hk'
      · cases hk'
        rw [hnew] at e2; cases e2
        exact absurd he (h8 _ _ _ hk e1)
      · rw [hkeep (hold hk')] at e2
        exact s.own _ _ _ _ _ _ hk hk' e1 e2 he
  · intro k a r1 hk e1
    rw [dget?_dset] at hk
    split at hk
    · cases hk
      rw [hnew] at e1; cases e1
      exact h7
    · rw [hkeep (hold hk)] at e1
      exact s.fresh _ _ _ hk e1
  · exact s.keptLists.trans hl
  · rw [hc]; exact s.keptClusters.trans (List.prefix_append _ _)

/-- The reading does not look at the lists of cluster IDs. -/
theorem StoredAs.ints {h0 h h' : HHeap α V} {d : Dict Nat Nat} {st : Dict Nat (HCluster α V)} (s : StoredAs h0 h d st)
    (hl : h'.lists = h.lists) (hc : h'.clusters = h.clusters) : StoredAs h0 h' d st where
  keys := s.keys
  obj k a hk := by
    obtain ⟨r, n, e, o⟩ := s.obj k a hk
    exact ⟨r, n, e, ⟨by rw [hc]; exact o.here, o.id, o.iteration, o.depth, o.centroid, by rw [hl]; exact o.members, o.children⟩⟩
  own := by rw [hc]; exact s.own
  fresh := by rw [hc]; exact s.fresh
  keptLists := by rw [hl]; exact s.keptLists
  keptClusters := by rw [hc]; exact s.keptClusters

/-- A state with objects against a state with values. -/
structure HAs (h0 : HHeap α V) (s : HStateH α V δ) (s' : HState α V δ) : Prop where
  current : s.heap.ints[s.current]? = some s'.current
  stored : StoredAs h0 s.heap s.storage s'.storage
  distances : s'.distances = s.distances
  iteration : s'.iteration = s.iteration

theorem max_fresh {ν : Type} {d : Dict Nat ν} {k : Nat} (h : (dkeys d).max? = some k) : k + 1 ∉ dkeys d := by
  intro hm
  have := (List.max?_eq_some_iff.1 h).2 _ hm
  omega

theorem next_fresh (d : Dict Nat Nat) : hNewId d ∉ dkeys d := by
  unfold hNewId
  cases h : (dkeys d).max? with
  | none => rw [List.max?_eq_none_iff.1 h]; simp
  | some k => exact max_fresh h

theorem hAddLeafH_same (env : HierEnv V δ) (vectors : Dict α V) {h0 : HHeap α V} {s : HStateH α V δ} {s' : HState α V δ}
    (r : HAs h0 s s') {a : Nat} {l : List α} (ha : s.heap.lists[a]? = some l) (hf : h0.lists.length ≤ a)
    (hnew : ∀ k b r', dget? s.storage k = some b → s.heap.clusters[b]? = some r' → r'.members < a) :
    SameOutcome (fun t t' => HAs h0 t t' ∧ t.heap.lists = s.heap.lists ∧
        ∀ k b r', dget? t.storage k = some b → t.heap.clusters[b]? = some r' → r'.members < a + 1)
      (hAddLeafH env vectors s a) (hAddLeaf env vectors s' l) := by
  unfold hAddLeafH hAddLeaf
  have e1 : hNextId s'.storage = hNewId s.storage := by
    unfold hNextId hNewId; rw [r.stored.keys]; cases (dkeys s.storage).max? <;> rfl
  rw [listAt_of ha, listAt_of r.current, e1]
  show SameOutcome _ (hCentroid env vectors l >>= _) _
  refine (SameOutcome.of_eq rfl).bind ?_
  rintro _ v rfl
  set id := hNewId s.storage with hid
  have hst := r.stored.add (id := id) (h' := ⟨s.heap.lists, s.heap.ints.set s.current (s'.current ++ [id]),
      s.heap.clusters ++ [⟨id, s.iteration, [], 0, a, v⟩]⟩) (r := ⟨id, s.iteration, [], 0, a, v⟩)
      (n := ⟨s'.iteration, [], 0, l, v⟩) (next_fresh _) (List.prefix_refl _) rfl rfl r.iteration rfl rfl ha .nil hf
      (fun k b r' h1 h2 => Nat.ne_of_lt (hnew k b r' h1 h2))
  refine ⟨⟨?_, hst, r.distances, r.iteration⟩, rfl, ?_⟩
  · show (s.heap.ints.set s.current _)[s.current]? = _
    rw [List.getElem?_set_self (List.getElem?_eq_some_iff.1 r.current).1]
  · intro k b r' h1 h2
    change dget? (dset s.storage id s.heap.clusters.length) k = some b at h1
    change (s.heap.clusters ++ [_])[b]? = some r' at h2
    rw [dget?_dset] at h1
    split at h1
    · cases h1
      simp only [List.getElem?_append_right (Nat.le_refl _), Nat.sub_self, List.getElem?_cons_zero] at h2
      cases h2
      exact Nat.lt_succ_self a
    · obtain ⟨r2, n2, -, o⟩ := r.stored.obj k b h1
      rw [List.getElem?_append_left (List.getElem?_eq_some_iff.1 o.here).1] at h2
      exact Nat.lt_succ_of_lt (hnew k b r' h1 h2)

theorem hRemoveAllH_same {current children : Nat} (hne : current ≠ children) {l : List Nat} :
    ∀ (fuel i : Nat) (ints : Lists Nat) (cur : List Nat), l.length < fuel + i → i ≤ l.length → ints[children]? = some l →
      ints[current]? = some cur →
      SameOutcome (fun ints' cur' => ints'[children]? = some l ∧ ints'[current]? = some cur')
        (hRemoveAllH current children fuel i ints) ((l.drop i).foldlM hRemove cur) := by
  intro fuel
  induction fuel with
  | zero =>
    intro i ints cur hf hi h1 h2
    omega
  | succ fuel ih =>
    intro i ints cur hf hle h1 h2
    unfold hRemoveAllH
    rw [listAt_of h1, listAt_of h2]
    show SameOutcome _ (match l[i]? with
      | none => _
      | some c => _) _
    cases hi : l[i]? with
    | none =>
      rw [List.drop_eq_nil_of_le (List.getElem?_eq_none_iff.1 hi)]
      exact ⟨h1, h2⟩
    | some c =>
      obtain ⟨hlt, hc⟩ := List.getElem?_eq_some_iff.1 hi
      rw [List.drop_eq_getElem_cons hlt, hc, List.foldlM_cons]
      show SameOutcome _ (hRemove cur c >>= _) _
      refine (SameOutcome.of_eq rfl).bind ?_
      rintro _ cur' rfl
      refine ih (i + 1) _ _ (by omega) hlt ?_ ?_
      · rw [List.getElem?_set_ne hne]; exact h1
      · rw [List.getElem?_set_self (List.getElem?_eq_some_iff.1 h2).1]

theorem forall₂_dget {d : Dict Nat Nat} {l as : List Nat} (h : l.mapM (fun c => dget d c) = .ok as) :
    List.Forall₂ (fun b c => dget? d c = some b) as l := by
  induction l generalizing as with
  | nil => cases h; exact .nil
  | cons c l ih =>
    rw [List.mapM_cons] at h
    cases h1 : dget d c with
    | error e => rw [h1] at h; cases h
    | ok a =>
      rw [h1] at h
      cases h2 : l.mapM (fun c => dget d c) with
      | error e => rw [h2] at h; cases h
      | ok as' =>
        rw [h2] at h
        cases h
        exact .cons (dget_eq_ok.1 h1) (ih h2)

theorem read_nodes {h : HHeap α V} {d : Dict Nat Nat} {as : List Nat} {ns : List (HCluster α V)}
    (hf : List.Forall₂ (fun a n => ∃ k r, ObjAs h d k a r n) as ns) :
    (∃ rs : List (HClusterH V), as.mapM (fun a => clusterAt h a) = .ok rs ∧ rs.map (fun r => r.depth) = ns.map (fun n => n.depth)) ∧
    as.mapM (fun a => membersAt h a) = .ok (ns.map fun n => n.members) := by
  induction hf with
  | nil => exact ⟨⟨[], rfl, rfl⟩, rfl⟩
  | cons h1 _ ih =>
    obtain ⟨k, r, o⟩ := h1
    obtain ⟨⟨rs, e1, e2⟩, e3⟩ := ih
    refine ⟨⟨r :: rs, ?_, ?_⟩, ?_⟩
    · rw [List.mapM_cons, o.clusterAt, e1]; rfl
    · rw [List.map_cons, List.map_cons, e2, o.depth]
    · rw [List.mapM_cons, o.membersAt, e3]; rfl

theorem hCreateH_same (env : HierEnv V δ) (vectors : Dict α V) {h0 : HHeap α V} {s : HStateH α V δ} {s' : HState α V δ}
    (r : StoredAs h0 s.heap s.storage s'.storage) (hd : s'.distances = s.distances) (hi : s'.iteration = s.iteration)
    {cur ids : List Nat} {children id : Nat} (h1 : s.heap.ints[s.current]? = some cur) (h2 : s.heap.ints[children]? = some ids)
    (hid : id ∉ dkeys s.storage) :
    SameOutcome (HAs h0) (hCreateH env vectors s children id) (hCreate env vectors s' cur ids id) := by
  unfold hCreateH hCreate
  rw [listAt_of h2]
  show SameOutcome _ ((ids.mapM fun c => dget s.storage c) >>= _) _
  have key : SameOutcome (fun as ns => ids.mapM (fun c => dget s.storage c) = .ok as ∧
      List.Forall₂ (fun a n => ∃ k rr, ObjAs s.heap s.storage k a rr n) as ns)
      (ids.mapM fun c => dget s.storage c) (ids.mapM fun c => dget s'.storage c) := by
    have := SameOutcome.mapM_same (l := ids) (f := fun c => dget s.storage c) (f' := fun c => dget s'.storage c)
      (R := fun a n => ∃ k rr, ObjAs s.heap s.storage k a rr n) (fun c _ => (r.get c).mono fun a n ⟨rr, _, _, o⟩ => ⟨c, rr, o⟩)
    revert this
    cases ids.mapM fun c => dget s.storage c with
    | error e =>
      cases ids.mapM fun c => dget s'.storage c with
      | error e' => exact fun h => h
      | ok ns => exact fun h => h.elim
    | ok as =>
      cases ids.mapM fun c => dget s'.storage c with
      | error e => exact fun h => h.elim
      | ok ns => exact fun h => ⟨rfl, h⟩
  refine key.bind ?_
  rintro as ns ⟨e1, hf⟩
  obtain ⟨⟨rs, e2, e3⟩, e4⟩ := read_nodes hf
  rw [e2]
  show SameOutcome _ ((as.mapM fun a => membersAt s.heap a) >>= _) _
  rw [e4]
  have e5 : (ns.map fun n => n.members).flatten = ns.flatMap fun n => n.members := by rw [List.flatMap_def]
  show SameOutcome _ (hCentroid env vectors (ns.map fun n => n.members).flatten >>= _) _
  rw [e5]
  refine (SameOutcome.of_eq rfl).bind ?_
  rintro _ v rfl
  rw [listAt_of h1]
  refine ⟨?_, ?_, hd, hi⟩
  · show (s.heap.ints.set s.current _)[s.current]? = _
    rw [List.getElem?_set_self (List.getElem?_eq_some_iff.1 h1).1]
  · refine r.add hid (List.prefix_append _ _) rfl rfl hi ?_ rfl ?_ (forall₂_dget e1) r.keptLists.length_le ?_
    · simp only [e3]; cases (ns.map fun n => n.depth).max? <;> rfl
    · simp
    · intro k a r' g1 g2 he
      obtain ⟨r2, n2, -, o⟩ := r.obj k a g1
      rw [o.here] at g2; cases g2
      have := (List.getElem?_eq_some_iff.1 o.members).1
      simp only at he
      omega

theorem hAddMergeH_same (env : HierEnv V δ) (vectors : Dict α V) {h0 : HHeap α V} {s : HStateH α V δ} {s' : HState α V δ}
    (r : HAs h0 s s') {children : Nat} {ids : List Nat} (hc : s.heap.ints[children]? = some ids) (hne : s.current ≠ children) :
    SameOutcome (fun p p' => p.1 = p'.1 ∧ HAs h0 p.2 p'.2) (hAddMergeH env vectors s children) (hAddMerge env vectors s' ids) := by
  unfold hAddMergeH hAddMerge
  rw [listAt_of hc, r.stored.keys]
  have := hRemoveAllH_same hne (ids.length + 1) 0 s.heap.ints s'.current (by omega) (by omega) hc r.current
  rw [List.drop_zero] at this
  show SameOutcome _ (hRemoveAllH s.current children (ids.length + 1) 0 s.heap.ints >>= _) _
  refine SameOutcome.bind this ?_
  rintro ints cur ⟨h1, h2⟩
  cases hm : (dkeys s.storage).max? with
  | none => exact rfl
  | some k =>
    refine SameOutcome.bind (hCreateH_same env vectors (s := { s with heap := { s.heap with ints := ints } }) (r.stored.ints rfl rfl)
      r.distances r.iteration h2 h1 (max_fresh hm)) ?_
    exact fun t t' h => ⟨rfl, h⟩

theorem hComputeDistanceH_same (env : HierEnv V δ) (link : Linkage) (m : Manager α) (table : Dict α (Dict α δ))
    {h0 h : HHeap α V} {d : Dict Nat Nat} {st : Dict Nat (HCluster α V)} (r : StoredAs h0 h d st) (i j : Nat) :
    hComputeDistanceH env link m table d h i j = hComputeDistance env link m table st i j := by
  refine (SameOutcome.eq ?_).symm
  unfold hComputeDistanceH hComputeDistance
  refine (r.get i).bind ?_
  rintro ai ci ⟨ri, -, -, oi⟩
  refine (r.get j).bind ?_
  rintro aj cj ⟨rj, -, -, oj⟩
  rw [oi.membersAt, oj.membersAt, oi.clusterAt, oj.clusterAt]
  show SameOutcome _ (hHasCannotLink m ci.members cj.members >>= _) _
  refine (SameOutcome.of_eq rfl).bind ?_
  rintro _ b rfl
  split
  · exact rfl
  · have : hLinkage env link table ⟨ri.iteration, ri.children, ri.depth, ci.members, ri.centroid⟩
        ⟨rj.iteration, rj.children, rj.depth, cj.members, rj.centroid⟩ = hLinkage env link table ci cj := by
      unfold hLinkage
      rw [← oi.centroid, ← oj.centroid]
    show SameOutcome _ (hLinkage env link table ⟨ri.iteration, ri.children, ri.depth, ci.members, ri.centroid⟩
        ⟨rj.iteration, rj.children, rj.depth, cj.members, rj.centroid⟩ >>= _) _
    rw [this]
    exact SameOutcome.of_eq rfl

theorem hInitDistancesH_same (env : HierEnv V δ) (link : Linkage) (m : Manager α) (table : Dict α (Dict α δ))
    {h0 : HHeap α V} {s : HStateH α V δ} {s' : HState α V δ} (r : HAs h0 s s') :
    hInitDistancesH env link m table s = hInitDistances env link m table s' := by
  unfold hInitDistancesH hInitDistances
  rw [listAt_of r.current]
  simp only [hComputeDistanceH_same env link m table r.stored]
  rfl

theorem hUpdateDistancesH_same (env : HierEnv V δ) (link : Linkage) (m : Manager α) (table : Dict α (Dict α δ))
    {h0 : HHeap α V} {s : HStateH α V δ} {s' : HState α V δ} (r : HAs h0 s s') (merged : Nat) :
    hUpdateDistancesH env link m table s merged = hUpdateDistances env link m table s' merged := by
  unfold hUpdateDistancesH hUpdateDistances
  rw [listAt_of r.current]
  simp only [hComputeDistanceH_same env link m table r.stored, r.distances]
  rfl

theorem hClosestH_same {h0 : HHeap α V} {s : HStateH α V δ} {s' : HState α V δ} (r : HAs h0 s s') :
    hClosestH s = hClosest s' := by
  unfold hClosestH hClosest
  rw [listAt_of r.current, r.distances]
  refine (SameOutcome.eq ?_).symm
  show SameOutcome _ ((List.mapM _ (s'.current.flatMap fun i => (s'.current.filter fun j => decide (i < j)).map fun j => (i, j))) >>= _) _
  refine SameOutcome.bind (SameOutcome.of_eq ?_) ?_
  · congr 1
    funext p
    refine SameOutcome.eq ?_
    refine (SameOutcome.of_eq rfl).bind ?_
    rintro _ v rfl
    refine (r.stored.get p.1).bind ?_
    rintro ai ci ⟨ri, -, -, oi⟩
    rw [oi.membersAt]
    show SameOutcome _ (dget s.storage p.2 >>= _) _
    refine (r.stored.get p.2).bind ?_
    rintro aj cj ⟨rj, -, -, oj⟩
    rw [oj.membersAt]
    exact rfl
  · rintro _ items rfl
    cases pyMinBy (fun (it : (Nat × Nat) × WithTop δ × Nat) => toLex (it.2.1, it.2.2)) items with
    | none => exact rfl
    | some it => exact SameOutcome.of_eq rfl

theorem HAs.newInts {h0 : HHeap α V} {s : HStateH α V δ} {s' : HState α V δ} (r : HAs h0 s s') (l : List Nat) :
    HAs h0 (s.newInts l) s' ∧ (s.newInts l).heap.ints[s.heap.ints.length]? = some l ∧ s.current ≠ s.heap.ints.length := by
  refine ⟨⟨getElem?_append_of r.current, r.stored.ints rfl rfl, r.distances, r.iteration⟩, ?_, ?_⟩
  · simp [HStateH.newInts]
  · exact Nat.ne_of_lt (List.getElem?_eq_some_iff.1 r.current).1

theorem hMergeStepH_same (env : HierEnv V δ) (link : Linkage) (m : Manager α) (vectors : Dict α V) (table : Dict α (Dict α δ))
    {h0 : HHeap α V} {s : HStateH α V δ} {s' : HState α V δ} (r : HAs h0 s s') (p : Nat × Nat) :
    SameOutcome (HAs h0) (hMergeStepH env link m vectors table s p) (hMergeStep env link m vectors table s' p) := by
  unfold hMergeStepH hMergeStep
  obtain ⟨r1, h1, h2⟩ := r.newInts [p.1, p.2]
  refine SameOutcome.bind (hAddMergeH_same env vectors r1 h1 h2) ?_
  rintro ⟨c, t⟩ ⟨c', t'⟩ ⟨e, rt⟩
  simp only at e rt
  subst e
  show SameOutcome _ (hUpdateDistancesH env link m table t c >>= _) (hUpdateDistances env link m table t' c >>= _)
  rw [hUpdateDistancesH_same env link m table rt]
  refine (SameOutcome.of_eq rfl).bind ?_
  rintro _ ds rfl
  exact ⟨rt.current, rt.stored, rfl, congrArg (· + 1) rt.iteration⟩

theorem hLoopH_same (env : HierEnv V δ) (link : Linkage) (m : Manager α) (vectors : Dict α V) (table : Dict α (Dict α δ))
    {h0 : HHeap α V} : ∀ (fuel : Nat) {s : HStateH α V δ} {s' : HState α V δ}, HAs h0 s s' →
      SameOutcome (HAs h0) (hLoopH env link m vectors table fuel s) (hLoop env link m vectors table fuel s') := by
  intro fuel
  induction fuel with
  | zero =>
    intro s s' r
    unfold hLoopH hLoop
    rw [listAt_of r.current]
    show SameOutcome _ (if s'.current.length > 1 then _ else _) _
    split
    · exact rfl
    · exact r
  | succ fuel ih =>
    intro s s' r
    unfold hLoopH hLoop
    rw [listAt_of r.current]
    show SameOutcome _ (if s'.current.length > 1 then _ else _) _
    split
    · rw [hClosestH_same r]
      refine (SameOutcome.of_eq rfl).bind ?_
      rintro _ p rfl
      cases p with
      | none => exact r
      | some p => exact (hMergeStepH_same env link m vectors table r p).bind fun t t' rt => ih rt
    · exact r

theorem hLeavesH_same (env : HierEnv V δ) (vectors : Dict α V) {h0 : HHeap α V} : ∀ (L : List (List α)) (base : Nat)
    {s : HStateH α V δ} {s' : HState α V δ}, HAs h0 s s' → h0.lists.length ≤ base →
      (∀ i (hi : i < L.length), s.heap.lists[base + i]? = some L[i]) →
      (∀ k b r', dget? s.storage k = some b → s.heap.clusters[b]? = some r' → r'.members < base) →
      SameOutcome (HAs h0) ((List.range' base L.length).foldlM (hAddLeafH env vectors) s) (L.foldlM (hAddLeaf env vectors) s') := by
  intro L
  induction L with
  | nil => intro base s s' r _ _ _; exact r
  | cons l L ih =>
    intro base s s' r hb hl hn
    rw [List.length_cons, List.range'_succ, List.foldlM_cons, List.foldlM_cons]
    refine SameOutcome.bind (hAddLeafH_same env vectors r (hl 0 (Nat.succ_pos _)) hb hn) ?_
    rintro t t' ⟨rt, e, hn'⟩
    refine ih (base + 1) rt (by omega) ?_ hn'
    intro i hi
    rw [e]
    have := hl (i + 1) (Nat.succ_lt_succ hi)
    rw [show base + 1 + i = base + (i + 1) by omega]
    exact this

theorem hStartH_same (env : HierEnv V δ) (link : Linkage) (m : Manager α) (vectors : Dict α V) (table : Dict α (Dict α δ))
    (h0 : HHeap α V) :
    SameOutcome (HAs h0) (hStartH env link m vectors table h0) (hStart env link m vectors table) := by
  unfold hStartH hStart
  refine SameOutcome.bind (hLeavesH_same env vectors m.components h0.lists.length ⟨?_, ⟨rfl, ?_, ?_, ?_, ?_, ?_⟩, rfl, rfl⟩
    (Nat.le_refl _) ?_ ?_) ?_
  · simp
  · intro k a h; cases h
  · intro k k' a a' r r' h; cases h
  · intro k a r h; cases h
  · exact List.prefix_append _ _
  · exact List.prefix_refl _
  · intro i hi
    show (h0.lists ++ m.components)[_]? = _
    rw [List.getElem?_append_right (Nat.le_add_right _ _), Nat.add_sub_cancel_left, List.getElem?_eq_getElem hi]
  · intro k b r' h; cases h
  · intro s s' r
    rw [hInitDistancesH_same env link m table r]
    refine (SameOutcome.of_eq rfl).bind ?_
    rintro _ ds rfl
    exact ⟨r.current, r.stored, rfl, rfl⟩

theorem hFinishH_same (env : HierEnv V δ) (vectors : Dict α V) {h0 : HHeap α V} {s : HStateH α V δ} {s' : HState α V δ} (r : HAs h0 s s') :
    SameOutcome (HAs h0) (hFinishH env vectors s) (hFinish env vectors s') := by
  unfold hFinishH hFinish
  rw [listAt_of r.current]
  show SameOutcome _ (if s'.current.length > 1 then _ else _) _
  split
  · obtain ⟨r1, h1, h2⟩ := r.newInts s'.current
    refine SameOutcome.bind (hAddMergeH_same env vectors r1 h1 h2) ?_
    exact fun p p' h => h.2
  · exact r

theorem hBuildH_same (env : HierEnv V δ) (link : Linkage) (m : Manager α) (vectors : Dict α V) (table : Dict α (Dict α δ))
    (h0 : HHeap α V) :
    SameOutcome (fun x y => dget? x.2.1 y.1 = some x.1 ∧ StoredAs h0 x.2.2 x.2.1 y.2)
      (hBuildH env link m vectors table h0) (hBuild env link m vectors table) := by
  unfold hBuildH hBuild
  refine (hStartH_same env link m vectors table h0).bind fun s0 s0' r0 => ?_
  refine (hLoopH_same env link m vectors table _ r0).bind fun s1 s1' r1 => ?_
  refine (hFinishH_same env vectors r1).bind fun s2 s2' r2 => ?_
  rw [listAt_of r2.current]
  cases s2'.current with
  | nil => exact rfl
  | cons root l =>
    refine (r2.stored.get root).bind ?_
    rintro a n ⟨r, h1, -, -⟩
    exact ⟨h1, r2.stored⟩

/-! ### Cutting the tree -/

/-- Addresses against IDs. -/
abbrev AtIds (d : Dict Nat Nat) : List Nat → List Nat → Prop := List.Forall₂ fun a c => dget? d c = some a

theorem StoredAs.at_ {h0 h : HHeap α V} {d : Dict Nat Nat} {st : Dict Nat (HCluster α V)} (s : StoredAs h0 h d st) {a k : Nat}
    (hk : dget? d k = some a) : ∃ r n, dget? st k = some n ∧ ObjAs h d k a r n := s.obj k a hk

theorem StoredAs.inj {h0 h : HHeap α V} {d : Dict Nat Nat} {st : Dict Nat (HCluster α V)} (s : StoredAs h0 h d st) {a k k' : Nat}
    (hk : dget? d k = some a) (hk' : dget? d k' = some a) : k = k' := by
  obtain ⟨r, n, -, o⟩ := s.obj k a hk
  obtain ⟨r', n', -, o'⟩ := s.obj k' a hk'
  have := o.here.symm.trans o'.here
  cases this
  rw [← o.id, o'.id]

theorem keyH_same {h0 h : HHeap α V} {d : Dict Nat Nat} {st : Dict Nat (HCluster α V)} (s : StoredAs h0 h d st) (by_ : CutBy) {a k : Nat}
    (hk : dget? d k = some a) : SameOutcome (fun x y => x = (a, y.2) ∧ y.1 = k) (do return (a, ← by_.keyH h a) : Except PyErr (Nat × Nat))
      (do return (k, by_.key (← dget st k)) : Except PyErr (Nat × Nat)) := by
  obtain ⟨r, n, e, o⟩ := s.obj k a hk
  rw [dget_eq_ok.2 e]
  cases by_ with
  | size => simp only [CutBy.keyH, o.membersAt]; exact ⟨rfl, rfl⟩
  | iteration =>
    simp only [CutBy.keyH, o.clusterAt]
    exact ⟨Prod.ext rfl o.iteration.symm, rfl⟩

theorem pyMaxBy_rel {ι ι' κ : Type} [LinearOrder κ] {key : ι → κ} {key' : ι' → κ} {Q : ι → ι' → Prop} {l : List ι} {l' : List ι'}
    (h : List.Forall₂ (fun x y => key x = key' y ∧ Q x y) l l') :
    Option.Rel (fun x y => key x = key' y ∧ Q x y) (pyMaxBy key l) (pyMaxBy key' l') := by
  cases h with
  | nil => exact .none
  | cons h1 h2 =>
    refine .some ?_
    rename_i a b l l'
    induction h2 generalizing a b with
    | nil => exact h1
    | cons h3 _ ih =>
      rw [List.foldl_cons, List.foldl_cons]
      refine ih ?_
      rw [h1.1, h3.1]
      split
      · exact h3
      · exact h1

theorem hChoiceH_same {h0 h : HHeap α V} {d : Dict Nat Nat} {st : Dict Nat (HCluster α V)} (s : StoredAs h0 h d st) (by_ : CutBy)
    {l l' : List Nat} (hl : AtIds d l l') :
    SameOutcome (fun a c => dget? d c = some a) (hChoiceH by_ h l) (hChoice by_ st l') := by
  unfold hChoiceH hChoice
  refine SameOutcome.bind (SameOutcome.mapM (R := fun (x y : Nat × Nat) => x.2 = y.2 ∧ dget? d y.1 = some x.1) hl ?_) ?_
  · intro a c hc
    refine (keyH_same s by_ hc).mono ?_
    rintro x y ⟨rfl, e⟩
    exact ⟨rfl, e ▸ hc⟩
  · intro x y hxy
    have := pyMaxBy_rel (key := fun (p : Nat × Nat) => p.2) (key' := fun (p : Nat × Nat) => p.2) hxy
    revert this
    cases pyMaxBy (fun (p : Nat × Nat) => p.2) x with
    | none =>
      cases pyMaxBy (fun (p : Nat × Nat) => p.2) y with
      | none => exact fun _ => rfl
      | some _ => intro h; cases h
    | some p =>
      cases pyMaxBy (fun (p : Nat × Nat) => p.2) y with
      | none => intro h; cases h
      | some q => intro h; cases h with | some h => exact h.2

theorem erase_same {h0 h : HHeap α V} {d : Dict Nat Nat} {st : Dict Nat (HCluster α V)} (s : StoredAs h0 h d st) {l l' : List Nat}
    (hl : AtIds d l l') {a c : Nat} (hc : dget? d c = some a) : AtIds d (l.erase a) (l'.erase c) := by
  induction hl with
  | nil => exact .nil
  | @cons b c' l l' h1 h2 ih =>
    by_cases e : c' = c
    · subst e
      rw [hc] at h1; cases h1
      rw [List.erase_cons_head, List.erase_cons_head]
      exact h2
    · have e' : b ≠ a := by
        rintro rfl
        exact e (s.inj h1 hc)
      rw [List.erase_cons_tail (by simpa using e'), List.erase_cons_tail (by simpa using e)]
      exact .cons h1 ih

theorem hExploreH_same {h0 h : HHeap α V} {d : Dict Nat Nat} {st : Dict Nat (HCluster α V)} (s : StoredAs h0 h d st) (by_ : CutBy)
    (nb : Int) : ∀ (fuel : Nat) {l l' : List Nat}, AtIds d l l' →
      SameOutcome (AtIds d) (hExploreH by_ h nb fuel l) (hExplore by_ st nb fuel l') := by
  intro fuel
  induction fuel with
  | zero =>
    intro l l' hl
    unfold hExploreH hExplore
    rw [hl.length_eq]
    split
    · exact rfl
    · exact hl
  | succ fuel ih =>
    intro l l' hl
    unfold hExploreH hExplore
    rw [hl.length_eq]
    split
    · refine (hChoiceH_same s by_ hl).bind fun a c hc => ?_
      obtain ⟨r, n, e, o⟩ := s.obj c a hc
      rw [o.clusterAt, dget_eq_ok.2 e]
      have hn : r.children = [] ↔ n.children = [] := by
        rw [← List.length_eq_zero_iff, ← List.length_eq_zero_iff, o.children.length_eq]
      show SameOutcome _ (if r.children = [] then _ else _) (if n.children = [] then _ else _)
      by_cases hr : r.children = []
      · rw [if_pos hr, if_pos (hn.1 hr)]; exact hl
      · rw [if_neg hr, if_neg (fun h => hr (hn.2 h))]
        exact ih (List.rel_append (erase_same s hl hc) o.children)
    · exact hl

theorem hAffectH_same {h0 h : HHeap α V} {d : Dict Nat Nat} {st : Dict Nat (HCluster α V)} (s : StoredAs h0 h d st) (ids : List α)
    {l l' : List Nat} (hl : AtIds d l l') : hAffectH ids h l = hAffect ids st l' := by
  refine (SameOutcome.eq ?_).symm
  unfold hAffectH hAffect
  refine SameOutcome.foldlM (S := fun b b' => b' = b) hl rfl ?_
  rintro x _ a c rfl hc
  obtain ⟨r, n, e, o⟩ := s.obj c a hc
  rw [o.clusterAt, o.membersAt, dget_eq_ok.2 e, ← o.id]
  exact rfl

theorem hCutH_same {h0 h : HHeap α V} {d : Dict Nat Nat} {st : Dict Nat (HCluster α V)} (s : StoredAs h0 h d st) (ids : List α)
    {root root' : Nat} (hr : dget? d root' = some root) (nb : Int) (by_ : CutBy) :
    hCutH ids h root nb by_ = hCut ids st root' nb by_ := by
  refine (SameOutcome.eq ?_).symm
  unfold hCutH hCut
  refine (hExploreH_same s by_ nb _ (.cons hr .nil)).bind fun l l' hl => ?_
  rw [hAffectH_same s ids hl]
  exact SameOutcome.of_eq rfl

/-! ### Exports -/

theorem readAll_map (lists : Lists α) (ts : List HTreeH) : HTreeH.readAll lists ts = ts.map (HTreeH.read lists) := by
  induction ts with
  | nil => simp [HTreeH.readAll]
  | cons t ts ih => simp [HTreeH.readAll, ih]

theorem mem_sharedAll {ts : List HTreeH} {p : Nat × Nat} : p ∈ HTreeH.sharedAll ts ↔ ∃ t ∈ ts, p ∈ t.shared := by
  induction ts with
  | nil => simp [HTreeH.sharedAll]
  | cons t ts ih => simp [HTreeH.sharedAll, ih]

theorem hToDictH_same {h0 h : HHeap α V} {d : Dict Nat Nat} {st : Dict Nat (HCluster α V)} (s : StoredAs h0 h d st) :
    ∀ (k : Nat) {a c : Nat}, dget? d c = some a →
      SameOutcome (fun t t' => (∀ lists, h.lists <+: lists → t.read lists = t') ∧
          ∀ p ∈ t.shared, ∃ b r, dget? d p.1 = some b ∧ h.clusters[b]? = some r ∧ r.members = p.2)
        (hToDictH h k a) (hToDict st k c) := by
  intro k
  induction k with
  | zero => intro a c hc; exact rfl
  | succ k ih =>
    intro a c hc
    obtain ⟨r, n, e, o⟩ := s.obj c a hc
    unfold hToDictH hToDict
    rw [o.clusterAt, dget_eq_ok.2 e]
    show SameOutcome _ ((r.children.mapM fun b => hToDictH h k b) >>= _) ((n.children.mapM fun c => hToDict st k c) >>= _)
    refine SameOutcome.bind (SameOutcome.mapM o.children fun b c' h => ih h) ?_
    intro ts ts' hts
    refine ⟨?_, ?_⟩
    · intro lists hl
      have e1 : HTreeH.readAll lists ts = ts' := by
        rw [readAll_map]
        clear * - hts hl
        induction hts with
        | nil => rfl
        | cons h1 _ ih => rw [List.map_cons, ih, h1.1 lists hl]
      have e2 : lists[r.members]? = some n.members := by
        obtain ⟨u, hu⟩ := hl
        rw [← hu]
        exact getElem?_append_of o.members
      rw [HTreeH.read, e1, e2, o.id, o.iteration, o.depth]
      rfl
    · intro p hp
      rw [HTreeH.shared, List.mem_cons] at hp
      rcases hp with rfl | hp
      · exact ⟨a, r, by rw [o.id]; exact hc, o.here, rfl⟩
      · obtain ⟨t, ht, hp⟩ := mem_sharedAll.1 hp
        clear * - hts ht hp
        induction hts with
        | nil => cases ht
        | cons h1 _ ih =>
          rcases List.mem_cons.1 ht with rfl | ht
          · exact h1.2 p hp
          · exact ih ht

/-! ### The clustering object -/

/-- An object with addresses against an object with values. -/
structure HObjAs (h0 : HHeap α V) (o : HObjectH α V) (o' : HObject α V) : Prop where
  linkage : o'.linkage = o.linkage
  ids : o'.ids = o.ids
  stored : StoredAs h0 o.heap o.storage o'.storage
  root : Option.Rel (fun a c => dget? o.storage c = some a) o.root o'.root

theorem HObjAs.cut {h0 : HHeap α V} {o : HObjectH α V} {o' : HObject α V} (r : HObjAs h0 o o') (nb : Int) (by_ : CutBy) :
    o.cut nb by_ = o'.cut nb by_ := by
  have := r.root
  unfold HObjectH.cut HObject.cut
  revert this
  cases o.root with
  | none => cases o'.root with
    | none => exact fun _ => rfl
    | some _ => intro h; cases h
  | some a => cases o'.root with
    | none => intro h; cases h
    | some c => intro h; cases h with | some h => rw [r.ids]; exact hCutH_same r.stored _ h nb by_

theorem HObjAs.export {h0 : HHeap α V} {o : HObjectH α V} {o' : HObject α V} (r : HObjAs h0 o o') (k : Nat) :
    SameOutcome (fun t t' => (∀ lists, o.heap.lists <+: lists → t.read lists = t') ∧
          ∀ p ∈ t.shared, ∃ b r, dget? o.storage p.1 = some b ∧ o.heap.clusters[b]? = some r ∧ r.members = p.2)
      (o.export k) (o'.export k) := by
  have := r.root
  unfold HObjectH.export HObject.export
  revert this
  cases o.root with
  | none => cases o'.root with
    | none => exact fun _ => rfl
    | some _ => intro h; cases h
  | some a => cases o'.root with
    | none => intro h; cases h
    | some c => intro h; cases h with | some h => exact hToDictH_same r.stored k h

/-- The same clusters, seen with fewer older objects. -/
theorem StoredAs.weaken {h0 h1 h : HHeap α V} {d : Dict Nat Nat} {st : Dict Nat (HCluster α V)} (s : StoredAs h1 h d st)
    (hl : h0.lists <+: h1.lists) (hc : h0.clusters <+: h1.clusters) : StoredAs h0 h d st where
  keys := s.keys
  obj := s.obj
  own := s.own
  fresh k a r h e := hl.length_le.trans (s.fresh k a r h e)
  keptLists := hl.trans s.keptLists
  keptClusters := hc.trans s.keptClusters

theorem StoredAs.empty {h0 h : HHeap α V} (hl : h0.lists <+: h.lists) (hc : h0.clusters <+: h.clusters) :
    StoredAs h0 h [] ([] : Dict Nat (HCluster α V)) where
  keys := rfl
  obj k a h := by cases h
  own k k' a a' r r' h := by cases h
  fresh k a r h := by cases h
  keptLists := hl
  keptClusters := hc

/-- What a call of `cluster` leaves. -/
theorem HObjAs.cluster {h0 : HHeap α V} {o : HObjectH α V} {o' : HObject α V} (r : HObjAs h0 o o') (env : HierEnv V δ)
    (m : Manager α) (vectors : Option (Dict α V)) (nb : Option Int) :
    HObjAs h0 (o.cluster env m vectors nb).1 (o'.cluster env m vectors nb).1 ∧
    (o.cluster env m vectors nb).2 = (o'.cluster env m vectors nb).2 ∧
    o.heap.lists <+: (o.cluster env m vectors nb).1.heap.lists ∧ o.heap.clusters <+: (o.cluster env m vectors nb).1.heap.clusters ∧
    (∀ d, (o.cluster env m vectors nb).2 = .ok d →
      HObjAs o.heap (o.cluster env m vectors nb).1 (o'.cluster env m vectors nb).1) := by
  unfold HObjectH.cluster HObject.cluster
  cases vectors with
  | none => exact ⟨⟨r.linkage, rfl, r.stored, r.root⟩, rfl, List.prefix_refl _, List.prefix_refl _, fun d h => by cases h⟩
  | some vs =>
    cases nb with
    | none => exact ⟨⟨r.linkage, rfl, r.stored, r.root⟩, rfl, List.prefix_refl _, List.prefix_refl _, fun d h => by cases h⟩
    | some n =>
      dsimp only
      split
      · exact ⟨⟨r.linkage, rfl, r.stored, r.root⟩, rfl, List.prefix_refl _, List.prefix_refl _, fun d h => by cases h⟩
      · cases distanceTable m vs env.metric with
        | error e => exact ⟨⟨r.linkage, rfl, r.stored, r.root⟩, rfl, List.prefix_refl _, List.prefix_refl _, fun d h => by cases h⟩
        | ok table =>
          have := hBuildH_same env o.linkage m vs table o.heap
          dsimp only
          rw [r.linkage]
          revert this
          cases hBuildH env o.linkage m vs table o.heap with
          | error e =>
            cases hBuild env o.linkage m vs table with
            | error e' =>
              intro h
              cases (show e = e' from h)
              exact ⟨⟨rfl, rfl, StoredAs.empty r.stored.keptLists r.stored.keptClusters, .none⟩, rfl, List.prefix_refl _,
                List.prefix_refl _, fun d h => by cases h⟩
            | ok _ => exact fun h => h.elim
          | ok x =>
            cases hBuild env o.linkage m vs table with
            | error e => exact fun h => h.elim
            | ok y =>
              obtain ⟨root, st, h⟩ := x
              obtain ⟨root', st'⟩ := y
              rintro ⟨h1, h2⟩
              have hr : HObjAs o.heap (⟨o.linkage, m.managed, some root, st, h⟩ : HObjectH α V)
                  (⟨o.linkage, m.managed, some root', st'⟩ : HObject α V) := ⟨rfl, rfl, h2, .some h1⟩
              refine ⟨⟨rfl, rfl, h2.weaken r.stored.keptLists r.stored.keptClusters, .some h1⟩, ?_, h2.keptLists, h2.keptClusters,
                fun _ _ => hr⟩
              exact hr.cut _ _

theorem HObjAs.call {h0 : HHeap α V} {o : HObjectH α V} {o' : HObject α V} (r : HObjAs h0 o o') (c : HCall α V δ) :
    HObjAs h0 (o.call c).1 (o'.call c).1 ∧ o.heap.lists <+: (o.call c).1.heap.lists ∧
    (∀ lists, (o.call c).1.heap.lists <+: lists → (o.call c).2.read lists = (o'.call c).2) := by
  cases c with
  | cluster env m vectors nb =>
    obtain ⟨h1, h2, h3, -⟩ := r.cluster env m vectors nb
    exact ⟨h1, h3, fun lists _ => congrArg HResult.labels h2⟩
  | cut nb by_ => exact ⟨r, List.prefix_refl _, fun lists _ => congrArg HResult.labels (r.cut nb by_)⟩
  | «export» k =>
    refine ⟨r, List.prefix_refl _, fun lists hl => congrArg HResult.tree ?_⟩
    have := r.export k
    revert this
    cases o.export k with
    | error e => cases o'.export k with
      | error e' => exact fun h => congrArg Except.error h
      | ok _ => exact fun h => h.elim
    | ok t => cases o'.export k with
      | error e' => exact fun h => h.elim
      | ok t' => exact fun h => congrArg Except.ok (h.1 lists hl)

theorem HObjAs.run {h0 : HHeap α V} : ∀ (calls : List (HCall α V δ)) {o : HObjectH α V} {o' : HObject α V}, HObjAs h0 o o' →
    HObjAs h0 (o.run calls).1 (o'.run calls).1 ∧ o.heap.lists <+: (o.run calls).1.heap.lists ∧
    (∀ lists, (o.run calls).1.heap.lists <+: lists → (o.run calls).2.map (HResult.read lists) = (o'.run calls).2) := by
  intro calls
  induction calls with
  | nil => intro o o' r; exact ⟨r, List.prefix_refl _, fun _ _ => rfl⟩
  | cons c cs ih =>
    intro o o' r
    obtain ⟨r1, p1, h1⟩ := r.call c
    obtain ⟨r2, p2, h2⟩ := ih r1
    refine ⟨r2, p1.trans p2, fun lists hl => ?_⟩
    show HResult.read lists (o.call c).2 :: ((o.call c).1.run cs).2.map (HResult.read lists) = _
    rw [h1 lists (p2.trans hl), h2 lists hl]
    rfl

/-! ### Changes by the client -/

theorem dget?_map_change (st : Dict Nat (HCluster α V)) (k : Nat) (l : List α) (c : Nat) :
    dget? (st.map fun c => if c.1 = k then (c.1, { c.2 with members := l }) else c) c =
      (dget? st c).map fun n => if c = k then { n with members := l } else n := by
  induction st with
  | nil => rfl
  | cons p st ih =>
    obtain ⟨q, n⟩ := p
    rw [List.map_cons, show (if (q, n).1 = k then ((q, n).1, { (q, n).2 with members := l }) else (q, n)) =
      (q, if q = k then { n with members := l } else n) by split <;> rfl]
    by_cases h : q = c
    · subst h
      simp [dget?]
    · simpa [dget?, h] using ih

theorem dkeys_map_change (st : Dict Nat (HCluster α V)) (k : Nat) (l : List α) :
    dkeys (st.map fun c => if c.1 = k then (c.1, { c.2 with members := l }) else c) = dkeys st := by
  unfold dkeys
  rw [List.map_map]
  refine List.map_congr_left fun p _ => ?_
  simp only [Function.comp]
  split <;> rfl

/-- The client changes the list of the cluster `k`. -/
theorem HObjAs.change {h0 : HHeap α V} {o : HObjectH α V} {o' : HObject α V} (r : HObjAs h0 o o') {k b : Nat} {c : HClusterH V}
    (hk : dget? o.storage k = some b) (hc : o.heap.clusters[b]? = some c) (l : List α) :
    HObjAs h0 (o.change c.members l) (o'.change k l) := by
  refine ⟨r.linkage, r.ids, ⟨?_, ?_, r.stored.own, r.stored.fresh, ?_, r.stored.keptClusters⟩, r.root⟩
  · rw [HObject.change, dkeys_map_change]; exact r.stored.keys
  · intro i a hi
    change dget? o.storage i = some a at hi
    obtain ⟨x, n, e, ob⟩ := r.stored.obj i a hi
    refine ⟨x, if i = k then { n with members := l } else n, ?_, ?_⟩
    · rw [HObject.change, dget?_map_change, e]; rfl
    · by_cases e' : i = k
      · subst e'
        rw [hk] at hi; cases hi
        have e2 := ob.here
        rw [hc] at e2; cases e2
        rw [if_pos rfl]
        refine ⟨ob.here, ob.id, ob.iteration, ob.depth, ob.centroid, ?_, ob.children⟩
        show (o.heap.lists.set c.members l)[c.members]? = some l
        rw [List.getElem?_set_self (List.getElem?_eq_some_iff.1 ob.members).1]
      · rw [if_neg e']
        refine ⟨ob.here, ob.id, ob.iteration, ob.depth, ob.centroid, ?_, ob.children⟩
        show (o.heap.lists.set c.members l)[x.members]? = some n.members
        rw [List.getElem?_set_ne]
        · exact ob.members
        · intro he
          exact e' (r.stored.own _ _ _ _ _ _ hi hk ob.here hc he.symm)
  · obtain ⟨u, hu⟩ := r.stored.keptLists
    have := r.stored.fresh k b c hk hc
    show h0.lists <+: o.heap.lists.set c.members l
    rw [← hu, List.set_append_right _ _ this]
    exact List.prefix_append _ _

/-- The client changes a list that was there before. -/
theorem HObjAs.changeOld {h0 : HHeap α V} {o : HObjectH α V} {o' : HObject α V} (r : HObjAs h0 o o') {a : Nat}
    (ha : a < h0.lists.length) (l : List α) :
    HObjAs { h0 with lists := h0.lists.set a l } (o.change a l) o' := by
  refine ⟨r.linkage, r.ids, ⟨r.stored.keys, ?_, r.stored.own, ?_, ?_, r.stored.keptClusters⟩, r.root⟩
  · intro i b hi
    obtain ⟨x, n, e, ob⟩ := r.stored.obj i b hi
    refine ⟨x, n, e, ⟨ob.here, ob.id, ob.iteration, ob.depth, ob.centroid, ?_, ob.children⟩⟩
    show (o.heap.lists.set a l)[x.members]? = some n.members
    rw [List.getElem?_set_ne]
    · exact ob.members
    · have := r.stored.fresh i b x hi ob.here
      omega
  · intro i b x hi hx
    show (h0.lists.set a l).length ≤ _
    rw [List.length_set]
    exact r.stored.fresh i b x hi hx
  · obtain ⟨u, hu⟩ := r.stored.keptLists
    show h0.lists.set a l <+: o.heap.lists.set a l
    rw [← hu, List.set_append_left _ _ ha]
    exact List.prefix_append _ _

theorem HObjAs.init (linkage : String) (h : HHeap α V) :
    SameOutcome (HObjAs h) (HObjectH.init linkage h) (HObject.init linkage : Except PyErr (HObject α V)) := by
  unfold HObjectH.init HObject.init
  refine (SameOutcome.of_eq rfl).bind ?_
  rintro _ x rfl
  exact ⟨rfl, rfl, StoredAs.empty (List.prefix_refl _) (List.prefix_refl _), .none⟩

theorem hObjAs_of_init {linkage : String} {h : HHeap α V} {o : HObjectH α V} (ho : HObjectH.init linkage h = .ok o) :
    ∃ o', (HObject.init linkage : Except PyErr (HObject α V)) = .ok o' ∧ HObjAs h o o' := by
  have := HObjAs.init linkage h
  rw [ho] at this
  revert this
  cases (HObject.init linkage : Except PyErr (HObject α V)) with
  | error e => exact fun h => h.elim
  | ok o' => exact fun h => ⟨o', rfl, h⟩

/-! ### Removing the elements of a list from itself -/

theorem hRemoveAllH_self (a : Nat) : ∀ (rest kept : List Nat) (fuel : Nat) (ints : Lists Nat), (kept ++ rest).Nodup →
    ints[a]? = some (kept ++ rest) → rest.length < fuel →
    ∃ ints', hRemoveAllH a a fuel kept.length ints = .ok ints' ∧ ints'[a]? = some (kept ++ everyOther rest) := by
  intro rest
  induction rest using everyOther.induct with
  | case1 =>
    intro kept fuel ints _ h1 h2
    cases fuel with
    | zero => omega
    | succ fuel =>
      refine ⟨ints, ?_, h1⟩
      unfold hRemoveAllH
      rw [listAt_of h1, List.append_nil]
      show (match kept[kept.length]? with | none => _ | some c => _) = _
      rw [List.getElem?_eq_none (Nat.le_refl _)]
      rfl
  | case2 x =>
    intro kept fuel ints hn h1 h2
    cases fuel with
    | zero => omega
    | succ fuel =>
      have hx : x ∉ kept := fun h => (List.nodup_append.1 hn).2.2 x h x (by simp) rfl
      have he : (kept ++ [x]).erase x = kept := by
        rw [List.erase_append_right _ hx, List.erase_cons_head, List.append_nil]
      cases fuel with
      | zero => simp at h2
      | succ fuel =>
      refine ⟨ints.set a kept, ?_, ?_⟩
      · unfold hRemoveAllH
        rw [listAt_of h1]
        show (match (kept ++ [x])[kept.length]? with | none => _ | some c => _) = _
        rw [List.getElem?_append_right (Nat.le_refl _), Nat.sub_self, List.getElem?_cons_zero]
        show (hRemove (kept ++ [x]) x >>= _) = _
        rw [hRemove, if_pos (by simp), he]
        show hRemoveAllH a a (fuel + 1) (kept.length + 1) (ints.set a kept) = _
        unfold hRemoveAllH
        rw [listAt_of (List.getElem?_set_self (List.getElem?_eq_some_iff.1 h1).1)]
        show (match kept[kept.length + 1]? with | none => _ | some c => _) = _
        rw [List.getElem?_eq_none (by omega)]
        rfl
      · rw [List.getElem?_set_self (List.getElem?_eq_some_iff.1 h1).1, everyOther, List.append_nil]
  | case3 x y l ih =>
    intro kept fuel ints hn h1 h2
    cases fuel with
    | zero => omega
    | succ fuel =>
      have hx : x ∉ kept := fun h => (List.nodup_append.1 hn).2.2 x h x (by simp) rfl
      have he : (kept ++ x :: y :: l).erase x = (kept ++ [y]) ++ l := by
        rw [List.erase_append_right _ hx, List.erase_cons_head]; simp
      have a1 : ((kept ++ [y]) ++ l).Nodup := by rw [← he]; exact hn.erase x
      have a2 : (ints.set a ((kept ++ [y]) ++ l))[a]? = some ((kept ++ [y]) ++ l) :=
        List.getElem?_set_self (List.getElem?_eq_some_iff.1 h1).1
      have a3 : l.length < fuel := by simp only [List.length_cons] at h2; omega
      obtain ⟨ints', g1, g2⟩ := ih (kept ++ [y]) fuel _ a1 a2 a3
      refine ⟨ints', ?_, by rw [g2]; simp [everyOther]⟩
      unfold hRemoveAllH
      rw [listAt_of h1]
      show (match (kept ++ x :: y :: l)[kept.length]? with | none => _ | some c => _) = _
      rw [List.getElem?_append_right (Nat.le_refl _), Nat.sub_self, List.getElem?_cons_zero]
      show (hRemove (kept ++ x :: y :: l) x >>= _) = _
      rw [hRemove, if_pos (by simp), he]
      rw [List.length_append] at g1
      exact g1

theorem foldlM_hRemove_all (l : List Nat) : l.foldlM hRemove l = .ok [] := by
  induction l with
  | nil => rfl
  | cons x l ih =>
    rw [List.foldlM_cons, hRemove, if_pos (by simp), List.erase_cons_head]
    exact ih

end Verif
