import Verif.Proofs.NamesCluster
import Verif.Model.MPC

/-
Lemmas for C86, fourth part: the other clusterings and the sampling under other names.
-/

namespace Verif

variable {α β V δ κ μ θ : Type} [LinearOrder α] [LinearOrder β] [LinearOrder δ] {f : α → β}
variable {m : Manager α} {m' : Manager β}

/-- A pair whose first entry is an ID. -/
def nameFst {ν : Type} (f : α → β) (p : α × ν) : β × ν := (f p.1, p.2)

omit [LinearOrder α] [LinearOrder β] in
theorem zipIdx_names (l : List α) : (l.map f).zipIdx = l.zipIdx.map (nameFst f) := by
  rw [List.zipIdx_map]
  rfl

omit [LinearOrder α] [LinearOrder β] in
theorem lget_names (l : List α) (i : Nat) : lget (l.map f) i = (lget l i).map f := by
  unfold lget
  rw [List.getElem?_map]
  cases l[i]? <;> rfl

theorem dofList_names {ν : Type} (hf : f.Injective) (l : List (α × ν)) : dofList (l.map (nameFst f)) = dmap f id (dofList l) :=
  dofList_dmap hf id l

/-- The final renaming of labels that were computed as a list of items. -/
theorem renameItems_names (hf : f.Injective) {items : Except PyErr (List (α × Int))} {items' : Except PyErr (List (β × Int))}
    (h : items' = items.map (List.map (nameFst f))) :
    SameOutcome (RenamedLabels f) (items >>= fun l => renameClusters (dofList l)) (items' >>= fun l => renameClusters (dofList l)) := by
  subst h
  cases items with
  | error e => exact rfl
  | ok l =>
    show SameOutcome _ (renameClusters (dofList l)) (renameClusters (dofList (l.map (nameFst f))))
    rw [dofList_names hf]
    obtain ⟨r, r', e1, e2, h, -⟩ := renameClusters_names hf (nodup_dkeys_dofList l)
    rw [e1, e2]
    exact h

/-! ### Spectral clustering -/

theorem specImprint_names (hr : Renamed f m m') (env : SpecEnv V κ) (S : Mat κ) : specImprint env m' S = specImprint env m S := by
  unfold specImprint
  rw [hr.managed, zipIdx_names]
  refine foldlM_names_same fun p _ S => foldlM_names_same fun q _ S => ?_
  unfold specStep
  simp only [nameFst, hr.inferred]

theorem specItems_names (hr : Renamed f m m') (labels : List Int) :
    m'.managed.zipIdx.mapM (specEntry labels) = (m.managed.zipIdx.mapM (specEntry labels)).map (List.map (nameFst f)) := by
  rw [hr.managed, zipIdx_names]
  refine mapM_names fun p _ => ?_
  unfold specEntry nameFst
  cases labels[p.2]? <;> rfl

/-! ### Affinity propagation -/

theorem apCannotLinks_names (hr : Renamed f m m') : apCannotLinks m' = apCannotLinks m := by
  unfold apCannotLinks
  rw [hr.managed, List.length_map]
  simp only [lget_names]
  congr 1
  funext q
  simp only [bind, Except.bind]
  cases lget m.managed q.1 with
  | error e => rfl
  | ok x =>
    cases lget m.managed q.2 with
    | error e => rfl
    | ok y => simp only [Except.map, hr.added]

theorem apClosures_names (hf : f.Injective) (hr : Renamed f m m') (hc : m'.components = m.components.map (List.map f)) :
    (m'.components.mapM fun c => c.mapM fun x => dget (dofList m'.managed.zipIdx) x) =
      m.components.mapM fun c => c.mapM fun x => dget (dofList m.managed.zipIdx) x := by
  rw [hr.managed, zipIdx_names, dofList_names hf, hc]
  exact mapM_names_same fun c _ => mapM_names_same fun x _ => dget_names hf _ x

omit [LinearOrder α] [LinearOrder β] in
theorem apItems_names (ids : List α) (labels : List Int) :
    labels.zipIdx.mapM (apEntry (ids.map f)) = (labels.zipIdx.mapM (apEntry ids)).map (List.map (nameFst f)) := by
  refine mapM_values fun q _ => ?_
  unfold apEntry
  rw [lget_names]
  cases lget ids q.2 <;> rfl

/-! ### Distances and sampling -/

/-- Both entries are IDs. -/
def namePair (f : α → β) (p : α × α) : β × β := (f p.1, f p.2)

theorem distanceTable_names (hf : f.Injective) (hr : Renamed f m m') (vs : Dict α V) (metric : V → V → δ) :
    distanceTable m' (dmap f id vs) metric = (distanceTable m vs metric).map (dmap f (dmap f id)) := by
  unfold distanceTable
  rw [hr.managed]
  refine bind_names (F := List.map fun p : α × V => (f p.1, p.2)) (mapM_names fun x _ => ?_) fun rows => ?_
  · rw [dget_names hf]
    cases dget vs x <;> rfl
  · simp only [List.isEmpty_map]
    split
    · rfl
    · show Except.ok _ = Except.ok _
      simp only [dmap, List.map_map, Function.comp_def, id]

theorem pairDistance_names (hf : f.Injective) (table : Dict α (Dict α δ)) (p : α × α) :
    pairDistance (dmap f (dmap f id) table) (namePair f p) = pairDistance table p := by
  unfold pairDistance namePair
  exact bind_names_same (dget_dmap hf _ _ _) fun row => dget_names hf row _

theorem keeps_names (hf : StrictMono f) (hr : Renamed f m m') (cfg : Sampler) {c : Dict α Int} {c' : Dict β Int}
    (hc : RenamedVectors f m c c') {p : α × α} (h1 : p.1 ∈ m.managed) (h2 : p.2 ∈ m.managed) :
    cfg.keeps m' c' (namePair f p) = cfg.keeps m c p := by
  have hg : ∀ x ∈ m.managed, dget c' (f x) = dget c x := fun x hx => by unfold dget; rw [hc x hx]
  unfold Sampler.keeps Sampler.clustersSkip Sampler.knownSkip namePair
  simp only [hg _ h1, hg _ h2, hr.added, hr.inferred, ge_iff_le, hf.le_iff_le]

theorem possiblePairs_names (hf : StrictMono f) (hr : Renamed f m m') (cfg : Sampler) {c : Dict α Int} {c' : Dict β Int}
    (hc : RenamedVectors f m c c') :
    cfg.possiblePairs m' c' = (cfg.possiblePairs m c).map (List.map (namePair f)) := by
  unfold Sampler.possiblePairs
  have : (m'.managed.flatMap fun x => m'.managed.map fun y => (x, y)) =
      (m.managed.flatMap fun x => m.managed.map fun y => (x, y)).map (namePair f) := by
    rw [hr.managed]
    simp only [List.flatMap_map, List.map_flatMap, List.map_map]
    rfl
  rw [this]
  refine filterM_names fun p hp => ?_
  simp only [List.mem_flatMap, List.mem_map] at hp
  obtain ⟨x, hx, y, hy, rfl⟩ := hp
  exact keeps_names hf hr cfg hc hx hy

theorem sortedByKey_names {ι ι' : Type} (F : ι → ι') (rev : Bool) (keyed : List (δ × ι)) :
    sortedByKey rev (keyed.map fun q => (q.1, F q.2)) = (sortedByKey rev keyed).map F := by
  unfold sortedByKey
  rw [← List.map_insertionSort (fun a b : δ × ι => if rev = true then b.1 ≤ a.1 else a.1 ≤ b.1)
    (fun a b : δ × ι' => if rev = true then b.1 ≤ a.1 else a.1 ≤ b.1) (fun q : δ × ι => (q.1, F q.2))
    keyed fun a _ b _ => Iff.rfl, List.map_map, List.map_map]
  rfl

theorem select_names (hf : StrictMono f) (hr : Renamed f m m') (cfg : Sampler) {c : Dict α Int} {c' : Dict β Int}
    (hc : RenamedVectors f m c c') {vs : Dict α V} {vs' : Dict β V} (hv : RenamedVectors f m vs vs') (metric : V → V → δ) (n : Nat)
    {pick : List (α × α) → Nat → List (α × α)} {pick' : List (β × β) → Nat → List (β × β)}
    (hp : ∀ l k, pick' (l.map (namePair f)) k = (pick l k).map (namePair f)) :
    cfg.select m' n c' vs' metric pick' = (cfg.select m n c vs metric pick).map (List.map (namePair f)) := by
  unfold Sampler.select
  refine bind_names (possiblePairs_names hf hr cfg hc) fun pairs => ?_
  cases cfg.distance with
  | none =>
    show Except.ok _ = Except.ok _
    rw [List.length_map, hp]
  | some d =>
    simp only
    rw [(hv.same hf.injective hr.managed).distanceTable]
    refine bind_names (distanceTable_names hf.injective hr vs metric) fun table => ?_
    refine bind_names (F := List.map fun q : δ × α × α => (q.1, namePair f q.2)) (mapM_names fun p _ => ?_) fun keyed => ?_
    · rw [pairDistance_names hf.injective]
      cases pairDistance table p <;> rfl
    · show Except.ok _ = Except.ok _
      rw [sortedByKey_names, List.map_take]

/-! ### Hierarchical clustering -/

section Hier
variable {env : HierEnv V δ} {link : Linkage}

abbrev nameStorage (f : α → β) (st : Dict Nat (HCluster α V)) : Dict Nat (HCluster β V) := dmap id (HCluster.mapIds f) st

def HState.mapIds (f : α → β) (s : HState α V δ) : HState β V δ := ⟨s.current, nameStorage f s.storage, s.distances, s.iteration⟩

omit [LinearOrder α] [LinearOrder β] in
theorem dget_storage (st : Dict Nat (HCluster α V)) (i : Nat) : dget (nameStorage f st) i = (dget st i).map (HCluster.mapIds f) :=
  dget_dmap (f := id) Function.injective_id _ st i

omit [LinearOrder α] [LinearOrder β] in
theorem dkeys_storage (st : Dict Nat (HCluster α V)) : dkeys (nameStorage f st) = dkeys st := by
  rw [nameStorage, dkeys_dmap, List.map_id]

omit [LinearOrder α] [LinearOrder β] in
theorem dset_storage (st : Dict Nat (HCluster α V)) (i : Nat) (c : HCluster α V) :
    dset (nameStorage f st) i (c.mapIds f) = nameStorage f (dset st i c) :=
  dset_dmap (f := id) Function.injective_id _ st i c

theorem hCentroid_names (hf : f.Injective) (vs : Dict α V) (members : List α) :
    hCentroid env (dmap f id vs) (members.map f) = hCentroid env vs members := by
  unfold hCentroid
  rw [mapM_names_same fun x _ => dget_names hf vs x]

theorem hAddLeaf_names (hf : f.Injective) (vs : Dict α V) (s : HState α V δ) (members : List α) :
    hAddLeaf env (dmap f id vs) (s.mapIds f) (members.map f) = (hAddLeaf env vs s members).map (HState.mapIds f) := by
  unfold hAddLeaf
  have hid : hNextId (s.mapIds f).storage = hNextId s.storage := by
    unfold hNextId
    rw [show (s.mapIds f).storage = nameStorage f s.storage from rfl, dkeys_storage]
  simp only [hid]
  refine bind_same_names (hCentroid_names hf vs members) fun c => ?_
  show Except.ok _ = Except.ok _
  congr 1
  unfold HState.mapIds
  simp only [← dset_storage]
  rfl

theorem hCreate_names (hf : f.Injective) (vs : Dict α V) (s : HState α V δ) (current children : List Nat) (id' : Nat) :
    hCreate env (dmap f id vs) (s.mapIds f) current children id' = (hCreate env vs s current children id').map (HState.mapIds f) := by
  unfold hCreate
  refine bind_names (mapM_values fun c _ => dget_storage s.storage c) fun nodes => ?_
  have h1 : ((nodes.map (HCluster.mapIds f)).map fun n => n.depth) = nodes.map fun n => n.depth := by
    rw [List.map_map]; rfl
  have h2 : ((nodes.map (HCluster.mapIds f)).flatMap fun n => n.members) = (nodes.flatMap fun n => n.members).map f := by
    rw [List.flatMap_map, List.map_flatMap]; rfl
  simp only [h1, h2]
  refine bind_same_names (hCentroid_names hf vs _) fun c => ?_
  show Except.ok _ = Except.ok _
  congr 1
  unfold HState.mapIds
  simp only [← dset_storage]
  rfl

theorem hAddMerge_names (hf : f.Injective) (vs : Dict α V) (s : HState α V δ) (children : List Nat) :
    hAddMerge env (dmap f id vs) (s.mapIds f) children =
      (hAddMerge env vs s children).map fun r => (r.1, r.2.mapIds f) := by
  unfold hAddMerge
  refine bind_same_names rfl fun current => ?_
  rw [show (s.mapIds f).storage = nameStorage f s.storage from rfl, dkeys_storage]
  cases (dkeys s.storage).max? with
  | none => rfl
  | some k => exact bind_names (hCreate_names hf vs s current children (k + 1)) fun t => rfl

theorem hHasCannotLink_names (hr : Renamed f m m') (xs ys : List α) :
    hHasCannotLink m' (xs.map f) (ys.map f) = hHasCannotLink m xs ys := by
  unfold hHasCannotLink
  exact anyM_names fun x _ => anyM_names fun y _ => by rw [hr.inferred]

omit [LinearOrder α] [LinearOrder β] in
theorem laterPairs_names (l : List α) : laterPairs (l.map f) = (laterPairs l).map (namePair f) := by
  induction l with
  | nil => rfl
  | cons x l ih =>
    rw [List.map_cons, laterPairs, laterPairs, ih, List.map_append, List.map_map, List.map_map]
    rfl

theorem hLinkage_names (hf : f.Injective) (table : Dict α (Dict α δ)) (ci cj : HCluster α V) :
    hLinkage env link (dmap f (dmap f id) table) (ci.mapIds f) (cj.mapIds f) = hLinkage env link table ci cj := by
  have hp : ((ci.mapIds f).members.flatMap fun x => (cj.mapIds f).members.map fun y => (x, y)) =
      (ci.members.flatMap fun x => cj.members.map fun y => (x, y)).map (namePair f) := by
    show ((ci.members.map f).flatMap fun x => (cj.members.map f).map fun y => (x, y)) = _
    simp only [List.flatMap_map, List.map_flatMap, List.map_map]
    rfl
  have hl : laterPairs ((ci.mapIds f).members ++ (cj.mapIds f).members) = (laterPairs (ci.members ++ cj.members)).map (namePair f) := by
    rw [← laterPairs_names, List.map_append]
    rfl
  have hlen : ∀ c : HCluster α V, (c.mapIds f).members.length = c.members.length := fun c => List.length_map f
  unfold hLinkage
  cases link with
  | complete =>
    simp only [hp]
    rw [mapM_names_same fun p _ => pairDistance_names hf table p]
  | average => rfl
  | single =>
    simp only [hp]
    rw [mapM_names_same fun p _ => pairDistance_names hf table p]
  | ward =>
    simp only [hl, hlen]
    rw [mapM_names_same fun p _ => pairDistance_names hf table p]

theorem hComputeDistance_names (hf : f.Injective) (hr : Renamed f m m') (table : Dict α (Dict α δ)) (st : Dict Nat (HCluster α V))
    (i j : Nat) :
    hComputeDistance env link m' (dmap f (dmap f id) table) (nameStorage f st) i j = hComputeDistance env link m table st i j := by
  unfold hComputeDistance
  refine bind_names_same (dget_storage st i) fun ci => bind_names_same (dget_storage st j) fun cj => ?_
  rw [show (ci.mapIds f).members = ci.members.map f from rfl, show (cj.mapIds f).members = cj.members.map f from rfl,
    hHasCannotLink_names hr, hLinkage_names hf]

theorem hInitDistances_names (hf : f.Injective) (hr : Renamed f m m') (table : Dict α (Dict α δ)) (s : HState α V δ) :
    hInitDistances env link m' (dmap f (dmap f id) table) (s.mapIds f) = hInitDistances env link m table s := by
  unfold hInitDistances
  simp only [HState.mapIds, hComputeDistance_names hf hr]

theorem hUpdateDistances_names (hf : f.Injective) (hr : Renamed f m m') (table : Dict α (Dict α δ)) (s : HState α V δ) (c : Nat) :
    hUpdateDistances env link m' (dmap f (dmap f id) table) (s.mapIds f) c = hUpdateDistances env link m table s c := by
  unfold hUpdateDistances
  simp only [HState.mapIds, hComputeDistance_names hf hr]

theorem hClosest_names (s : HState α V δ) : hClosest (s.mapIds f) = hClosest s := by
  unfold hClosest
  refine congrArg (· >>= _) (mapM_same fun p _ => ?_)
  refine congrArg (_ >>= ·) (funext fun d => ?_)
  refine bind_names_same (dget_storage s.storage p.1) fun n1 => bind_names_same (dget_storage s.storage p.2) fun n2 => ?_
  simp only [HCluster.mapIds, List.length_map]

theorem hMergeStep_names (hf : f.Injective) (hr : Renamed f m m') (vs : Dict α V) (table : Dict α (Dict α δ)) (s : HState α V δ)
    (p : Nat × Nat) :
    hMergeStep env link m' (dmap f id vs) (dmap f (dmap f id) table) (s.mapIds f) p =
      (hMergeStep env link m vs table s p).map (HState.mapIds f) := by
  unfold hMergeStep
  refine bind_names (hAddMerge_names hf vs s [p.1, p.2]) fun r => ?_
  exact bind_same_names (hUpdateDistances_names hf hr table r.2 r.1) fun d => rfl

theorem hLoop_names (hf : f.Injective) (hr : Renamed f m m') (vs : Dict α V) (table : Dict α (Dict α δ)) (fuel : Nat) (s : HState α V δ) :
    hLoop env link m' (dmap f id vs) (dmap f (dmap f id) table) fuel (s.mapIds f) =
      (hLoop env link m vs table fuel s).map (HState.mapIds f) := by
  induction fuel generalizing s with
  | zero =>
    unfold hLoop
    show (if s.current.length > 1 then _ else _) = _
    split <;> rfl
  | succ fuel ih =>
    unfold hLoop
    show (if s.current.length > 1 then _ else _) = _
    split
    · refine bind_same_names (hClosest_names s) fun o => ?_
      cases o with
      | none => rfl
      | some p => exact bind_names (hMergeStep_names hf hr vs table s p) fun t => ih t
    · rfl

theorem hStart_names (hf : f.Injective) (hr : Renamed f m m') (hc : m'.components = m.components.map (List.map f)) (vs : Dict α V)
    (table : Dict α (Dict α δ)) :
    hStart env link m' (dmap f id vs) (dmap f (dmap f id) table) = (hStart env link m vs table).map (HState.mapIds f) := by
  unfold hStart
  rw [hc]
  refine bind_names (F := HState.mapIds f) ?_ fun s => bind_same_names (hInitDistances_names hf hr table s) fun d => rfl
  exact foldlM_names (s := (⟨[], [], [], 0⟩ : HState α V δ)) fun c _ s => hAddLeaf_names hf vs s c

theorem hFinish_names (hf : f.Injective) (vs : Dict α V) (s : HState α V δ) :
    hFinish env (dmap f id vs) (s.mapIds f) = (hFinish env vs s).map (HState.mapIds f) := by
  unfold hFinish
  show (if s.current.length > 1 then _ else _) = _
  split
  · exact bind_names (hAddMerge_names hf vs s s.current) fun r => rfl
  · rfl

theorem hBuild_names (hf : f.Injective) (hr : Renamed f m m') (hc : m'.components = m.components.map (List.map f)) (vs : Dict α V)
    (table : Dict α (Dict α δ)) :
    hBuild env link m' (dmap f id vs) (dmap f (dmap f id) table) =
      (hBuild env link m vs table).map fun r => (r.1, nameStorage f r.2) := by
  unfold hBuild
  refine bind_names (hStart_names hf hr hc vs table) fun s0 => ?_
  rw [hc, List.length_map]
  refine bind_names (hLoop_names hf hr vs table _ s0) fun s1 => ?_
  refine bind_names (hFinish_names hf vs s1) fun s2 => ?_
  show (match s2.current with | [] => _ | root :: _ => _) = _
  cases s2.current with
  | nil => rfl
  | cons root _ => exact bind_names (dget_storage s2.storage root) fun n => rfl

theorem hChoice_names (by_ : CutBy) (st : Dict Nat (HCluster α V)) (l : List Nat) :
    hChoice by_ (nameStorage f st) l = hChoice by_ st l := by
  unfold hChoice
  refine congrArg (· >>= _) (mapM_same fun c _ => ?_)
  refine bind_names_same (dget_storage st c) fun n => ?_
  have : by_.key (n.mapIds f) = by_.key n := by
    cases by_
    · exact List.length_map f
    · rfl
  rw [this]

theorem hExplore_names (by_ : CutBy) (st : Dict Nat (HCluster α V)) (nb : Int) (fuel : Nat) (l : List Nat) :
    hExplore by_ (nameStorage f st) nb fuel l = hExplore by_ st nb fuel l := by
  induction fuel generalizing l with
  | zero => rfl
  | succ fuel ih =>
    unfold hExplore
    split
    · rw [hChoice_names]
      refine congrArg (_ >>= ·) (funext fun c => ?_)
      refine bind_names_same (dget_storage st c) fun n => ?_
      show (if n.children = [] then _ else hExplore by_ (nameStorage f st) nb fuel (l.erase c ++ n.children)) = _
      rw [ih]
    · rfl

theorem hAffect_names (hf : f.Injective) (ids : List α) (st : Dict Nat (HCluster α V)) (l : List Nat) :
    hAffect (ids.map f) (nameStorage f st) l = (hAffect ids st l).map (dmap f id) := by
  unfold hAffect
  rw [startLabels_names hf]
  refine foldlM_state fun c _ d => bind_names (dget_storage st c) fun n => ?_
  show Except.ok _ = Except.ok _
  congr 1
  show (n.members.map f).foldl (fun d x => dset d x (c : Int)) (dmap f id d) = dmap f id (n.members.foldl (fun d x => dset d x (c : Int)) d)
  generalize n.members = ms
  induction ms generalizing d with
  | nil => rfl
  | cons x ms ih =>
    rw [List.map_cons, List.foldl_cons, List.foldl_cons, ← ih, ← dset_dmap hf]
    rfl

theorem hAffect_nodup {ids : List α} {st : Dict Nat (HCluster α V)} {l : List Nat} {d : Dict α Int} (e : hAffect ids st l = .ok d) :
    (dkeys d).Nodup := by
  unfold hAffect at e
  refine foldlM_two (R := fun (d : Dict α Int) (_ : Unit) => (dkeys d).Nodup) (g := fun (_ : Unit) _ => .ok ()) (L := l) ?_
    (t := ()) (t' := ()) (nodup_dkeys_dofList _) e ?_
  · intro c _ d _ d' _ hd e _
    simp only [bind, Except.bind] at e
    split at e
    · cases e
    · rename_i n _
      cases e
      generalize n.members = ms
      induction ms generalizing d with
      | nil => exact hd
      | cons x ms ih => exact ih _ (nodup_dkeys_dset _ _ hd)
  · clear e
    induction l with
    | nil => rfl
    | cons a l ih => rw [List.foldlM_cons]; exact ih

theorem hCut_names (hf : f.Injective) (ids : List α) (st : Dict Nat (HCluster α V)) (root : Nat) (nb : Int) (by_ : CutBy) :
    SameOutcome (RenamedLabels f) (hCut ids st root nb by_) (hCut (ids.map f) (nameStorage f st) root nb by_) := by
  unfold hCut
  rw [hExplore_names]
  simp only [bind, Except.bind]
  cases hExplore by_ st nb nb.toNat [root] with
  | error e => exact rfl
  | ok l =>
    simp only [hAffect_names hf]
    cases e : hAffect ids st l with
    | error e => exact rfl
    | ok d =>
      obtain ⟨r, r', e1, e2, h, -⟩ := renameClusters_names hf (hAffect_nodup e)
      simp only [Except.map, e1, e2]
      exact h

theorem cut_names (hf : f.Injective) (o : HObject α V) (nb : Int) (by_ : CutBy) :
    SameOutcome (RenamedLabels f) (o.cut nb by_) ((o.mapIds f).cut nb by_) := by
  unfold HObject.cut
  show SameOutcome _ (match o.root with | none => _ | some root => _) (match o.root with | none => _ | some root => _)
  cases o.root with
  | none => exact rfl
  | some root => exact hCut_names hf o.ids o.storage root nb by_

end Hier

/-! ### MPC-KMeans -/

theorem mpcPairs_names (hr : Renamed f m m') (t : CType) : mpcPairs m' t = mpcPairs m t := by
  unfold mpcPairs
  have : (m'.managed.zipIdx.flatMap fun p => m'.managed.zipIdx.map fun q => (p, q)) =
      (m.managed.zipIdx.flatMap fun p => m.managed.zipIdx.map fun q => (p, q)).map (fun r => (nameFst f r.1, nameFst f r.2)) := by
    rw [hr.managed, zipIdx_names]
    simp only [List.flatMap_map, List.map_flatMap, List.map_map]
    rfl
  simp only [this]
  refine bind_names_same (filterM_names fun r _ => by simp only [nameFst, hr.inferred]) fun kept => ?_
  rw [List.map_map]
  rfl

/-- Labels that do not use `-1`, completed with `-1`. -/
theorem complete_names (hf : f.Injective) (ids : List α) {d : Dict α Int} {d' : Dict β Int} (h : RenamedLabels f d d')
    (hneg : ∀ x ∈ dkeys d, (dget? d' (f x) = some (-1) ↔ dget? d x = some (-1))) :
    RenamedLabels f (ids.foldl (fun d x => if x ∈ dkeys d then d else dset d x (-1)) d)
      ((ids.map f).foldl (fun d x => if x ∈ dkeys d then d else dset d x (-1)) d') := by
  induction ids generalizing d d' with
  | nil => exact h
  | cons x ids ih =>
    rw [List.map_cons, List.foldl_cons, List.foldl_cons]
    have hmem : ∀ y, f y ∈ dkeys d' ↔ y ∈ dkeys d := fun y => by rw [h.keys.mem_iff, List.mem_map_of_injective hf]
    by_cases hx : x ∈ dkeys d
    · rw [if_pos hx, if_pos ((hmem x).2 hx)]
      exact ih h hneg
    · rw [if_neg hx, if_neg fun hx' => hx ((hmem x).1 hx')]
      have hget : ∀ y, dget? (dset d x (-1)) y = if x = y then some (-1) else dget? d y := fun y => dget?_dset d x (-1) y
      have hget' : ∀ y, dget? (dset d' (f x) (-1)) (f y) = if x = y then some (-1) else dget? d' (f y) := fun y => by
        rw [dget?_dset]
        simp only [hf.eq_iff]
      have hk : dkeys (dset d x (-1)) = dkeys d ++ [x] := by rw [dkeys_dset, if_neg hx]
      have hk' : dkeys (dset d' (f x) (-1)) = dkeys d' ++ [f x] := by rw [dkeys_dset, if_neg fun hx' => hx ((hmem x).1 hx')]
      have hold : ∀ y ∈ dkeys d ++ [x], x ≠ y → y ∈ dkeys d := by
        intro y hy hne
        rcases List.mem_append.1 hy with hy | hy
        · exact hy
        · exact absurd (List.mem_singleton.1 hy).symm hne
      refine ih ⟨?_, ?_, ?_⟩ ?_
      · rw [hk, hk', List.map_append]
        exact h.keys.append_right _
      · intro y hy z hz
        rw [hk] at hy hz
        rw [hget, hget, hget', hget']
        by_cases e1 : x = y <;> by_cases e2 : x = z
        · rw [if_pos e1, if_pos e1, if_pos e2, if_pos e2]
        · rw [if_pos e1, if_pos e1, if_neg e2, if_neg e2, eq_comm, hneg z (hold z hz e2), eq_comm]
        · rw [if_neg e1, if_neg e1, if_pos e2, if_pos e2, hneg y (hold y hy e1)]
        · rw [if_neg e1, if_neg e1, if_neg e2, if_neg e2]
          exact h.groups y (hold y hy e1) z (hold z hz e2)
      · intro hm
        rw [h.labels hm, renameKeys_eq, renameKeys_eq, ← dset_dmap hf]
        rfl
      · intro y hy
        rw [hk] at hy
        rw [hget, hget']
        by_cases e1 : x = y
        · rw [if_pos e1, if_pos e1]
        · rw [if_neg e1, if_neg e1]
          exact hneg y (hold y hy e1)

end Verif
