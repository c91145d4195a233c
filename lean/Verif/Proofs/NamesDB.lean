import Verif.Proofs.NamesOthers
import Verif.Proofs.DBScan

/-
Lemmas for C86, fifth part: C-DBScan under other names in the same order.
-/

namespace Verif

variable {α β V δ : Type} [LinearOrder α] [LinearOrder β] [LinearOrder δ] {f : α → β}
variable {m : Manager α} {m' : Manager β} {env : DbEnv α V δ} {env' : DbEnv β V δ} {p : DbParams δ}

abbrev nameLists (f : α → β) (d : Dict α (List α)) : Dict β (List β) := dmap f (List.map f) d

theorem dpop_names {ν ν' : Type} (hf : f.Injective) (g : ν → ν') (d : Dict α ν) (x : α) :
    dpop (dmap f g d) (f x) = dmap f g (dpop d x) := dpop_dmap hf g d x

theorem mem_dkeys_names {ν ν' : Type} (hf : f.Injective) (g : ν → ν') (d : Dict α ν) (x : α) :
    f x ∈ dkeys (dmap f g d) ↔ x ∈ dkeys d := by
  rw [dkeys_dmap, List.mem_map_of_injective hf]

theorem dofList_map_names {ν ν' : Type} (hf : f.Injective) (g : ν → ν') (ids : List α) (h : α → ν) (h' : β → ν')
    (hh : ∀ x ∈ ids, h' (f x) = g (h x)) : dofList ((ids.map f).map fun x => (x, h' x)) = dmap f g (dofList (ids.map fun x => (x, h x))) := by
  rw [← dofList_dmap hf, List.map_map, List.map_map]
  congr 1
  exact List.map_congr_left fun x hx => by simp only [Function.comp_apply, hh x hx]

/-! ### Local clusters -/

theorem dbNeighbors_names (hf : f.Injective) (table : Dict α (Dict α δ)) (ids : List α) (labels : Dict α DLabel) (x : α) :
    dbNeighbors p (dmap f (dmap f id) table) (ids.map f) (dmap f id labels) (f x) =
      (dbNeighbors p table ids labels x).map (List.map f) := by
  unfold dbNeighbors
  refine bind_names (filterM_names fun y _ => by rw [dget_names hf]) fun possible => ?_
  refine filterM_names fun y _ => ?_
  have := pairDistance_names hf table (x, y)
  unfold namePair at this
  rw [this]

theorem dbConflict_names (hr : Renamed f m m') (xs ys : List α) : dbConflict m' (xs.map f) (ys.map f) = dbConflict m xs ys := by
  unfold dbConflict
  refine bind_names_same (mapM_names fun x _ => filterM_names fun y _ => by rw [hr.inferred]) fun rows => ?_
  simp [List.any_map, Function.comp_def, pure, Except.pure]

/-- Labels and local clusters with the other names. -/
def dbPair (f : α → β) (s : Dict α DLabel × Dict α (List α)) : Dict β DLabel × Dict β (List β) := (dmap f id s.1, nameLists f s.2)

theorem dbSingles_names (hf : f.Injective) (ys : List α) (s : Dict α DLabel × Dict α (List α)) :
    (ys.map f).foldl (fun s y => (dset s.1 y .singleCore, dset s.2 y [y])) (dbPair f s) =
      dbPair f (ys.foldl (fun s y => (dset s.1 y .singleCore, dset s.2 y [y])) s) := by
  induction ys generalizing s with
  | nil => rfl
  | cons y ys ih =>
    rw [List.map_cons, List.foldl_cons, List.foldl_cons, ← ih]
    congr 1
    unfold dbPair nameLists
    rw [← dset_dmap hf, ← dset_dmap hf]
    rfl

theorem dbLocalStep_names (hf : f.Injective) (hr : Renamed f m m') (table : Dict α (Dict α δ)) (ids : List α)
    (s : Dict α DLabel × Dict α (List α)) (x : α) :
    dbLocalStep p m' (dmap f (dmap f id) table) (ids.map f) (dbPair f s) (f x) = (dbLocalStep p m table ids s x).map (dbPair f) := by
  unfold dbLocalStep
  refine bind_same_names (dget_names hf s.1 x) fun l => ?_
  split
  · refine bind_names (dbNeighbors_names hf table ids s.1 x) fun ns => ?_
    refine bind_same_names (dbConflict_names hr ns ns) fun c => ?_
    rw [List.length_map]
    split
    · show Except.ok _ = Except.ok _
      unfold dbPair
      rw [← dset_dmap hf]
      rfl
    · split
      · exact congrArg Except.ok (dbSingles_names hf ns s)
      · show Except.ok _ = Except.ok _
        unfold dbPair nameLists
        rw [← dset_dmap hf, ← dset_dmap hf]
        rfl
  · rfl

theorem dbLocals_names (hf : f.Injective) (hr : Renamed f m m') (table : Dict α (Dict α δ)) (ids : List α) :
    dbLocals p m' (dmap f (dmap f id) table) (ids.map f) = (dbLocals p m table ids).map (dbPair f) := by
  unfold dbLocals
  rw [dofList_map_names hf id ids (fun _ => DLabel.unlabeled) (fun _ => DLabel.unlabeled) fun _ _ => rfl]
  exact foldlM_names (φ := dbPair f) (s := (dofList (ids.map fun x => (x, DLabel.unlabeled)), [])) fun x _ s =>
    dbLocalStep_names hf hr table ids s x

/-! ### Core clusters -/

theorem dbCompatible_names (hf : f.Injective) (hr : Renamed f m m') (ids : List α) :
    dbCompatible m' (ids.map f) = (dbCompatible m ids).map (nameLists f) := by
  unfold dbCompatible
  refine bind_names (F := List.map fun q : α × List α => (f q.1, q.2.map f)) (mapM_names fun x _ => ?_) fun rows => ?_
  · exact bind_names (filterM_names fun y _ => by rw [hr.inferred]) fun ys => rfl
  · exact congrArg Except.ok (dofList_dmap hf (List.map f) rows)

theorem dbClustersOf_names (hf : f.Injective) (ids : List α) (locals : Dict α (List α)) :
    dbClustersOf (ids.map f) (nameLists f locals) = nameLists f (dbClustersOf ids locals) := by
  unfold dbClustersOf nameLists
  refine dofList_map_names hf (List.map f) ids _ _ fun x _ => ?_
  simp only [dmap, List.filter_map, List.map_map, Function.comp_def, List.mem_map_of_injective hf]

theorem dbFallback_names (hf : f.Injective) (clustersOf : Dict α (List α)) (x : α) :
    dbFallback (nameLists f clustersOf) (f x) = (dbFallback clustersOf x).map f := by
  unfold dbFallback
  refine bind_names (dget_dmap hf (List.map f) clustersOf x) fun cs => ?_
  cases cs <;> rfl

theorem dbOwn_names (hf : f.Injective) (labels : Dict α DLabel) (locals clustersOf : Dict α (List α)) (x : α) :
    dbOwn (dmap f id labels) (nameLists f locals) (nameLists f clustersOf) (f x) =
      (dbOwn labels locals clustersOf x).map fun r => (f r.1, r.2.map f) := by
  unfold dbOwn
  refine bind_same_names (dget_names hf labels x) fun l => ?_
  by_cases h : l = .noise
  · rw [if_pos h, if_pos h]; rfl
  · rw [if_neg h, if_neg h]
    by_cases hx : x ∈ dkeys locals
    · rw [if_pos hx, if_pos ((mem_dkeys_names hf _ _ _).2 hx)]
      exact bind_names (dget_dmap hf (List.map f) locals x) fun c => rfl
    · rw [if_neg hx, if_neg fun hx' => hx ((mem_dkeys_names hf _ _ _).1 hx')]
      refine bind_names (dbFallback_names hf clustersOf x) fun c => ?_
      exact bind_names (dget_dmap hf (List.map f) locals c) fun c => rfl

theorem dbPartner_names (hf : f.Injective) (labels : Dict α DLabel) (locals clustersOf : Dict α (List α)) (y : α) :
    dbPartner (dmap f id labels) (nameLists f locals) (nameLists f clustersOf) (f y) =
      (dbPartner labels locals clustersOf y).map (Option.map (List.map f)) := by
  unfold dbPartner
  refine bind_same_names (dget_names hf labels y) fun l => ?_
  by_cases h : l = .noise
  · rw [if_pos h, if_pos h]; rfl
  · rw [if_neg h, if_neg h]
    by_cases hx : y ∈ dkeys locals
    · rw [if_pos hx, if_pos ((mem_dkeys_names hf _ _ _).2 hx)]
      rfl
    · rw [if_neg hx, if_neg fun hx' => hx ((mem_dkeys_names hf _ _ _).1 hx')]
      refine bind_names (dbFallback_names hf clustersOf y) fun c => ?_
      exact bind_names (dget_dmap hf (List.map f) locals c) fun c => rfl

/-- Assignments with the other names. -/
abbrev nameAssigned (f : α → β) (d : Dict α α) : Dict β β := dmap f f d

theorem dbTake_names (hf : f.Injective) (hnone : env'.none = f env.none) (c : α) (s : Dict α α × List α) (z : α) :
    dbTake env' (f c) (nameAssigned f s.1, s.2.map f) (f z) =
      (dbTake env c s z).map fun t => (nameAssigned f t.1, t.2.map f) := by
  unfold dbTake
  refine bind_names (dget_dmap hf f s.1 z) fun a => ?_
  rw [hnone]
  by_cases h : a = env.none
  · rw [if_pos h, if_pos (by rw [h])]
    show Except.ok _ = Except.ok _
    rw [dset_dmap hf]
    simp
  · rw [if_neg h, if_neg fun h' => h (hf h')]
    rfl

theorem dbAll_names (henum : ∀ l, env'.enum (l.map f) = (env.enum l).map f) (points : List α) (o : Option (List α)) :
    dbAll env' (points.map f) (o.map (List.map f)) = (dbAll env points o).map f := by
  cases o with
  | none => rfl
  | some others =>
    show env'.enum (points.map f ++ others.map f) = _
    rw [← List.map_append, henum]
    rfl

/-- Assignments and core clusters with the other names. -/
def dbMaps (f : α → β) (s : Dict α α × Dict α (List α)) : Dict β β × Dict β (List β) := (nameAssigned f s.1, nameLists f s.2)

theorem dbLinkStep_names (hf : f.Injective) (henum : ∀ l, env'.enum (l.map f) = (env.enum l).map f) (hnone : env'.none = f env.none)
    (labels : Dict α DLabel) (locals clustersOf : Dict α (List α)) (x c : α) (points : List α) (s : Dict α α × Dict α (List α)) (y : α) :
    dbLinkStep env' (dmap f id labels) (nameLists f locals) (nameLists f clustersOf) (f x) (f c) (points.map f) (dbMaps f s) (f y) =
      (dbLinkStep env labels locals clustersOf x c points s y).map (dbMaps f) := by
  unfold dbLinkStep
  refine bind_names (dbPartner_names hf labels locals clustersOf y) fun others => ?_
  rw [dbAll_names henum]
  refine bind_names (F := fun t : Dict α α × List α => (nameAssigned f t.1, t.2.map f)) ?_ fun t => ?_
  · exact foldlM_names (φ := fun t : Dict α α × List α => (nameAssigned f t.1, t.2.map f)) (s := (s.1, []))
      fun z _ t => dbTake_names hf hnone c t z
  · refine bind_names (dget_dmap hf (List.map f) s.2 c) fun old => ?_
    show Except.ok _ = Except.ok _
    unfold dbMaps nameLists
    rw [← dset_dmap hf, ← henum, List.map_append, List.map_append]
    rfl

/-- The state of the merging under must-links. -/
def dbTriple (f : α → β) (s : List α × Dict α α × Dict α (List α)) : List β × Dict β β × Dict β (List β) := (s.1.map f, dbMaps f s.2)

theorem dbMergeStep_names (hf : f.Injective) (henum : ∀ l, env'.enum (l.map f) = (env.enum l).map f) (hnone : env'.none = f env.none)
    (labels : Dict α DLabel) (locals clustersOf compatible : Dict α (List α)) (s : List α × Dict α α × Dict α (List α)) (x : α) :
    dbMergeStep env' (dmap f id labels) (nameLists f locals) (nameLists f clustersOf) (nameLists f compatible) (dbTriple f s) (f x) =
      (dbMergeStep env labels locals clustersOf compatible s x).map (dbTriple f) := by
  unfold dbMergeStep
  have hx : f x ∈ (dbTriple f s).1 ↔ x ∈ s.1 := List.mem_map_of_injective hf
  by_cases h : x ∈ s.1
  · rw [if_neg (not_not.2 h), if_neg (not_not.2 (hx.2 h))]
    rfl
  · rw [if_pos h, if_pos fun h' => h (hx.1 h')]
    refine bind_names (dget_dmap hf (List.map f) compatible x) fun ys => ?_
    by_cases hy : ys = []
    · subst hy
      show Except.ok _ = Except.ok _
      simp [dbTriple]
    · rw [if_neg hy, if_neg (by simpa using hy)]
      refine bind_names (dbOwn_names hf labels locals clustersOf x) fun own => ?_
      refine bind_names (foldlM_names (φ := dbMaps f) (s := s.2) fun y _ t =>
        dbLinkStep_names hf henum hnone labels locals clustersOf x own.1 own.2 t y) fun t => ?_
      show Except.ok _ = Except.ok _
      simp [dbTriple]

theorem dbClean_names (hf : f.Injective) (assigned : Dict α α) (core : Dict α (List α)) (x : α) :
    dbClean (nameAssigned f assigned) (nameLists f core) (f x) = (dbClean assigned core x).map (nameLists f) := by
  unfold dbClean
  refine bind_names (dget_dmap hf (List.map f) core x) fun c => ?_
  simp only [List.map_eq_nil_iff]
  split
  · exact congrArg Except.ok (dpop_names hf _ core x)
  · refine bind_names (dget_dmap hf f assigned x) fun a => ?_
    by_cases h : a = x
    · rw [if_neg (not_not.2 h), if_neg (by rw [h]; simp)]; rfl
    · rw [if_pos h, if_pos fun h' => h (hf h')]
      exact congrArg Except.ok (dpop_names hf _ core x)

theorem dbCleanSingle_names (hf : f.Injective) (core : Dict α (List α)) (x : α) :
    dbCleanSingle (nameLists f core) (f x) = (dbCleanSingle core x).map (nameLists f) := by
  unfold dbCleanSingle
  by_cases h : x ∈ dkeys core
  · rw [if_pos h, if_pos ((mem_dkeys_names hf _ _ _).2 h)]
    refine bind_names (dget_dmap hf (List.map f) core x) fun c => ?_
    rw [List.length_map]
    split
    · exact congrArg Except.ok (dpop_names hf _ core x)
    · rfl
  · rw [if_neg h, if_neg fun h' => h ((mem_dkeys_names hf _ _ _).1 h')]
    rfl

theorem dbCores_names (hf : f.Injective) (hr : Renamed f m m') (henum : ∀ l, env'.enum (l.map f) = (env.enum l).map f)
    (hnone : env'.none = f env.none) (ids : List α) (labels : Dict α DLabel) (locals : Dict α (List α)) :
    dbCores env' m' (ids.map f) (dmap f id labels) (nameLists f locals) = (dbCores env m ids labels locals).map (nameLists f) := by
  unfold dbCores
  refine bind_names (dbCompatible_names hf hr ids) fun compatible => ?_
  rw [dbClustersOf_names hf, dofList_map_names hf f ids (fun _ => env.none) (fun _ => env'.none) (fun _ _ => hnone),
    dofList_map_names hf (List.map f) ids (fun _ => []) (fun _ => []) (fun _ _ => rfl)]
  refine bind_names (foldlM_names (φ := dbTriple f)
    (s := (([] : List α), dofList (ids.map fun x => (x, env.none)), dofList (ids.map fun x => (x, ([] : List α))))) fun x _ s =>
    dbMergeStep_names hf henum hnone labels locals (dbClustersOf ids locals) compatible s x) fun s => ?_
  refine bind_names (foldlM_names (φ := nameLists f) (s := s.2.2) fun x _ c => dbClean_names hf s.2.1 c x) fun core => ?_
  exact foldlM_names (φ := nameLists f) (s := core) fun x _ c => dbCleanSingle_names hf c x

/-! ### Growth -/

theorem dbDistances_names (hf : f.Injective) (table : Dict α (Dict α δ)) (core : List α) (locals : Dict α (List α)) :
    dbDistances (dmap f (dmap f id) table) (core.map f) (nameLists f locals) = (dbDistances table core locals).map (dmap f id) := by
  unfold dbDistances
  refine bind_names (F := List.map (nameFst f)) (mapM_names (f := fun q : α × List α => (f q.1, q.2.map f)) fun c _ => ?_) fun rows =>
    congrArg Except.ok (dofList_names hf rows)
  have : ((core.map f).flatMap fun x => (c.2.map f).map fun y => (x, y)) =
      (core.flatMap fun x => c.2.map fun y => (x, y)).map (namePair f) := by
    simp only [List.flatMap_map, List.map_flatMap, List.map_map]
    rfl
  simp only [this]
  rw [mapM_names_same fun p _ => pairDistance_names hf table p]
  refine bind_same_names rfl fun ds => ?_
  exact bind_same_names rfl fun d => rfl

theorem min?_names (hf : StrictMono f) (l : List α) : (l.map f).min? = l.min?.map f := by
  cases l with
  | nil => rfl
  | cons a l =>
    rw [List.map_cons, List.min?_cons', List.min?_cons', Option.map_some]
    congr 1
    induction l generalizing a with
    | nil => rfl
    | cons b l ih => rw [List.map_cons, List.foldl_cons, List.foldl_cons, ← hf.monotone.map_min, ih]

theorem dbClosest_names (hf : StrictMono f) (distances : Dict α δ) :
    dbClosest (dmap f id distances) = (dbClosest distances).map f := by
  unfold dbClosest
  rw [dkeys_dmap, min?_names hf]
  cases (dkeys distances).min? <;> rfl

theorem dbGrow_names (hf : StrictMono f) (hr : Renamed f m m') (henum : ∀ l, env'.enum (l.map f) = (env.enum l).map f)
    (table : Dict α (Dict α δ)) (fuel : Nat) (s : List α × Dict α (List α)) :
    dbGrow env' p m' (dmap f (dmap f id) table) fuel (s.1.map f, nameLists f s.2) =
      (dbGrow env p m table fuel s).map fun t => (t.1.map f, nameLists f t.2) := by
  have hi := hf.injective
  have hne : ∀ d : Dict α (List α), nameLists f d ≠ [] ↔ d ≠ [] := fun d => by simp [nameLists, dmap]
  induction fuel generalizing s with
  | zero =>
    unfold dbGrow
    simp only [hne]
    split <;> rfl
  | succ fuel ih =>
    unfold dbGrow
    simp only [hne]
    split
    · refine bind_names (dbDistances_names hi table s.1 s.2) fun ds => ?_
      refine bind_names (dbClosest_names hf ds) fun c => ?_
      refine bind_same_names (dget_names hi ds c) fun d => ?_
      split
      · rfl
      · refine bind_names (dget_dmap hi (List.map f) s.2 c) fun points => ?_
        refine bind_same_names (dbConflict_names hr s.1 points) fun b => ?_
        split
        · rfl
        · rw [← ih (env.enum (s.1 ++ points), dpop s.2 c), ← List.map_append, henum]
          simp only [nameLists, dpop_names hi]
    · rfl

/-- Core and local clusters with the other names. -/
def dbBoth (f : α → β) (s : Dict α (List α) × Dict α (List α)) : Dict β (List β) × Dict β (List β) := (nameLists f s.1, nameLists f s.2)

theorem dbMergeAll_names (hf : StrictMono f) (hr : Renamed f m m') (henum : ∀ l, env'.enum (l.map f) = (env.enum l).map f)
    (table : Dict α (Dict α δ)) (core locals : Dict α (List α)) :
    dbMergeAll env' p m' (dmap f (dmap f id) table) (nameLists f core) (nameLists f locals) =
      (dbMergeAll env p m table core locals).map (dbBoth f) := by
  have hi := hf.injective
  unfold dbMergeAll
  rw [dkeys_dmap]
  refine foldlM_names (φ := dbBoth f) (s := (core, locals)) fun x _ s => ?_
  unfold dbGrowStep
  refine bind_names (dget_dmap hi (List.map f) s.1 x) fun c => ?_
  have hlen : (dbBoth f s).2.length = s.2.length := List.length_map _
  rw [hlen]
  refine bind_names (dbGrow_names hf hr henum table s.2.length (c, s.2)) fun t => ?_
  show Except.ok _ = Except.ok _
  unfold dbBoth nameLists
  rw [← dset_dmap hi]

/-! ### Final clusters -/

theorem dbPredict_names (hf : f.Injective) (points : List α) (c : Int) (d : Dict α Int) :
    dbPredict (points.map f) c (dmap f id d) = dmap f id (dbPredict points c d) := by
  unfold dbPredict
  induction points generalizing d with
  | nil => rfl
  | cons x points ih =>
    rw [List.map_cons, List.foldl_cons, List.foldl_cons, ← ih, ← dset_dmap hf]
    rfl

/-- Predictions and a number. -/
def dbCount (f : α → β) (s : Dict α Int × Int) : Dict β Int × Int := (dmap f id s.1, s.2)

theorem dbFinalCores_names (hf : f.Injective) (l : List (List α)) (s : Dict α Int × Int) :
    (l.map (List.map f)).foldl dbFinalCore (dbCount f s) = dbCount f (l.foldl dbFinalCore s) := by
  induction l generalizing s with
  | nil => rfl
  | cons c l ih =>
    rw [List.map_cons, List.foldl_cons, List.foldl_cons, ← ih]
    congr 1
    unfold dbFinalCore dbCount
    simp only [dbPredict_names hf]

theorem dbRemove_names (hf : f.Injective) (l : List α) (x : α) : dbRemove (l.map f) (f x) = (dbRemove l x).map (List.map f) := by
  unfold dbRemove
  simp only [List.mem_map_of_injective hf]
  split
  · exact congrArg Except.ok (List.map_erase hf l).symm
  · rfl

theorem dbFinalLocal_names (hf : f.Injective) (s : Dict α (List α) × Dict α Int × Int) (x : α) :
    dbFinalLocal p (nameLists f s.1, dbCount f s.2) (f x) = (dbFinalLocal p s x).map fun t => (nameLists f t.1, dbCount f t.2) := by
  unfold dbFinalLocal
  show (dget (nameLists f s.1) (f x) >>= fun points =>
    (points.filter fun y => decide (y ∈ dkeys (dmap f id s.2.1))).foldlM dbRemove points >>= fun rest =>
      if p.enough rest.length = true then
        Except.ok (dset (nameLists f s.1) (f x) rest, dbPredict rest s.2.2 (dmap f id s.2.1), s.2.2 + 1)
      else Except.ok (dset (nameLists f s.1) (f x) rest, dbCount f s.2)) = _
  refine bind_names (dget_dmap hf (List.map f) s.1 x) fun points => ?_
  have : ((points.map f).filter fun y => decide (y ∈ dkeys (dmap f id s.2.1))) = (points.filter fun y => decide (y ∈ dkeys s.2.1)).map f := by
    rw [List.filter_map]
    simp only [Function.comp_def, mem_dkeys_names hf]
  rw [this]
  refine bind_names (foldlM_names (φ := List.map f) (s := points) fun y _ l => dbRemove_names hf l y) fun rest => ?_
  rw [List.length_map]
  split
  · show Except.ok _ = Except.ok _
    rw [dbPredict_names hf, dset_dmap hf]
    rfl
  · show Except.ok _ = Except.ok _
    rw [dset_dmap hf]

theorem dbIgnores_names (hf : f.Injective) (ids : List α) (s : Dict α Int × Int) :
    (ids.map f).foldl dbIgnore (dbCount f s) = dbCount f (ids.foldl dbIgnore s) := by
  induction ids generalizing s with
  | nil => rfl
  | cons x ids ih =>
    rw [List.map_cons, List.foldl_cons, List.foldl_cons, ← ih]
    congr 1
    unfold dbIgnore dbCount
    simp only [mem_dkeys_names hf]
    split
    · rw [← dset_dmap hf]; rfl
    · rfl

theorem renameClusters_mono (hf : StrictMono f) (d : Dict α Int) :
    renameClusters (dmap f id d) = (renameClusters d).map (dmap f id) := by
  have hi := hf.injective
  unfold renameClusters
  simp only [dkeys_dmap, insertionSort_map hf]
  refine (congrArg (· >>= _) (foldlM_names_same (k := renameStep d) fun x _ s => ?_)).trans ?_
  · unfold renameStep
    rw [dget_names hi]
  · refine bind_same_names rfl fun s => ?_
    refine bind_names (F := List.map (nameFst f)) (mapM_names fun x _ => ?_) fun items => congrArg Except.ok (dofList_names hi items)
    rw [dget_names hi]
    exact bind_same_names rfl fun c => bind_same_names rfl fun c' => rfl

/-- The object with the other names. -/
def DbObject.mapIds (f : α → β) (o : DbObject α) : DbObject β :=
  ⟨o.predicted.map (dmap f id), dmap f id o.labels, nameLists f o.locals, nameLists f o.cores, o.regular, o.single, o.total⟩

theorem dbFinish_names (hf : StrictMono f) (ids : List α) (labels : Dict α DLabel) (cores locals : Dict α (List α)) :
    dbFinish p (ids.map f) (dmap f id labels) (nameLists f cores) (nameLists f locals) =
      (dbFinish p ids labels cores locals).map (DbObject.mapIds f) := by
  have hi := hf.injective
  unfold dbFinish
  have h1 : (dvals (nameLists f cores)).foldl dbFinalCore (([], 0) : Dict β Int × Int) =
      dbCount f ((dvals cores).foldl dbFinalCore ([], 0)) := by
    rw [nameLists, dvals_dmap]
    exact dbFinalCores_names hi (dvals cores) ([], 0)
  simp only [h1]
  rw [show dkeys (nameLists f locals) = (dkeys locals).map f from dkeys_dmap _ _]
  refine bind_names (foldlM_names (φ := fun t : Dict α (List α) × Dict α Int × Int => (nameLists f t.1, dbCount f t.2))
    (s := (locals, (dvals cores).foldl dbFinalCore ([], 0))) fun x _ s => dbFinalLocal_names hi s x) fun t => ?_
  refine bind_names (renameClusters_mono hf t.2.1) fun r => ?_
  rw [dvals_dmap, List.map_id]
  have h2 : (ids.map f).foldl dbIgnore (dmap f id r, -1) = dbCount f (ids.foldl dbIgnore (r, -1)) := dbIgnores_names hi ids (r, -1)
  show Except.ok _ = Except.ok _
  simp only [h2]
  rfl

theorem dbCluster_names (hf : StrictMono f) (hr : Renamed f m m') (hmetric : env'.metric = env.metric)
    (henum : ∀ l, env'.enum (l.map f) = (env.enum l).map f) (hnone : env'.none = f env.none) (vs : Dict α V) :
    dbCluster env' p m' (some (dmap f id vs)) none = (dbCluster env p m (some vs) none).map (DbObject.mapIds f) := by
  have hi := hf.injective
  unfold dbCluster
  simp only [hmetric, hr.managed]
  refine bind_names (distanceTable_names hi hr vs env.metric) fun table => ?_
  refine bind_names (dbLocals_names hi hr table m.managed) fun s => ?_
  refine bind_names (dbCores_names hi hr henum hnone m.managed s.1 s.2) fun core => ?_
  refine bind_names (dbMergeAll_names hf hr henum table core s.2) fun t => ?_
  exact dbFinish_names hf m.managed s.1 t.1 t.2

end Verif
