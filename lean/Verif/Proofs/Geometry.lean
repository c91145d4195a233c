import Verif.Spec.Geometry
import Verif.Proofs.NamesDB
import Verif.Proofs.InferredHier
import Mathlib.Data.Bool.Basic
import Mathlib.Order.BooleanAlgebra.Defs

/-
Lemmas for C90, first part: tables of distances, sampling and C-DBScan.
-/

namespace Verif

variable {α V V' δ δ' : Type} [LinearOrder α] [LinearOrder δ] [LinearOrder δ'] {m : Manager α}

/-! ### Tables -/

/-- The dictionary of dictionaries of a function of two IDs. -/
def tableOf (ids : List α) (D : α → α → δ) : Dict α (Dict α δ) := ids.map fun x => (x, ids.map fun y => (y, D x y))

omit [LinearOrder α] [LinearOrder δ] in
theorem tableOf_congr {ids : List α} {D E : α → α → δ} (h : ∀ x ∈ ids, ∀ y ∈ ids, D x y = E x y) : tableOf ids D = tableOf ids E := by
  refine List.map_congr_left fun x hx => ?_
  rw [List.map_congr_left fun y hy => by rw [h x hx y hy]]

/-- A table with changed distances. -/
abbrev mapTable (ψ : δ → δ') (table : Dict α (Dict α δ)) : Dict α (Dict α δ') := dmap id (dmap id ψ) table

omit [LinearOrder α] [LinearOrder δ] [LinearOrder δ'] in
theorem mapTable_tableOf (ψ : δ → δ') (ids : List α) (D : α → α → δ) :
    mapTable ψ (tableOf ids D) = tableOf ids fun x y => ψ (D x y) := by
  simp [mapTable, tableOf, dmap]

omit [LinearOrder δ] [LinearOrder δ'] in
theorem pairDistance_geo (ψ : δ → δ') (table : Dict α (Dict α δ)) (p : α × α) :
    pairDistance (mapTable ψ table) p = (pairDistance table p).map ψ := by
  unfold pairDistance
  refine bind_names (dget_dmap (f := id) Function.injective_id _ table p.1) fun row => ?_
  exact dget_dmap (f := id) Function.injective_id ψ row p.2

omit [LinearOrder δ] in
theorem distanceTable_tableOf {vs : Dict α V} {val : α → V} (hv : ∀ x ∈ m.managed, dget? vs x = some (val x)) (hne : m.managed ≠ [])
    (metric : V → V → δ) : distanceTable m vs metric = .ok (tableOf m.managed fun x y => metric (val x) (val y)) := by
  unfold distanceTable
  have : (m.managed.mapM fun x => do return (x, ← dget vs x) : Except PyErr (List (α × V))) =
      .ok (m.managed.map fun x => (x, val x)) := by
    generalize m.managed = l at hv
    induction l with
    | nil => rfl
    | cons x l ih =>
      rw [List.mapM_cons, ih fun y hy => hv y (List.mem_cons_of_mem _ hy), dget_of_dget? (hv x List.mem_cons_self)]
      rfl
  rw [this]
  have h2 : (m.managed.map fun x => (x, val x)).isEmpty = false := by
    rw [List.isEmpty_map, List.isEmpty_eq_false_iff]
    exact hne
  show (if (m.managed.map fun x => (x, val x)).isEmpty = true then _ else _) = _
  rw [h2]
  show Except.ok _ = _
  simp [tableOf, Function.comp_def]

omit [LinearOrder δ] in
theorem distanceTable_missing {vs : Dict α V} {x : α} (hx : x ∈ m.managed) (h : dget? vs x = none) (metric : V → V → δ) :
    distanceTable m vs metric = .error .keyError := by
  unfold distanceTable
  have : (m.managed.mapM fun x => do return (x, ← dget vs x) : Except PyErr (List (α × V))) = .error .keyError := by
    generalize m.managed = l at hx
    induction l with
    | nil => cases hx
    | cons y l ih =>
      rw [List.mapM_cons]
      unfold dget
      cases e : dget? vs y with
      | none => rfl
      | some v =>
        rcases List.mem_cons.1 hx with rfl | hx
        · rw [h] at e; cases e
        · have := ih hx
          unfold dget at this
          rw [this]
          rfl
  rw [this]
  rfl

omit [LinearOrder δ] in
theorem distanceTable_nil (h : m.managed = []) (vs : Dict α V) (metric : V → V → δ) :
    distanceTable m vs metric = .error (.valueError "vstack") := by
  unfold distanceTable
  rw [h]
  rfl

omit [LinearOrder δ] [LinearOrder δ'] in
/-- Either no table can be computed, or all vectors are there. -/
theorem domain_cases {vs : Dict α V} {vs' : Dict α V'} (hd : SameDomain m vs vs') :
    (∃ e, (∀ metric : V → V → δ, distanceTable m vs metric = .error e) ∧ ∀ metric : V' → V' → δ', distanceTable m vs' metric = .error e) ∨
    m.managed ≠ [] ∧ ∃ (val : α → V) (val' : α → V'), (∀ x ∈ m.managed, dget? vs x = some (val x)) ∧
      ∀ x ∈ m.managed, dget? vs' x = some (val' x) := by
  by_cases hne : m.managed = []
  · exact .inl ⟨_, distanceTable_nil hne vs, distanceTable_nil hne vs'⟩
  by_cases h : ∀ x ∈ m.managed, (dget? vs x).isSome = true
  · obtain ⟨x0, hx0⟩ := List.exists_mem_of_ne_nil _ hne
    refine .inr ⟨hne, fun x => (dget? vs x).getD ((dget? vs x0).get (h x0 hx0)),
      fun x => (dget? vs' x).getD ((dget? vs' x0).get ((hd x0 hx0).trans (h x0 hx0))), fun x hx => ?_, fun x hx => ?_⟩
    · obtain ⟨v, hv⟩ := Option.isSome_iff_exists.1 (h x hx)
      simp only [hv, Option.getD_some]
    · obtain ⟨v, hv⟩ := Option.isSome_iff_exists.1 ((hd x hx).trans (h x hx))
      simp only [hv, Option.getD_some]
  · have : ∃ x ∈ m.managed, dget? vs x = none := by
      by_contra hn
      refine h fun x hx => ?_
      cases e : dget? vs x with
      | none => exact absurd ⟨x, hx, e⟩ hn
      | some v => rfl
    obtain ⟨x, hx, e⟩ := this
    have e' : dget? vs' x = none := by
      have := hd x hx
      rw [e] at this
      cases e' : dget? vs' x with
      | none => rfl
      | some v => rw [e'] at this; cases this
    exact .inl ⟨_, distanceTable_missing hx e, distanceTable_missing hx e'⟩

omit [LinearOrder δ] in
theorem distanceOf_val {vs : Dict α V} {val : α → V} (hv : ∀ x ∈ m.managed, dget? vs x = some (val x)) (metric : V → V → δ) {x y : α}
    (hx : x ∈ m.managed) (hy : y ∈ m.managed) : distanceOf metric vs x y = some (metric (val x) (val y)) := by
  unfold distanceOf
  rw [hv x hx, hv y hy]

/-- Two tables whose entries are in the same order are images of one table. -/
theorem common_table {ids : List α} (hne : ids ≠ []) (D : α → α → δ) (E : α → α → δ')
    (h : ∀ x ∈ ids, ∀ y ∈ ids, ∀ z ∈ ids, ∀ t ∈ ids, (E x y ≤ E z t ↔ D x y ≤ D z t)) :
    ∃ (τ : Type) (_ : LinearOrder τ) (_ : τ) (C : α → α → τ) (ψ : τ → δ) (ψ' : τ → δ'), StrictMono ψ ∧ StrictMono ψ' ∧
      tableOf ids D = mapTable ψ (tableOf ids C) ∧ tableOf ids E = mapTable ψ' (tableOf ids C) := by
  classical
  obtain ⟨x0, hx0⟩ := List.exists_mem_of_ne_nil _ hne
  let T := {d : δ // ∃ x ∈ ids, ∃ y ∈ ids, d = D x y}
  let C : α → α → T := fun x y => if hxy : x ∈ ids ∧ y ∈ ids then ⟨D x y, x, hxy.1, y, hxy.2, rfl⟩ else ⟨D x0 x0, x0, hx0, x0, hx0, rfl⟩
  have hC : ∀ x ∈ ids, ∀ y ∈ ids, (C x y).1 = D x y := fun x hx y hy => by simp only [C, dif_pos (And.intro hx hy)]
  choose a ha b hb hab using fun t : T => t.2
  let ψ' : T → δ' := fun t => E (a t) (b t)
  have hle : ∀ s t : T, ψ' s ≤ ψ' t ↔ s ≤ t := fun s t => by
    show E (a s) (b s) ≤ E (a t) (b t) ↔ s.1 ≤ t.1
    rw [h _ (ha s) _ (hb s) _ (ha t) _ (hb t), ← hab s, ← hab t]
  have hE : ∀ x ∈ ids, ∀ y ∈ ids, E x y = ψ' (C x y) := fun x hx y hy => by
    have e : D x y = D (a (C x y)) (b (C x y)) := by rw [← hab, hC x hx y hy]
    exact le_antisymm ((h x hx y hy _ (ha _) _ (hb _)).2 e.le) ((h _ (ha _) _ (hb _) x hx y hy).2 e.ge)
  refine ⟨T, inferInstance, C x0 x0, C, Subtype.val, ψ', fun _ _ h => h, strictMono_of_le_iff_le fun s t => (hle s t).symm, ?_, ?_⟩
  · rw [mapTable_tableOf]
    exact tableOf_congr fun x hx y hy => (hC x hx y hy).symm
  · rw [mapTable_tableOf]
    exact tableOf_congr hE

/-! ### Sampling -/

theorem sortedByKey_geo {ι : Type} {ψ : δ → δ'} (hψ : StrictMono ψ) (rev : Bool) (keyed : List (δ × ι)) :
    sortedByKey rev (keyed.map fun q => (ψ q.1, q.2)) = sortedByKey rev keyed := by
  unfold sortedByKey
  rw [← List.map_insertionSort (fun a b : δ × ι => if rev = true then b.1 ≤ a.1 else a.1 ≤ b.1)
    (fun a b : δ' × ι => if rev = true then b.1 ≤ a.1 else a.1 ≤ b.1) (fun q : δ × ι => (ψ q.1, q.2))
    keyed fun a _ b _ => by cases rev <;> simp [hψ.le_iff_le], List.map_map]
  rfl

/-- What `select` does with the table. -/
def selectFrom (d : DistanceRestriction) (n : Nat) (pairs : List (α × α)) (table : Dict α (Dict α δ)) : Except PyErr (List (α × α)) := do
  let keyed ← pairs.mapM fun p => do return (← pairDistance table p, p)
  return (sortedByKey (decide (d = .farthestNeighbors)) keyed).take n

theorem selectFrom_geo {ψ : δ → δ'} (hψ : StrictMono ψ) (d : DistanceRestriction) (n : Nat) (pairs : List (α × α))
    (table : Dict α (Dict α δ)) : selectFrom d n pairs (mapTable ψ table) = selectFrom d n pairs table := by
  unfold selectFrom
  refine bind_names_same (F := List.map fun q : δ × α × α => (ψ q.1, q.2)) (mapM_values fun p _ => ?_) fun keyed => ?_
  · rw [pairDistance_geo]
    cases pairDistance table p <;> rfl
  · show Except.ok _ = Except.ok _
    rw [sortedByKey_geo hψ]

theorem select_geo (cfg : Sampler) {vs : Dict α V} {vs' : Dict α V'} {metric : V → V → δ} {metric' : V' → V' → δ'}
    (hd : SameDomain m vs vs') (ho : SameOrder m metric vs metric' vs') (n : Nat) (c : Dict α Int)
    (pick : List (α × α) → Nat → List (α × α)) :
    cfg.select m n c vs' metric' pick = cfg.select m n c vs metric pick := by
  unfold Sampler.select
  refine congrArg (bind (cfg.possiblePairs m c)) (funext fun pairs => ?_)
  cases cfg.distance with
  | none => rfl
  | some d =>
    show (distanceTable m vs' metric' >>= selectFrom d n pairs) = (distanceTable m vs metric >>= selectFrom d n pairs)
    rcases domain_cases (δ := δ) (δ' := δ') hd with ⟨e, h1, h2⟩ | ⟨hne, val, val', hv, hv'⟩
    · rw [h1, h2]; rfl
    · rw [distanceTable_tableOf hv hne, distanceTable_tableOf hv' hne]
      obtain ⟨τ, _, _, C, ψ, ψ', hψ, hψ', e1, e2⟩ := common_table hne (fun x y => metric (val x) (val y))
        (fun x y => metric' (val' x) (val' y)) fun x hx y hy z hz t ht => ho x hx y hy z hz t ht _ _ _ _
          (distanceOf_val hv metric hx hy) (distanceOf_val hv metric hz ht) (distanceOf_val hv' metric' hx hy)
          (distanceOf_val hv' metric' hz ht)
      show selectFrom d n pairs _ = selectFrom d n pairs _
      rw [e1, e2, selectFrom_geo hψ, selectFrom_geo hψ']

/-! ### C-DBScan -/

section DB
variable {env : DbEnv α V δ} {env' : DbEnv α V' δ'} {p : DbParams δ} {p' : DbParams δ'} {ψ : δ → δ'}

/-- The parameters after a change of the distances. -/
structure MappedParams (ψ : δ → δ') (p : DbParams δ) (p' : DbParams δ') : Prop where
  mono : Monotone ψ
  eps : ∀ d, ψ d ≤ p'.eps ↔ d ≤ p.eps
  enough : p'.enough = p.enough
  samples : p'.minSamples = p.minSamples

theorem min?_mono (hψ : Monotone ψ) (l : List δ) : (l.map ψ).min? = l.min?.map ψ := by
  cases l with
  | nil => rfl
  | cons a l =>
    rw [List.map_cons, List.min?_cons', List.min?_cons', Option.map_some]
    congr 1
    induction l generalizing a with
    | nil => rfl
    | cons b l ih => rw [List.map_cons, List.foldl_cons, List.foldl_cons, ← hψ.map_min, ih]

theorem max?_mono (hψ : Monotone ψ) (l : List δ) : (l.map ψ).max? = l.max?.map ψ := by
  cases l with
  | nil => rfl
  | cons a l =>
    rw [List.map_cons, List.max?_cons', List.max?_cons', Option.map_some]
    congr 1
    induction l generalizing a with
    | nil => rfl
    | cons b l ih => rw [List.map_cons, List.foldl_cons, List.foldl_cons, ← hψ.map_max, ih]

theorem dbNeighbors_geo (hp : MappedParams ψ p p') (table : Dict α (Dict α δ)) (ids : List α) (labels : Dict α DLabel) (x : α) :
    dbNeighbors p' (mapTable ψ table) ids labels x = dbNeighbors p table ids labels x := by
  unfold dbNeighbors
  refine congrArg (bind _) (funext fun possible => ?_)
  congr 1
  funext y
  rw [pairDistance_geo]
  cases pairDistance table (x, y) with
  | error e => rfl
  | ok d =>
    show Except.ok _ = Except.ok _
    simp only [hp.eps]

theorem dbLocals_geo (hp : MappedParams ψ p p') (table : Dict α (Dict α δ)) (ids : List α) :
    dbLocals p' m (mapTable ψ table) ids = dbLocals p m table ids := by
  unfold dbLocals
  congr 1
  funext s x
  unfold dbLocalStep
  simp only [dbNeighbors_geo hp, hp.samples]

omit [LinearOrder δ] [LinearOrder δ'] in
theorem dbCores_geo (henum : env'.enum = env.enum) (hnone : env'.none = env.none) (ids : List α) (labels : Dict α DLabel)
    (locals : Dict α (List α)) : dbCores env' m ids labels locals = dbCores env m ids labels locals := by
  have h1 : dbTake env' = dbTake env := by
    funext c s z
    unfold dbTake
    rw [hnone]
  have h2 : dbAll env' = dbAll env := by
    funext points o
    unfold dbAll
    rw [henum]
  have h3 : dbLinkStep env' = dbLinkStep env := by
    funext labels locals clustersOf x c points s y
    unfold dbLinkStep
    rw [henum, h1, h2]
  unfold dbCores dbMergeStep
  rw [h3, hnone]

theorem dbDistances_geo (hψ : Monotone ψ) (table : Dict α (Dict α δ)) (core : List α) (locals : Dict α (List α)) :
    dbDistances (mapTable ψ table) core locals = (dbDistances table core locals).map (dmap id ψ) := by
  unfold dbDistances
  refine bind_names (F := List.map fun q : α × δ => (q.1, ψ q.2)) (mapM_values fun c _ => ?_) fun rows => ?_
  · refine bind_names (F := List.map ψ) (mapM_values fun q _ => pairDistance_geo ψ table q) fun ds => ?_
    refine bind_names (F := ψ) ?_ fun d => rfl
    unfold dbMin
    rw [min?_mono hψ]
    cases ds.min? <;> rfl
  · show Except.ok _ = Except.ok _
    rw [← dofList_dmap (f := id) Function.injective_id]
    rfl

theorem dbGrow_geo (hp : MappedParams ψ p p') (henum : env'.enum = env.enum) (table : Dict α (Dict α δ)) (fuel : Nat)
    (s : List α × Dict α (List α)) :
    dbGrow env' p' m (mapTable ψ table) fuel s = dbGrow env p m table fuel s := by
  induction fuel generalizing s with
  | zero => rfl
  | succ fuel ih =>
    unfold dbGrow
    split
    · refine bind_names_same (dbDistances_geo hp.mono table s.1 s.2) fun ds => ?_
      have hc : dbClosest (dmap id ψ ds) = dbClosest ds := by
        unfold dbClosest
        rw [dkeys_dmap, List.map_id]
      rw [hc]
      refine congrArg (_ >>= ·) (funext fun c => ?_)
      refine bind_names_same (dget_dmap (f := id) Function.injective_id ψ ds c) fun d => ?_
      simp only [← not_le, hp.eps, henum, ih]
    · rfl

theorem dbMergeAll_geo (hp : MappedParams ψ p p') (henum : env'.enum = env.enum) (table : Dict α (Dict α δ))
    (core locals : Dict α (List α)) :
    dbMergeAll env' p' m (mapTable ψ table) core locals = dbMergeAll env p m table core locals := by
  unfold dbMergeAll
  congr 1
  funext s x
  unfold dbGrowStep
  simp only [dbGrow_geo hp henum]

omit [LinearOrder δ] [LinearOrder δ'] in
theorem dbFinish_geo (henough : p'.enough = p.enough) (ids : List α) (labels : Dict α DLabel) (cores locals : Dict α (List α)) :
    dbFinish p' ids labels cores locals = dbFinish p ids labels cores locals := by
  have : (dbFinalLocal p' : Dict α (List α) × Dict α Int × Int → α → _) = dbFinalLocal p := by
    funext s x
    unfold dbFinalLocal
    rw [henough]
  unfold dbFinish
  rw [this]

/-- What `cluster` does with the table. -/
def dbFrom (env : DbEnv α V δ) (p : DbParams δ) (m : Manager α) (table : Dict α (Dict α δ)) : Except PyErr (DbObject α) := do
  let (labels, locals) ← dbLocals p m table m.managed
  let core ← dbCores env m m.managed labels locals
  let (cores, rest) ← dbMergeAll env p m table core locals
  dbFinish p m.managed labels cores rest

theorem dbFrom_geo (hp : MappedParams ψ p p') (henum : env'.enum = env.enum) (hnone : env'.none = env.none)
    (table : Dict α (Dict α δ)) : dbFrom env' p' m (mapTable ψ table) = dbFrom env p m table := by
  unfold dbFrom
  simp only [dbLocals_geo hp, dbCores_geo henum hnone, dbMergeAll_geo hp henum, dbFinish_geo hp.enough]

theorem dbFrom_bool (env : DbEnv α V δ) (p : DbParams δ) (m : Manager α) (D : α → α → δ) :
    dbFrom (⟨fun _ _ => false, env.enum, env.none⟩ : DbEnv α Unit Bool) ⟨false, p.enough, p.minSamples⟩ m
      (tableOf m.managed fun x y => decide (p.eps < D x y)) = dbFrom env p m (tableOf m.managed D) := by
  have hp : MappedParams (fun d => decide (p.eps < d)) p ⟨false, p.enough, p.minSamples⟩ := by
    refine ⟨fun a b hab => ?_, fun d => ?_, rfl, rfl⟩
    · show decide (p.eps < a) ≤ decide (p.eps < b)
      by_cases h : p.eps < a
      · simp [h, h.trans_le hab]
      · simp [h]
    · show decide (p.eps < d) ≤ false ↔ _
      by_cases h : p.eps < d
      · simp [h, not_le.2 h, Bool.le_iff_imp]
      · simp [h, not_lt.1 h]
  have := dbFrom_geo (env := env) (env' := (⟨fun _ _ => false, env.enum, env.none⟩ : DbEnv α Unit Bool)) (m := m) hp rfl rfl
    (tableOf m.managed D)
  rwa [mapTable_tableOf] at this

theorem dbCluster_geo {vs : Dict α V} {vs' : Dict α V'} (hd : SameDomain m vs vs')
    (hn : SameNeighbors m env.metric vs p.eps env'.metric vs' p'.eps) (henum : env'.enum = env.enum) (hnone : env'.none = env.none)
    (henough : p'.enough = p.enough) (hs : p'.minSamples = p.minSamples) :
    dbCluster env' p' m (some vs') none = dbCluster env p m (some vs) none := by
  show (distanceTable m vs' env'.metric >>= dbFrom env' p' m) = (distanceTable m vs env.metric >>= dbFrom env p m)
  rcases domain_cases (δ := δ) (δ' := δ') hd with ⟨e, h1, h2⟩ | ⟨hne, val, val', hv, hv'⟩
  · rw [h1, h2]; rfl
  · rw [distanceTable_tableOf hv hne, distanceTable_tableOf hv' hne]
    show dbFrom env' p' m _ = dbFrom env p m _
    rw [← dbFrom_bool env', ← dbFrom_bool env p, henough, hs, henum, hnone]
    have ht : (tableOf m.managed fun x y => decide (p'.eps < env'.metric (val' x) (val' y))) =
        tableOf m.managed fun x y => decide (p.eps < env.metric (val x) (val y)) := by
      refine tableOf_congr fun x hx y hy => ?_
      have := hn x hx y hy _ _ (distanceOf_val hv env.metric hx hy) (distanceOf_val hv' env'.metric hx hy)
      simp only [← not_le, this]
    rw [ht]

end DB

end Verif
