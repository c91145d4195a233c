import Verif.Proofs.Geometry

/-
Lemmas for C90, second part: hierarchical clustering with other vectors.
-/

namespace Verif

variable {α V V' δ δ' : Type} [LinearOrder α] [LinearOrder δ] [LinearOrder δ'] {m : Manager α}

section
variable {ι κ κ' : Type} [LinearOrder κ] [LinearOrder κ']

theorem pyMinBy_map {ι' : Type} {key : ι → κ} {key' : ι' → κ'} {F : ι → ι'} (h : ∀ a b, key' (F a) < key' (F b) ↔ key a < key b)
    (l : List ι) : pyMinBy key' (l.map F) = (pyMinBy key l).map F := by
  cases l with
  | nil => rfl
  | cons a l =>
    show some _ = some _
    congr 1
    induction l generalizing a with
    | nil => rfl
    | cons b l ih =>
      rw [List.map_cons, List.foldl_cons, List.foldl_cons, ← ih]
      congr 1
      simp only [h]
      split <;> rfl

end

/-- The same cluster with another centroid. -/
def HCluster.moved (φ : V → V') (c : HCluster α V) : HCluster α V' := ⟨c.iteration, c.children, c.depth, c.members, φ c.centroid⟩

abbrev movedStorage (φ : V → V') (st : Dict Nat (HCluster α V)) : Dict Nat (HCluster α V') := dmap id (HCluster.moved φ) st

abbrev movedDistances (ψ : δ → δ') (d : Dict Nat (Dict Nat (WithTop δ))) : Dict Nat (Dict Nat (WithTop δ')) :=
  dmap id (dmap id (WithTop.map ψ)) d

def HState.moved (φ : V → V') (ψ : δ → δ') (s : HState α V δ) : HState α V' δ' :=
  ⟨s.current, movedStorage φ s.storage, movedDistances ψ s.distances, s.iteration⟩

/-- The environments do the same, as far as the linkage needs it. -/
structure MovedEnv (φ : V → V') (ψ : δ → δ') (link : Linkage) (env : HierEnv V δ) (env' : HierEnv V' δ') : Prop where
  mono : StrictMono ψ
  mean : ∀ l, l ≠ [] → env'.mean (l.map φ) = φ (env.mean l)
  metric : link = .average → ∀ v w, env'.metric (φ v) (φ w) = ψ (env.metric v w)
  ward : link = .ward → ∀ l i j, env'.ward (l.map ψ) i j = ψ (env.ward l i j)

section Hier
variable {env : HierEnv V δ} {env' : HierEnv V' δ'} {link : Linkage} {φ : V → V'} {ψ : δ → δ'}

omit [LinearOrder α] in
theorem dget_moved (st : Dict Nat (HCluster α V)) (i : Nat) : dget (movedStorage φ st) i = (dget st i).map (HCluster.moved φ) :=
  dget_dmap (f := id) Function.injective_id _ st i

omit [LinearOrder α] in
theorem dkeys_moved (st : Dict Nat (HCluster α V)) : dkeys (movedStorage φ st) = dkeys st := by
  rw [movedStorage, dkeys_dmap, List.map_id]

omit [LinearOrder α] in
theorem dset_moved (st : Dict Nat (HCluster α V)) (i : Nat) (c : HCluster α V) :
    dset (movedStorage φ st) i (c.moved φ) = movedStorage φ (dset st i c) :=
  dset_dmap (f := id) Function.injective_id _ st i c

theorem hCentroid_geo (he : MovedEnv φ ψ link env env') (vs : Dict α V) (members : List α) :
    hCentroid env' (dmap id φ vs) members = (hCentroid env vs members).map φ := by
  unfold hCentroid
  refine bind_names (mapM_values fun x _ => dget_dmap (f := id) Function.injective_id φ vs x) fun l => ?_
  by_cases hl : l = []
  · subst hl; rfl
  · rw [if_neg hl, if_neg (by simpa using hl)]
    exact congrArg Except.ok (he.mean l hl)

theorem hAddLeaf_geo (he : MovedEnv φ ψ link env env') (vs : Dict α V) (s : HState α V δ) (members : List α) :
    hAddLeaf env' (dmap id φ vs) (s.moved φ ψ) members = (hAddLeaf env vs s members).map (HState.moved φ ψ) := by
  unfold hAddLeaf
  have hid : hNextId (s.moved φ ψ).storage = hNextId s.storage := by
    unfold hNextId
    rw [show (s.moved φ ψ).storage = movedStorage φ s.storage from rfl, dkeys_moved]
  simp only [hid]
  refine bind_names (hCentroid_geo he vs members) fun c => ?_
  show Except.ok _ = Except.ok _
  congr 1
  unfold HState.moved
  simp only [← dset_moved]
  rfl

theorem hCreate_geo (he : MovedEnv φ ψ link env env') (vs : Dict α V) (s : HState α V δ) (current children : List Nat) (i : Nat) :
    hCreate env' (dmap id φ vs) (s.moved φ ψ) current children i = (hCreate env vs s current children i).map (HState.moved φ ψ) := by
  unfold hCreate
  refine bind_names (mapM_values fun c _ => dget_moved s.storage c) fun nodes => ?_
  have h1 : ((nodes.map (HCluster.moved φ)).map fun n => n.depth) = nodes.map fun n => n.depth := by
    rw [List.map_map]; rfl
  have h2 : ((nodes.map (HCluster.moved φ)).flatMap fun n => n.members) = nodes.flatMap fun n => n.members := by
    rw [List.flatMap_map]; rfl
  simp only [h1, h2]
  refine bind_names (hCentroid_geo he vs _) fun c => ?_
  show Except.ok _ = Except.ok _
  congr 1
  unfold HState.moved
  simp only [← dset_moved]
  rfl

theorem hAddMerge_geo (he : MovedEnv φ ψ link env env') (vs : Dict α V) (s : HState α V δ) (children : List Nat) :
    hAddMerge env' (dmap id φ vs) (s.moved φ ψ) children =
      (hAddMerge env vs s children).map fun r => (r.1, r.2.moved φ ψ) := by
  unfold hAddMerge
  refine bind_same_names rfl fun current => ?_
  rw [show (s.moved φ ψ).storage = movedStorage φ s.storage from rfl, dkeys_moved]
  cases (dkeys s.storage).max? with
  | none => rfl
  | some k => exact bind_names (hCreate_geo he vs s current children (k + 1)) fun t => rfl

theorem hLinkage_geo (he : MovedEnv φ ψ link env env') (table : Dict α (Dict α δ)) (ci cj : HCluster α V) :
    hLinkage env' link (mapTable ψ table) (ci.moved φ) (cj.moved φ) = (hLinkage env link table ci cj).map ψ := by
  have hpairs : ∀ l : List (α × α), (l.mapM fun p => pairDistance (mapTable ψ table) p) =
      (l.mapM fun p => pairDistance table p).map (List.map ψ) := fun l => mapM_values fun p _ => pairDistance_geo ψ table p
  unfold hLinkage
  cases link with
  | complete =>
    refine bind_names (hpairs _) fun ds => ?_
    rw [max?_mono he.mono.monotone]
    cases ds.max? <;> rfl
  | average => exact congrArg Except.ok (he.metric rfl _ _)
  | single =>
    refine bind_names (hpairs _) fun ds => ?_
    rw [min?_mono he.mono.monotone]
    cases ds.min? <;> rfl
  | ward =>
    refine bind_names (hpairs _) fun ds => ?_
    show (if ci.members.length * cj.members.length = 0 then _ else _) = _
    split
    · rfl
    · exact congrArg Except.ok (he.ward rfl _ _ _)

theorem hComputeDistance_geo (he : MovedEnv φ ψ link env env') (table : Dict α (Dict α δ)) (st : Dict Nat (HCluster α V)) (i j : Nat) :
    hComputeDistance env' link m (mapTable ψ table) (movedStorage φ st) i j =
      (hComputeDistance env link m table st i j).map (WithTop.map ψ) := by
  unfold hComputeDistance
  refine bind_names (dget_moved st i) fun ci => bind_names (dget_moved st j) fun cj => ?_
  refine bind_same_names rfl fun b => ?_
  cases b
  · exact bind_names (hLinkage_geo he table ci cj) fun d => rfl
  · rfl

omit [LinearOrder α] [LinearOrder δ] [LinearOrder δ'] in
theorem hSetDistance_geo (ds : Dict Nat (Dict Nat (WithTop δ))) (d : WithTop δ) (i j : Nat) :
    hSetDistance (movedDistances ψ ds) (WithTop.map ψ d) i j = movedDistances ψ (hSetDistance ds d i j) := by
  unfold hSetDistance
  have hi : Function.Injective (id : Nat → Nat) := Function.injective_id
  have h1 : dget? (movedDistances ψ ds) (min i j) = (dget? ds (min i j)).map (dmap id (WithTop.map ψ)) :=
    dget?_dmap (f := id) hi _ ds _
  have h2 : ((dget? (movedDistances ψ ds) (min i j)).getD []) = dmap id (WithTop.map ψ) ((dget? ds (min i j)).getD []) := by
    rw [h1]
    cases dget? ds (min i j) <;> rfl
  rw [h2]
  rw [show dset (dmap id (WithTop.map ψ) ((dget? ds (min i j)).getD [])) (max i j) (WithTop.map ψ d) =
    dmap id (WithTop.map ψ) (dset ((dget? ds (min i j)).getD []) (max i j) d) from dset_dmap (f := id) hi _ _ _ _]
  exact dset_dmap (f := id) hi _ _ _ _

omit [LinearOrder α] [LinearOrder δ] [LinearOrder δ'] in
theorem hGetDistance_geo (ds : Dict Nat (Dict Nat (WithTop δ))) (i j : Nat) :
    hGetDistance (movedDistances ψ ds) i j = (hGetDistance ds i j).map (WithTop.map ψ) := by
  unfold hGetDistance
  exact bind_names (dget_dmap (f := id) Function.injective_id _ ds _) fun row => dget_dmap (f := id) Function.injective_id _ row _

theorem hInitDistances_geo (he : MovedEnv φ ψ link env env') (table : Dict α (Dict α δ)) (s : HState α V δ) :
    hInitDistances env' link m (mapTable ψ table) (s.moved φ ψ) = (hInitDistances env link m table s).map (movedDistances ψ) := by
  unfold hInitDistances
  exact foldlM_state (φ := movedDistances ψ) (s := ([] : Dict Nat (Dict Nat (WithTop δ)))) fun p _ ds => bind_names (hComputeDistance_geo he table s.storage p.1 p.2) fun d =>
    congrArg Except.ok (hSetDistance_geo ds d p.1 p.2)

theorem hUpdateDistances_geo (he : MovedEnv φ ψ link env env') (table : Dict α (Dict α δ)) (s : HState α V δ) (c : Nat) :
    hUpdateDistances env' link m (mapTable ψ table) (s.moved φ ψ) c = (hUpdateDistances env link m table s c).map (movedDistances ψ) := by
  unfold hUpdateDistances
  refine foldlM_state (φ := movedDistances ψ) (s := s.distances) fun i _ ds => ?_
  split
  · exact bind_names (hComputeDistance_geo he table s.storage i c) fun d => congrArg Except.ok (hSetDistance_geo ds d i c)
  · rfl

theorem withTop_map_lt (hψ : StrictMono ψ) (a b : WithTop δ) : WithTop.map ψ a < WithTop.map ψ b ↔ a < b :=
  (WithTop.strictMono_map_iff.2 hψ).lt_iff_lt

theorem hClosest_geo (hψ : StrictMono ψ) (s : HState α V δ) : hClosest (s.moved φ ψ) = hClosest s := by
  unfold hClosest
  refine bind_names_same (F := List.map fun it : (Nat × Nat) × WithTop δ × Nat => (it.1, WithTop.map ψ it.2.1, it.2.2))
    (mapM_values fun p _ => ?_) fun items => ?_
  · refine bind_names (hGetDistance_geo s.distances p.1 p.2) fun d => ?_
    exact bind_names (dget_moved s.storage p.1) fun n1 => bind_names (dget_moved s.storage p.2) fun n2 => rfl
  · rw [pyMinBy_map (key := fun it : (Nat × Nat) × WithTop δ × Nat => toLex (it.2.1, it.2.2))]
    · cases pyMinBy (fun it : (Nat × Nat) × WithTop δ × Nat => toLex (it.2.1, it.2.2)) items with
      | none => rfl
      | some it =>
        show (if WithTop.map ψ it.2.1 = ⊤ then _ else _) = _
        simp only [WithTop.map_eq_top_iff]
    · intro a b
      rw [Prod.Lex.toLex_lt_toLex, Prod.Lex.toLex_lt_toLex]
      simp only [withTop_map_lt hψ, (WithTop.strictMono_map_iff.2 hψ).injective.eq_iff]

theorem hMergeStep_geo (he : MovedEnv φ ψ link env env') (vs : Dict α V) (table : Dict α (Dict α δ)) (s : HState α V δ) (p : Nat × Nat) :
    hMergeStep env' link m (dmap id φ vs) (mapTable ψ table) (s.moved φ ψ) p =
      (hMergeStep env link m vs table s p).map (HState.moved φ ψ) := by
  unfold hMergeStep
  refine bind_names (hAddMerge_geo he vs s [p.1, p.2]) fun r => ?_
  exact bind_names (hUpdateDistances_geo he table r.2 r.1) fun d => rfl

theorem hLoop_geo (he : MovedEnv φ ψ link env env') (vs : Dict α V) (table : Dict α (Dict α δ)) (fuel : Nat) (s : HState α V δ) :
    hLoop env' link m (dmap id φ vs) (mapTable ψ table) fuel (s.moved φ ψ) =
      (hLoop env link m vs table fuel s).map (HState.moved φ ψ) := by
  induction fuel generalizing s with
  | zero =>
    unfold hLoop
    show (if s.current.length > 1 then _ else _) = _
    split <;> rfl
  | succ fuel ih =>
    unfold hLoop
    show (if s.current.length > 1 then _ else _) = _
    split
    · refine bind_same_names (hClosest_geo he.mono s) fun o => ?_
      cases o with
      | none => rfl
      | some p => exact bind_names (hMergeStep_geo he vs table s p) fun t => ih t
    · rfl

theorem hStart_geo (he : MovedEnv φ ψ link env env') (vs : Dict α V) (table : Dict α (Dict α δ)) :
    hStart env' link m (dmap id φ vs) (mapTable ψ table) = (hStart env link m vs table).map (HState.moved φ ψ) := by
  unfold hStart
  refine bind_names (F := HState.moved φ ψ) ?_ fun s => bind_names (hInitDistances_geo he table s) fun d => rfl
  exact foldlM_state (s := (⟨[], [], [], 0⟩ : HState α V δ)) fun c _ s => hAddLeaf_geo he vs s c

theorem hFinish_geo (he : MovedEnv φ ψ link env env') (vs : Dict α V) (s : HState α V δ) :
    hFinish env' (dmap id φ vs) (s.moved φ ψ) = (hFinish env vs s).map (HState.moved φ ψ) := by
  unfold hFinish
  show (if s.current.length > 1 then _ else _) = _
  split
  · exact bind_names (hAddMerge_geo he vs s s.current) fun r => rfl
  · rfl

theorem hBuild_geo (he : MovedEnv φ ψ link env env') (vs : Dict α V) (table : Dict α (Dict α δ)) :
    hBuild env' link m (dmap id φ vs) (mapTable ψ table) =
      (hBuild env link m vs table).map fun r => (r.1, movedStorage φ r.2) := by
  unfold hBuild
  refine bind_names (hStart_geo he vs table) fun s0 => ?_
  refine bind_names (hLoop_geo he vs table _ s0) fun s1 => ?_
  refine bind_names (hFinish_geo he vs s1) fun s2 => ?_
  show (match s2.current with | [] => _ | root :: _ => _) = _
  cases s2.current with
  | nil => rfl
  | cons root _ => exact bind_names (dget_moved s2.storage root) fun n => rfl

omit [LinearOrder α] in
theorem hChoice_geo (by_ : CutBy) (st : Dict Nat (HCluster α V)) (l : List Nat) :
    hChoice by_ (movedStorage φ st) l = hChoice by_ st l := by
  unfold hChoice
  refine congrArg (· >>= _) (mapM_same fun c _ => ?_)
  refine bind_names_same (dget_moved st c) fun n => ?_
  have : by_.key (n.moved φ) = by_.key n := by cases by_ <;> rfl
  rw [this]

theorem hExplore_geo (by_ : CutBy) (st : Dict Nat (HCluster α V)) (nb : Int) (fuel : Nat) (l : List Nat) :
    hExplore by_ (movedStorage φ st) nb fuel l = hExplore by_ st nb fuel l := by
  induction fuel generalizing l with
  | zero => rfl
  | succ fuel ih =>
    unfold hExplore
    split
    · rw [hChoice_geo]
      refine congrArg (bind _) (funext fun c => ?_)
      refine bind_names_same (dget_moved st c) fun n => ?_
      show (if n.children = [] then _ else hExplore by_ (movedStorage φ st) nb fuel (l.erase c ++ n.children)) = _
      rw [ih]
    · rfl

theorem hAffect_geo (ids : List α) (st : Dict Nat (HCluster α V)) (l : List Nat) :
    hAffect ids (movedStorage φ st) l = hAffect ids st l := by
  unfold hAffect
  congr 1
  funext d c
  exact bind_names_same (dget_moved st c) fun n => rfl

theorem hCut_geo (ids : List α) (st : Dict Nat (HCluster α V)) (root : Nat) (nb : Int) (by_ : CutBy) :
    hCut ids (movedStorage φ st) root nb by_ = hCut ids st root nb by_ := by
  unfold hCut
  simp only [hExplore_geo, hAffect_geo]

end Hier

/-! ### Trees that do not depend on the centroids -/

/-- The object without the centroids. -/
def HObject.bare (o : HObject α V) : HObject α Unit := ⟨o.linkage, o.ids, o.root, movedStorage (fun _ => ()) o.storage⟩

theorem cut_bare (o : HObject α V) (nb : Int) (by_ : CutBy) : o.bare.cut nb by_ = o.cut nb by_ := by
  unfold HObject.cut
  show (match o.root with | none => _ | some root => _) = _
  cases o.root with
  | none => rfl
  | some root => exact hCut_geo o.ids o.storage root nb by_

omit [LinearOrder α] in
theorem sameTree_iff {o : HObject α V} {o' : HObject α V'} : SameTree o o' ↔ o'.bare = o.bare := by
  have key : ∀ {V V' : Type} (a : Dict Nat (HCluster α V)) (b : Dict Nat (HCluster α V')),
      movedStorage (fun _ => ()) b = movedStorage (fun _ => ()) a ↔
      (b.map fun q => (q.1, q.2.iteration, q.2.children, q.2.depth, q.2.members)) =
        a.map fun q => (q.1, q.2.iteration, q.2.children, q.2.depth, q.2.members) := by
    intro V V' a b
    induction a generalizing b with
    | nil => cases b <;> simp [movedStorage, dmap]
    | cons p a ih =>
      cases b with
      | nil => simp [movedStorage, dmap]
      | cons q b =>
        have := ih b
        simp only [movedStorage, dmap, List.map_cons, List.cons.injEq, HCluster.moved, Prod.mk.injEq, HCluster.mk.injEq, and_true, id] at this ⊢
        rw [this]
  constructor
  · intro h
    unfold HObject.bare
    rw [h.linkage, h.ids, h.root, (key _ _).2 h.storage]
  · intro h
    unfold HObject.bare at h
    injection h with h1 h2 h3 h4
    exact ⟨h1, h2, h3, (key _ _).1 h4⟩

/-- The result of the construction without the centroids. -/
def bareTree (r : Nat × Dict Nat (HCluster α V)) : Nat × Dict Nat (HCluster α Unit) := (r.1, movedStorage (fun _ => ()) r.2)

theorem hBuild_bare {τ : Type} [LinearOrder τ] {env : HierEnv V δ} {link : Linkage} (hl : link ≠ .average) {ψ : τ → δ} (hψ : StrictMono ψ)
    (t0 : τ) (ward0 : List τ → Nat → Nat → τ) (hw : link = .ward → ∀ l i j, env.ward (l.map ψ) i j = ψ (ward0 l i j)) (vs : Dict α V)
    (table : Dict α (Dict α τ)) :
    (hBuild env link m vs (mapTable ψ table)).map bareTree =
      hBuild (⟨fun _ _ => t0, fun _ => (), ward0⟩ : HierEnv Unit τ) link m (dmap id (fun _ => ()) vs) table := by
  let env1 : HierEnv V τ := ⟨fun _ _ => t0, env.mean, ward0⟩
  have h1 : MovedEnv id ψ link env1 env := ⟨hψ, fun l _ => by rw [List.map_id]; rfl, fun h => absurd h hl, hw⟩
  have h2 : MovedEnv (fun _ => ()) id link env1 (⟨fun _ _ => t0, fun _ => (), ward0⟩ : HierEnv Unit τ) :=
    ⟨strictMono_id, fun l _ => rfl, fun h => absurd h hl, fun _ l i j => by rw [List.map_id]; rfl⟩
  have e1 := hBuild_geo (m := m) h1 vs table
  have e2 := hBuild_geo (m := m) h2 vs table
  have d1 : dmap id id vs = vs := by simp [dmap]
  have d2 : mapTable id table = table := by simp [mapTable, dmap]
  rw [d1] at e1
  rw [d2] at e2
  rw [e1, e2]
  cases hBuild env1 link m vs table with
  | error e => rfl
  | ok r =>
    show Except.ok _ = Except.ok _
    simp [bareTree, movedStorage, dmap, HCluster.moved]

omit [LinearOrder δ] [LinearOrder δ'] in
theorem bareVectors {vs : Dict α V} {vs' : Dict α V'} (hd : SameDomain m vs vs') :
    SameVectors m (dmap id (fun _ => ()) vs') (dmap id (fun _ => ()) vs) := by
  intro x hx
  have h1 : dget? (dmap id (fun _ : V' => ()) vs') x = (dget? vs' x).map fun _ => () := dget?_dmap (f := id) Function.injective_id _ vs' x
  have h2 : dget? (dmap id (fun _ : V => ()) vs) x = (dget? vs x).map fun _ => () := dget?_dmap (f := id) Function.injective_id _ vs x
  rw [h1, h2]
  have := hd x hx
  cases e : dget? vs x <;> cases e' : dget? vs' x <;> rw [e, e'] at this <;> first | rfl | cases this

/-- Two calls whose trees are the same up to the centroids. -/
theorem cluster_bare {env : HierEnv V δ} {env' : HierEnv V' δ'} {o : HObject α V} {o' : HObject α V'} (ho : SameTree o o')
    {vs : Dict α V} {vs' : Dict α V'} (nb : Option Int)
    (h : (∃ e, distanceTable m vs env.metric = .error e ∧ distanceTable m vs' env'.metric = .error e) ∨
      ∃ table table', distanceTable m vs env.metric = .ok table ∧ distanceTable m vs' env'.metric = .ok table' ∧
        (hBuild env' o.linkage m vs' table').map bareTree = (hBuild env o.linkage m vs table).map bareTree) :
    (o'.cluster env' m (some vs') nb).2 = (o.cluster env m (some vs) nb).2 ∧
      SameTree (o.cluster env m (some vs) nb).1 (o'.cluster env' m (some vs') nb).1 := by
  unfold HObject.cluster
  cases nb with
  | none => exact ⟨rfl, ho.linkage, rfl, ho.root, ho.storage⟩
  | some n =>
    dsimp only
    split
    · exact ⟨rfl, ho.linkage, rfl, ho.root, ho.storage⟩
    · rcases h with ⟨e, h1, h2⟩ | ⟨table, table', h1, h2, hb⟩
      · rw [h1, h2]
        exact ⟨rfl, ho.linkage, rfl, ho.root, ho.storage⟩
      · rw [h1, h2]
        dsimp only
        rw [ho.linkage]
        cases e : hBuild env o.linkage m vs table with
        | error er =>
          rw [e] at hb
          cases e' : hBuild env' o.linkage m vs' table' with
          | error er' =>
            rw [e'] at hb
            injection hb with hb
            subst hb
            exact ⟨rfl, rfl, rfl, rfl, rfl⟩
          | ok r => rw [e'] at hb; cases hb
        | ok r =>
          rw [e] at hb
          cases e' : hBuild env' o.linkage m vs' table' with
          | error er' => rw [e'] at hb; cases hb
          | ok r' =>
            rw [e'] at hb
            injection hb with hb
            unfold bareTree at hb
            injection hb with hr hst
            have hs : SameTree (⟨o.linkage, m.managed, some r.1, r.2⟩ : HObject α V) ⟨o.linkage, m.managed, some r'.1, r'.2⟩ := by
              rw [sameTree_iff]
              unfold HObject.bare
              dsimp only
              rw [hr, hst]
            refine ⟨?_, hs⟩
            show HObject.cut (⟨o.linkage, m.managed, some r'.1, r'.2⟩ : HObject α V') _ _ =
              HObject.cut (⟨o.linkage, m.managed, some r.1, r.2⟩ : HObject α V) _ _
            rw [← cut_bare, ← cut_bare (⟨o.linkage, m.managed, some r.1, r.2⟩ : HObject α V), sameTree_iff.1 hs]

theorem cluster_order {env : HierEnv V δ} {env' : HierEnv V' δ'} {o : HObject α V} {o' : HObject α V'} (ho : SameTree o o')
    (hl : o.linkage = .single ∨ o.linkage = .complete) (hc : ∀ c ∈ m.components, ∀ x ∈ c, x ∈ m.managed)
    {vs : Dict α V} {vs' : Dict α V'} (hd : SameDomain m vs vs') (hord : SameOrder m env.metric vs env'.metric vs') (nb : Option Int) :
    (o'.cluster env' m (some vs') nb).2 = (o.cluster env m (some vs) nb).2 ∧
      SameTree (o.cluster env m (some vs) nb).1 (o'.cluster env' m (some vs') nb).1 := by
  refine cluster_bare ho nb ?_
  have hav : o.linkage ≠ .average := by rcases hl with h | h <;> rw [h] <;> decide
  have hwd : o.linkage ≠ .ward := by rcases hl with h | h <;> rw [h] <;> decide
  rcases domain_cases (δ := δ) (δ' := δ') hd with ⟨e, h1, h2⟩ | ⟨hne, val, val', hv, hv'⟩
  · exact .inl ⟨e, h1 _, h2 _⟩
  · refine .inr ⟨_, _, distanceTable_tableOf hv hne _, distanceTable_tableOf hv' hne _, ?_⟩
    obtain ⟨τ, _, t0, C, ψ, ψ', hψ, hψ', e1, e2⟩ := common_table hne (fun x y => env.metric (val x) (val y))
      (fun x y => env'.metric (val' x) (val' y)) fun x hx y hy z hz t ht => hord x hx y hy z hz t ht _ _ _ _
        (distanceOf_val hv env.metric hx hy) (distanceOf_val hv env.metric hz ht) (distanceOf_val hv' env'.metric hx hy)
        (distanceOf_val hv' env'.metric hz ht)
    rw [e1, e2, hBuild_bare hav hψ t0 (fun _ _ _ => t0) (fun h => absurd h hwd),
      hBuild_bare hav hψ' t0 (fun _ _ _ => t0) (fun h => absurd h hwd)]
    exact (bareVectors hd).hBuild hc

omit [LinearOrder δ] [LinearOrder δ'] in
theorem MovedVectors.domain {φ : V → V'} {vs : Dict α V} {vs' : Dict α V'} (h : MovedVectors φ m vs vs') : SameDomain m vs vs' := by
  intro x hx
  rw [h x hx, Option.isSome_map]

theorem cluster_scaled {env : HierEnv V δ} {env' : HierEnv V' δ'} {o : HObject α V} {o' : HObject α V'} (ho : SameTree o o')
    (hav : o.linkage ≠ .average) (hc : ∀ c ∈ m.components, ∀ x ∈ c, x ∈ m.managed) {ψ : δ → δ'} (hψ : StrictMono ψ)
    (hw : o.linkage = .ward → ∀ l i j, env'.ward (l.map ψ) i j = ψ (env.ward l i j))
    {vs : Dict α V} {vs' : Dict α V'} (hd : SameDomain m vs vs') (hby : DistancesBy ψ m env.metric vs env'.metric vs') (nb : Option Int) :
    (o'.cluster env' m (some vs') nb).2 = (o.cluster env m (some vs) nb).2 ∧
      SameTree (o.cluster env m (some vs) nb).1 (o'.cluster env' m (some vs') nb).1 := by
  refine cluster_bare ho nb ?_
  rcases domain_cases (δ := δ) (δ' := δ') hd with ⟨e, h1, h2⟩ | ⟨hne, val, val', hv, hv'⟩
  · exact .inl ⟨e, h1 _, h2 _⟩
  · refine .inr ⟨_, _, distanceTable_tableOf hv hne _, distanceTable_tableOf hv' hne _, ?_⟩
    have e2 : (tableOf m.managed fun x y => env'.metric (val' x) (val' y)) =
        mapTable ψ (tableOf m.managed fun x y => env.metric (val x) (val y)) := by
      rw [mapTable_tableOf]
      refine tableOf_congr fun x hx y hy => ?_
      have := hby x hx y hy
      rw [distanceOf_val hv env.metric hx hy, distanceOf_val hv' env'.metric hx hy] at this
      exact Option.some.inj this
    obtain ⟨x0, _⟩ := List.exists_mem_of_ne_nil _ hne
    rw [e2, hBuild_bare hav hψ (env.metric (val x0) (val x0)) env.ward hw]
    have e1 : (tableOf m.managed fun x y => env.metric (val x) (val y)) =
        mapTable id (tableOf m.managed fun x y => env.metric (val x) (val y)) := by rw [mapTable_tableOf]; rfl
    conv_rhs => rw [e1]
    rw [hBuild_bare (ψ := id) (τ := δ) hav strictMono_id (env.metric (val x0) (val x0)) env.ward (fun _ l i j => by rw [List.map_id]; rfl)]
    exact (bareVectors hd).hBuild hc

theorem cluster_moved {env : HierEnv V δ} {env' : HierEnv V' δ'} {o : HObject α V} {o' : HObject α V'} (ho : SameTree o o')
    (hc : ∀ c ∈ m.components, ∀ x ∈ c, x ∈ m.managed) {φ : V → V'} {ψ : δ → δ'} (hψ : StrictMono ψ)
    (hmetric : ∀ v w, env'.metric (φ v) (φ w) = ψ (env.metric v w)) (hmean : ∀ l, l ≠ [] → env'.mean (l.map φ) = φ (env.mean l))
    (hw : o.linkage = .ward → ∀ l i j, env'.ward (l.map ψ) i j = ψ (env.ward l i j))
    {vs : Dict α V} {vs' : Dict α V'} (hv : MovedVectors φ m vs vs') (nb : Option Int) :
    (o'.cluster env' m (some vs') nb).2 = (o.cluster env m (some vs) nb).2 ∧
      SameTree (o.cluster env m (some vs) nb).1 (o'.cluster env' m (some vs') nb).1 := by
  refine cluster_bare ho nb ?_
  rcases domain_cases (δ := δ) (δ' := δ') hv.domain with ⟨e, h1, h2⟩ | ⟨hne, val, val', hval, hval'⟩
  · exact .inl ⟨e, h1 _, h2 _⟩
  · refine .inr ⟨_, _, distanceTable_tableOf hval hne _, distanceTable_tableOf hval' hne _, ?_⟩
    have e2 : (tableOf m.managed fun x y => env'.metric (val' x) (val' y)) =
        mapTable ψ (tableOf m.managed fun x y => env.metric (val x) (val y)) := by
      rw [mapTable_tableOf]
      have hφ : ∀ x ∈ m.managed, val' x = φ (val x) := fun x hx => by
        have := hv x hx
        rw [hval x hx, hval' x hx] at this
        exact Option.some.inj this
      exact tableOf_congr fun x hx y hy => by rw [hφ x hx, hφ y hy, hmetric]
    have hsame : SameVectors m vs' (dmap id φ vs) := fun x hx => (hv x hx).trans
      (dget?_dmap (f := id) Function.injective_id φ vs x).symm
    rw [e2, hsame.hBuild hc, hBuild_geo (env := env) (ψ := ψ) ⟨hψ, hmean, fun _ => hmetric, hw⟩]
    cases hBuild env o.linkage m vs (tableOf m.managed fun x y => env.metric (val x) (val y)) with
    | error e => rfl
    | ok r =>
      show Except.ok _ = Except.ok _
      simp [bareTree, movedStorage, dmap, HCluster.moved]

end Verif
