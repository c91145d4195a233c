import Verif.Proofs.Objects

/-
Each class as an object: whatever the attributes are before the call, `cluster` gives what the model
without attributes gives, and after a successful call all attributes are those of that call.
-/

namespace Verif

open Meth

/-! ### KMeans -/

section
variable {α V δ : Type} [LinearOrder α] [LinearOrder δ]

/-- The attributes that a call sets before it computes anything. -/
def KmSelf.Ready (s : KmSelf α V) (m : Manager α) (vs : Dict α V) (nb : Nat) : Prop :=
  s.manager = some m ∧ s.ids = some m.managed ∧ s.vectors = some vs ∧ s.nb = some nb

theorem km_computeCentroids (env : KMeansEnv α V δ) {s : KmSelf α V} {m : Manager α} {vs : Dict α V} {nb : Nat}
    (h : s.Ready m vs nb) (clusters : Dict α Int) :
    Runs (KmSelf.computeCentroids env clusters) s (kmCentroids env m vs clusters) (fun c => (s, c)) := by
  obtain ⟨h1, h2, h3, h4⟩ := h
  exact runs_attr h3 (runs_attr h1 (runs_lift _ s))

theorem km_pass (env : KMeansEnv α V δ) {s : KmSelf α V} {m : Manager α} {vs : Dict α V} {nb : Nat} (h : s.Ready m vs nb)
    {cs : Dict Int V} (hc : s.centroids = some cs) :
    Runs (KmSelf.pass env) s (kmPass env m vs nb cs) (fun c => (s, c)) := by
  have h' := h
  obtain ⟨h1, h2, h3, h4⟩ := h
  unfold KmSelf.pass kmPass
  refine runs_attr h2 (runs_attr h3 (runs_attr h1 (runs_attr hc ?_)))
  refine runs_bind (runs_lift _ s) fun dist _ => ?_
  refine runs_attr h4 ?_
  refine runs_bind (runs_lift _ s) fun new _ => ?_
  refine runs_bind (km_computeCentroids env h' new) fun c _ => ?_
  exact rfl

theorem km_loop (env : KMeansEnv α V δ) {m : Manager α} {vs : Dict α V} {nb : Nat} (left : Nat) {s : KmSelf α V}
    (h : s.Ready m vs nb) {cl : Dict α Int} (hcl : s.clusters = some cl) {cs : Dict Int V} (hc : s.centroids = some cs) :
    Runs (KmSelf.loop env left cl) s (kmLoop env m vs nb left cl cs)
      (fun r => ({ s with clusters := some r.1, centroids := some r.2 }, r.1)) := by
  induction left generalizing s cl cs with
  | zero =>
    show (s, Except.ok cl) = _
    simp [← hcl, ← hc]
  | succ left ih =>
    unfold KmSelf.loop kmLoop
    refine runs_bind (km_pass env h hc) fun r _ => ?_
    obtain ⟨new, ncs⟩ := r
    refine runs_attr hcl (runs_attr hc ?_)
    refine runs_bind (runs_lift _ s) fun b _ => ?_
    refine runs_write (runs_write ?_)
    cases b with
    | true => exact rfl
    | false => exact ih (s := { s with clusters := some new, centroids := some ncs }) h rfl rfl

theorem km_cop (env : KMeansEnv α V δ) {m : Manager α} {vs : Dict α V} {nb : Nat} {s : KmSelf α V} (h : s.Ready m vs nb) :
    Runs (KmSelf.cop env) s (kmCOP env m vs nb s.maxIteration)
      (fun r => ({ s with clusters := some r.1, centroids := some r.2 }, r.1)) := by
  have h' := h
  obtain ⟨h1, h2, h3, h4⟩ := h
  unfold KmSelf.cop kmCOP
  have hi : Runs (KmSelf.initializeCentroids env) s (kmInitialize env m.managed vs nb) (fun c => (s, c)) :=
    runs_attr h2 (runs_attr h4 (runs_attr h3 (runs_lift _ s)))
  refine runs_bind hi fun cs _ => ?_
  refine runs_write (runs_attr (b := m.managed) h2 (runs_write (runs_param ?_)))
  refine runs_bind (km_loop env s.maxIteration (s := { s with centroids := some cs, clusters := some _ }) h' rfl rfl) fun r _ => ?_
  obtain ⟨new, ncs⟩ := r
  refine runs_attr rfl ?_
  refine runs_bind (runs_lift _ _) fun renamed _ => ?_
  refine runs_write ?_
  refine runs_bind (km_computeCentroids (s := { s with centroids := some ncs, clusters := some renamed }) (nb := nb) (m := m)
    (vs := vs) env h' new) fun fc _ => ?_
  exact rfl

/-- The call of `cluster` on any object, and all attributes after a successful call. -/
theorem km_cluster (c : ClusterCall (KMeansEnv α V δ) α V) (s : KmSelf α V) :
    Runs (KmSelf.cluster c) s (kmCluster c.env s.maxIteration c.manager c.vectors c.nb)
      (fun r => ({ maxIteration := s.maxIteration, manager := some c.manager, ids := some c.manager.managed, vectors := c.vectors,
                   nb := some (min (c.nb.getD 0).toNat c.manager.managed.length), predicted := some r.1,
                   clusters := some r.1, centroids := some r.2 }, r.1)) := by
  obtain ⟨env, m, vectors, nb⟩ := c
  unfold KmSelf.cluster kmCluster
  refine runs_write (runs_attr rfl (runs_write ?_))
  cases vectors with
  | none => rfl
  | some vs =>
    cases nb with
    | none => rfl
    | some n =>
      refine runs_write ?_
      by_cases hn : n < 2
      · simp only [hn, if_true]; rfl
      · simp only [hn, if_false]
        refine runs_attr rfl (runs_write (runs_write ?_))
        exact runs_then (km_cop env (m := m) (vs := vs) (nb := min n.toNat m.managed.length) ⟨rfl, rfl, rfl, rfl⟩) fun d => rfl

theorem km_keeps (c : ClusterCall (KMeansEnv α V δ) α V) : Keeps KmSelf.maxIteration (KmSelf.cluster c) := by
  have hcc : ∀ d, Keeps KmSelf.maxIteration (KmSelf.computeCentroids c.env d : Meth (KmSelf α V) _) := by
    intro d; unfold KmSelf.computeCentroids; keeps
  have hi : Keeps KmSelf.maxIteration (KmSelf.initializeCentroids c.env : Meth (KmSelf α V) _) := by
    unfold KmSelf.initializeCentroids; keeps
  have hp : Keeps KmSelf.maxIteration (KmSelf.pass c.env : Meth (KmSelf α V) _) := by
    unfold KmSelf.pass; keeps
  have hl : ∀ left new, Keeps KmSelf.maxIteration (KmSelf.loop c.env left new : Meth (KmSelf α V) _) := by
    intro left
    induction left with
    | zero => intro new; unfold KmSelf.loop; keeps
    | succ left ih => intro new; unfold KmSelf.loop; keeps; exact ih _
  unfold KmSelf.cluster KmSelf.cop
  keeps
  exact hl _ _

end

/-! ### Hierarchical clustering -/

section
variable {α V δ : Type} [LinearOrder α] [LinearOrder δ]

/-- The object with the four attributes of the merging. -/
def HSelf.put (s : HSelf α V δ) (t : HState α V δ) : HSelf α V δ :=
  { s with current := some t.current, storage := some t.storage, distances := some t.distances, iteration := some t.iteration }

theorem h_state (s : HSelf α V δ) (t : HState α V δ) {β ε : Type} {x : HState α V δ → Meth (HSelf α V δ) β} {r : Except PyErr ε}
    {k : ε → HSelf α V δ × β} (h : Runs (x t) (s.put t) r k) : Runs (HSelf.state >>= x) (s.put t) r k := by
  have : (HSelf.state >>= x) (s.put t) = x t (s.put t) := rfl
  unfold Runs at h ⊢
  rw [this]
  exact h

theorem h_leaves (env : HierEnv V δ) {s : HSelf α V δ} {vs : Dict α V} (hv : s.vectors = some vs) (l : List (List α)) :
    Runs (l.foldlM (fun _ members => HSelf.addLeaf env members) ())
      { s with iteration := some 0, current := some [], storage := some [] }
      (l.foldlM (hAddLeaf env vs) ⟨[], [], [], 0⟩)
      (fun t => ({ s with iteration := some 0, current := some t.current, storage := some t.storage }, ())) := by
  have hI : ∀ (g : HState α V δ) (i : List α), (g.distances = [] ∧ g.iteration = 0) → ∀ g', hAddLeaf env vs g i = .ok g' →
      g'.distances = [] ∧ g'.iteration = 0 := by
    intro g i hg g' h
    unfold hAddLeaf at h
    cases hc : hCentroid env vs i with
    | error e => rw [hc] at h; cases h
    | ok c => rw [hc] at h; cases h; exact hg
  refine runs_foldlM_inv (γ := HState α V δ)
    (fun t => { s with iteration := some 0, current := some t.current, storage := some t.storage }) (fun _ => ())
    (fun t => t.distances = [] ∧ t.iteration = 0) l (fun g i _ => hI g i) (fun g i _ hg => ?_) ⟨[], [], [], 0⟩ ⟨rfl, rfl⟩
  obtain ⟨cur, st, ds, it⟩ := g
  obtain ⟨rfl, rfl⟩ := hg
  refine runs_attr rfl (runs_attr (b := vs) hv (runs_attr rfl (runs_attr rfl ?_)))
  exact runs_then (runs_lift _ _) fun d => rfl

theorem h_loop (env : HierEnv V δ) {s : HSelf α V δ} {m : Manager α} {vs : Dict α V} {table : Dict α (Dict α δ)}
    (hm : s.manager = some m) (hv : s.vectors = some vs) (ht : s.table = some table) (fuel : Nat) (t : HState α V δ) :
    Runs (HSelf.loop env fuel) (s.put t) (hLoop env s.linkage m vs table fuel t) (fun t' => (s.put t', ())) := by
  induction fuel generalizing t with
  | zero =>
    unfold HSelf.loop hLoop
    refine runs_attr (b := t.current) rfl ?_
    by_cases h : t.current.length > 1
    · simp only [h, if_true]; rfl
    · simp only [h, if_false]; rfl
  | succ fuel ih =>
    unfold HSelf.loop hLoop
    refine runs_attr (b := t.current) rfl ?_
    by_cases h : t.current.length > 1
    · simp only [h, if_true]
      refine h_state s t ?_
      refine runs_bind (runs_lift _ _) fun o _ => ?_
      cases o with
      | none => exact rfl
      | some p =>
        refine runs_param (runs_attr (b := m) hm (runs_attr (b := vs) hv (runs_attr (b := table) ht ?_)))
        refine runs_bind (runs_lift _ _) fun t' _ => ?_
        exact ih t'
    · simp only [h, if_false]; rfl

/-- `hBuild` with the whole state of the merging. -/
def hBuildState (env : HierEnv V δ) (link : Linkage) (m : Manager α) (vectors : Dict α V) (table : Dict α (Dict α δ)) :
    Except PyErr (Nat × HState α V δ) := do
  let s0 ← hStart env link m vectors table
  let s1 ← hLoop env link m vectors table m.components.length s0
  let s2 ← hFinish env vectors s1
  match s2.current with
  | [] => .error .indexError
  | root :: _ => do
    let _ ← dget s2.storage root
    return (root, s2)

theorem hBuild_eq (env : HierEnv V δ) (link : Linkage) (m : Manager α) (vectors : Dict α V) (table : Dict α (Dict α δ)) :
    hBuild env link m vectors table = (hBuildState env link m vectors table).map fun r => (r.1, r.2.storage) := by
  unfold hBuild hBuildState
  cases hStart env link m vectors table with
  | error e => rfl
  | ok s0 =>
    simp only [bind, Except.bind]
    cases hLoop env link m vectors table m.components.length s0 with
    | error e => rfl
    | ok s1 =>
      dsimp only
      cases hFinish env vectors s1 with
      | error e => rfl
      | ok s2 =>
        dsimp only
        cases s2.current with
        | nil => rfl
        | cons root l =>
          dsimp only
          cases dget s2.storage root <;> rfl

theorem h_initDistances (env : HierEnv V δ) {s : HSelf α V δ} {m : Manager α} {table : Dict α (Dict α δ)}
    (hm : s.manager = some m) (ht : s.table = some table) {t : HState α V δ} (hc : s.current = some t.current)
    (hst : s.storage = some t.storage) {ds : Dict Nat (Dict Nat (WithTop δ))} (hd : s.distances = some ds) {it : Nat}
    (hi : s.iteration = some it) :
    Runs (HSelf.initDistances env) s (hInitDistances env s.linkage m table t) (fun d => ({ s with distances := some d }, ())) := by
  refine runs_param (runs_attr (b := m) hm (runs_attr (b := table) ht ?_))
  have hs : (HSelf.state : Meth (HSelf α V δ) _) s = (s, .ok ⟨t.current, t.storage, ds, it⟩) := by
    unfold HSelf.state
    rw [bind_attr hc, bind_attr hst, bind_attr hd, bind_attr hi]
    rfl
  have h : Runs (lift (hInitDistances env s.linkage m table t) >>= fun d => write fun s => { s with distances := some d })
      s (hInitDistances env s.linkage m table t) (fun d => ({ s with distances := some d }, ())) :=
    runs_then (runs_lift _ _) fun d => rfl
  unfold Runs at h ⊢
  rw [bind_ok hs]
  exact h

/-- The tree, from the attributes of the call. -/
theorem h_tree (env : HierEnv V δ) {s : HSelf α V δ} {m : Manager α} {vs : Dict α V} {table : Dict α (Dict α δ)}
    (hm : s.manager = some m) (hv : s.vectors = some vs) (ht : s.table = some table) :
    Runs (HSelf.tree env) s (hBuildState env s.linkage m vs table)
      (fun r => (⟨s.linkage, s.manager, s.ids, s.vectors, s.nb, s.table, s.root, none, some r.2.iteration, some r.2.current,
        some r.2.storage, some r.2.distances⟩, r.1)) := by
  unfold HSelf.tree hBuildState hStart
  simp only [bind_assoc]
  refine runs_write (runs_write (runs_write (runs_write (runs_attr (b := m) hm ?_))))
  refine runs_bind (h_leaves env (s := { s with predicted := none }) hv m.components) fun t _ => ?_
  refine runs_write ?_
  refine runs_bind (h_initDistances env (t := t) (s := ⟨s.linkage, s.manager, s.ids, s.vectors, s.nb, s.table, s.root, none,
    some 0, some t.current, some t.storage, some []⟩) hm ht rfl rfl rfl rfl) fun d _ => ?_
  refine runs_write ?_
  simp only [pure_bind]
  refine runs_bind (h_loop env (s := { s with predicted := none }) hm hv ht m.components.length
    { t with distances := d, iteration := 1 }) fun t1 _ => ?_
  refine h_state { s with predicted := none } t1 (runs_attr (b := vs) hv ?_)
  refine runs_bind (runs_lift _ _) fun t2 _ => ?_
  obtain ⟨cur, st, ds, it⟩ := t2
  refine runs_write (runs_attr (b := cur) rfl ?_)
  cases cur with
  | nil => exact rfl
  | cons root l =>
    refine runs_attr (b := st) rfl ?_
    refine runs_bind (runs_lift _ _) fun _ _ => ?_
    exact rfl

theorem h_cut {s : HSelf α V δ} {root : Nat} (hr : s.root = some root) {st : Dict Nat (HCluster α V)} (hs : s.storage = some st)
    {ids : List α} (hi : s.ids = some ids) (nb : Int) (by_ : CutBy) :
    HSelf.cut nb by_ s = (s, hCut ids st root nb by_) := by
  unfold HSelf.cut
  rw [bind_param]
  simp only [hr]
  rw [bind_attr hs, bind_attr hi]
  rfl

theorem h_tree_root (env : HierEnv V δ) : Keeps (fun s : HSelf α V δ => (s.linkage, s.ids, s.root)) (HSelf.tree env) := by
  have hl : ∀ fuel, Keeps (fun s : HSelf α V δ => (s.linkage, s.ids, s.root)) (HSelf.loop env fuel) := by
    intro fuel
    induction fuel with
    | zero => unfold HSelf.loop; keeps
    | succ fuel ih => unfold HSelf.loop; keeps
  unfold HSelf.tree
  keeps
  exact hl _

/-- The tree and the cut, from the attributes of the call. -/
theorem h_build (env : HierEnv V δ) {s : HSelf α V δ} {m : Manager α} {vs : Dict α V} {table : Dict α (Dict α δ)} {nb : Int}
    (hm : s.manager = some m) (hi : s.ids = some m.managed) (hv : s.vectors = some vs) (ht : s.table = some table)
    (hn : s.nb = some nb) :
    Runs (HSelf.build env) s
      (do let r ← hBuildState env s.linkage m vs table
          let d ← hCut m.managed r.2.storage r.1 nb .size
          return (r, d))
      (fun r => ({ s.put r.1.2 with root := some r.1.1, predicted := some r.2 }, r.2)) := by
  unfold HSelf.build
  refine runs_write ?_
  refine runs_bind (h_tree env (s := { s with root := none }) hm hv ht) fun r _ => ?_
  refine runs_write (runs_attr (b := nb) hn ?_)
  have hcut := h_cut (s := ⟨s.linkage, s.manager, s.ids, s.vectors, s.nb, s.table, some r.1, none, some r.2.iteration,
    some r.2.current, some r.2.storage, some r.2.distances⟩) rfl rfl hi nb .size
  have hcut' : Runs (HSelf.cut nb .size) ⟨s.linkage, s.manager, s.ids, s.vectors, s.nb, s.table, some r.1, none,
      some r.2.iteration, some r.2.current, some r.2.storage, some r.2.distances⟩ (hCut m.managed r.2.storage r.1 nb .size)
      (fun d => (⟨s.linkage, s.manager, s.ids, s.vectors, s.nb, s.table, some r.1, none,
      some r.2.iteration, some r.2.current, some r.2.storage, some r.2.distances⟩, d)) := by
    unfold Runs
    rw [hcut]
    cases hCut m.managed r.2.storage r.1 nb .size <;> rfl
  refine runs_bind hcut' fun d _ => ?_
  exact rfl

/-- The computation of a call of `cluster`, without attributes: the table of distances, the merging and the result. -/
def hClusterPure (env : HierEnv V δ) (link : Linkage) (m : Manager α) (vectors : Option (Dict α V)) (nb : Option Int) :
    Except PyErr (Dict α (Dict α δ) × (Nat × HState α V δ) × Dict α Int) :=
  match vectors, nb with
  | none, _ => .error (.valueError "vectors")
  | some _, none => .error (.valueError "nb_clusters")
  | some vs, some n =>
    if n < 2 then .error (.valueError "nb_clusters")
    else do
      let table ← distanceTable m vs env.metric
      let r ← hBuildState env link m vs table
      let d ← hCut m.managed r.2.storage r.1 (min n m.managed.length) .size
      return (table, r, d)

/-- The call of `cluster` on any object, and all attributes after a successful call. -/
theorem h_cluster (c : ClusterCall (HierEnv V δ) α V) (s : HSelf α V δ) :
    Runs (HSelf.cluster c) s (hClusterPure c.env s.linkage c.manager c.vectors c.nb)
      (fun r => ({ linkage := s.linkage, manager := some c.manager, ids := some c.manager.managed, vectors := c.vectors,
                   nb := some (min (c.nb.getD 0) c.manager.managed.length), table := some r.1, root := some r.2.1.1,
                   predicted := some r.2.2, iteration := some r.2.1.2.iteration, current := some r.2.1.2.current,
                   storage := some r.2.1.2.storage, distances := some r.2.1.2.distances }, r.2.2)) := by
  obtain ⟨env, m, vectors, nb⟩ := c
  unfold HSelf.cluster hClusterPure
  refine runs_write (runs_attr rfl (runs_write ?_))
  cases vectors with
  | none => rfl
  | some vs =>
    cases nb with
    | none => rfl
    | some n =>
      refine runs_write ?_
      by_cases hn : n < 2
      · simp only [hn, if_true]; rfl
      · simp only [hn, if_false]
        refine runs_attr rfl (runs_write (runs_attr rfl (runs_attr rfl ?_)))
        refine runs_bind (runs_lift _ _) fun table _ => ?_
        refine runs_write ?_
        have h := h_build env (nb := min n m.managed.length) (m := m) (vs := vs) (table := table)
          (s := ⟨s.linkage, some m, some m.managed, some vs, some (min n m.managed.length), some table, s.root, s.predicted,
            s.iteration, s.current, s.storage, s.distances⟩) rfl rfl rfl rfl rfl
        have h2 := runs_bind (f := fun d => pure d) h (r' := fun r => Except.ok (table, r))
          (k' := fun r => (⟨s.linkage, some m, some m.managed, some vs, some (min n m.managed.length), some r.1, some r.2.1.1,
            some r.2.2, some r.2.1.2.iteration, some r.2.1.2.current, some r.2.1.2.storage, some r.2.1.2.distances⟩, r.2.2))
          (fun r _ => rfl)
        simp only [bind_assoc, bind_pure] at h2
        exact h2

/-- The object-level model and the model `HObject` agree. -/
structure HSelf.Sim (s : HSelf α V δ) (o : HObject α V) : Prop where
  linkage : s.linkage = o.linkage
  root : s.root = o.root
  ids : o.root ≠ none → s.ids = some o.ids
  storage : o.root ≠ none → s.storage = some o.storage

theorem HSelf.Sim.cut {s : HSelf α V δ} {o : HObject α V} (h : s.Sim o) (nb : Int) (by_ : CutBy) :
    HSelf.cut nb by_ s = (s, o.cut nb by_) := by
  cases hr : o.root with
  | none =>
    have : HSelf.cut nb by_ s = (s, .error (.valueError "clustering_root")) := by
      unfold HSelf.cut
      rw [bind_param]
      simp only [h.root, hr]
      rfl
    rw [this]
    unfold HObject.cut
    simp only [hr]
  | some root =>
    have hne : o.root ≠ none := by simp [hr]
    rw [h_cut (h.root.trans hr) (h.storage hne) (h.ids hne)]
    unfold HObject.cut
    simp only [hr]

/-- The steps of `cluster` before the merging. -/
theorem h_cluster_eq (env : HierEnv V δ) (m : Manager α) (vs : Dict α V) {n : Int} (hn : ¬ n < 2) (s : HSelf α V δ) :
    HSelf.cluster ⟨env, m, some vs, some n⟩ s =
      match distanceTable m vs env.metric with
      | .error e => (⟨s.linkage, some m, some m.managed, some vs, some (min n m.managed.length), s.table, s.root, s.predicted,
          s.iteration, s.current, s.storage, s.distances⟩, .error e)
      | .ok table => HSelf.build env ⟨s.linkage, some m, some m.managed, some vs, some (min n m.managed.length), some table,
          s.root, s.predicted, s.iteration, s.current, s.storage, s.distances⟩ := by
  simp only [HSelf.cluster, bind_apply, attr, write, hn, if_false]
  cases ht : distanceTable m vs env.metric with
  | error e => rfl
  | ok table => rfl

theorem HSelf.Sim.cluster {s : HSelf α V δ} {o : HObject α V} (h : s.Sim o) (c : ClusterCall (HierEnv V δ) α V) :
    ((HSelf.cluster c s).1).Sim (o.cluster c.env c.manager c.vectors c.nb).1 ∧
      (HSelf.cluster c s).2 = (o.cluster c.env c.manager c.vectors c.nb).2 := by
  obtain ⟨env, m, vectors, nb⟩ := c
  cases vectors with
  | none => exact ⟨⟨h.linkage, h.root, fun _ => rfl, h.storage⟩, rfl⟩
  | some vs =>
    cases nb with
    | none => exact ⟨⟨h.linkage, h.root, fun _ => rfl, h.storage⟩, rfl⟩
    | some n =>
      by_cases hn : n < 2
      · have h1 : HSelf.cluster ⟨env, m, some vs, some n⟩ s =
            ({ s with manager := some m, ids := some m.managed, vectors := some vs }, .error (.valueError "nb_clusters")) := by
          simp only [HSelf.cluster, bind_apply, attr, write, hn, if_true]
          rfl
        rw [h1]
        unfold HObject.cluster
        simp only [hn, if_true]
        exact ⟨⟨h.linkage, h.root, fun _ => rfl, h.storage⟩, trivial⟩
      · rw [h_cluster_eq env m vs hn s]
        unfold HObject.cluster
        simp only [hn, if_false]
        cases ht : distanceTable m vs env.metric with
        | error e => exact ⟨⟨h.linkage, h.root, fun _ => rfl, h.storage⟩, rfl⟩
        | ok table =>
          dsimp only
          unfold HSelf.build
          rw [bind_write, hBuild_eq, ← h.linkage]
          dsimp only
          have htree := h_tree env (s := ⟨s.linkage, some m, some m.managed, some vs, some (min n m.managed.length), some table,
            none, s.predicted, s.iteration, s.current, s.storage, s.distances⟩) (m := m) (vs := vs) (table := table) rfl rfl rfl
          have hkeep := h_tree_root env (⟨s.linkage, some m, some m.managed, some vs, some (min n m.managed.length), some table,
            none, s.predicted, s.iteration, s.current, s.storage, s.distances⟩ : HSelf α V δ)
          simp only [bind_apply]
          unfold Runs at htree
          dsimp only at htree
          generalize (HSelf.tree env (⟨s.linkage, some m, some m.managed, some vs, some (min n m.managed.length), some table,
            none, s.predicted, s.iteration, s.current, s.storage, s.distances⟩ : HSelf α V δ)) = x at htree hkeep ⊢
          obtain ⟨s', r⟩ := x
          cases hb : hBuildState env s.linkage m vs table with
          | error e =>
            rw [hb] at htree
            simp only at htree
            subst htree
            simp only [Prod.mk.injEq] at hkeep
            obtain ⟨hk1, hk2, hk3⟩ := hkeep
            exact ⟨⟨hk1, hk3, fun hne => absurd rfl hne, fun hne => absurd rfl hne⟩, rfl⟩
          | ok r =>
            rw [hb] at htree
            simp only [Prod.mk.injEq] at htree
            obtain ⟨rfl, rfl⟩ := htree
            have hcut := h_cut (s := ⟨s.linkage, some m, some m.managed, some vs, some (min n m.managed.length), some table, some r.1,
              none, some r.2.iteration, some r.2.current, some r.2.storage, some r.2.distances⟩) rfl rfl rfl (min n m.managed.length) .size
            simp only [write, attr, HSelf.put, hcut, Except.map]
            unfold HObject.cut
            dsimp only
            cases hd : hCut m.managed r.2.storage r.1 (min n m.managed.length) .size with
            | error e => exact ⟨⟨rfl, rfl, fun _ => rfl, fun _ => rfl⟩, rfl⟩
            | ok d => exact ⟨⟨rfl, rfl, fun _ => rfl, fun _ => rfl⟩, rfl⟩

end

/-! ### C-DBScan -/

section
variable {α V δ : Type} [LinearOrder α] [LinearOrder δ]

/-- The attributes that a call sets before it computes clusters. -/
def DbSelf.Ready (s : DbSelf α V δ) (m : Manager α) (vs : Dict α V) (table : Dict α (Dict α δ)) : Prop :=
  s.manager = some m ∧ s.ids = some m.managed ∧ s.vectors = some vs ∧ s.table = some table

theorem db_locals {s : DbSelf α V δ} {m : Manager α} {vs : Dict α V} {table : Dict α (Dict α δ)} (h : s.Ready m vs table)
    (l : List α) (t : Dict α DLabel × Dict α (List α)) :
    Runs (l.foldlM (fun _ x => DbSelf.localStep x) ()) { s with labels := some t.1, locals := some t.2 }
      (l.foldlM (dbLocalStep s.params m table m.managed) t)
      (fun t => ({ s with labels := some t.1, locals := some t.2 }, ())) := by
  obtain ⟨h1, h2, h3, h4⟩ := h
  refine runs_foldlM (fun t => ({ s with labels := some t.1, locals := some t.2 } : DbSelf α V δ)) (fun _ => ()) l
    (fun g x _ => ?_) t
  unfold DbSelf.localStep
  refine runs_attr rfl (runs_attr rfl (runs_attr h2 (runs_attr h4 (runs_param (runs_attr h1 ?_)))))
  exact runs_then (runs_lift _ _) fun d => rfl

theorem db_merge (env : DbEnv α V δ) {s : DbSelf α V δ} {m : Manager α} {vs : Dict α V} {table : Dict α (Dict α δ)}
    (h : s.Ready m vs table) {labels : Dict α DLabel} (hl : s.labels = some labels) {locals : Dict α (List α)}
    (hlo : s.locals = some locals) (hc : s.cores = some (dofList (m.managed.map fun x => (x, [])))) :
    Runs (DbSelf.mergeMustLinks env) s (dbCores env m m.managed labels locals) (fun c => ({ s with cores := some c }, ())) := by
  obtain ⟨h1, h2, h3, h4⟩ := h
  obtain ⟨p, m', ids, vs', table', pr, la, lo, co, re, si, tot⟩ := s
  simp only at h1 h2 h3 h4 hl hlo hc
  subst h1 h2 h3 h4 hl hlo hc
  unfold DbSelf.mergeMustLinks dbCores
  refine runs_attr rfl (runs_attr rfl ?_)
  refine runs_bind (runs_lift _ _) fun compatible _ => ?_
  refine runs_attr rfl ?_
  dsimp only
  refine runs_bind (k := fun t : List α × Dict α α × Dict α (List α) => (⟨p, some m, some m.managed, some vs, some table, pr, some labels,
    some locals, some t.2.2, re, si, tot⟩, (t.1, t.2.1))) ?_ fun t _ => ?_
  · refine runs_foldlM (fun t : List α × Dict α α × Dict α (List α) => (⟨p, some m, some m.managed, some vs, some table, pr, some labels,
      some locals, some t.2.2, re, si, tot⟩ : DbSelf α V δ)) (fun t => (t.1, t.2.1)) m.managed (fun g x _ => ?_)
      ([], dofList (m.managed.map fun x => (x, env.none)), dofList (m.managed.map fun x => (x, [])))
    refine runs_attr rfl (runs_attr rfl (runs_attr rfl ?_))
    exact runs_then (runs_lift _ _) fun d => rfl
  · refine runs_bind (k := fun c : Dict α (List α) => (⟨p, some m, some m.managed, some vs, some table, pr, some labels,
      some locals, some c, re, si, tot⟩, ())) ?_ fun c _ => ?_
    · refine runs_foldlM (fun c => (⟨p, some m, some m.managed, some vs, some table, pr, some labels,
        some locals, some c, re, si, tot⟩ : DbSelf α V δ)) (fun _ => ()) m.managed (fun g x _ => ?_) t.2.2
      refine runs_attr rfl ?_
      exact runs_then (runs_lift _ _) fun d => rfl
    · refine runs_foldlM (fun c => (⟨p, some m, some m.managed, some vs, some table, pr, some labels,
        some locals, some c, re, si, tot⟩ : DbSelf α V δ)) (fun _ => ()) m.managed (fun g x _ => ?_) c
      refine runs_attr rfl ?_
      exact runs_then (runs_lift _ _) fun d => rfl

theorem db_grow (env : DbEnv α V δ) {s : DbSelf α V δ} {m : Manager α} {vs : Dict α V} {table : Dict α (Dict α δ)}
    (h : s.Ready m vs table) (l : List α) (t : Dict α (List α) × Dict α (List α)) :
    Runs (l.foldlM (fun _ x => DbSelf.growStep env x) ()) { s with cores := some t.1, locals := some t.2 }
      (l.foldlM (dbGrowStep env s.params m table) t)
      (fun t => ({ s with cores := some t.1, locals := some t.2 }, ())) := by
  obtain ⟨h1, h2, h3, h4⟩ := h
  refine runs_foldlM (fun t => ({ s with cores := some t.1, locals := some t.2 } : DbSelf α V δ)) (fun _ => ()) l
    (fun g x _ => ?_) t
  unfold DbSelf.growStep
  refine runs_attr rfl (runs_attr rfl (runs_attr h4 (runs_param (runs_attr h1 ?_))))
  exact runs_then (runs_lift _ _) fun d => rfl

theorem db_finish {s : DbSelf α V δ} {m : Manager α} {vs : Dict α V} {table : Dict α (Dict α δ)} (h : s.Ready m vs table)
    {labels : Dict α DLabel} (hl : s.labels = some labels) {cores locals : Dict α (List α)} (hlo : s.locals = some locals)
    (hc : s.cores = some cores) (hp : s.predicted = some []) :
    Runs DbSelf.finish s (dbFinish s.params m.managed labels cores locals)
      (fun o => (⟨s.params, some m, some m.managed, some vs, some table, o.predicted, some o.labels, some o.locals, some o.cores,
        o.regular, o.single, o.total⟩, o.predicted.getD [])) := by
  obtain ⟨h1, h2, h3, h4⟩ := h
  obtain ⟨p, m', ids, vs', table', pr, la, lo, co, re, si, tot⟩ := s
  simp only at h1 h2 h3 h4 hl hlo hc hp
  subst h1 h2 h3 h4 hl hlo hc hp
  unfold DbSelf.finish dbFinish
  refine runs_attr rfl (runs_notNone rfl (runs_write (runs_attr rfl ?_)))
  dsimp only
  refine runs_bind (k := fun t : Dict α (List α) × Dict α Int × Int => (⟨p, some m, some m.managed, some vs, some table, some t.2.1,
    some labels, some t.1, some cores, re, si, tot⟩, t.2.2)) ?_ fun t _ => ?_
  · refine runs_foldlM (fun t : Dict α (List α) × Dict α Int × Int => (⟨p, some m, some m.managed, some vs, some table, some t.2.1,
      some labels, some t.1, some cores, re, si, tot⟩ : DbSelf α V δ)) (fun t => t.2.2) (dkeys locals) (fun g x _ => ?_)
      (locals, (dvals cores).foldl dbFinalCore ([], 0))
    refine runs_attr rfl (runs_notNone rfl (runs_param ?_))
    exact runs_then (runs_lift _ _) fun d => rfl
  · refine runs_notNone rfl ?_
    refine runs_bind (runs_lift _ _) fun renamed _ => ?_
    rfl

/-- The call of `cluster` on any object, and all attributes after a successful call. -/
theorem db_cluster (c : ClusterCall (DbEnv α V δ) α V) (s : DbSelf α V δ) :
    (DbSelf.cluster c s).2 = (dbCluster c.env s.params c.manager c.vectors c.nb).map (fun o => o.predicted.getD []) ∧
      ∀ o, dbCluster c.env s.params c.manager c.vectors c.nb = .ok o →
        ∃ table, distanceTable c.manager (c.vectors.getD []) c.env.metric = .ok table ∧
          DbSelf.cluster c s = (⟨s.params, some c.manager, some c.manager.managed, c.vectors, some table, o.predicted, some o.labels,
            some o.locals, some o.cores, o.regular, o.single, o.total⟩, .ok (o.predicted.getD [])) := by
  obtain ⟨env, m, vectors, nb⟩ := c
  cases vectors with
  | none => exact ⟨rfl, fun o h => by cases h⟩
  | some vs =>
    cases nb with
    | some n => exact ⟨rfl, fun o h => by cases h⟩
    | none =>
      cases ht : distanceTable m vs env.metric with
      | error e =>
        have h1 : dbCluster env s.params m (some vs) none = .error e := by unfold dbCluster; simp only [ht]; rfl
        refine ⟨?_, fun o h => ?_⟩
        · rw [h1]; simp only [DbSelf.cluster, bind_apply, write, attr, lift, ht]; rfl
        · rw [h1] at h; cases h
      | ok table =>
        have key : Runs (DbSelf.cluster ⟨env, m, some vs, none⟩) s (dbCluster env s.params m (some vs) none)
            (fun o => (⟨s.params, some m, some m.managed, some vs, some table, o.predicted, some o.labels, some o.locals,
              some o.cores, o.regular, o.single, o.total⟩, o.predicted.getD [])) := by
          unfold DbSelf.cluster dbCluster
          simp only [ht]
          refine runs_write (runs_attr rfl (runs_write (runs_write (runs_attr rfl (runs_attr rfl ?_)))))
          refine runs_bind (r := .ok table) (k := fun t => (_, t)) (by dsimp only; rw [ht]; exact rfl) fun t ht' => ?_
          cases ht'
          refine runs_write (runs_write (runs_attr rfl (runs_write (runs_write (runs_write ?_)))))
          dsimp only
          refine runs_bind (db_locals (s := ⟨s.params, some m, some m.managed, some vs, some table, some [], none, none,
            some (dofList (m.managed.map fun x => (x, []))), s.regular, s.single, s.total⟩) ⟨rfl, rfl, rfl, rfl⟩ m.managed
            (dofList (m.managed.map fun x => (x, .unlabeled)), [])) fun t _ => ?_
          obtain ⟨labels, locals⟩ := t
          refine runs_bind (db_merge env (m := m) (vs := vs) (table := table) ⟨rfl, rfl, rfl, rfl⟩ rfl rfl rfl) fun core _ => ?_
          refine runs_attr rfl ?_
          refine runs_bind (db_grow env (s := ⟨s.params, some m, some m.managed, some vs, some table, some [], some labels, none,
            none, s.regular, s.single, s.total⟩) ⟨rfl, rfl, rfl, rfl⟩ (dkeys core) (core, locals)) fun t _ => ?_
          obtain ⟨cores, rest⟩ := t
          exact db_finish (m := m) (vs := vs) (table := table) ⟨rfl, rfl, rfl, rfl⟩ rfl rfl rfl rfl
        refine ⟨key.result, fun o h => ⟨table, ht, ?_⟩⟩
        have := key
        unfold Runs at this
        dsimp only at h
        rw [h] at this
        exact this

theorem db_keeps (c : ClusterCall (DbEnv α V δ) α V) : Keeps DbSelf.params (DbSelf.cluster c) := by
  have hl : ∀ x, Keeps DbSelf.params (DbSelf.localStep x : Meth (DbSelf α V δ) _) := by
    intro x; unfold DbSelf.localStep; keeps
  have hm : Keeps DbSelf.params (DbSelf.mergeMustLinks c.env : Meth (DbSelf α V δ) _) := by
    unfold DbSelf.mergeMustLinks; keeps
  have hg : ∀ x, Keeps DbSelf.params (DbSelf.growStep c.env x : Meth (DbSelf α V δ) _) := by
    intro x; unfold DbSelf.growStep; keeps
  have hf : Keeps DbSelf.params (DbSelf.finish : Meth (DbSelf α V δ) _) := by
    unfold DbSelf.finish; keeps
  unfold DbSelf.cluster
  keeps

end

/-! ### Spectral clustering -/

section
variable {α V κ : Type} [LinearOrder α]

theorem spec_imprint (env : SpecEnv V κ) {s : SpecSelf α V κ} {m : Manager α} (S : Mat κ) :
    Runs (m.managed.zipIdx.foldlM (fun _ p => m.managed.zipIdx.foldlM (fun _ q => do
        let S ← attr SpecSelf.similarity
        let S' ← lift (specStep env m p S q)
        write fun s => { s with similarity := some S' }) ()) ()) { s with similarity := some S } (specImprint env m S)
      (fun S => ({ s with similarity := some S }, ())) := by
  refine runs_foldlM (fun S => ({ s with similarity := some S } : SpecSelf α V κ)) (fun _ => ()) _ (fun g p _ => ?_) S
  refine runs_foldlM (fun S => ({ s with similarity := some S } : SpecSelf α V κ)) (fun _ => ()) _ (fun g q _ => ?_) g
  refine runs_attr rfl ?_
  exact runs_then (runs_lift _ _) fun d => rfl

/-- The call of `cluster` on any object, and all attributes after a successful call. -/
theorem spec_cluster (c : ClusterCall (SpecEnv V κ) α V) (s : SpecSelf α V κ) :
    Runs (SpecSelf.cluster c) s (specCluster c.env c.manager c.vectors c.nb)
      (fun o => (⟨s.nbComponents, some c.manager, some c.manager.managed, c.vectors, some o.nbClusters,
        some (specComponents s.nbComponents o.nbClusters), some o.similarity, some o.predicted⟩, o.predicted)) := by
  obtain ⟨env, m, vectors, nb⟩ := c
  unfold SpecSelf.cluster specCluster
  refine runs_write (runs_attr rfl (runs_write ?_))
  cases vectors with
  | none => rfl
  | some vs =>
    cases nb with
    | none => rfl
    | some n =>
      refine runs_write ?_
      by_cases hn : n < 2
      · simp only [hn, if_true]; rfl
      · simp only [hn, if_false]
        refine runs_attr rfl (runs_write (runs_param (runs_attr rfl (runs_write (runs_attr rfl (runs_attr rfl ?_))))))
        refine runs_bind (runs_lift _ _) fun rows _ => ?_
        refine runs_write (runs_write ?_)
        unfold SpecSelf.spec
        simp only [bind_assoc]
        refine runs_attr rfl (runs_attr rfl ?_)
        refine runs_bind (spec_imprint env (s := ⟨s.nbComponents, some m, some m.managed, some vs, some (min n.toNat m.managed.length),
          some (specComponents s.nbComponents (min n.toNat m.managed.length)), none, none⟩)
          (rows.map fun v => rows.map fun w => env.kernel v w)) fun S _ => ?_
        refine runs_attr rfl (runs_attr rfl ?_)
        refine runs_bind (runs_lift _ _) fun labels _ => ?_
        refine runs_bind (runs_lift _ _) fun items _ => ?_
        refine runs_bind (runs_lift _ _) fun d _ => ?_
        rfl

theorem spec_keeps (c : ClusterCall (SpecEnv V κ) α V) : Keeps SpecSelf.nbComponents (SpecSelf.cluster c) := by
  have hm : Keeps SpecSelf.nbComponents (SpecSelf.spec c.env : Meth (SpecSelf α V κ) _) := by
    unfold SpecSelf.spec; keeps
  unfold SpecSelf.cluster
  keeps

end

/-! ### Affinity propagation -/

section
variable {α V κ μ θ : Type} [LinearOrder α] [LinearOrder κ]

theorem ap_cluster (c : ClusterCall (ApEnv V κ μ θ) α V) (s : ApSelf α V) :
    Runs (ApSelf.cluster c) s (apCluster c.env s.params c.manager c.vectors c.nb)
      (fun d => (⟨s.params, some c.manager, some c.manager.managed, c.vectors, some d⟩, d)) := by
  obtain ⟨env, m, vectors, nb⟩ := c
  unfold ApSelf.cluster apCluster
  refine runs_write (runs_attr rfl (runs_write ?_))
  cases vectors with
  | none => rfl
  | some vs =>
    cases nb with
    | some n => rfl
    | none =>
      refine runs_write (runs_write (runs_attr rfl (runs_attr rfl ?_)))
      dsimp only
      refine runs_bind (runs_lift (stackRows m vs) _) fun rows _ => ?_
      refine runs_attr rfl ?_
      refine runs_bind (runs_lift _ _) fun mls _ => ?_
      refine runs_bind (runs_lift (apCannotLinks m) _) fun cls _ => ?_
      refine runs_param ?_
      refine runs_bind (runs_lift _ _) fun labels _ => ?_
      refine runs_bind (runs_lift _ _) fun items _ => ?_
      exact runs_then (runs_lift _ _) fun d => rfl

theorem ap_keeps (c : ClusterCall (ApEnv V κ μ θ) α V) : Keeps ApSelf.params (ApSelf.cluster c : Meth (ApSelf α V) _) := by
  unfold ApSelf.cluster
  keeps

end

/-! ### MPC-KMeans -/

section
variable {α V κ θ : Type} [LinearOrder α] [LinearOrder κ]

/-- What a call computes and keeps: the constraints between positions, the labels of the rows, the prediction. -/
def mpcAll (env : MpcEnv V κ θ) (p : MpcParams) (m : Manager α) (vectors : Option (Dict α V)) (nb : Option Int) :
    Except PyErr (List (Nat × Nat) × List (Nat × Nat) × List Int × Dict α Int) :=
  match vectors, nb with
  | none, _ => .error (.valueError "vectors")
  | some _, none => .error (.valueError "nb_clusters")
  | some vectors, some nb => do
    if nb < 2 then throw (.valueError "nb_clusters")
    let ml ← mpcPairs m .mustLink
    let cl ← mpcPairs m .cannotLink
    let labels ← mpcLabels env p m.managed.length (min nb.toNat m.managed.length) ml cl (dvals vectors)
    let items ← (labels.zipIdx.filter fun q => decide (q.1 ≠ -1)).mapM fun q => do return (← lget (dkeys vectors) q.2, q.1)
    let renamed ← renameClusters (dofList items)
    return (ml, cl, labels, m.managed.foldl (fun d x => if x ∈ dkeys d then d else dset d x (-1)) renamed)

theorem mpcAll_predicted (env : MpcEnv V κ θ) (p : MpcParams) (m : Manager α) (vectors : Option (Dict α V)) (nb : Option Int) :
    mpcCluster env p m vectors nb = (mpcAll env p m vectors nb).map fun r => r.2.2.2 := by
  unfold mpcCluster mpcAll
  cases vectors with
  | none => rfl
  | some vs =>
    cases nb with
    | none => rfl
    | some n =>
      dsimp only
      by_cases hn : n < 2
      · simp only [hn, if_true]; rfl
      · simp only [hn, if_false]
        cases mpcPairs m .mustLink with
        | error e => rfl
        | ok ml =>
          cases mpcPairs m .cannotLink with
          | error e => rfl
          | ok cl =>
            dsimp only [bind, pure, Except.bind, Except.pure]
            cases mpcLabels env p m.managed.length (min n.toNat m.managed.length) ml cl (dvals vs) with
            | error e => rfl
            | ok labels =>
              dsimp only
              split
              · rfl
              · rename_i items _
                cases renameClusters (dofList items) with
                | error e => rfl
                | ok renamed => rfl

theorem mpc_cluster (c : ClusterCall (MpcEnv V κ θ) α V) (s : MpcSelf α V) :
    Runs (MpcSelf.cluster c) s (mpcAll c.env s.params c.manager c.vectors c.nb)
      (fun r => (⟨s.params, some c.manager, some c.manager.managed, c.vectors,
        some (min (c.nb.getD 0).toNat c.manager.managed.length), some r.1, some r.2.1, some r.2.2.1, some r.2.2.2⟩, r.2.2.2)) := by
  obtain ⟨env, m, vectors, nb⟩ := c
  unfold MpcSelf.cluster mpcAll
  refine runs_write (runs_attr rfl (runs_write ?_))
  cases vectors with
  | none => rfl
  | some vs =>
    cases nb with
    | none => rfl
    | some n =>
      refine runs_write ?_
      by_cases hn : n < 2
      · simp only [hn, if_true]; rfl
      · simp only [hn, if_false]
        refine runs_attr rfl (runs_write (runs_attr rfl ?_))
        dsimp only
        refine runs_bind (runs_lift (mpcPairs m .mustLink) _) fun ml _ => ?_
        refine runs_write ?_
        refine runs_bind (runs_lift (mpcPairs m .cannotLink) _) fun cl _ => ?_
        refine runs_write (runs_param (runs_attr rfl (runs_attr rfl (runs_attr rfl ?_))))
        refine runs_bind (runs_lift _ _) fun labels _ => ?_
        refine runs_write (runs_attr rfl ?_)
        refine runs_bind (runs_lift _ _) fun items _ => ?_
        refine runs_write (runs_notNone rfl ?_)
        refine runs_bind (runs_lift _ _) fun renamed _ => ?_
        rfl

theorem mpc_keeps (c : ClusterCall (MpcEnv V κ θ) α V) : Keeps MpcSelf.params (MpcSelf.cluster c : Meth (MpcSelf α V) _) := by
  unfold MpcSelf.cluster
  keeps

end

/-! ### Hierarchical clustering: the linkage -/

section
variable {α V δ : Type} [LinearOrder α] [LinearOrder δ]

theorem h_keeps (c : ClusterCall (HierEnv V δ) α V) : Keeps HSelf.linkage (HSelf.cluster c) := by
  have hst : Keeps HSelf.linkage (HSelf.state : Meth (HSelf α V δ) _) := by unfold HSelf.state; keeps
  have hset : ∀ t, Keeps HSelf.linkage (HSelf.setState t : Meth (HSelf α V δ) _) := by intro t; unfold HSelf.setState; keeps
  have hadd : ∀ l, Keeps HSelf.linkage (HSelf.addLeaf c.env l : Meth (HSelf α V δ) _) := by
    intro l; unfold HSelf.addLeaf; keeps
  have hini : Keeps HSelf.linkage (HSelf.initDistances c.env : Meth (HSelf α V δ) _) := by
    unfold HSelf.initDistances; keeps
  have hl : ∀ n, Keeps HSelf.linkage (HSelf.loop c.env n : Meth (HSelf α V δ) _) := by
    intro n
    induction n with
    | zero => unfold HSelf.loop; keeps
    | succ n ih => unfold HSelf.loop; keeps
  have hcut : ∀ n b, Keeps HSelf.linkage (HSelf.cut n b : Meth (HSelf α V δ) _) := by
    intro n b; unfold HSelf.cut; keeps
  have htree : Keeps HSelf.linkage (HSelf.tree c.env : Meth (HSelf α V δ) _) := by
    unfold HSelf.tree; keeps; exact hl _
  unfold HSelf.cluster HSelf.build
  keeps
  exact hl _

end

end Verif
