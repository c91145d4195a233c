import Verif.Proofs.Geometry

/-
Lemmas for C90, third part: KMeans, spectral clustering and affinity propagation with other vectors.
-/

namespace Verif

variable {α V V' δ δ' : Type} [LinearOrder α] [LinearOrder δ] [LinearOrder δ'] {m : Manager α}

section KMeans
variable {env : KMeansEnv α V δ} {env' : KMeansEnv α V' δ'} {φ : V → V'} {ψ : δ → δ'}

theorem dget_moving {κ ν ν' : Type} [DecidableEq κ] (g : ν → ν') (d : Dict κ ν) (x : κ) : dget (dmap id g d) x = (dget d x).map g :=
  dget_dmap (f := id) Function.injective_id g d x

theorem kmInitialize_geo (he : MovedKMeans φ ψ m env env') (vs : Dict α V) (nb : Nat) :
    kmInitialize env' m.managed (dmap id φ vs) nb = (kmInitialize env m.managed vs nb).map (dmap id φ) := by
  unfold kmInitialize
  simp only [he.shuffle]
  refine bind_names (F := List.map fun q : Int × V => (q.1, φ q.2)) (mapM_values fun c _ => ?_) fun items => ?_
  · unfold kmInitEntry
    split
    · exact bind_names (dget_moving φ vs _) fun v => rfl
    · rfl
  · exact congrArg Except.ok (dofList_dmap (f := id) Function.injective_id φ items)

theorem kmDistances_geo (he : MovedKMeans φ ψ m env env') (vs : Dict α V) (centroids : Dict Int V) :
    kmDistances env' m (dmap id φ vs) (dmap id φ centroids) = (kmDistances env m vs centroids).map (dmap id (dmap id ψ)) := by
  unfold kmDistances
  refine bind_names (F := List.map fun q : α × V => (q.1, φ q.2)) (mapM_values fun x _ => ?_) fun rows => ?_
  · exact bind_names (dget_moving φ vs x) fun v => rfl
  · simp only [List.isEmpty_map, dmap]
    split
    · rfl
    · split
      · rfl
      · show Except.ok _ = Except.ok _
        congr 1
        have h1 : ∀ p : α × V, dofList ((List.map (fun q : Int × V => (id q.1, φ q.2)) centroids).map fun q => (q.1, env'.metric (φ p.2) q.2)) =
            dmap id ψ (dofList (centroids.map fun q => (q.1, env.metric p.2 q.2))) := fun p => by
          rw [← dofList_dmap (f := id) Function.injective_id, List.map_map, List.map_map]
          congr 1
          exact List.map_congr_left fun q _ => by simp only [Function.comp_apply, he.metric, id]
        have h2 := dofList_dmap (f := id) Function.injective_id (dmap id ψ)
          (rows.map fun p => (p.1, dofList (centroids.map fun q => (q.1, env.metric p.2 q.2))))
        rw [← h2, List.map_map, List.map_map]
        congr 1
        exact List.map_congr_left fun p _ => Prod.ext rfl (h1 p)

theorem kmNearest_geo (hψ : StrictMono ψ) (row : Dict Int δ) (possible : List Int) :
    kmNearest (dmap id ψ row) possible = kmNearest row possible := by
  unfold kmNearest
  refine bind_names_same (F := List.map fun q : δ × Int => (ψ q.1, q.2)) (mapM_values fun c _ => ?_) fun items => ?_
  · exact bind_names (dget_moving ψ row c) fun d => rfl
  · have : dofList (items.map fun q : δ × Int => (ψ q.1, q.2)) = dmap ψ id (dofList items) := dofList_dmap (f := ψ) hψ.injective id items
    simp only [this, dkeys_dmap, min?_mono hψ.monotone]
    cases (dkeys (dofList items)).min? with
    | none => rfl
    | some d =>
      show dget (dmap ψ id (dofList items)) (ψ d) = _
      rw [dget_dmap hψ.injective, map_except_id]

theorem kmChoose_geo (hψ : StrictMono ψ) (ids : List α) (nb : Nat) (centroids : Dict Int V) (dist : Dict α (Dict Int δ))
    (new : Dict α Int) (x : α) :
    kmChoose m ids nb (dmap id φ centroids) (dmap id (dmap id ψ) dist) new x = kmChoose m ids nb centroids dist new x := by
  unfold kmChoose
  refine congrArg (bind _) (funext fun nc => ?_)
  rw [dkeys_dmap, List.map_id]
  dsimp only
  split
  · rfl
  · exact bind_names_same (dget_moving (dmap id ψ) dist x) fun row => kmNearest_geo hψ row _

theorem kmAssignAll_geo (hψ : StrictMono ψ) (ids : List α) (nb : Nat) (centroids : Dict Int V) (dist : Dict α (Dict Int δ))
    (fuel : Nat) (s : List α × Dict α Int) :
    kmAssignAll m ids nb (dmap id φ centroids) (dmap id (dmap id ψ) dist) fuel s = kmAssignAll m ids nb centroids dist fuel s := by
  induction fuel generalizing s with
  | zero => rfl
  | succ fuel ih =>
    unfold kmAssignAll
    split
    · rfl
    · unfold kmAssign
      simp only [kmChoose_geo hψ, ih]

theorem kmCentroids_geo (he : MovedKMeans φ ψ m env env') (vs : Dict α V) (clusters : Dict α Int) :
    kmCentroids env' m (dmap id φ vs) clusters = (kmCentroids env m vs clusters).map (dmap id φ) := by
  unfold kmCentroids
  rw [he.enum]
  refine bind_names (F := List.map fun q : Int × V => (q.1, φ q.2)) (mapM_values fun c _ => ?_) fun items => ?_
  · refine bind_same_names rfl fun ys => ?_
    refine bind_names (mapM_values fun y _ => dget_moving φ vs y) fun l => ?_
    rw [List.isEmpty_map]
    cases l with
    | nil => rfl
    | cons a l =>
      show Except.ok _ = Except.ok _
      rw [he.mean _ (List.cons_ne_nil a l)]
  · exact congrArg Except.ok (dofList_dmap (f := id) Function.injective_id φ items)

/-- A pair of labels and centroids with other centroids. -/
def kmMoved (φ : V → V') (r : Dict α Int × Dict Int V) : Dict α Int × Dict Int V' := (r.1, dmap id φ r.2)

theorem kmPass_geo (he : MovedKMeans φ ψ m env env') (vs : Dict α V) (nb : Nat) (centroids : Dict Int V) :
    kmPass env' m (dmap id φ vs) nb (dmap id φ centroids) = (kmPass env m vs nb centroids).map (kmMoved φ) := by
  unfold kmPass
  refine bind_names (kmDistances_geo he vs centroids) fun dist => ?_
  refine bind_same_names (kmAssignAll_geo he.mono m.managed nb centroids dist _ _) fun new => ?_
  exact bind_names (kmCentroids_geo he vs new) fun cs => rfl

theorem kmConverged_geo (he : MovedKMeans φ ψ m env env') (clusters new : Dict α Int) (c c' : Dict Int V) :
    kmConverged env' clusters new (dmap id φ c) (dmap id φ c') = kmConverged env clusters new c c' := by
  unfold kmConverged
  split
  · rw [dkeys_dmap, List.map_id]
    refine bind_names_same (F := List.map fun q : V × V => (φ q.1, φ q.2)) (mapM_values fun k _ => ?_) fun pairs => ?_
    · exact bind_names (dget_moving φ c k) fun v => bind_names (dget_moving φ c' k) fun w => rfl
    · rw [List.isEmpty_map, he.small]
  · rfl

theorem kmLoop_geo (he : MovedKMeans φ ψ m env env') (vs : Dict α V) (nb left : Nat) (clusters : Dict α Int) (centroids : Dict Int V) :
    kmLoop env' m (dmap id φ vs) nb left clusters (dmap id φ centroids) =
      (kmLoop env m vs nb left clusters centroids).map (kmMoved φ) := by
  induction left generalizing clusters centroids with
  | zero => rfl
  | succ left ih =>
    unfold kmLoop
    refine bind_names (kmPass_geo he vs nb centroids) fun r => ?_
    refine bind_same_names (kmConverged_geo he clusters r.1 centroids r.2) fun b => ?_
    cases b
    · exact ih r.1 r.2
    · rfl

theorem kmCOP_geo (he : MovedKMeans φ ψ m env env') (vs : Dict α V) (nb maxIteration : Nat) :
    kmCOP env' m (dmap id φ vs) nb maxIteration = (kmCOP env m vs nb maxIteration).map (kmMoved φ) := by
  unfold kmCOP
  refine bind_names (kmInitialize_geo he vs nb) fun cs => ?_
  refine bind_names (kmLoop_geo he vs nb maxIteration _ cs) fun r => ?_
  refine bind_same_names rfl fun l => ?_
  exact bind_names (kmCentroids_geo he vs r.1) fun c => rfl

end KMeans

/-! ### Methods that only see a matrix -/

omit [LinearOrder δ] [LinearOrder δ'] in
theorem stackRows_cases {vs : Dict α V} {vs' : Dict α V'} (hd : SameDomain m vs vs') :
    (∃ e, stackRows m vs = .error e ∧ stackRows m vs' = .error e) ∨
    ∃ (val : α → V) (val' : α → V'), (∀ x ∈ m.managed, dget? vs x = some (val x)) ∧ (∀ x ∈ m.managed, dget? vs' x = some (val' x)) ∧
      stackRows m vs = .ok (m.managed.map val) ∧ stackRows m vs' = .ok (m.managed.map val') := by
  have link : ∀ {W : Type} (ws : Dict α W), (distanceTable m ws fun _ _ => ()) =
      (stackRows m ws).map fun rows => (m.managed.zip rows).map fun p => (p.1, (m.managed.zip rows).map fun q => (q.1, ())) := by
    intro W ws
    have h1 : (m.managed.mapM fun x => do return (x, ← dget ws x) : Except PyErr (List (α × W))) =
        (m.managed.mapM fun x => dget ws x).map fun rows => m.managed.zip rows := by
      generalize m.managed = l
      induction l with
      | nil => rfl
      | cons x l ih =>
        rw [List.mapM_cons, List.mapM_cons, ih]
        cases dget ws x with
        | error e => rfl
        | ok v => cases (l.mapM fun x => dget ws x) <;> rfl
    have h2 : ∀ rows, (m.managed.mapM fun x => dget ws x) = .ok rows → rows.length = m.managed.length := by
      intro rows e
      generalize m.managed = l at e
      induction l generalizing rows with
      | nil => cases e; rfl
      | cons x l ih =>
        rw [List.mapM_cons] at e
        cases e1 : dget ws x with
        | error _ => rw [e1] at e; cases e
        | ok v =>
          cases e2 : (l.mapM fun x => dget ws x) with
          | error _ => rw [e1, e2] at e; cases e
          | ok r =>
            rw [e1, e2] at e
            cases e
            simp [ih r e2]
    unfold distanceTable stackRows
    rw [h1]
    cases e : (m.managed.mapM fun x => dget ws x) with
    | error _ => rfl
    | ok rows =>
      have hl := h2 rows e
      have : (m.managed.zip rows).isEmpty = rows.isEmpty := by
        cases rows with
        | nil => simp
        | cons a r => cases hm : m.managed with
          | nil => rw [hm] at hl; cases hl
          | cons b l => rfl
      simp only [Except.map, bind, Except.bind, this]
      split <;> rfl
  rcases domain_cases (δ := Unit) (δ' := Unit) hd with ⟨e, h1, h2⟩ | ⟨hne, val, val', hv, hv'⟩
  · left
    have e1 := h1 fun _ _ => ()
    have e2 := h2 fun _ _ => ()
    rw [link] at e1 e2
    refine ⟨e, ?_, ?_⟩
    · cases h : stackRows m vs with
      | error e' => rw [h] at e1; injection e1 with e1; rw [e1]
      | ok r => rw [h] at e1; cases e1
    · cases h : stackRows m vs' with
      | error e' => rw [h] at e2; injection e2 with e2; rw [e2]
      | ok r => rw [h] at e2; cases e2
  · right
    have get : ∀ {W : Type} {ws : Dict α W} {v : α → W}, (∀ x ∈ m.managed, dget? ws x = some (v x)) → stackRows m ws = .ok (m.managed.map v) := by
      intro W ws v h
      unfold stackRows
      have : (m.managed.mapM fun x => dget ws x) = .ok (m.managed.map v) := by
        generalize m.managed = l at h
        induction l with
        | nil => rfl
        | cons x l ih =>
          rw [List.mapM_cons, ih fun y hy => h y (List.mem_cons_of_mem _ hy), dget_of_dget? (h x List.mem_cons_self)]
          rfl
      rw [this]
      have h2 : (m.managed.map v).isEmpty = false := by
        rw [List.isEmpty_map, List.isEmpty_eq_false_iff]
        exact hne
      show (if (m.managed.map v).isEmpty = true then _ else _) = _
      rw [h2]
      rfl
    exact ⟨val, val', hv, hv', get hv, get hv'⟩

/-- The matrix of a function of two rows. -/
theorem stackRows_matrix {κ : Type} {vs : Dict α V} {vs' : Dict α V'} (hd : SameDomain m vs vs') {g : V → V → κ} {g' : V' → V' → κ}
    (h : DistancesBy id m g vs g' vs') :
    ((stackRows m vs').map fun rows => rows.map fun v => rows.map fun w => g' v w) =
      (stackRows m vs).map fun rows => rows.map fun v => rows.map fun w => g v w := by
  rcases stackRows_cases hd with ⟨e, h1, h2⟩ | ⟨val, val', hv, hv', h1, h2⟩
  · rw [h1, h2]; rfl
  · rw [h1, h2]
    show Except.ok _ = Except.ok _
    simp only [List.map_map]
    congr 1
    refine List.map_congr_left fun x hx => List.map_congr_left fun y hy => ?_
    have := h x hx y hy
    rw [distanceOf_val hv g hx hy, distanceOf_val hv' g' hx hy, Option.map_id] at this
    exact Option.some.inj this

section
variable {κ μ θ : Type} [LinearOrder κ]

theorem apLoop_withDist (env : ApEnv V κ μ θ) (g : V' → V' → κ) (p : ApParams) (S : Mat κ) (n : Nat) (cls : List (Nat × Nat))
    (left it : Nat) (s : ApState μ θ) : apLoop (env.withDist g) p S n cls left it s = apLoop env p S n cls left it s := by
  induction left generalizing it s with
  | zero => rfl
  | succ left ih =>
    unfold apLoop
    have h : apIter (env.withDist g) p S n cls it s = apIter env p S n cls it s := rfl
    simp only [h, ih]

theorem apRun_withDist (env : ApEnv V κ μ θ) (g : V' → V' → κ) (p : ApParams) (S : Mat κ) (mls : List (List Nat))
    (cls : List (Nat × Nat)) : apRun (env.withDist g) p S mls cls = apRun env p S mls cls := by
  have h1 : ∀ S, apBlock (env.withDist g) S mls = apBlock env S mls := fun S => rfl
  have h2 : ∀ S Sp I, apLabels (env.withDist g) S Sp I = apLabels env S Sp I := fun S Sp I => rfl
  have h3 : ∀ N, apInit (env.withDist g) p N cls = apInit env p N cls := fun N => rfl
  have hF : ∀ pref S, apFinish (env.withDist g) p pref S mls cls = apFinish env p pref S mls cls := by
    intro pref S
    unfold apFinish
    simp only [h1, h2, h3, apLoop_withDist]
    rfl
  unfold apRun
  simp only [hF]
  rfl

end

end Verif
