import Verif.Proofs.NamesExact
import Verif.Proofs.Vectors
import Verif.Proofs.Rename
import Verif.Proofs.KMeans
import Verif.Proofs.DBOrder
import Verif.Model.Spectral
import Verif.Model.Affinity

/-
Lemmas for C86, third part: the clusterings under other names.
-/

namespace Verif

/-! ### Computations that may raise -/

section
variable {ε β β' γ γ' ι ι' σ σ' : Type}

theorem bind_names {F : β → β'} {G : γ → γ'} {a : Except ε β} {a' : Except ε β'} {k : β → Except ε γ} {k' : β' → Except ε γ'}
    (h : a' = a.map F) (hk : ∀ b, k' (F b) = (k b).map G) : (a' >>= k') = (a >>= k).map G := by
  subst h
  cases a with
  | error e => rfl
  | ok b => exact hk b

theorem bind_names_same {F : β → β'} {a : Except ε β} {a' : Except ε β'} {k : β → Except ε γ} {k' : β' → Except ε γ}
    (h : a' = a.map F) (hk : ∀ b, k' (F b) = k b) : (a' >>= k') = (a >>= k) := by
  subst h
  cases a with
  | error e => rfl
  | ok b => exact hk b

theorem bind_same_names {G : γ → γ'} {a a' : Except ε β} {k : β → Except ε γ} {k' : β → Except ε γ'}
    (h : a' = a) (hk : ∀ b, k' b = (k b).map G) : (a' >>= k') = (a >>= k).map G := by
  subst h
  cases a' with
  | error e => rfl
  | ok b => exact hk b

theorem mapM_names {f : ι → ι'} {F : β → β'} {g : ι → Except ε β} {g' : ι' → Except ε β'} {l : List ι}
    (h : ∀ x ∈ l, g' (f x) = (g x).map F) : (l.map f).mapM g' = (l.mapM g).map (List.map F) := by
  induction l with
  | nil => rfl
  | cons x l ih =>
    rw [List.map_cons, List.mapM_cons, List.mapM_cons, ih fun y hy => h y (List.mem_cons_of_mem _ hy)]
    exact bind_names (h x List.mem_cons_self) fun b => bind_names rfl fun bs => rfl

theorem mapM_names_same {f : ι → ι'} {g : ι → Except ε β} {g' : ι' → Except ε β} {l : List ι}
    (h : ∀ x ∈ l, g' (f x) = g x) : (l.map f).mapM g' = l.mapM g := by
  induction l with
  | nil => rfl
  | cons x l ih =>
    rw [List.map_cons, List.mapM_cons, List.mapM_cons, ih fun y hy => h y (List.mem_cons_of_mem _ hy), h x List.mem_cons_self]

theorem mapM_values {F : β → β'} {g : ι → Except ε β} {g' : ι → Except ε β'} {l : List ι}
    (h : ∀ x ∈ l, g' x = (g x).map F) : l.mapM g' = (l.mapM g).map (List.map F) := by
  have := mapM_names (f := id) (F := F) (g := g) (g' := g') (l := l) h
  rwa [List.map_id] at this

theorem filterM_names {f : ι → ι'} {p : ι → Except ε Bool} {p' : ι' → Except ε Bool} {l : List ι}
    (h : ∀ x ∈ l, p' (f x) = p x) : (l.map f).filterM p' = (l.filterM p).map (List.map f) := by
  have key : ∀ (l acc : List ι), (∀ x ∈ l, p' (f x) = p x) →
      List.filterAuxM p' (l.map f) (acc.map f) = (List.filterAuxM p l acc).map (List.map f) := by
    intro l
    induction l with
    | nil => exact fun acc _ => rfl
    | cons x l ih =>
      intro acc h
      rw [List.map_cons]
      unfold List.filterAuxM
      refine bind_same_names (h x List.mem_cons_self) fun b => ?_
      rw [← ih _ fun y hy => h y (List.mem_cons_of_mem _ hy)]
      cases b <;> rfl
  unfold List.filterM
  refine bind_names (key l [] h) fun r => ?_
  simp [pure, Except.pure, Except.map]

theorem foldlM_names {f : ι → ι'} {φ : σ → σ'} {k : σ → ι → Except ε σ} {k' : σ' → ι' → Except ε σ'} {l : List ι} {s : σ}
    (h : ∀ x ∈ l, ∀ s, k' (φ s) (f x) = (k s x).map φ) : (l.map f).foldlM k' (φ s) = (l.foldlM k s).map φ := by
  induction l generalizing s with
  | nil => rfl
  | cons x l ih =>
    rw [List.map_cons, List.foldlM_cons, List.foldlM_cons]
    exact bind_names (h x List.mem_cons_self s) fun t => ih fun y hy => h y (List.mem_cons_of_mem _ hy)

theorem foldlM_names_same {f : ι → ι'} {k : σ → ι → Except ε σ} {k' : σ → ι' → Except ε σ} {l : List ι} {s : σ}
    (h : ∀ x ∈ l, ∀ s, k' s (f x) = k s x) : (l.map f).foldlM k' s = l.foldlM k s := by
  induction l generalizing s with
  | nil => rfl
  | cons x l ih =>
    rw [List.map_cons, List.foldlM_cons, List.foldlM_cons, h x List.mem_cons_self]
    exact congrArg (k s x >>= ·) (funext fun t => ih fun y hy => h y (List.mem_cons_of_mem _ hy))

theorem foldlM_state {φ : σ → σ'} {k : σ → ι → Except ε σ} {k' : σ' → ι → Except ε σ'} {l : List ι} {s : σ}
    (h : ∀ x ∈ l, ∀ s, k' (φ s) x = (k s x).map φ) : l.foldlM k' (φ s) = (l.foldlM k s).map φ := by
  have := foldlM_names (f := id) (φ := φ) (k := k) (k' := k') (l := l) (s := s) h
  rwa [List.map_id] at this

theorem anyM_names {f : ι → ι'} {p : ι → Except ε Bool} {p' : ι' → Except ε Bool} {l : List ι}
    (h : ∀ x ∈ l, p' (f x) = p x) : (l.map f).anyM p' = l.anyM p := by
  induction l with
  | nil => rfl
  | cons x l ih =>
    rw [List.map_cons]
    unfold List.anyM
    rw [h x List.mem_cons_self, ih fun y hy => h y (List.mem_cons_of_mem _ hy)]

theorem map_except_id (a : Except ε β) : a.map id = a := by cases a <;> rfl

end

variable {α β V δ κ μ θ : Type} [LinearOrder α] [LinearOrder β] [LinearOrder δ] {f : α → β}

omit [LinearOrder α] [LinearOrder β] in
theorem renameKeys_eq {ν : Type} (d : Dict α ν) : renameKeys f d = dmap f id d := rfl

/-! ### Labels -/

theorem insertionSort_map (hf : StrictMono f) (l : List α) :
    (l.map f).insertionSort (· ≤ ·) = (l.insertionSort (· ≤ ·)).map f := by
  refine List.Perm.eq_of_pairwise' (List.pairwise_insertionSort _ _) ?_ ?_
  · rw [List.pairwise_map]
    exact (List.pairwise_insertionSort (α := α) (· ≤ ·) l).imp fun h => hf.le_iff_le.2 h
  · exact (List.perm_insertionSort _ _).trans ((List.perm_insertionSort _ _).symm.map f)

theorem dvals_lab {d : Dict α Int} (hn : (dkeys d).Nodup) : dvals d = (dkeys d).map (lab d) := by
  unfold dvals dkeys
  rw [List.map_map]
  refine List.map_congr_left fun p hp => ?_
  have := dget?_of_mem hn hp
  rw [dget?_lab (List.mem_map_of_mem (f := Prod.fst) hp)] at this
  exact (Option.some.inj this).symm

theorem renameClusters_names (hf : f.Injective) {d : Dict α Int} (hn : (dkeys d).Nodup) :
    ∃ r r', renameClusters d = .ok r ∧ renameClusters (dmap f id d) = .ok r' ∧ RenamedLabels f r r' ∧
      (∀ x c, dget? r x = some c → 0 ≤ c) ∧ (∀ x c, dget? r' x = some c → 0 ≤ c) := by
  have hn' : (dkeys (dmap f id d)).Nodup := by rw [dkeys_dmap]; exact hn.map hf
  obtain ⟨r, e, hk, hp, hfa⟩ := rename_ok hn
  obtain ⟨r', e', hk', hp', hfa'⟩ := rename_ok hn'
  have hmem : ∀ x, x ∈ dkeys r ↔ x ∈ dkeys d := fun x => by rw [hk]; exact List.mem_insertionSort _
  have hmem' : ∀ x, f x ∈ dkeys r' ↔ x ∈ dkeys d := fun x => by
    rw [hk', List.mem_insertionSort, dkeys_dmap, List.mem_map_of_injective hf]
  have hpos : ∀ {γ : Type} [LinearOrder γ] (r : Dict γ Int), FirstAppearanceOrder (dvals r) → ∀ x c, dget? r x = some c → 0 ≤ c := by
    intro γ _ r hr x c hx
    exact ((firstAppearance_labelsAre hr c).1 (List.mem_map.2 ⟨(x, c), mem_of_dget? hx, rfl⟩)).1
  have hg : ∀ x ∈ dkeys r, ∀ y ∈ dkeys r, (dget? r' (f x) = dget? r' (f y) ↔ dget? r x = dget? r y) := by
    intro x hx y hy
    have hx' := (hmem x).1 hx
    have hy' := (hmem y).1 hy
    have e1 := hp' (f x) (by rw [dkeys_dmap]; exact List.mem_map_of_mem hx') (f y) (by rw [dkeys_dmap]; exact List.mem_map_of_mem hy')
    rw [dget?_dmap hf, dget?_dmap hf, Option.map_id, id, id] at e1
    exact e1.symm.trans (hp x hx' y hy')
  have hrn : (dkeys r).Nodup := by rw [hk]; exact (List.perm_insertionSort _ _).nodup_iff.2 hn
  refine ⟨r, r', e, e', ⟨?_, hg, fun hm => ?_⟩, hpos r hfa, hpos r' hfa'⟩
  · rw [hk, hk', dkeys_dmap]
    exact (List.perm_insertionSort _ _).trans ((List.perm_insertionSort _ _).symm.map f)
  · have hkeys : dkeys r' = (dkeys r).map f := by rw [hk, hk', dkeys_dmap, insertionSort_map hm]
    have hrn' : (dkeys r').Nodup := by rw [hkeys]; exact hrn.map hf
    rw [dvals_lab hrn] at hfa
    rw [dvals_lab hrn', hkeys, List.map_map] at hfa'
    have huniq := firstAppearance_unique hfa' hfa fun x hx y hy => by
      have := hg x hx y hy
      rw [dget?_lab hx, dget?_lab hy, dget?_lab ((hmem' x).2 ((hmem x).1 hx)), dget?_lab ((hmem' y).2 ((hmem y).1 hy))] at this
      simpa using this
    refine dict_ext hrn' (by rw [hkeys, renameKeys_eq, dkeys_dmap]) fun z => ?_
    by_cases hz : z ∈ dkeys r'
    · obtain ⟨x, hx, rfl⟩ := List.mem_map.1 (hkeys ▸ hz)
      rw [renameKeys_eq, dget?_dmap hf, Option.map_id, id, dget?_lab hx, dget?_lab hz]
      exact congrArg some (huniq x hx)
    · rw [dget?_eq_none_iff.2 hz, dget?_eq_none_iff.2]
      rw [renameKeys_eq, dkeys_dmap, ← hkeys]
      exact hz

/-! ### Vectors -/

theorem RenamedVectors.same (hf : f.Injective) {m : Manager α} {m' : Manager β} (hm : m'.managed = m.managed.map f) {vs : Dict α V}
    {vs' : Dict β V} (h : RenamedVectors f m vs vs') : SameVectors m' vs' (dmap f id vs) := by
  intro y hy
  rw [hm] at hy
  obtain ⟨x, hx, rfl⟩ := List.mem_map.1 hy
  rw [dget?_dmap hf, Option.map_id, id]
  exact h x hx

theorem dget_names {ν : Type} (hf : f.Injective) (d : Dict α ν) (x : α) : dget (dmap f id d) (f x) = dget d x := by
  rw [dget_dmap hf, map_except_id]

theorem stackRows_names (hf : f.Injective) {m : Manager α} {m' : Manager β} (hm : m'.managed = m.managed.map f) (vs : Dict α V) :
    stackRows m' (dmap f id vs) = stackRows m vs := by
  unfold stackRows
  rw [hm, mapM_names_same fun x _ => dget_names hf vs x]

/-! ### KMeans -/

section KMeans
variable {env : KMeansEnv α V δ} {env' : KMeansEnv β V δ} {m : Manager α} {m' : Manager β}

theorem kmDistances_names (hf : f.Injective) (hr : Renamed f m m') (hmetric : env'.metric = env.metric) (vs : Dict α V)
    (centroids : Dict Int V) :
    kmDistances env' m' (dmap f id vs) centroids = (kmDistances env m vs centroids).map (dmap f id) := by
  unfold kmDistances
  rw [hr.managed, hmetric]
  refine bind_names (F := List.map fun p : α × V => (f p.1, p.2)) (mapM_names fun x _ => ?_) fun rows => ?_
  · rw [dget_names hf]
    cases dget vs x <;> rfl
  · simp only [List.isEmpty_map]
    split
    · rfl
    · split
      · rfl
      · show Except.ok _ = Except.ok _
        rw [← dofList_dmap hf, List.map_map, List.map_map]
        rfl

theorem kmNotCompatible_names (hf : f.Injective) (hr : Renamed f m m') (ids : List α) (new : Dict α Int) (x : α) :
    kmNotCompatible m' (ids.map f) (dmap f id new) (f x) = kmNotCompatible m ids new x := by
  unfold kmNotCompatible
  refine bind_names_same (filterM_names fun y _ => ?_) fun ys => mapM_names_same fun y _ => dget_names hf new y
  rw [dget_names hf, hr.inferred]

theorem kmChoose_names (hf : f.Injective) (hr : Renamed f m m') (ids : List α) (nb : Nat) (centroids : Dict Int V)
    (dist : Dict α (Dict Int δ)) (new : Dict α Int) (x : α) :
    kmChoose m' (ids.map f) nb centroids (dmap f id dist) (dmap f id new) (f x) = kmChoose m ids nb centroids dist new x := by
  unfold kmChoose
  rw [kmNotCompatible_names hf hr, dvals_dmap, List.map_id, dget_names hf]

/-- The state of an assignment with the other names. -/
def kmState (f : α → β) (s : List α × Dict α Int) : List β × Dict β Int := (s.1.map f, dmap f id s.2)

theorem kmLink_names (hf : f.Injective) (hr : Renamed f m m') (x y : α) (s : List α × Dict α Int) :
    kmLink m' (f x) (kmState f s) (f y) = (kmLink m x s y).map (kmState f) := by
  unfold kmLink
  refine bind_same_names (hr.inferred x y) fun o => ?_
  split
  · refine bind_same_names (by rw [kmState, dget_names hf]) fun c => ?_
    show Except.ok _ = Except.ok _
    rw [kmState, kmState, ← List.map_erase hf, ← dset_dmap hf]
    rfl
  · rfl

theorem kmAssign_names (hf : f.Injective) (hr : Renamed f m m') (ids : List α) (nb : Nat) (centroids : Dict Int V)
    (dist : Dict α (Dict Int δ)) (x : α) (s : List α × Dict α Int) :
    kmAssign m' (ids.map f) nb centroids (dmap f id dist) (f x) (kmState f s) =
      (kmAssign m ids nb centroids dist x s).map (kmState f) := by
  unfold kmAssign
  refine bind_same_names (kmChoose_names hf hr ids nb centroids dist s.2 x) fun c => ?_
  have := foldlM_names (f := f) (φ := kmState f) (k := kmLink m x) (k' := kmLink m' (f x)) (l := ids) (s := (s.1, dset s.2 x c))
    fun y _ t => kmLink_names hf hr x y t
  rw [← this]
  congr 1
  rw [kmState, kmState, ← dset_dmap hf]
  rfl

theorem kmAssignAll_names (hf : f.Injective) (hr : Renamed f m m') (ids : List α) (nb : Nat) (centroids : Dict Int V)
    (dist : Dict α (Dict Int δ)) (fuel : Nat) (s : List α × Dict α Int) :
    kmAssignAll m' (ids.map f) nb centroids (dmap f id dist) fuel (kmState f s) =
      (kmAssignAll m ids nb centroids dist fuel s).map (dmap f id) := by
  induction fuel generalizing s with
  | zero =>
    unfold kmAssignAll
    simp only [kmState, List.map_eq_nil_iff]
    split <;> rfl
  | succ fuel ih =>
    unfold kmAssignAll
    rw [show (kmState f s).1.getLast? = (s.1.getLast?).map f from List.getLast?_map]
    cases s.1.getLast? with
    | none => rfl
    | some x =>
      refine bind_names (F := kmState f) ?_ fun t => ih t
      rw [← kmAssign_names hf hr]
      rw [kmState, kmState, List.map_dropLast]

theorem kmCentroids_names (hf : f.Injective) (hr : Renamed f m m') (hmean : env'.mean = env.mean) (henum : env'.enum = env.enum)
    (vs : Dict α V) (clusters : Dict α Int) :
    kmCentroids env' m' (dmap f id vs) (dmap f id clusters) = kmCentroids env m vs clusters := by
  unfold kmCentroids
  rw [hr.managed, hmean, henum, dvals_dmap, List.map_id]
  refine congrArg (· >>= _) (mapM_same fun c _ => ?_)
  refine bind_names_same (filterM_names fun y _ => by rw [dget_names hf]) fun ys => ?_
  rw [mapM_names_same fun y _ => dget_names hf vs y]

/-- A pair of labels and centroids with the other names. -/
def kmPair (f : α → β) (r : Dict α Int × Dict Int V) : Dict β Int × Dict Int V := (dmap f id r.1, r.2)

theorem startLabels_names (hf : f.Injective) (ids : List α) :
    dofList ((ids.map f).map fun x => (x, (-1 : Int))) = dmap f id (dofList (ids.map fun x => (x, (-1 : Int)))) := by
  rw [← dofList_dmap hf, List.map_map, List.map_map]
  rfl

theorem kmPass_names (hf : f.Injective) (hr : Renamed f m m') (hmetric : env'.metric = env.metric) (hmean : env'.mean = env.mean)
    (henum : env'.enum = env.enum) (vs : Dict α V) (nb : Nat) (centroids : Dict Int V) :
    kmPass env' m' (dmap f id vs) nb centroids = (kmPass env m vs nb centroids).map (kmPair f) := by
  unfold kmPass
  refine bind_names (kmDistances_names hf hr hmetric vs centroids) fun dist => ?_
  refine bind_names (F := dmap f id) ?_ fun new => ?_
  · rw [hr.managed, List.length_map, startLabels_names hf]
    exact kmAssignAll_names hf hr m.managed nb centroids dist _ (m.managed, _)
  · exact bind_same_names (kmCentroids_names hf hr hmean henum vs new) fun cs => rfl

theorem kmConverged_names (hsmall : env'.small = env.small) (clusters new : Dict α Int) (c c' : Dict Int V) :
    kmConverged env' (dmap f id clusters) (dmap f id new) c c' = kmConverged env clusters new c c' := by
  unfold kmConverged
  rw [dvals_dmap, dvals_dmap, List.map_id, List.map_id, hsmall]

theorem kmLoop_names (hf : f.Injective) (hr : Renamed f m m') (hmetric : env'.metric = env.metric) (hmean : env'.mean = env.mean)
    (henum : env'.enum = env.enum) (hsmall : env'.small = env.small) (vs : Dict α V) (nb left : Nat) (clusters : Dict α Int)
    (centroids : Dict Int V) :
    kmLoop env' m' (dmap f id vs) nb left (dmap f id clusters) centroids =
      (kmLoop env m vs nb left clusters centroids).map (kmPair f) := by
  induction left generalizing clusters centroids with
  | zero => rfl
  | succ left ih =>
    unfold kmLoop
    refine bind_names (kmPass_names hf hr hmetric hmean henum vs nb centroids) fun r => ?_
    refine bind_same_names (kmConverged_names hsmall clusters r.1 centroids r.2) fun b => ?_
    cases b
    · exact ih r.1 r.2
    · rfl

theorem kmInitialize_names (hf : f.Injective) {ids : List α} {ids' : List β} (hsh : env'.shuffle ids' = (env.shuffle ids).map f)
    (vs : Dict α V) (nb : Nat) :
    kmInitialize env' ids' (dmap f id vs) nb = kmInitialize env ids vs nb := by
  unfold kmInitialize
  simp only
  rw [hsh, ← List.map_take]
  refine congrArg (· >>= _) (mapM_same fun c _ => ?_)
  unfold kmInitEntry
  rw [List.getElem?_map]
  cases ((env.shuffle ids).take nb)[c]? with
  | none => rfl
  | some x =>
    show (do return ((c : Int), ← dget (dmap f id vs) (f x)) : Except PyErr (Int × V)) = _
    rw [dget_names hf]

theorem kmAssignAll_nodup {ids : List α} {nb : Nat} {centroids : Dict Int V} {dist : Dict α (Dict Int δ)} {fuel : Nat}
    {s : List α × Dict α Int} {new : Dict α Int} (hs : (dkeys s.2).Nodup) (e : kmAssignAll m ids nb centroids dist fuel s = .ok new) :
    (dkeys new).Nodup := by
  induction fuel generalizing s with
  | zero =>
    unfold kmAssignAll at e
    split at e
    · cases e; exact hs
    · cases e
  | succ fuel ih =>
    unfold kmAssignAll at e
    split at e
    · cases e; exact hs
    · rename_i x _
      cases e1 : kmAssign m ids nb centroids dist x (s.1.dropLast, s.2) with
      | error _ => rw [e1] at e; cases e
      | ok t =>
        rw [e1] at e
        refine ih (s := t) ?_ e
        unfold kmAssign at e1
        cases e2 : kmChoose m ids nb centroids dist s.2 x with
        | error _ => rw [e2] at e1; cases e1
        | ok c =>
          rw [e2] at e1
          refine foldlM_two (R := fun (t : List α × Dict α Int) (_ : Unit) => (dkeys t.2).Nodup) (f := kmLink m x)
            (g := fun (_ : Unit) _ => .ok ()) (L := ids) ?_ (s := (s.1.dropLast, dset s.2 x c)) (t := ()) (t' := ())
            (nodup_dkeys_dset _ _ hs) e1 ?_
          swap
          · clear e1 e2 e ih
            induction ids with
            | nil => rfl
            | cons a l ih => rw [List.foldlM_cons]; exact ih
          intro y _ t _ t' _ ht e3 _
          unfold kmLink at e3
          simp only [bind, Except.bind] at e3
          split at e3
          · cases e3
          · split at e3
            · split at e3
              · cases e3
              · cases e3; exact nodup_dkeys_dset _ _ ht
            · cases e3; exact ht

theorem kmLoop_nodup {vs : Dict α V} {nb left : Nat} {clusters : Dict α Int} {centroids : Dict Int V} {r : Dict α Int × Dict Int V}
    (hc : (dkeys clusters).Nodup) (e : kmLoop env m vs nb left clusters centroids = .ok r) : (dkeys r.1).Nodup := by
  induction left generalizing clusters centroids with
  | zero => cases e; exact hc
  | succ left ih =>
    unfold kmLoop at e
    cases e1 : kmPass env m vs nb centroids with
    | error _ => rw [e1] at e; cases e
    | ok p =>
      have hp : (dkeys p.1).Nodup := by
        unfold kmPass at e1
        simp only [bind, Except.bind] at e1
        split at e1
        · cases e1
        · split at e1
          · cases e1
          · rename_i new e2
            split at e1
            · cases e1
            · cases e1; exact kmAssignAll_nodup (nodup_dkeys_dofList _) e2
      rw [e1] at e
      simp only [bind, Except.bind] at e
      split at e
      · cases e
      · split at e
        · cases e; exact hp
        · exact ih hp e

theorem kmCOP_names (hf : f.Injective) (hr : Renamed f m m') (hmetric : env'.metric = env.metric) (hmean : env'.mean = env.mean)
    (henum : env'.enum = env.enum) (hsmall : env'.small = env.small) (hsh : env'.shuffle m'.managed = (env.shuffle m.managed).map f)
    (vs : Dict α V) (nb maxIteration : Nat) :
    SameOutcome (fun r r' => RenamedLabels f r.1 r'.1 ∧ r.2 = r'.2) (kmCOP env m vs nb maxIteration)
      (kmCOP env' m' (dmap f id vs) nb maxIteration) := by
  unfold kmCOP
  rw [kmInitialize_names hf hsh, hr.managed, startLabels_names hf]
  simp only [bind, Except.bind]
  cases kmInitialize env m.managed vs nb with
  | error e => exact rfl
  | ok c =>
    simp only [kmLoop_names hf hr hmetric hmean henum hsmall vs nb maxIteration]
    cases e : kmLoop env m vs nb maxIteration (dofList (m.managed.map fun x => (x, (-1 : Int)))) c with
    | error e => exact rfl
    | ok r =>
      obtain ⟨l, l', e1, e2, h, -⟩ := renameClusters_names hf (kmLoop_nodup (nodup_dkeys_dofList _) e)
      simp only [Except.map, kmPair, e1, e2, kmCentroids_names hf hr hmean henum]
      cases kmCentroids env m vs r.1 with
      | error e => exact rfl
      | ok c' => exact ⟨h, rfl⟩

end KMeans

end Verif
