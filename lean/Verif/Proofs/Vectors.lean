import Verif.Spec.Vectors
import Verif.Spec.KMeans
import Verif.Model.Hierarchical
import Verif.Model.Matrix
import Verif.Proofs.Hierarchical
import Verif.Proofs.Sampling

/-
Lemmas for C85: two dictionaries of vectors with the same vectors of managed IDs.
-/

namespace Verif

section
variable {ι κ ε : Type}

theorem mapM_same {f g : ι → Except ε κ} {l : List ι} (h : ∀ x ∈ l, f x = g x) : l.mapM f = l.mapM g := by
  induction l with
  | nil => rfl
  | cons a l ih =>
    rw [List.mapM_cons, List.mapM_cons, h a List.mem_cons_self, ih fun x hx => h x (List.mem_cons_of_mem _ hx)]

end

variable {α V δ : Type} [LinearOrder α] [LinearOrder δ] {m : Manager α} {vs vs' : Dict α V}

theorem SameVectors.dget (h : SameVectors m vs vs') {x : α} (hx : x ∈ m.managed) : dget vs x = dget vs' x := by
  unfold Verif.dget
  rw [h x hx]

theorem SameVectors.mapM (h : SameVectors m vs vs') {l : List α} (hl : ∀ x ∈ l, x ∈ m.managed) :
    l.mapM (fun x => Verif.dget vs x) = l.mapM fun x => Verif.dget vs' x :=
  mapM_same fun x hx => h.dget (hl x hx)

theorem SameVectors.distanceTable (h : SameVectors m vs vs') (metric : V → V → δ) :
    distanceTable m vs metric = distanceTable m vs' metric := by
  unfold Verif.distanceTable
  rw [mapM_same (g := fun x => do return (x, ← Verif.dget vs' x)) fun x hx => by rw [h.dget hx]]

theorem SameVectors.stackRows (h : SameVectors m vs vs') : stackRows m vs = stackRows m vs' := by
  unfold Verif.stackRows
  rw [h.mapM fun x hx => hx]

/-! ### KMeans -/

theorem SameVectors.kmInitialize (h : SameVectors m vs vs') {env : KMeansEnv α V δ} (henv : env.Ok) (nb : Nat) :
    kmInitialize env m.managed vs nb = kmInitialize env m.managed vs' nb := by
  unfold Verif.kmInitialize
  simp only
  rw [mapM_same (g := kmInitEntry vs' ((env.shuffle m.managed).take nb)) fun c _ => ?_]
  unfold kmInitEntry
  split
  · rename_i x hx
    rw [h.dget ((henv.shuffle _).mem_iff.1 (List.mem_of_mem_take (List.mem_of_getElem? hx)))]
  · rfl

theorem SameVectors.kmDistances (h : SameVectors m vs vs') (env : KMeansEnv α V δ) (centroids : Dict Int V) :
    kmDistances env m vs centroids = kmDistances env m vs' centroids := by
  unfold Verif.kmDistances
  rw [mapM_same (g := fun x => do return (x, ← Verif.dget vs' x)) fun x hx => by rw [h.dget hx]]

theorem SameVectors.kmCentroids (h : SameVectors m vs vs') (env : KMeansEnv α V δ) (clusters : Dict α Int) :
    kmCentroids env m vs clusters = kmCentroids env m vs' clusters := by
  unfold Verif.kmCentroids
  refine congrArg (· >>= _) (mapM_same fun c _ => ?_)
  simp only [bind, Except.bind]
  split
  · rfl
  · rename_i ys hys
    rw [h.mapM fun x hx => ?_]
    rw [(filterM_ok hys).2] at hx
    exact List.mem_of_mem_filter hx

theorem SameVectors.kmPass (h : SameVectors m vs vs') (env : KMeansEnv α V δ) (nb : Nat) (centroids : Dict Int V) :
    kmPass env m vs nb centroids = kmPass env m vs' nb centroids := by
  unfold Verif.kmPass
  rw [h.kmDistances]
  simp only [h.kmCentroids]

theorem SameVectors.kmLoop (h : SameVectors m vs vs') (env : KMeansEnv α V δ) (nb left : Nat) (clusters : Dict α Int)
    (centroids : Dict Int V) : kmLoop env m vs nb left clusters centroids = kmLoop env m vs' nb left clusters centroids := by
  induction left generalizing clusters centroids with
  | zero => rfl
  | succ left ih =>
    unfold Verif.kmLoop
    rw [h.kmPass]
    simp only [ih]

theorem SameVectors.kmCOP (h : SameVectors m vs vs') {env : KMeansEnv α V δ} (henv : env.Ok) (nb maxIteration : Nat) :
    kmCOP env m vs nb maxIteration = kmCOP env m vs' nb maxIteration := by
  unfold Verif.kmCOP
  rw [h.kmInitialize henv]
  simp only [h.kmLoop, h.kmCentroids]

/-! ### Hierarchical clustering -/

variable {env : HierEnv V δ} {link : Linkage} {table : Dict α (Dict α δ)}

/-- All members of all stored clusters are managed. -/
def StoredManaged (m : Manager α) (st : Dict Nat (HCluster α V)) : Prop :=
  ∀ i n, dget? st i = some n → ∀ x ∈ n.members, x ∈ m.managed

theorem SameVectors.hCentroid (h : SameVectors m vs vs') {members : List α} (hm : ∀ x ∈ members, x ∈ m.managed) :
    hCentroid env vs members = hCentroid env vs' members := by
  unfold Verif.hCentroid
  rw [h.mapM hm]

theorem StoredManaged.set {st : Dict Nat (HCluster α V)} (h : StoredManaged m st) {i : Nat} {n : HCluster α V}
    (hn : ∀ x ∈ n.members, x ∈ m.managed) : StoredManaged m (dset st i n) := by
  intro j k hk
  rw [dget?_dset] at hk
  split at hk
  · cases hk; exact hn
  · exact h j k hk

theorem SameVectors.hAddLeaf (h : SameVectors m vs vs') {s : HState α V δ} {members : List α}
    (hm : ∀ x ∈ members, x ∈ m.managed) : hAddLeaf env vs s members = hAddLeaf env vs' s members := by
  unfold Verif.hAddLeaf
  rw [h.hCentroid hm]

theorem hAddLeaf_managed {s s' : HState α V δ} (hs : StoredManaged m s.storage) {members : List α}
    (hm : ∀ x ∈ members, x ∈ m.managed) (e : hAddLeaf env vs s members = .ok s') : StoredManaged m s'.storage := by
  unfold hAddLeaf at e
  simp only [bind, Except.bind] at e
  split at e
  · cases e
  · cases e
    exact hs.set hm

theorem hCreate_members {s : HState α V δ} (hs : StoredManaged m s.storage) {children : List Nat} {nodes : List (HCluster α V)}
    (e : children.mapM (fun c => Verif.dget s.storage c) = .ok nodes) :
    ∀ x ∈ nodes.flatMap fun n => n.members, x ∈ m.managed := by
  intro x hx
  obtain ⟨n, hn, hx⟩ := List.mem_flatMap.1 hx
  obtain ⟨c, -, hc⟩ := forall₂_mem_right (mapM_ok_iff.1 e) hn
  exact hs c n (dget_eq_ok.1 hc) x hx

theorem SameVectors.hCreate (h : SameVectors m vs vs') {s : HState α V δ} (hs : StoredManaged m s.storage)
    (current children : List Nat) (id : Nat) : hCreate env vs s current children id = hCreate env vs' s current children id := by
  unfold Verif.hCreate
  simp only [bind, Except.bind]
  split
  · rfl
  · rename_i nodes e
    rw [h.hCentroid (hCreate_members hs e)]

theorem hCreate_managed {s s' : HState α V δ} (hs : StoredManaged m s.storage)
    {current children : List Nat} {id : Nat} (e : hCreate env vs s current children id = .ok s') : StoredManaged m s'.storage := by
  unfold Verif.hCreate at e
  simp only [bind, Except.bind] at e
  split at e
  · cases e
  · rename_i nodes e1
    split at e
    · cases e
    · cases e
      exact hs.set (hCreate_members hs e1)

theorem SameVectors.hAddMerge (h : SameVectors m vs vs') {s : HState α V δ} (hs : StoredManaged m s.storage)
    (children : List Nat) : hAddMerge env vs s children = hAddMerge env vs' s children := by
  unfold Verif.hAddMerge
  simp only [h.hCreate hs]

theorem hAddMerge_managed {s : HState α V δ} (hs : StoredManaged m s.storage) {children : List Nat} {r : Nat × HState α V δ}
    (e : hAddMerge env vs s children = .ok r) : StoredManaged m r.2.storage := by
  unfold Verif.hAddMerge at e
  simp only [bind, Except.bind] at e
  split at e
  · cases e
  · split at e
    · cases e
    · split at e
      · cases e
      · rename_i e1
        cases e
        exact hCreate_managed hs e1

theorem SameVectors.hMergeStep (h : SameVectors m vs vs') {s : HState α V δ} (hs : StoredManaged m s.storage) (p : Nat × Nat) :
    hMergeStep env link m vs table s p = hMergeStep env link m vs' table s p := by
  unfold Verif.hMergeStep
  rw [h.hAddMerge hs]

theorem hMergeStep_managed {s s' : HState α V δ} (hs : StoredManaged m s.storage) {p : Nat × Nat}
    (e : hMergeStep env link m vs table s p = .ok s') : StoredManaged m s'.storage := by
  unfold Verif.hMergeStep at e
  simp only [bind, Except.bind] at e
  split at e
  · cases e
  · rename_i r e1
    split at e
    · cases e
    · cases e
      exact hAddMerge_managed (r := r) hs e1

theorem SameVectors.hLoop (h : SameVectors m vs vs') (fuel : Nat) {s : HState α V δ} (hs : StoredManaged m s.storage) :
    hLoop env link m vs table fuel s = hLoop env link m vs' table fuel s := by
  induction fuel generalizing s with
  | zero => rfl
  | succ fuel ih =>
    unfold Verif.hLoop
    split
    · simp only [bind, Except.bind]
      split
      · rfl
      · split
        · rfl
        · rename_i p _
          rw [h.hMergeStep hs]
          split
          · rfl
          · rename_i s' e
            exact ih (hMergeStep_managed hs e)
    · rfl

theorem hLoop_managed {fuel : Nat} {s s' : HState α V δ} (hs : StoredManaged m s.storage)
    (e : hLoop env link m vs table fuel s = .ok s') : StoredManaged m s'.storage := by
  induction fuel generalizing s with
  | zero =>
    unfold Verif.hLoop at e
    split at e
    · cases e
    · cases e; exact hs
  | succ fuel ih =>
    unfold Verif.hLoop at e
    split at e
    · simp only [bind, Except.bind] at e
      split at e
      · cases e
      · split at e
        · cases e; exact hs
        · split at e
          · cases e
          · rename_i s1 e1
            exact ih (hMergeStep_managed hs e1) e
    · cases e; exact hs

theorem hLeaves_managed (h : SameVectors m vs vs') {comps : List (List α)} (hc : ∀ c ∈ comps, ∀ x ∈ c, x ∈ m.managed)
    {s : HState α V δ} (hs : StoredManaged m s.storage) :
    comps.foldlM (hAddLeaf env vs) s = comps.foldlM (hAddLeaf env vs') s ∧
      ∀ s', comps.foldlM (hAddLeaf env vs) s = .ok s' → StoredManaged m s'.storage := by
  induction comps generalizing s with
  | nil => exact ⟨rfl, fun s' e => by cases e; exact hs⟩
  | cons c comps ih =>
    simp only [List.foldlM_cons, ← h.hAddLeaf (env := env) (s := s) (hc c List.mem_cons_self), bind, Except.bind]
    cases e : Verif.hAddLeaf env vs s c with
    | error _ => exact ⟨rfl, fun s' e => by cases e⟩
    | ok s1 => exact ih (fun d hd => hc d (List.mem_cons_of_mem _ hd)) (hAddLeaf_managed hs (hc c List.mem_cons_self) e)

theorem SameVectors.hBuild (h : SameVectors m vs vs') (hc : ∀ c ∈ m.components, ∀ x ∈ c, x ∈ m.managed) :
    hBuild env link m vs table = hBuild env link m vs' table := by
  have hstart : hStart env link m vs table = hStart env link m vs' table ∧
      ∀ s, hStart env link m vs table = .ok s → StoredManaged m s.storage := by
    obtain ⟨h1, h2⟩ := hLeaves_managed (env := env) h hc (s := (⟨[], [], [], 0⟩ : HState α V δ)) (fun i n hn => by cases hn)
    unfold hStart
    rw [← h1]
    refine ⟨rfl, fun s e => ?_⟩
    simp only [bind, Except.bind] at e
    split at e
    · cases e
    · rename_i s1 e1
      split at e
      · cases e
      · cases e
        exact h2 s1 e1
  unfold Verif.hBuild
  rw [← hstart.1]
  simp only [bind, Except.bind]
  split
  · rfl
  · rename_i s0 e0
    have hs0 := hstart.2 s0 e0
    rw [← h.hLoop _ hs0]
    split
    · rfl
    · rename_i s1 e1
      have hs1 := hLoop_managed hs0 e1
      have : hFinish env vs s1 = hFinish env vs' s1 := by
        unfold hFinish
        rw [h.hAddMerge hs1]
      rw [this]

end Verif
