import Verif.Proofs.InferredHier
import Verif.Proofs.ApRun
import Verif.Proofs.Queries
import Verif.Model.DBScan
import Verif.Model.Spectral
import Verif.Model.MPC

/-
Lemmas for C89: the other clusterings and the sampling.
-/

set_option linter.unusedSectionVars false

namespace Verif

variable {α V δ κ μ θ : Type} [LinearOrder α] [LinearOrder δ] [LinearOrder κ]
variable {m m' : Manager α}

/-! ### COP-KMeans -/

theorem SameInferred.kmAssign (h : SameInferred m m') (ids : List α) (nb : Nat) (centroids : Dict Int V) (dist : Dict α (Dict Int δ))
    (x : α) (s : List α × Dict α Int) : kmAssign m' ids nb centroids dist x s = kmAssign m ids nb centroids dist x s := by
  have h1 : kmLink m' = kmLink m := by funext x s y; unfold kmLink; simp only [h.inferred]
  unfold Verif.kmAssign kmChoose kmNotCompatible
  simp only [h.inferred, h1]

theorem SameInferred.kmAssignAll (h : SameInferred m m') (ids : List α) (nb : Nat) (centroids : Dict Int V) (dist : Dict α (Dict Int δ))
    (fuel : Nat) (s : List α × Dict α Int) :
    kmAssignAll m' ids nb centroids dist fuel s = kmAssignAll m ids nb centroids dist fuel s := by
  induction fuel generalizing s with
  | zero => rfl
  | succ fuel ih =>
    unfold Verif.kmAssignAll
    simp only [h.kmAssign, ih]

theorem SameInferred.kmPass (h : SameInferred m m') (env : KMeansEnv α V δ) (vs : Dict α V) (nb : Nat) (centroids : Dict Int V) :
    kmPass env m' vs nb centroids = kmPass env m vs nb centroids := by
  unfold Verif.kmPass kmDistances kmCentroids
  simp only [h.managed, h.kmAssignAll]

theorem SameInferred.kmLoop (h : SameInferred m m') (env : KMeansEnv α V δ) (vs : Dict α V) (nb left : Nat) (clusters : Dict α Int)
    (centroids : Dict Int V) : kmLoop env m' vs nb left clusters centroids = kmLoop env m vs nb left clusters centroids := by
  induction left generalizing clusters centroids with
  | zero => rfl
  | succ left ih =>
    unfold Verif.kmLoop
    simp only [h.kmPass, ih]

/-! ### C-DBScan -/

theorem SameInferred.distanceTable (h : SameInferred m m') (vs : Dict α V) (metric : V → V → δ) :
    distanceTable m' vs metric = distanceTable m vs metric := by
  unfold Verif.distanceTable
  rw [h.managed]

theorem SameInferred.dbConflict (h : SameInferred m m') : dbConflict m' = dbConflict m := by
  funext xs ys
  unfold Verif.dbConflict
  simp only [h.inferred]

theorem SameInferred.dbLocals (h : SameInferred m m') (p : DbParams δ) (table : Dict α (Dict α δ)) (ids : List α) :
    dbLocals p m' table ids = dbLocals p m table ids := by
  have : dbLocalStep p m' table ids = dbLocalStep p m table ids := by
    funext s x
    unfold dbLocalStep
    rw [h.dbConflict]
  unfold Verif.dbLocals
  rw [this]

theorem SameInferred.dbCores (h : SameInferred m m') (env : DbEnv α V δ) (ids : List α) (labels : Dict α DLabel) (locals : Dict α (List α)) :
    dbCores env m' ids labels locals = dbCores env m ids labels locals := by
  have : dbCompatible m' ids = dbCompatible m ids := by unfold dbCompatible; simp only [h.inferred]
  unfold Verif.dbCores
  rw [this]

theorem SameInferred.dbMergeAll (h : SameInferred m m') (env : DbEnv α V δ) (p : DbParams δ) (table : Dict α (Dict α δ))
    (core locals : Dict α (List α)) : dbMergeAll env p m' table core locals = dbMergeAll env p m table core locals := by
  have hg : ∀ fuel s, dbGrow env p m' table fuel s = dbGrow env p m table fuel s := by
    intro fuel
    induction fuel with
    | zero => exact fun s => rfl
    | succ fuel ih =>
      intro s
      unfold dbGrow
      simp only [h.dbConflict, ih]
  have : dbGrowStep env p m' table = dbGrowStep env p m table := by
    funext s x
    unfold dbGrowStep
    simp only [hg]
  unfold Verif.dbMergeAll
  rw [this]

/-! ### Affinity propagation -/

theorem mapM_outcome_perm {ι ρ : Type} {f : ι → Except PyErr ρ} {e0 : PyErr} (he : ∀ x e, f x = .error e → e = e0) {l l' : List ι}
    (hp : l.Perm l') : SameOutcome List.Perm (l.mapM f) (l'.mapM f) := by
  have key : ∀ l : List ι, (∃ r, l.mapM f = .ok r) ∨ (l.mapM f = .error e0 ∧ ∃ x ∈ l, f x = .error e0) := by
    intro l
    induction l with
    | nil => exact .inl ⟨[], rfl⟩
    | cons x l ih =>
      rw [List.mapM_cons]
      cases hx : f x with
      | error e =>
        cases he x e hx
        exact .inr ⟨rfl, x, List.mem_cons_self, hx⟩
      | ok b =>
        rcases ih with ⟨r, hr⟩ | ⟨hr, y, hy, hfy⟩
        · exact .inl ⟨b :: r, by rw [hr]; rfl⟩
        · exact .inr ⟨by rw [hr]; rfl, y, List.mem_cons_of_mem _ hy, hfy⟩
  have hno : ∀ {l : List ι} {r : List ρ}, l.mapM f = .ok r → ∀ x ∈ l, f x ≠ .error e0 := by
    intro l r hr x hx hfx
    obtain ⟨b, -, hb⟩ := forall₂_mem_left (mapM_ok_iff.1 hr) hx
    rw [hfx] at hb
    cases hb
  rcases key l with ⟨r, hr⟩ | ⟨hr, x, hx, hfx⟩
  · rcases key l' with ⟨r', hr'⟩ | ⟨-, y, hy, hfy⟩
    · rw [hr, hr']; exact mapM_perm hp hr hr'
    · exact absurd hfy (hno hr y (hp.mem_iff.2 hy))
  · rcases key l' with ⟨r', hr'⟩ | ⟨hr', -⟩
    · exact absurd hfx (hno hr' x (hp.mem_iff.1 hx))
    · rw [hr, hr']; exact rfl

theorem mapM_forall₂_eq {ι ι' ρ : Type} {I : ι → ι' → Prop} {f : ι → Except PyErr ρ} {f' : ι' → Except PyErr ρ} {l : List ι} {l' : List ι'}
    (hl : List.Forall₂ I l l') (h : ∀ x x', I x x' → f' x' = f x) : l'.mapM f' = l.mapM f := by
  induction hl with
  | nil => rfl
  | cons h1 _ ih => rw [List.mapM_cons, List.mapM_cons, h _ _ h1, ih]

theorem apMax_perm {l l' : List κ} (h : l.Perm l') : apMax l' = apMax l := by
  unfold apMax
  rw [max?_perm h]

theorem mget_error {S : Mat κ} {i j : Nat} {e : PyErr} (h : mget S i j = .error e) : e = .indexError := by
  unfold mget at h
  split at h
  · cases h
  · cases h; rfl

theorem apMaxLink_perm (S : Mat κ) {P P' Q Q' : List Nat} (hP : P.Perm P') (hQ : Q.Perm Q') : apMaxLink S P' Q' = apMaxLink S P Q := by
  unfold apMaxLink
  refine SameOutcome.eq ((mapM_outcome_perm (fun p e he => mget_error he) (hP.product hQ)).bind fun l l' h => ?_)
  rw [apMax_perm h]
  exact SameOutcome.of_eq rfl

theorem apMeta_perm (env : ApEnv V κ μ θ) (S : Mat κ) (i : Nat) {P P' : List Nat} (hP : P.Perm P') : apMeta env S i P' = apMeta env S i P := by
  unfold apMeta
  simp only [hP.mem_iff]
  split
  · rfl
  · refine SameOutcome.eq ((mapM_outcome_perm (fun p e he => mget_error he) hP).bind fun l l' h => ?_)
    rw [apMax_perm h]
    exact SameOutcome.of_eq rfl

theorem apBlock_perm (env : ApEnv V κ μ θ) (S : Mat κ) {mls mls' : List (List Nat)} (h : List.Forall₂ List.Perm mls mls') :
    apBlock env S mls' = apBlock env S mls := by
  unfold apBlock
  have h1 : ∀ i, (mls'.mapM fun P => apMeta env S i P) = mls.mapM fun P => apMeta env S i P := fun i =>
    mapM_forall₂_eq h fun P P' hP => apMeta_perm env S i hP
  have h2 : ∀ low, (mls'.mapM fun P => (do
        return (← (List.range S.length).mapM fun i => apMeta env S i P) ++ List.replicate mls'.length low : Except PyErr (List κ))) =
      mls.mapM fun P => (do
        return (← (List.range S.length).mapM fun i => apMeta env S i P) ++ List.replicate mls.length low : Except PyErr (List κ)) := fun low =>
    mapM_forall₂_eq h fun P P' hP => by simp only [apMeta_perm env S _ hP, h.length_eq]
  simp only [h1, h2]

theorem apSpread_perm (n : Nat) (labels : List Nat) {mls mls' : List (List Nat)} (h : List.Forall₂ List.Perm mls mls') :
    apSpread n labels mls' = apSpread n labels mls := by
  unfold apSpread
  generalize List.replicate n (-1 : Int) = r
  induction h generalizing labels r with
  | nil => simp
  | cons h1 _ ih =>
    cases labels with
    | nil => rfl
    | cons a labels =>
      rw [List.zip_cons_cons, List.zip_cons_cons, List.foldl_cons, List.foldl_cons, ih]
      congr 1
      refine (h1.foldl_eq' (fun x _ y _ z => ?_) r).symm
      by_cases hxy : x = y
      · rw [hxy]
      · exact List.set_comm _ _ hxy

theorem apFinish_perm (env : ApEnv V κ μ θ) (p : ApParams) (pref : κ) (S : Mat κ) {mls mls' : List (List Nat)}
    (h : List.Forall₂ List.Perm mls mls') (cls : List (Nat × Nat)) : apFinish env p pref S mls' cls = apFinish env p pref S mls cls := by
  have h1 : (mls'.mapM fun P => mls'.mapM fun Q => apMaxLink S P Q) = mls.mapM fun P => mls.mapM fun Q => apMaxLink S P Q :=
    mapM_forall₂_eq h fun P P' hP => mapM_forall₂_eq h fun Q Q' hQ => apMaxLink_perm S hP hQ
  unfold apFinish
  simp only [h1, apBlock_perm env S h, apSpread_perm _ _ h]

theorem apClosures_perm {idx : Dict α Nat} {cs cs' : List (List α)} (h : List.Forall₂ List.Perm cs cs') :
    SameOutcome (List.Forall₂ List.Perm) (cs.mapM fun c => c.mapM fun x => dget idx x) (cs'.mapM fun c => c.mapM fun x => dget idx x) := by
  refine SameOutcome.mapM h fun c c' hc => mapM_outcome_perm (e0 := .keyError) (fun x e he => ?_) hc
  unfold dget at he
  split at he
  · cases he
  · cases he; rfl

end Verif
