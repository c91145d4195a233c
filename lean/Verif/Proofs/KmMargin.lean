import Verif.Spec.KmMargin
import Verif.Proofs.KMeans
import Verif.Proofs.GeometryKMeans

/-
Lemmas for C121: two runs of COP-KMeans that make the same decisions.
-/

set_option linter.unusedSectionVars false

namespace Verif

variable {α V V' W δ δ' : Type} [LinearOrder α] [LinearOrder δ] [LinearOrder δ'] {m : Manager α}

/-! ### Two environments with the same vectors and means -/

section Same
variable {e₁ : KMeansEnv α W δ} {e₂ : KMeansEnv α W δ'} {vs : Dict α W} {nb : Nat}

/-- What two environments on the same vectors have to agree on. -/
structure Twins (e₁ : KMeansEnv α W δ) (e₂ : KMeansEnv α W δ') (m : Manager α) (vs : Dict α W) (nb : Nat) : Prop where
  mean : e₂.mean = e₁.mean
  enum : e₂.enum = e₁.enum
  shuffle : e₂.shuffle = e₁.shuffle
  near : EachDecision e₁ m vs nb fun _ v p q => e₂.metric v p < e₂.metric v q
  stop : ∀ C new C₁, RunCentroids e₁ m vs nb C → kmPass e₁ m vs nb C = .ok (new, C₁) → ∀ l,
    List.Forall₂ (fun k p => dget? C k = some p.1 ∧ dget? C₁ k = some p.2) (dkeys C) l → e₂.small l = e₁.small l

theorem kmChoose_twins (he : e₁.Ok) (h : Inv m) (hv : HasVectors m vs) (hnb : 0 < nb) (hnb' : nb ≤ m.managed.length)
    (t : Twins e₁ e₂ m vs nb) {C : Dict Int W} (hC : RunCentroids e₁ m vs nb C) {dist : Dict α (Dict Int δ)}
    {dist' : Dict α (Dict Int δ')} (hd : kmDistances e₁ m vs C = .ok dist) (hd' : kmDistances e₂ m vs C = .ok dist')
    {s : List α × Dict α Int} (hs : InPass m nb C dist s) {x : α} (hx : s.1.getLast? = some x) :
    kmChoose m m.managed nb C dist' s.2 x = kmChoose m m.managed nb C dist s.2 x := by
  have hne : m.managed ≠ [] := List.length_pos_iff.1 (by omega)
  have hci := hC.inv he h hv hnb hnb'
  obtain ⟨D, E1, ht⟩ := kmDistances_ok (env := e₁) h hv hne hci
  rw [hd] at E1; cases E1
  obtain ⟨D, E1, ht'⟩ := kmDistances_ok (env := e₂) h hv hne hci
  rw [hd'] at E1; cases E1
  have hp := hs.inv h hv hci ht
  have hxm := hp.sub x (List.mem_of_getLast? hx)
  obtain ⟨v, hxv⟩ := hv x hxm
  obtain ⟨row, r1, r2, r3⟩ := ht x hxm v hxv
  obtain ⟨row', r1', r2', r3'⟩ := ht' x hxm v hxv
  have hcen : -1 ∉ dkeys C := fun hc => by have := hci.nonneg _ hc; omega
  obtain ⟨l, hl, hl2⟩ := kmNotCompatible_ok h hp.keys hxm
  have hposs : ∀ c, c ∈ ((dkeys C).filter fun c => decide (c ∉ l)) ↔ Admissible m C s.2 x c := by
    intro c
    rw [admissible_iff h hxm, List.mem_filter]
    simp only [decide_not, Bool.not_eq_true', decide_eq_false_iff_not]
    constructor
    · rintro ⟨h1, h2⟩
      refine ⟨h1, fun y hy hc hcl => h2 ((hl2 c).2 ⟨?_, y, hy, hc, hcl⟩)⟩
      rintro rfl; exact hcen h1
    · rintro ⟨h1, h2⟩
      refine ⟨h1, fun hc => ?_⟩
      obtain ⟨-, y, hy, hyc, hcl⟩ := (hl2 c).1 hc
      exact h2 y hy hyc hcl
  unfold kmChoose
  rw [hl]
  simp only [bind, Except.bind, dget_of_dget? r1, dget_of_dget? r1']
  split
  · rfl
  · rename_i hne
    obtain ⟨a, a1, a2, d, a3, a4⟩ := kmNearest_ok hne (row := row) fun c hc => by rw [r2]; exact ((hposs c).1 hc).1
    obtain ⟨b, b1, b2, d', b3, b4⟩ := kmNearest_ok hne (row := row') fun c hc => by rw [r2']; exact ((hposs c).1 hc).1
    rw [a1, b1]
    by_cases hab : a = b
    · rw [hab]
    exfalso
    obtain ⟨p, hp1⟩ := dget?_isSome_of_mem ((hposs a).1 a2).1
    obtain ⟨q, hq1⟩ := dget?_isSome_of_mem ((hposs b).1 b2).1
    have hlt := t.near C hC dist hd s hs x hx v hxv a p ((hposs a).1 a2) hp1 (fun c r hc hr => by
      have h1 := r3 _ _ hp1
      rw [a3] at h1; cases h1
      exact a4 c ((hposs c).2 hc) _ (r3 _ _ hr)) b q ((hposs b).1 b2) hq1 hab
    have h2 := r3' _ _ hq1
    rw [b3] at h2; cases h2
    exact absurd (b4 a a2 _ (r3' _ _ hp1)) (not_le.2 hlt)

theorem kmAssignAll_twins (he : e₁.Ok) (h : Inv m) (hv : HasVectors m vs) (hnb : 0 < nb) (hnb' : nb ≤ m.managed.length)
    (t : Twins e₁ e₂ m vs nb) {C : Dict Int W} (hC : RunCentroids e₁ m vs nb C) {dist : Dict α (Dict Int δ)}
    {dist' : Dict α (Dict Int δ')} (hd : kmDistances e₁ m vs C = .ok dist) (hd' : kmDistances e₂ m vs C = .ok dist')
    (fuel : Nat) {s : List α × Dict α Int} (hs : InPass m nb C dist s) :
    kmAssignAll m m.managed nb C dist' fuel s = kmAssignAll m m.managed nb C dist fuel s := by
  induction fuel generalizing s with
  | zero => rfl
  | succ fuel ih =>
    unfold kmAssignAll
    cases hx : s.1.getLast? with
    | none => rfl
    | some x =>
      have hc : kmAssign m m.managed nb C dist' x (s.1.dropLast, s.2) = kmAssign m m.managed nb C dist x (s.1.dropLast, s.2) := by
        unfold kmAssign
        rw [show kmChoose m m.managed nb C dist' (s.1.dropLast, s.2).2 x = _ from kmChoose_twins he h hv hnb hnb' t hC hd hd' hs hx]
      show (kmAssign m m.managed nb C dist' x (s.1.dropLast, s.2) >>= fun s' => kmAssignAll m m.managed nb C dist' fuel s') =
        (kmAssign m m.managed nb C dist x (s.1.dropLast, s.2) >>= fun s' => kmAssignAll m m.managed nb C dist fuel s')
      rw [hc]
      cases e : kmAssign m m.managed nb C dist x (s.1.dropLast, s.2) with
      | error _ => rfl
      | ok s' => exact ih (.step hs hx e)

theorem kmCentroids_twins (t : Twins e₁ e₂ m vs nb) (new : Dict α Int) : kmCentroids e₂ m vs new = kmCentroids e₁ m vs new := by
  unfold kmCentroids
  rw [t.mean, t.enum]

theorem kmPass_twins (he : e₁.Ok) (h : Inv m) (hv : HasVectors m vs) (hnb : 0 < nb) (hnb' : nb ≤ m.managed.length)
    (t : Twins e₁ e₂ m vs nb) {C : Dict Int W} (hC : RunCentroids e₁ m vs nb C) : kmPass e₂ m vs nb C = kmPass e₁ m vs nb C := by
  have hne : m.managed ≠ [] := List.length_pos_iff.1 (by omega)
  have hci := hC.inv he h hv hnb hnb'
  obtain ⟨D, E1, -⟩ := kmDistances_ok (env := e₁) h hv hne hci
  obtain ⟨D', E2, -⟩ := kmDistances_ok (env := e₂) h hv hne hci
  unfold kmPass
  rw [E1, E2]
  simp only [bind, Except.bind]
  rw [kmAssignAll_twins he h hv hnb hnb' t hC E1 E2 _ .start]
  simp only [kmCentroids_twins t]

theorem kmConverged_twins (t : Twins e₁ e₂ m vs nb) {C : Dict Int W} (hC : RunCentroids e₁ m vs nb C) {new : Dict α Int}
    {C₁ : Dict Int W} (hp : kmPass e₁ m vs nb C = .ok (new, C₁)) (old : Dict α Int) :
    kmConverged e₂ old new C C₁ = kmConverged e₁ old new C C₁ := by
  unfold kmConverged
  split
  · cases e : ((dkeys C).mapM fun c => (do return (← dget C c, ← dget C₁ c) : Except PyErr (W × W))) with
    | error _ => rfl
    | ok l =>
      have hl : List.Forall₂ (fun k p => dget? C k = some p.1 ∧ dget? C₁ k = some p.2) (dkeys C) l := by
        refine List.Forall₂.imp (fun k p hkp => ?_) (mapM_ok_iff.1 e)
        unfold dget at hkp
        cases e1 : dget? C k with
        | none => rw [e1] at hkp; cases hkp
        | some a =>
          cases e2 : dget? C₁ k with
          | none => rw [e1, e2] at hkp; cases hkp
          | some b => rw [e1, e2] at hkp; cases hkp; exact ⟨rfl, rfl⟩
      simp only [bind, Except.bind, t.stop C new C₁ hC hp l hl]
  · rfl

theorem kmLoop_twins (he : e₁.Ok) (h : Inv m) (hv : HasVectors m vs) (hnb : 0 < nb) (hnb' : nb ≤ m.managed.length)
    (t : Twins e₁ e₂ m vs nb) (left : Nat) (old : Dict α Int) {C : Dict Int W} (hC : RunCentroids e₁ m vs nb C) :
    kmLoop e₂ m vs nb left old C = kmLoop e₁ m vs nb left old C := by
  induction left generalizing old C with
  | zero => rfl
  | succ left ih =>
    unfold kmLoop
    rw [kmPass_twins he h hv hnb hnb' t hC]
    cases e : kmPass e₁ m vs nb C with
    | error _ => rfl
    | ok r =>
      obtain ⟨new, C₁⟩ := r
      simp only [bind, Except.bind, kmConverged_twins t hC e, ih new (.pass hC e)]

theorem kmCOP_twins (he : e₁.Ok) (h : Inv m) (hv : HasVectors m vs) (hnb : 0 < nb) (hnb' : nb ≤ m.managed.length)
    (t : Twins e₁ e₂ m vs nb) (it : Nat) : kmCOP e₂ m vs nb it = kmCOP e₁ m vs nb it := by
  have h0 : kmInitialize e₂ m.managed vs nb = kmInitialize e₁ m.managed vs nb := by
    unfold kmInitialize
    rw [t.shuffle]
  unfold kmCOP
  rw [h0]
  cases e : kmInitialize e₁ m.managed vs nb with
  | error _ => rfl
  | ok C =>
    simp only [bind, Except.bind, kmLoop_twins he h hv hnb hnb' t it _ (.init e), kmCentroids_twins t]

end Same

/-! ### Pairs of vectors -/

section Pairs
variable (env : KMeansEnv α V δ) (env' : KMeansEnv α V' δ')

/-- Both vectors side by side; the distances and the tolerance of `env`. -/
def pairEnv : KMeansEnv α (V × V') δ where
  metric p q := env.metric p.1 q.1
  mean l := (env.mean (l.map Prod.fst), env'.mean (l.map Prod.snd))
  small l := env.small (l.map fun q => (q.1.1, q.2.1))
  enum := env.enum
  shuffle := env.shuffle

/-- The same with the distances and the tolerance of `env'`. -/
def pairEnv' : KMeansEnv α (V × V') δ' where
  metric p q := env'.metric p.2 q.2
  mean l := (env.mean (l.map Prod.fst), env'.mean (l.map Prod.snd))
  small l := env'.small (l.map fun q => (q.1.2, q.2.2))
  enum := env.enum
  shuffle := env.shuffle

theorem pairEnv_fst : MovedKMeans Prod.fst id m (pairEnv env env') env :=
  ⟨strictMono_id, fun _ _ => rfl, fun _ _ => rfl, fun _ => rfl, rfl, rfl⟩

variable {env env'}

theorem pairEnv_snd (h1 : env'.enum = env.enum) (h2 : env'.shuffle = env.shuffle) : MovedKMeans Prod.snd id m (pairEnv' env env') env' :=
  ⟨strictMono_id, fun _ _ => rfl, fun _ _ => rfl, fun _ => rfl, h1, by rw [h2]; rfl⟩

theorem dmap_id_id {κ ν : Type} (d : Dict κ ν) : dmap id id d = d := List.map_id d

theorem dmap_id_dmap {κ κ' ν : Type} (d : Dict κ (Dict κ' ν)) : dmap id (dmap id id) d = d := by
  have : (dmap id id : Dict κ' ν → Dict κ' ν) = id := funext dmap_id_id
  rw [this]
  exact dmap_id_id d

variable {ps : Dict α (V × V')} {nb : Nat}

theorem RunCentroids.fst {C : Dict Int (V × V')} (hC : RunCentroids (pairEnv env env') m ps nb C) :
    RunCentroids env m (dmap id Prod.fst ps) nb (dmap id Prod.fst C) := by
  induction hC with
  | init e => exact .init (by rw [kmInitialize_geo (pairEnv_fst env env'), e]; rfl)
  | @pass C new C' _ e ih => exact .pass (new := new) ih (by rw [kmPass_geo (pairEnv_fst env env'), e]; rfl)

theorem kmDistances_fst {C : Dict Int (V × V')} {dist : Dict α (Dict Int δ)} (hd : kmDistances (pairEnv env env') m ps C = .ok dist) :
    kmDistances env m (dmap id Prod.fst ps) (dmap id Prod.fst C) = .ok dist := by
  rw [kmDistances_geo (pairEnv_fst env env'), hd]
  exact congrArg Except.ok (dmap_id_dmap dist)

theorem InPass.fst {C : Dict Int (V × V')} {dist : Dict α (Dict Int δ)} {s : List α × Dict α Int} (hs : InPass m nb C dist s) :
    InPass m nb (dmap id Prod.fst C) dist s := by
  induction hs with
  | start => exact .start
  | @step s x s' _ hx e ih =>
    refine .step ih hx ?_
    rw [← e]
    unfold kmAssign
    have := kmChoose_geo (m := m) (φ := (Prod.fst : V × V' → V)) (ψ := (id : δ → δ)) strictMono_id m.managed nb C dist s.2 x
    rw [dmap_id_dmap] at this
    rw [show kmChoose m m.managed nb (dmap id Prod.fst C) dist (s.1.dropLast, s.2).2 x = _ from this]

theorem dget?_dmap_id {κ ν ν' : Type} [DecidableEq κ] (g : ν → ν') (d : Dict κ ν) (x : κ) : dget? (dmap id g d) x = (dget? d x).map g :=
  dget?_dmap (f := id) Function.injective_id g d x

theorem admissible_fst {C : Dict Int (V × V')} {new : Dict α Int} {x : α} {c : Int} :
    Admissible m (dmap id Prod.fst C) new x c ↔ Admissible m C new x c := by
  unfold Admissible
  rw [dkeys_dmap, List.map_id]

/-- The centroids of a run of pairs come in pairs made from the same IDs. -/
theorem kmCentroids_source {E : KMeansEnv α (V × V') δ} (hE : E.mean = (pairEnv env env').mean) {new : Dict α Int}
    {C : Dict Int (V × V')} (hC : kmCentroids E m ps new = .ok C) {k : Int} {p : V × V'} (hk : dget? C k = some p) :
    SameSource env env' m (dmap id Prod.fst ps) (dmap id Prod.snd ps) p.1 p.2 := by
  unfold kmCentroids at hC
  simp only [bind, Except.bind] at hC
  split at hC
  · cases hC
  rename_i items hi
  cases hC
  have hmem := mem_of_dget?_dofList hk
  obtain ⟨c, -, hc⟩ := forall₂_mem_right (mapM_ok_iff.1 hi) hmem
  split at hc
  · cases hc
  rename_i ys hys
  split at hc
  · cases hc
  rename_i ms hms
  split at hc
  · cases hc
  rename_i hne
  cases hc
  have hF := mapM_ok_iff.1 hms
  have hF' : List.Forall₂ (fun x v => dget? ps x = some v) ys ms := hF.imp fun x v h => by
    unfold dget at h
    cases e : dget? ps x with
    | none => rw [e] at h; cases h
    | some w => rw [e] at h; cases h; rfl
  rw [hE]
  refine .mean (S := ys) ?_ ?_ ?_ ?_
  · rintro rfl
    cases hF'
    exact hne rfl
  · rw [(filterM_ok hys).2]
    exact List.filter_sublist
  · rw [List.forall₂_map_right_iff]
    exact hF'.imp fun x v h => by rw [dget?_dmap_id, h]; rfl
  · rw [List.forall₂_map_right_iff]
    exact hF'.imp fun x v h => by rw [dget?_dmap_id, h]; rfl

theorem RunCentroids.source (he : env.Ok) {C : Dict Int (V × V')} (hC : RunCentroids (pairEnv env env') m ps nb C) {k : Int} {p : V × V'}
    (hk : dget? C k = some p) : SameSource env env' m (dmap id Prod.fst ps) (dmap id Prod.snd ps) p.1 p.2 := by
  cases hC with
  | init e =>
    unfold kmInitialize at e
    simp only [bind, Except.bind] at e
    split at e
    · cases e
    rename_i items hi
    cases e
    obtain ⟨c, -, hc⟩ := forall₂_mem_right (mapM_ok_iff.1 hi) (mem_of_dget?_dofList hk)
    unfold kmInitEntry at hc
    split at hc
    · rename_i x hx
      unfold dget at hc
      cases e1 : dget? ps x with
      | none => rw [e1] at hc; cases hc
      | some w =>
        rw [e1] at hc
        cases hc
        have hxm : x ∈ m.managed := by
          have h1 := List.mem_of_getElem? hx
          have h2 : x ∈ env.shuffle m.managed := List.mem_of_mem_take h1
          exact (he.shuffle m.managed).mem_iff.1 h2
        exact .vector hxm (by rw [dget?_dmap_id, e1]; rfl) (by rw [dget?_dmap_id, e1]; rfl)
    · cases hc
  | @pass C0 new _ _ e =>
    unfold kmPass at e
    simp only [bind, Except.bind] at e
    split at e
    · cases e
    split at e
    · cases e
    split at e
    · cases e
    rename_i cs hcs
    cases e
    exact kmCentroids_source rfl hcs hk

end Pairs

end Verif
