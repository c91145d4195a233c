import Verif.Spec.MpcMove
import Verif.Proofs.NamesCluster
import Verif.Proofs.NamesOthers
import Verif.Proofs.GeometryHier
import Verif.Proofs.Geometry
import Verif.Proofs.OrderHier
import Verif.Proofs.MpcDescent
import Verif.Props.MPC

/-
Lemmas for C118: MPC-KMeans on vectors that are moved, mirrored or measured in another unit.
-/

namespace Verif

theorem foldlM_state_of {ε ι σ σ' : Type} {φ : σ → σ'} {k : σ → ι → Except ε σ} {k' : σ' → ι → Except ε σ'} {l : List ι} {s : σ} {s' : σ'}
    (hs : s' = φ s) (h : ∀ x ∈ l, ∀ s, k' (φ s) x = (k s x).map φ) : l.foldlM k' s' = (l.foldlM k s).map φ := by
  subst hs
  exact foldlM_state h

theorem bind_names_of {ε β β' γ γ' : Type} {F : β → β'} {G : γ → γ'} {a : Except ε β} {a' : Except ε β'} {k : β → Except ε γ} {k' : β' → Except ε γ'}
    (h : a' = a.map F) (hk : ∀ b, a = .ok b → k' (F b) = (k b).map G) : (a' >>= k') = (a >>= k).map G := by
  subst h
  cases a with
  | error e => rfl
  | ok b => exact hk b rfl

section
variable {κ : Type} [Field κ] [LinearOrder κ] [IsStrictOrderedRing κ] {D : Nat}

omit [Field κ] [IsStrictOrderedRing κ] in
theorem npArgmin_mono {ψ : κ → κ} (hψ : StrictMono ψ) (l : List κ) : npArgmin (l.map ψ) = npArgmin l := by
  unfold npArgmin
  rw [List.zipIdx_map, pyMinBy_map (key := Prod.fst) (key' := Prod.fst) (F := Prod.map ψ id) fun a b => hψ.lt_iff_lt]
  cases pyMinBy Prod.fst l.zipIdx <;> rfl

variable {ch : MpcChoices κ D} {w : κ} {T : (Fin D → κ) → Fin D → κ} {A A' : Fin D → κ} {c : κ}

/-! ### One pass -/

theorem mpcFarPair_move (hc : 0 < c) (hd : ∀ x y, mpcDist A' (T x) (T y) = c * mpcDist A x y) (X : List (Fin D → κ)) :
    mpcFarPair (mpcExact ch w) A' (X.map T) = (mpcFarPair (mpcExact ch w) A X).map fun f => (f.1, f.2.1, c * f.2.2) := by
  unfold mpcFarPair
  rw [List.length_map]
  refine bind_names (F := fun s : κ × Option (Nat × Nat × κ) => (c * s.1, s.2.map fun f => (f.1, f.2.1, c * f.2.2))) ?_ ?_
  · refine foldlM_state_of (by simp [mpcExact]) fun p _ s => ?_
    unfold mpcPairStep
    refine bind_names (lget_names ..) fun x => bind_names (lget_names ..) fun y => ?_
    show (if c * s.1 < mpcDist A' (T x) (T y) then _ else _) = Except.map _ (if s.1 < mpcDist A x y then _ else _)
    simp only [show (mpcExact ch w).mdist = mpcDist from rfl, hd, mul_lt_mul_iff_right₀ hc]
    split <;> rfl
  · rintro ⟨v, o⟩
    cases o <;> rfl

omit [IsStrictOrderedRing κ] in
theorem mpcObjective_move (hd : ∀ x y, mpcDist A' (T x) (T y) = c * mpcDist A x y) (far : κ) (X centers : List (Fin D → κ))
    (ml cl : Graph) (labels : List Int) (i k : Nat) :
    mpcObjective (mpcExact ch w) A' (c * far) (X.map T) (centers.map T) ml cl labels i k =
      (mpcObjective (mpcExact ch w) A far X centers ml cl labels i k).map fun v => c * (v + ch.logDet A) - ch.logDet A' := by
  unfold mpcObjective
  refine bind_names (lget_names ..) fun x => bind_names (lget_names ..) fun y => bind_same_names rfl fun s1 =>
    bind_names (F := fun v => c * v) ?_ fun tm => bind_same_names rfl fun s2 => bind_names (F := fun v => c * v) ?_ fun tc => ?_
  · refine foldlM_state_of (by simp [mpcExact]) fun j _ v => ?_
    unfold mpcTermM
    refine bind_same_names rfl fun l => ?_
    split
    · refine bind_names (lget_names ..) fun x => bind_names (lget_names ..) fun y => ?_
      show Except.ok (c * v + 2 * w * mpcDist A' (T x) (T y)) = Except.ok (c * (v + 2 * w * mpcDist A x y))
      rw [hd]
      congr 1
      ring
    · rfl
  · refine foldlM_state_of (by simp [mpcExact]) fun j _ v => ?_
    unfold mpcTermC
    refine bind_same_names rfl fun l => ?_
    split
    · refine bind_names (lget_names ..) fun x => bind_names (lget_names ..) fun y => ?_
      show Except.ok (c * v + 2 * w * (c * far - mpcDist A' (T x) (T y))) = Except.ok (c * (v + 2 * w * (far - mpcDist A x y)))
      rw [hd]
      congr 1
      ring
    · rfl
  · show Except.ok (mpcDist A' (T x) (T y) - ch.logDet A' + c * tm + c * tc) =
      Except.ok (c * (mpcDist A x y - ch.logDet A + tm + tc + ch.logDet A) - ch.logDet A')
    rw [hd]
    congr 1
    ring

theorem mpcRepair_move (hc : 0 < c) {dist dist' : Nat → Nat → Except PyErr κ} (h : ∀ p k, dist' p k = (dist p k).map fun v => c * v)
    (nb : Nat) (labels : List Int) : mpcRepair dist' nb labels = mpcRepair dist nb labels := by
  have hdon : ∀ labels counts, mpcDonors dist' labels counts = (mpcDonors dist labels counts).map (List.map fun q => (q.1, c * q.2)) := by
    intro labels counts
    unfold mpcDonors
    refine bind_names (F := List.map fun q => (q.1, c * q.2)) (mapM_values fun q _ => ?_) fun items => ?_
    · exact bind_names (h q.1 q.2) fun v => rfl
    · exact congrArg Except.ok (dofList_dmap Function.injective_id (fun v => c * v) items)
  have hfill : mpcFillStep dist' = mpcFillStep dist := by
    funext s k
    unfold mpcFillStep
    refine bind_names_same (hdon s.1 s.2) fun d => ?_
    have hmax : pyMaxBy Prod.snd (d.map fun q => (q.1, c * q.2)) = (pyMaxBy Prod.snd d).map fun q => (q.1, c * q.2) :=
      pyMaxBy_map fun a _ b _ => mul_lt_mul_iff_right₀ hc
    rw [hmax]
    cases pyMaxBy Prod.snd d <;> rfl
  unfold mpcRepair
  rw [hfill]

theorem mpcAssign_move (hc : 0 < c) (hd : ∀ x y, mpcDist A' (T x) (T y) = c * mpcDist A x y) (far : κ) (X centers : List (Fin D → κ))
    (ml cl : Graph) (nb it : Nat) :
    mpcAssign (mpcExact ch w) A' (c * far) (X.map T) (centers.map T) ml cl nb it = mpcAssign (mpcExact ch w) A far X centers ml cl nb it := by
  have hstep : mpcAssignStep (mpcExact ch w) A' (c * far) (X.map T) (centers.map T) ml cl =
      mpcAssignStep (mpcExact ch w) A far X centers ml cl := by
    funext labels i
    unfold mpcAssignStep
    rw [List.length_map]
    refine bind_names_same (mapM_values fun k _ => mpcObjective_move hd far X centers ml cl labels i k) fun values => ?_
    rw [npArgmin_mono fun a b hab => by nlinarith]
  unfold mpcAssign
  rw [hstep, List.length_map]
  refine bind_names_same (F := id) (map_except_id _).symm fun labels => ?_
  refine mpcRepair_move hc (fun p k => ?_) nb labels
  refine bind_names (lget_names ..) fun x => bind_names (lget_names ..) fun y => ?_
  exact congrArg Except.ok (hd x y)

/-! ### Start -/

omit [LinearOrder κ] [IsStrictOrderedRing κ] in
theorem mpcMean_move {s : κ} {ε : Fin D → κ} {σ : Equiv.Perm (Fin D)} {t : Fin D → κ} [CharZero κ] {l : List (Fin D → κ)} (hl : l ≠ []) :
    mpcMean (l.map (mpcMove s ε σ t)) = mpcMove s ε σ t (mpcMean l) := by
  funext d
  have hpos : (l.length : κ) ≠ 0 := by
    have := List.length_pos_iff.2 hl
    exact_mod_cast this.ne'
  have hsum : ((l.map (mpcMove s ε σ t)).map fun x => x d).sum = s * ε d * (l.map fun x => x (σ d)).sum + l.length * t d := by
    clear hl hpos
    induction l with
    | nil => simp
    | cons a l ih =>
      simp only [List.map_cons, List.sum_cons, ih, List.length_cons, mpcMove, Nat.cast_add, Nat.cast_one]
      ring
  show ((l.map (mpcMove s ε σ t)).map fun x => x d).sum / ((l.map (mpcMove s ε σ t)).length : κ) =
    s * ε d * ((l.map fun x => x (σ d)).sum / (l.length : κ)) + t d
  rw [hsum, List.length_map]
  field_simp

omit [LinearOrder κ] [IsStrictOrderedRing κ] in
theorem mpcDist_move {s : κ} {ε : Fin D → κ} (hε : ∀ d, ε d ^ 2 = 1) {σ : Equiv.Perm (Fin D)} {t : Fin D → κ}
    (hA : ∀ d, A' d * s ^ 2 = c * A (σ d)) (x y : Fin D → κ) :
    mpcDist A' (mpcMove s ε σ t x) (mpcMove s ε σ t y) = c * mpcDist A x y := by
  unfold mpcDist
  rw [Finset.mul_sum, ← Equiv.sum_comp σ fun d => c * (A d * (x d - y d) ^ 2)]
  refine Finset.sum_congr rfl fun d _ => ?_
  rw [← mul_assoc, ← hA]
  unfold mpcMove
  linear_combination (A' d * s ^ 2 * (x (σ d) - y (σ d)) ^ 2) * hε d

variable {s : κ} {ε : Fin D → κ} {σ : Equiv.Perm (Fin D)} {t : Fin D → κ}

theorem mpcTraversal_move (hs : 0 < s) {points : List (Fin D → κ)}
    (hd : ∀ x ∈ points, ∀ y ∈ points, (mpcExact ch w).dist (T x) (T y) = s * (mpcExact ch w).dist x y) (sizes : List Nat) (k : Nat) :
    mpcTraversal (mpcExact ch w) (points.map T) sizes k = mpcTraversal (mpcExact ch w) points sizes k := by
  have hset : ∀ i S, mpcSetDist (mpcExact ch w) (points.map T) i S = (mpcSetDist (mpcExact ch w) points i S).map fun v => s * v := by
    intro i S
    unfold mpcSetDist
    refine bind_names (F := List.map fun v => s * v) (mapM_values fun j _ => ?_) fun ds => ?_
    · exact bind_names_of (lget_names ..) fun x hx => bind_names_of (lget_names ..) fun y hy =>
        congrArg Except.ok (hd x (List.mem_of_getElem? (lget_ok.1 hx)) y (List.mem_of_getElem? (lget_ok.1 hy)))
    · rw [min?_mono (fun a b hab => mul_le_mul_of_nonneg_left hab hs.le)]
      cases ds.min? <;> rfl
  have hfar : mpcFarthest (mpcExact ch w) (points.map T) sizes = mpcFarthest (mpcExact ch w) points sizes := by
    funext traversed
    unfold mpcFarthest
    rw [List.length_map]
    refine bind_names_same (F := fun q : κ × Option Nat => (s * q.1, q.2)) ?_ fun q => rfl
    refine foldlM_state_of (by simp [mpcExact]) fun j _ q => ?_
    unfold mpcFarStep
    split
    · rfl
    · refine bind_same_names rfl fun sz => bind_names (hset ..) fun d => ?_
      have hw : (mpcExact ch w).weigh sz sizes.sum (s * d) = s * (mpcExact ch w).weigh sz sizes.sum d := by
        show (sz : κ) / (sizes.sum : Nat) * (s * d) = s * ((sz : κ) / (sizes.sum : Nat) * d)
        ring
      simp only [hw, mul_lt_mul_iff_right₀ hs]
      split <;> rfl
  unfold mpcTraversal
  rw [hfar]

theorem mpcInit_move [CharZero κ] (hs : 0 < s) (hε : ∀ d, ε d ^ 2 = 1) {nbhs : List (List Nat)} (hn : ∀ P ∈ nbhs, P ≠ [])
    (X : List (Fin D → κ)) (nb : Nat)
    (hroot : ∀ means, (nbhs.mapM fun P => do return (mpcExact ch w).mean (← P.mapM fun i => lget X i)) = .ok means →
      ∀ x ∈ means, ∀ y ∈ means, ch.sqrt (s ^ 2 * ∑ d, (x d - y d) ^ 2) = s * ch.sqrt (∑ d, (x d - y d) ^ 2)) :
    mpcInit (mpcExact ch w) (X.map (mpcMove s ε σ t)) nbhs nb =
      (mpcInit (mpcExact ch w) X nbhs nb).map (List.map (mpcMove s ε σ t)) := by
  have hd : ∀ x y, (mpcExact ch w).dist (mpcMove s ε σ t x) (mpcMove s ε σ t y) = ch.sqrt (s ^ 2 * ∑ d, (x d - y d) ^ 2) := by
    intro x y
    have e : ∀ x y : Fin D → κ, ∑ d, (x d - y d) ^ 2 = mpcDist (fun _ => 1) x y := fun x y => by simp [mpcDist]
    show ch.sqrt (∑ d, (mpcMove s ε σ t x d - mpcMove s ε σ t y d) ^ 2) = ch.sqrt (s ^ 2 * ∑ d, (x d - y d) ^ 2)
    rw [e, e, mpcDist_move hε (c := s ^ 2) (A := fun _ => 1) (fun d => by ring)]
  unfold mpcInit
  refine bind_names_of (F := List.map (mpcMove s ε σ t)) (mapM_values fun P hP => ?_) fun centers hcs => ?_
  · refine bind_names_of (F := List.map (mpcMove s ε σ t)) (mapM_values fun i _ => lget_names ..) fun l hl => ?_
    refine congrArg Except.ok (mpcMean_move ?_)
    rintro rfl
    refine hn P hP ?_
    cases P with
    | nil => rfl
    | cons a P =>
      rw [List.mapM_cons] at hl
      cases ha : lget X a with
      | error e => rw [ha] at hl; cases hl
      | ok x =>
        rw [ha] at hl
        cases hb : P.mapM (lget X) with
        | error e => simp only [bind, Except.bind, hb] at hl; cases hl
        | ok l => simp only [bind, Except.bind, hb] at hl; cases hl
  · split
    · rw [mpcTraversal_move hs fun x hx y hy => (hd x y).trans (hroot _ hcs x hx y hy)]
      refine bind_same_names rfl fun l => ?_
      exact mapM_values fun i _ => lget_names ..
    · simp only [List.map_eq_nil_iff, List.length_map]
      split
      · rfl
      · split
        · split
          · rfl
          · refine bind_names (F := List.map (mpcMove s ε σ t)) (mapM_values fun i _ => lget_names ..) fun l => ?_
            exact congrArg Except.ok (List.map_append ..).symm
        · rfl

/-! ### The loop -/

omit [LinearOrder κ] [IsStrictOrderedRing κ] in
theorem coord_move {X : List (Fin D → κ)} {i : Nat} (hi : i < X.length) (d : Fin D) :
    coord (X.map (mpcMove s ε σ t)) i d = s * ε d * coord X i (σ d) + t d := by
  unfold coord
  rw [List.getElem?_map, List.getElem?_eq_getElem hi]
  rfl

omit [LinearOrder κ] [IsStrictOrderedRing κ] in
theorem coord_diff_move (hε : ∀ d, ε d ^ 2 = 1) {X Y : List (Fin D → κ)} {i j : Nat} (hi : i < X.length) (hj : j < Y.length) (d : Fin D) :
    (coord (X.map (mpcMove s ε σ t)) i d - coord (Y.map (mpcMove s ε σ t)) j d) ^ 2 = s ^ 2 * (coord X i (σ d) - coord Y j (σ d)) ^ 2 := by
  rw [coord_move hi, coord_move hj]
  linear_combination (s ^ 2 * (coord X i (σ d) - coord Y j (σ d)) ^ 2) * hε d

omit [LinearOrder κ] [IsStrictOrderedRing κ] in
theorem flatMap_sum_scale {l : List Nat} {g : Nat → List Nat} {f f' : Nat → Nat → κ} (h : ∀ i ∈ l, ∀ j ∈ g i, f' i j = c * f i j) :
    (l.flatMap fun i => (g i).map (f' i)).sum = c * (l.flatMap fun i => (g i).map (f i)).sum := by
  induction l with
  | nil => simp
  | cons a l ih =>
    rw [List.flatMap_cons, List.flatMap_cons, List.sum_append, List.sum_append, ih fun i hi => h i (List.mem_cons_of_mem _ hi), mul_add,
      ← List.sum_map_mul_left]
    congr 2
    exact List.map_congr_left fun j hj => h a List.mem_cons_self j hj

theorem mpcWidth_move (hε : ∀ d, ε d ^ 2 = 1) {n nb : Nat} {X centers : List (Fin D → κ)} {ml cl : Graph} {R S : Nat → Nat → Prop}
    (hr : MpcReady n X ml cl R S) {L : List Int} (hL : GoodLabels n nb L) (hc : centers.length = nb) {far : Nat × Nat × κ}
    (h1 : far.1 < X.length) (h2 : far.2.1 < X.length) (d : Fin D) :
    mpcWidth w (X.map (mpcMove s ε σ t)) L (centers.map (mpcMove s ε σ t)) (far.1, far.2.1, c * far.2.2) ml cl d =
      s ^ 2 * mpcWidth w X L centers far ml cl (σ d) := by
  unfold mpcWidth
  rw [mul_add, mul_add]
  have hget : ∀ {g : Graph} {R : Nat → Nat → Prop}, GraphOf n g R → (∀ i j, R i j → j < n) → ∀ i j, j ∈ (dget? g i).getD [] → j < X.length := by
    intro g R hg hlt i j hj
    cases e : dget? g i with
    | none => rw [e] at hj; cases hj
    | some l =>
      rw [e] at hj
      rw [hr.len]
      exact hlt i j (((hg.2 i l e).2 j).1 hj)
  congr 1
  · congr 1
    · unfold mpcTermX
      rw [List.length_map, ← List.sum_map_mul_left]
      congr 1
      refine List.map_congr_left fun i hi => ?_
      have hi' := List.mem_range.1 hi
      have hl : i < L.length := by rw [hL.1, ← hr.len]; exact hi'
      refine coord_diff_move hε hi' ?_ d
      have := hL.2.1 _ (List.getElem_mem hl)
      rw [labelAt_get (List.getElem?_eq_getElem hl), hc]
      omega
    · unfold mpcSumM
      rw [List.length_map]
      refine flatMap_sum_scale fun i hi j hj => ?_
      split
      · rw [coord_diff_move hε (List.mem_range.1 hi) (hget hr.ml hr.ltR i j hj)]
        ring
      · rw [mul_zero]
  · unfold mpcSumC
    rw [List.length_map]
    refine flatMap_sum_scale fun i hi j hj => ?_
    split
    · rw [coord_diff_move hε (List.mem_range.1 hi) (hget hr.cl hr.ltS i j hj), coord_diff_move hε h1 h2, ← mul_sub]
      have hmax : ∀ a : κ, max (s ^ 2 * a) 0 = s ^ 2 * max a 0 := fun a => by rw [mul_max_of_nonneg _ _ (sq_nonneg s), mul_zero]
      rw [hmax]
      ring
    · rw [mul_zero]

theorem mpcCenters_move {n nb : Nat} {X : List (Fin D → κ)} (hX : X.length = n) {L : List Int} (hL : GoodLabels n nb L) :
    mpcCenters (mpcExact ch w) (X.map (mpcMove s ε σ t)) L nb = (mpcCenters (mpcExact ch w) X L nb).map (mpcMove s ε σ t) := by
  unfold mpcCenters
  rw [List.map_map]
  refine List.map_congr_left fun k hk => ?_
  have hfil : (((X.map (mpcMove s ε σ t)).zip L).filterMap fun q => if q.2 = (k : Int) then some q.1 else none) =
      ((X.zip L).filterMap fun q => if q.2 = (k : Int) then some q.1 else none).map (mpcMove s ε σ t) := by
    rw [List.zip_map_left, List.filterMap_map, List.map_filterMap]
    refine List.filterMap_congr fun q _ => ?_
    simp only [Function.comp_apply, Prod.map_fst, Prod.map_snd, id_eq]
    split <;> rfl
  show mpcMean _ = mpcMove s ε σ t (mpcMean _)
  rw [hfil]
  refine mpcMean_move ?_
  obtain ⟨i, hi⟩ := List.mem_iff_getElem?.1 (hL.2.2 k (List.mem_range.1 hk))
  have hlt : i < X.length := by
    rw [hX, ← hL.1]
    exact (List.getElem?_eq_some_iff.1 hi).1
  refine List.ne_nil_of_mem (a := X[i]) (List.mem_filterMap.2 ⟨(X[i], (k : Int)), ?_, by simp⟩)
  refine List.mem_of_getElem? (i := i) ?_
  rw [List.getElem?_zip_eq_some]
  exact ⟨List.getElem?_eq_getElem hlt, hi⟩

theorem mpcClose_move (hs : 0 < s) (hε : ∀ d, ε d ^ 2 = 1) (a b : List (Fin D → κ)) :
    mpcClose (a.map (mpcMove s ε σ t)) (b.map (mpcMove s ε σ t)) = true ↔ ∀ q ∈ a.zip b, ∀ d, s * |q.1 d - q.2 d| ≤ 1 / 10 ^ 6 := by
  have habs : ∀ (q : (Fin D → κ) × (Fin D → κ)) d, |mpcMove s ε σ t q.1 d - mpcMove s ε σ t q.2 d| = s * |q.1 (σ d) - q.2 (σ d)| := by
    intro q d
    have he : |ε d| = 1 := by
      rw [← sq_eq_sq₀ (abs_nonneg _) zero_le_one, sq_abs, hε, one_pow]
    rw [show mpcMove s ε σ t q.1 d - mpcMove s ε σ t q.2 d = s * (ε d * (q.1 (σ d) - q.2 (σ d))) by unfold mpcMove; ring, abs_mul, abs_mul, he,
      one_mul, abs_of_pos hs]
  unfold mpcClose
  rw [List.zip_map, List.all_eq_true]
  simp only [List.mem_map, decide_eq_true_eq, forall_exists_index, and_imp, forall_apply_eq_imp_iff₂, Prod.map_fst, Prod.map_snd, habs]
  refine forall₂_congr fun q _ => ?_
  exact ⟨fun h d => by simpa using h (σ.symm d), fun h d => h (σ d)⟩

/-- What is needed of the two absolute numbers of the code. -/
def UnitOk (s : κ) (ch : MpcChoices κ D) (w : κ) (X : List (Fin D → κ)) (ml cl : Graph) (nb most : Nat) (start : List (Fin D → κ)) : Prop :=
  ∀ it centers A far L, MpcPass (mpcExact ch w) X ml cl nb most start it centers A →
    mpcFarPair (mpcExact ch w) A X = .ok far → mpcAssign (mpcExact ch w) A far.2.2 X centers ml cl nb it = .ok L →
    ((mpcClose centers (mpcCenters (mpcExact ch w) X L nb) = true ↔
      ∀ q ∈ centers.zip (mpcCenters (mpcExact ch w) X L nb), ∀ d, s * |q.1 d - q.2 d| ≤ 1 / 10 ^ 6)) ∧
    (¬ mpcClose centers (mpcCenters (mpcExact ch w) X L nb) = true → ∀ d,
      max (s ^ 2 * mpcWidth w X L (mpcCenters (mpcExact ch w) X L nb) far ml cl d) (1 / 10 ^ 9) =
        s ^ 2 * max (mpcWidth w X L (mpcCenters (mpcExact ch w) X L nb) far ml cl d) (1 / 10 ^ 9))

omit [IsStrictOrderedRing κ] in
theorem mpcClose_iff (a b : List (Fin D → κ)) : mpcClose a b = true ↔ ∀ q ∈ a.zip b, ∀ d, |q.1 d - q.2 d| ≤ 1 / 10 ^ 6 := by
  unfold mpcClose
  simp only [List.all_eq_true, decide_eq_true_eq]

omit [IsStrictOrderedRing κ] in
theorem UnitOk.one {X : List (Fin D → κ)} {ml cl : Graph} {nb most : Nat} {start : List (Fin D → κ)} :
    UnitOk 1 ch w X ml cl nb most start := by
  intro it centers A far L _ _ _
  refine ⟨?_, fun _ d => by rw [one_pow, one_mul, one_mul]⟩
  rw [mpcClose_iff]
  simp only [one_mul]

omit [IsStrictOrderedRing κ] in
theorem UnitFree.ok {X : List (Fin D → κ)} {ml cl : Graph} {nb most : Nat} {start : List (Fin D → κ)}
    (h : UnitFree s ch w X ml cl nb most start) : UnitOk s ch w X ml cl nb most start := by
  intro it centers A far L h1 h2 h3
  rw [mpcClose_iff]
  rcases h it centers A far L h1 h2 h3 with ⟨a, b⟩ | ⟨⟨q, hq, d, hd⟩, ⟨q', hq', d', hd'⟩, hw⟩
  · exact ⟨⟨fun _ => b, fun _ => a⟩, fun hn => absurd a hn⟩
  · refine ⟨⟨fun h => absurd (h q hq d) (not_le.2 hd), fun h => absurd (h q' hq' d') (not_le.2 hd')⟩, fun _ d => ?_⟩
    rw [max_eq_left (hw d).1, max_eq_left (hw d).2]

theorem mpcLoop_move (hs : 0 < s) (hε : ∀ d, ε d ^ 2 = 1) (ha : MpcAssumptions (mpcExact ch w)) {n nb : Nat} (hnb : 1 ≤ nb)
    {X start : List (Fin D → κ)} {ml cl : Graph} {R S : Nat → Nat → Prop} (hr : MpcReady n X ml cl R S) {most : Nat} (hu : UnitOk s ch w X ml cl nb most start)
    (left it : Nat) (hit : it + left = most) {centers : List (Fin D → κ)} (hl : centers.length = nb) (labels : List Int)
    (hre : 0 < left → MpcPass (mpcExact ch w) X ml cl nb most start it centers A) (hc : 0 < c) (hA : ∀ d, A' d * s ^ 2 = c * A (σ d)) :
    mpcLoop (mpcExact ch w) (X.map (mpcMove s ε σ t)) ml cl nb left it (centers.map (mpcMove s ε σ t)) A' labels =
      mpcLoop (mpcExact ch w) X ml cl nb left it centers A labels := by
  induction left generalizing it centers A A' labels c with
  | zero => rfl
  | succ left ih =>
    have hd := mpcDist_move (s := s) (t := t) hε hA
    unfold mpcLoop
    rw [mpcFarPair_move hc hd]
    cases hf : mpcFarPair (mpcExact ch w) A X with
    | error e => rfl
    | ok far =>
      show (do
        let L ← mpcAssign (mpcExact ch w) A' (c * far.2.2) (X.map (mpcMove s ε σ t)) (centers.map (mpcMove s ε σ t)) ml cl nb it
        _) = (do
        let L ← mpcAssign (mpcExact ch w) A far.2.2 X centers ml cl nb it
        _)
      rw [mpcAssign_move hc hd]
      cases hL : mpcAssign (mpcExact ch w) A far.2.2 X centers ml cl nb it with
      | error e => rfl
      | ok L =>
        have hg := assign_good ha hr hl hnb hL
        obtain ⟨u1, u2⟩ := hu it centers A far L (hre (by omega)) hf hL
        obtain ⟨⟨x, y, hx, hy, -⟩, -⟩ := mpcFarPair_max hf
        have hiff : mpcClose (centers.map (mpcMove s ε σ t)) (mpcCenters (mpcExact ch w) (X.map (mpcMove s ε σ t)) L nb) = true ↔
            mpcClose centers (mpcCenters (mpcExact ch w) X L nb) = true := by
          rw [mpcCenters_move hr.len hg, mpcClose_move hs hε, u1]
        show (if mpcClose (centers.map (mpcMove s ε σ t)) (mpcCenters (mpcExact ch w) (X.map (mpcMove s ε σ t)) L nb) = true then _ else _) =
          (if mpcClose centers (mpcCenters (mpcExact ch w) X L nb) = true then _ else _)
        by_cases hcl : mpcClose centers (mpcCenters (mpcExact ch w) X L nb) = true
        · rw [if_pos (hiff.2 hcl), if_pos hcl]
        · rw [if_neg (mt hiff.1 hcl), if_neg hcl, mpcCenters_move hr.len hg]
          refine ih (it + 1) (by omega) (c := 1) (mpcCenters_length ..) L
            (fun hl0 => MpcPass.next (hre (by omega)) hf hL (Bool.eq_false_iff.2 hcl) (by omega)) one_pos fun d => ?_
          show (((X.map (mpcMove s ε σ t)).length : κ) / max (mpcWidth w (X.map (mpcMove s ε σ t)) L
            ((mpcCenters (mpcExact ch w) X L nb).map (mpcMove s ε σ t)) (far.1, far.2.1, c * far.2.2) ml cl d) (1 / 10 ^ 9)) * s ^ 2 =
            1 * ((X.length : κ) / max (mpcWidth w X L (mpcCenters (mpcExact ch w) X L nb) far ml cl (σ d)) (1 / 10 ^ 9))
          rw [mpcWidth_move hε hr hg (mpcCenters_length ..) (List.getElem?_eq_some_iff.1 hx).1 (List.getElem?_eq_some_iff.1 hy).1, u2 hcl,
            List.length_map, one_mul]
          have hpos : (0 : κ) < max (mpcWidth w X L (mpcCenters (mpcExact ch w) X L nb) far ml cl (σ d)) (1 / 10 ^ 9) :=
            lt_of_lt_of_le (by positivity) (le_max_right _ _)
          field_simp

/-! ### A whole call -/

variable {α : Type} [LinearOrder α]

theorem mpcCluster_move {m : Manager α} (h : Inv m) (hs : 0 < s) (hε : ∀ d, ε d ^ 2 = 1) (ha : MpcAssumptions (mpcExact ch w)) (p : MpcParams)
    {vectors : Dict α (Fin D → κ)} (hv : vectors.length = m.managed.length) (nb : Option Int)
    (hroot : ∀ nbhs, Neighborhoods m nbhs →
      ∀ means, (nbhs.mapM fun P => do return (mpcExact ch w).mean (← P.mapM fun i => lget (dvals vectors) i)) = .ok means →
      ∀ x ∈ means, ∀ y ∈ means, ch.sqrt (s ^ 2 * ∑ d, (x d - y d) ^ 2) = s * ch.sqrt (∑ d, (x d - y d) ^ 2))
    (hu : ∀ k, nb = some k → 2 ≤ k → ∀ mlp clp mlg clg nbhs start, mpcPairs m .mustLink = .ok mlp → mpcPairs m .cannotLink = .ok clp →
      mpcPreprocess ch.enum ch.depth m.managed.length mlp clp = .ok (mlg, clg, nbhs) →
      mpcInit (mpcExact ch w) (dvals vectors) nbhs (min k.toNat m.managed.length) = .ok start →
      UnitOk s ch w (dvals vectors) mlg clg (min k.toNat m.managed.length) p.maxIteration start) :
    mpcCluster (mpcExact ch w) p m (some (vectors.map fun q => (q.1, mpcMove s ε σ t q.2))) nb = mpcCluster (mpcExact ch w) p m (some vectors) nb := by
  have hvals : dvals (vectors.map fun q => (q.1, mpcMove s ε σ t q.2)) = (dvals vectors).map (mpcMove s ε σ t) := by simp [dvals]
  have hkeys : dkeys (vectors.map fun q => (q.1, mpcMove s ε σ t q.2)) = dkeys vectors := by simp [dkeys, Function.comp_def]
  have hlen : (dvals vectors).length = m.managed.length := by simpa [dvals] using hv
  cases nb with
  | none => rfl
  | some k =>
    unfold mpcCluster
    simp only [hvals, hkeys]
    by_cases hk : k < 2
    · simp only [if_pos hk]
      rfl
    · simp only [if_neg hk]
      obtain ⟨ml, cl, em, ec, h3, h4⟩ := mpcPreprocess_manager ha.enum h ch.depth
      simp only [em, ec]
      have key : mpcLabels (mpcExact ch w) p m.managed.length (min k.toNat m.managed.length) ml cl ((dvals vectors).map (mpcMove s ε σ t)) =
          mpcLabels (mpcExact ch w) p m.managed.length (min k.toNat m.managed.length) ml cl (dvals vectors) := by
        unfold mpcLabels
        by_cases hd : ∀ c ∈ m.components, c.length ≤ ch.depth
        · obtain ⟨mlg, clg, nbhs, h5, hmlg, hclg, hN⟩ := h3 hd
          have h5' : mpcPreprocess (mpcExact ch w).enum (mpcExact ch w).depth m.managed.length ml cl = .ok (mlg, clg, nbhs) := h5
          rw [h5']
          show (mpcInit (mpcExact ch w) ((dvals vectors).map (mpcMove s ε σ t)) nbhs (min k.toNat m.managed.length) >>= _) =
            (mpcInit (mpcExact ch w) (dvals vectors) nbhs (min k.toNat m.managed.length) >>= _)
          rw [mpcInit_move hs hε (fun P hP => nbhs_ne_nil h hN hP) _ _ (hroot nbhs hN)]
          cases hi : mpcInit (mpcExact ch w) (dvals vectors) nbhs (min k.toNat m.managed.length) with
          | error e => rfl
          | ok start =>
            have hn1 : 1 ≤ m.managed.length := by
              by_contra h0
              have hX : dvals vectors = [] := List.eq_nil_of_length_eq_zero (by omega)
              have hnb0 : nbhs = [] := by
                by_contra hne
                obtain ⟨P, hP⟩ := List.exists_mem_of_ne_nil _ hne
                obtain ⟨i, hi⟩ := List.exists_mem_of_ne_nil _ (nbhs_ne_nil h hN hP)
                have := nbhs_lt hN hP hi
                omega
              unfold mpcInit at hi
              rw [hX, hnb0] at hi
              simp at hi
            have hr : MpcReady m.managed.length (dvals vectors) mlg clg (InferredAt m .mustLink) (InferredAt m .cannotLink) :=
              ⟨hlen, hmlg, hclg, fun i j hij => hij.lt.2, fun i j hij => hij.lt.2⟩
            have hsl : start.length = min k.toNat m.managed.length := by
              obtain ⟨hin, -⟩ := mpcInit_ok ha (X := dvals vectors) (nbhs := nbhs) (fun P hP i hi => by rw [hlen]; exact nbhs_lt hN hP hi)
                (nb := min k.toNat m.managed.length) (by omega) (by omega)
              rcases hin with ⟨c', e', hl'⟩ | ⟨e', -⟩
              · rw [hi] at e'
                cases e'
                exact hl'
              · rw [hi] at e'
                cases e'
            exact mpcLoop_move hs hε ha (by omega) hr (hu k rfl (by omega) ml cl mlg clg nbhs start em ec h5 hi) p.maxIteration 0 (by omega) hsl []
              (fun h0 => MpcPass.first h0) (c := s ^ 2) (by positivity) fun d => mul_comm ..
        · have hbig : ∃ c ∈ m.components, ch.depth < c.length := by
            by_contra hno
            apply hd
            intro c hc
            by_contra hcon
            exact hno ⟨c, hc, by omega⟩
          have h5' : mpcPreprocess (mpcExact ch w).enum (mpcExact ch w).depth m.managed.length ml cl = .error .recursionError := h4 hbig
          rw [h5']
          rfl
      simp only [bind, Except.bind, key]

/-! ### Checking the hypothesis on a concrete call -/

instance (s : κ) (a b : List (Fin D → κ)) (width : Fin D → κ) : Decidable (UnitFreeStep s a b width) := by
  unfold UnitFreeStep
  infer_instance

/-- The test of `UnitFree`, pass by pass. -/
def unitFreeLoop (s : κ) (ch : MpcChoices κ D) (w : κ) (X : List (Fin D → κ)) (ml cl : Graph) (nb : Nat) :
    (left it : Nat) → List (Fin D → κ) → (Fin D → κ) → Bool
  | 0, _, _, _ => true
  | left + 1, it, centers, A =>
    match mpcFarPair (mpcExact ch w) A X with
    | .error _ => true
    | .ok far =>
      match mpcAssign (mpcExact ch w) A far.2.2 X centers ml cl nb it with
      | .error _ => true
      | .ok L =>
        decide (UnitFreeStep s centers (mpcCenters (mpcExact ch w) X L nb) (mpcWidth w X L (mpcCenters (mpcExact ch w) X L nb) far ml cl)) &&
        (mpcClose centers (mpcCenters (mpcExact ch w) X L nb) ||
          unitFreeLoop s ch w X ml cl nb left (it + 1) (mpcCenters (mpcExact ch w) X L nb)
            (mpcUpdate w X L (mpcCenters (mpcExact ch w) X L nb) far ml cl))

omit [IsStrictOrderedRing κ] in
theorem unitFree_of_loop {X start : List (Fin D → κ)} {ml cl : Graph} {nb most : Nat}
    (h : unitFreeLoop s ch w X ml cl nb most 0 start (fun _ => 1) = true) : UnitFree s ch w X ml cl nb most start := by
  have key : ∀ it centers A, MpcPass (mpcExact ch w) X ml cl nb most start it centers A →
      ∃ left, it + (left + 1) = most ∧ unitFreeLoop s ch w X ml cl nb (left + 1) it centers A = true := by
    intro it centers A hp
    induction hp with
    | first h0 => exact ⟨most - 1, by omega, by rw [show most - 1 + 1 = most by omega]; exact h⟩
    | next hp hf hL hc hlt ih =>
      obtain ⟨left, hl, he⟩ := ih
      unfold unitFreeLoop at he
      rw [hf] at he
      simp only [hL] at he
      have hc' : mpcClose _ _ = false := hc
      rw [hc', Bool.false_or, Bool.and_eq_true] at he
      exact ⟨left - 1, by omega, by rw [show left - 1 + 1 = left by omega]; exact he.2⟩
  intro it centers A far labels hp hf hL
  obtain ⟨left, -, he⟩ := key it centers A hp
  unfold unitFreeLoop at he
  rw [hf] at he
  simp only [hL, Bool.and_eq_true, decide_eq_true_eq] at he
  exact he.1

/-- The test of `UnitFreeCall`. -/
def unitFreeTest (s : κ) (ch : MpcChoices κ D) (w : κ) (most : Nat) (m : Manager α) (X : List (Fin D → κ)) (nb : Int) : Bool :=
  match mpcPairs m .mustLink, mpcPairs m .cannotLink with
  | .ok mlp, .ok clp =>
    match mpcPreprocess ch.enum ch.depth m.managed.length mlp clp with
    | .ok g =>
      match mpcInit (mpcExact ch w) X g.2.2 (min nb.toNat m.managed.length) with
      | .ok start => unitFreeLoop s ch w X g.1 g.2.1 (min nb.toNat m.managed.length) most 0 start (fun _ => 1)
      | .error _ => true
    | .error _ => true
  | _, _ => true

omit [IsStrictOrderedRing κ] in
theorem unitFree_of_test {most : Nat} {m : Manager α} {X : List (Fin D → κ)} {nb : Int} (h : unitFreeTest s ch w most m X nb = true) :
    UnitFreeCall s ch w most m X nb := by
  intro mlp clp mlg clg nbhs start em ec ep ei
  unfold unitFreeTest at h
  rw [em, ec] at h
  simp only [ep, ei] at h
  exact unitFree_of_loop h

end

end Verif
