import Mathlib.Analysis.InnerProductSpace.PiL2
import Verif.Proofs.HierSeparated
import Verif.Proofs.MpcFarthest
import Verif.Proofs.Questions
import Verif.Props.MPCExact

/-
C117: MPC-KMeans, in exact arithmetic, on IDs that fall into classes that are far apart.
-/

namespace Verif

section
variable {κ : Type} [Field κ] [LinearOrder κ] [IsStrictOrderedRing κ] {D : Nat}
variable {α : Type} [LinearOrder α]

/-- The class of a component. -/
def compClass (f : α → Nat) (c : List α) : Nat := (c.head?.map f).getD 0

theorem compClass_eq {m : Manager α} (h : Inv m) {f : α → Nat} (hf : Satisfies m f) {c : List α} (hc : c ∈ m.components) {x : α} (hx : x ∈ c) :
    f x = compClass f c := by
  cases c with
  | nil => cases hx
  | cons a l => exact satisfies_chain hf (((mem_component_iff h hc hx).2 a).1 (List.mem_cons_self ..))

omit [LinearOrder κ] [IsStrictOrderedRing κ] [LinearOrder α] in
theorem meanVec_perm {v : α → Fin D → κ} {l l' : List α} (h : l.Perm l') : meanVec v l = meanVec v l' := by
  funext d
  unfold meanVec
  rw [(h.map _).sum_eq, h.length_eq]

omit [IsStrictOrderedRing κ] in
/-- The means of the neighbourhoods are the means of the components. -/
theorem nbh_means {m : Manager α} (h : Inv m) {nbhs : List (List Nat)} (hn : Neighborhoods m nbhs) (ch : MpcChoices κ D) (w : κ) (v : α → Fin D → κ) :
    ∃ C : List (List α), C.Perm m.components ∧ nbhs.map List.length = C.map List.length ∧
      (nbhs.mapM fun P => do return (mpcExact ch w).mean (← P.mapM fun i => lget (m.managed.map v) i)) = .ok (C.map (meanVec v)) := by
  have hone : ∀ P, ∃ c, P ∈ nbhs → c ∈ m.components ∧ P.length = c.length ∧ (∀ i, i ∈ P ↔ ∃ x ∈ c, m.managed[i]? = some x) ∧
      (do return (mpcExact ch w).mean (← P.mapM fun i => lget (m.managed.map v) i) : Except PyErr (Fin D → κ)) = .ok (meanVec v c) := by
    intro P
    by_cases hP : P ∈ nbhs
    · obtain ⟨c, hc, hmem⟩ := hn.component P hP
      refine ⟨c, fun hP' => ?_⟩
      clear hP'
      refine ⟨hc, ?_⟩
      have hmemx : ∀ x, x ∈ P.filterMap (fun i => m.managed[i]?) ↔ x ∈ c := by
        intro x
        rw [List.mem_filterMap]
        constructor
        · rintro ⟨i, hi, hix⟩
          obtain ⟨y, hy, hiy⟩ := (hmem i).1 hi
          rw [hix] at hiy; cases hiy
          exact hy
        · intro hx
          obtain ⟨i, hi⟩ := List.getElem?_of_mem (mem_component_iff h hc hx).1
          exact ⟨i, (hmem i).2 ⟨x, hx, hi⟩, hi⟩
      have hperm : (P.filterMap fun i => m.managed[i]?).Perm c := by
        refine (List.perm_ext_iff_of_nodup ?_ (component_nodup h hc)).2 hmemx
        refine (hn.nodup P hP).filterMap fun i j x hi hj => ?_
        obtain ⟨hi1, hi2⟩ := List.getElem?_eq_some_iff.1 (Option.mem_def.1 hi)
        obtain ⟨hj1, hj2⟩ := List.getElem?_eq_some_iff.1 (Option.mem_def.1 hj)
        exact (h.d.nodup.getElem_inj_iff (hi := hi1) (hj := hj1)).1 (hi2.trans hj2.symm)
      have hall : ∀ i ∈ P, ∃ x, m.managed[i]? = some x := fun i hi => by
        obtain ⟨x, -, hx⟩ := (hmem i).1 hi
        exact ⟨x, hx⟩
      have hmap : (P.filterMap fun i => m.managed[i]?).length = P.length ∧
          ∀ d, ((P.map fun i => coord (m.managed.map v) i).map fun x => x d).sum = ((P.filterMap fun i => m.managed[i]?).map fun x => v x d).sum := by
        clear hmem hmemx hperm hP
        induction P with
        | nil => exact ⟨rfl, fun _ => rfl⟩
        | cons i P ih =>
          obtain ⟨x, hx⟩ := hall i (List.mem_cons_self ..)
          obtain ⟨h1, h2⟩ := ih fun j hj => hall j (List.mem_cons_of_mem _ hj)
          rw [List.filterMap_cons_some hx]
          refine ⟨by simp [h1], fun d => ?_⟩
          simp only [List.map_cons, List.sum_cons]
          rw [← h2 d, coord_get (x := v x) (by simp [hx])]
      refine ⟨hmap.1.symm.trans hperm.length_eq, hmem, ?_⟩
      have e2 : (P.mapM fun i => lget (m.managed.map v) i) = .ok (P.map fun i => coord (m.managed.map v) i) := mapM_ok fun i hi => by
        obtain ⟨x, hx⟩ := hall i hi
        rw [(lget_ok (x := v x)).2 (by simp [hx]), coord_get (x := v x) (by simp [hx])]
      rw [e2, ← meanVec_perm hperm]
      show Except.ok (mpcMean (P.map fun i => coord (m.managed.map v) i)) = _
      congr 1
      funext d
      unfold mpcMean meanVec
      rw [hmap.2 d, hmap.1, List.length_map]
    · exact ⟨[], fun hh => absurd hh hP⟩
  choose g hg using hone
  refine ⟨nbhs.map g, ?_, ?_, ?_⟩
  · apply (List.perm_ext_iff_of_nodup _ (components_nodup m)).2
    · intro c
      rw [List.mem_map]
      constructor
      · rintro ⟨P, hP, rfl⟩
        exact (hg P hP).1
      · intro hc
        obtain ⟨P, hP, hmem⟩ := hn.all c hc
        refine ⟨P, hP, ?_⟩
        obtain ⟨x, hx⟩ := List.exists_mem_of_ne_nil _ (component_ne_nil h hc)
        obtain ⟨i, hi⟩ := List.getElem?_of_mem (mem_component_iff h hc hx).1
        obtain ⟨y, hy, hiy⟩ := ((hg P hP).2.2.1 i).1 ((hmem i).2 ⟨x, hx, hi⟩)
        rw [hi] at hiy; cases hiy
        exact component_unique h (hg P hP).1 hc hy hx
    · rw [List.nodup_map_iff_inj_on]
      · intro P hP Q hQ hPQ
        by_contra hne
        have : Std.Symm (List.Disjoint (α := Nat)) := ⟨fun _ _ hd => hd.symm⟩
        obtain ⟨x, hx⟩ := List.exists_mem_of_ne_nil _ (component_ne_nil h (hg P hP).1)
        obtain ⟨i, hi⟩ := List.getElem?_of_mem (mem_component_iff h (hg P hP).1 hx).1
        have h1 : i ∈ P := ((hg P hP).2.2.1 i).2 ⟨x, hx, hi⟩
        have h2 : i ∈ Q := ((hg Q hQ).2.2.1 i).2 ⟨x, hPQ ▸ hx, hi⟩
        exact (List.Pairwise.forall (R := List.Disjoint) hn.disjoint hP hQ hne) h1 h2
      · refine hn.disjoint.imp_of_mem fun {P Q} hP hQ hd hPQ => ?_
        subst hPQ
        obtain ⟨x, hx⟩ := List.exists_mem_of_ne_nil _ (component_ne_nil h (hg P hP).1)
        obtain ⟨i, hi⟩ := List.getElem?_of_mem (mem_component_iff h (hg P hP).1 hx).1
        have h1 : i ∈ P := ((hg P hP).2.2.1 i).2 ⟨x, hx, hi⟩
        exact hd h1 h1
  · rw [List.map_map]
    exact List.map_congr_left fun P hP => (hg P hP).2.1
  · rw [List.map_map]
    exact mapM_ok fun P hP => (hg P hP).2.2.2

/-- The initial centres are means of components of different classes. -/
theorem mpcInit_classes {m : Manager α} (h : Inv m) {f : α → Nat} (hf : Satisfies m f) {nbhs : List (List Nat)} (hn : Neighborhoods m nbhs)
    {ch : MpcChoices κ D} {w : κ} (ha : MpcAssumptions (mpcExact ch w)) {v : α → Fin D → κ} (hroot : ∀ a, 0 ≤ a → 0 ≤ ch.sqrt a)
    (hi : InitialSeparates ch.sqrt m v f) (h2 : 2 ≤ classes f m.managed) :
    ∃ (start : List (Fin D → κ)) (K : List Nat), mpcInit (mpcExact ch w) (m.managed.map v) nbhs (classes f m.managed) = .ok start ∧ K.Nodup ∧
      (∀ q, q ∈ K ↔ ∃ x ∈ m.managed, f x = q) ∧ K.length = classes f m.managed ∧ start.length = K.length ∧
      ∀ (c q : Nat) (y : Fin D → κ), K[c]? = some q → start[c]? = some y → ∃ P ∈ m.components, (∀ z ∈ P, f z = q) ∧ y = meanVec v P := by
  obtain ⟨C, hC, hlen, emeans⟩ := nbh_means h hn ch w v
  have hCmem : ∀ c, c ∈ C ↔ c ∈ m.components := fun c => hC.mem_iff
  have hCn : C.Nodup := hC.nodup_iff.2 (components_nodup m)
  have hnl : nbhs.length = C.length := by simpa using congrArg List.length hlen
  have hle : classes f m.managed ≤ C.length := by rw [hC.length_eq]; exact classes_le h hf
  set q : Nat → Nat := fun i => compClass f ((C[i]?).getD []) with hq
  have hqi : ∀ i c, C[i]? = some c → q i = compClass f c := fun i c hc => by rw [hq]; simp only [hc, Option.getD_some]
  have himage : (Finset.range C.length).image q = m.managed.toFinset.image f := by
    ext p
    simp only [Finset.mem_image, Finset.mem_range, List.mem_toFinset]
    constructor
    · rintro ⟨i, hi, rfl⟩
      have hget : C[i]? = some C[i] := List.getElem?_eq_getElem hi
      have hin := (hCmem _).1 (List.getElem_mem hi)
      obtain ⟨x, hx⟩ := List.exists_mem_of_ne_nil _ (component_ne_nil h hin)
      exact ⟨x, (mem_component_iff h hin hx).1, by rw [hqi i _ hget]; exact compClass_eq h hf hin hx⟩
    · rintro ⟨x, hx, rfl⟩
      obtain ⟨c, hc, hxc⟩ := exists_component h hx
      obtain ⟨i, hi⟩ := List.getElem?_of_mem ((hCmem c).2 hc)
      exact ⟨i, (List.getElem?_eq_some_iff.1 hi).1, by rw [hqi i _ hi, ← compClass_eq h hf hc hxc]⟩
  have hcard : ((Finset.range C.length).image q).card = classes f m.managed := by rw [himage]; rfl
  -- the rest, from the list of the chosen components
  have fin : ∀ tr : List Nat, tr.length = classes f m.managed → (tr.map q).Nodup → (∀ j ∈ tr, j < C.length) →
      (tr.map q).Nodup ∧ (∀ p, p ∈ tr.map q ↔ ∃ x ∈ m.managed, f x = p) ∧ (tr.map q).length = classes f m.managed ∧
      ∀ (c p : Nat) (i : Nat), (tr.map q)[c]? = some p → tr[c]? = some i → ∃ P ∈ m.components, (∀ z ∈ P, f z = p) ∧ C[i]? = some P := by
    intro tr h1 h3 h4
    refine ⟨h3, fun p => ?_, by simpa using h1, ?_⟩
    · have hsub : (tr.map q).toFinset ⊆ m.managed.toFinset.image f := by
        rw [← himage]
        intro p hp
        obtain ⟨i, hi, rfl⟩ := List.mem_map.1 (List.mem_toFinset.1 hp)
        exact Finset.mem_image.2 ⟨i, Finset.mem_range.2 (h4 i hi), rfl⟩
      have heq := Finset.eq_of_subset_of_card_le hsub (by
        rw [List.toFinset_card_of_nodup h3, List.length_map, h1]
        exact le_rfl)
      rw [← List.mem_toFinset, heq]
      simp
    · intro c p i hp hi
      rw [List.getElem?_map, hi] at hp
      cases hp
      have hi' := h4 i (List.mem_of_getElem? hi)
      have hget : C[i]? = some C[i] := List.getElem?_eq_getElem hi'
      have hin := (hCmem _).1 (List.getElem_mem hi')
      exact ⟨C[i], hin, fun z hz => by rw [hqi i _ hget]; exact compClass_eq h hf hin hz, hget⟩
  have hsame : ∀ (i j : Nat) (c c' : List α), C[i]? = some c → C[j]? = some c' → q i = q j → ∀ x ∈ c, ∀ y ∈ c', f x = f y := by
    intro i j c c' hc hc' he x hx y hy
    rw [compClass_eq h hf ((hCmem c).1 (List.mem_of_getElem? hc)) hx, compClass_eq h hf ((hCmem c').1 (List.mem_of_getElem? hc')) hy,
      ← hqi i c hc, ← hqi j c' hc', he]
  have hdiff : ∀ (i j : Nat) (c c' : List α), C[i]? = some c → C[j]? = some c' → q i ≠ q j → ∀ x ∈ c, ∀ y ∈ c', f x ≠ f y := by
    intro i j c c' hc hc' he x hx y hy
    rw [compClass_eq h hf ((hCmem c).1 (List.mem_of_getElem? hc)) hx, compClass_eq h hf ((hCmem c').1 (List.mem_of_getElem? hc')) hy,
      ← hqi i c hc, ← hqi j c' hc']
    exact he
  unfold mpcInit
  rw [emeans]
  simp only [bind, Except.bind]
  by_cases hlt : classes f m.managed < nbhs.length
  · rw [if_pos hlt]
    -- two components of one class
    obtain ⟨i0, hi0, j0, hj0, hij0, hqij⟩ : ∃ i < C.length, ∃ j < C.length, i ≠ j ∧ q i = q j := by
      have := Finset.exists_ne_map_eq_of_card_lt_of_maps_to (s := Finset.range C.length) (t := m.managed.toFinset.image f) (f := q)
        (by rw [Finset.card_range]; exact lt_of_lt_of_eq hlt hnl) (fun i hi => by rw [← himage]; exact Finset.mem_image_of_mem _ hi)
      obtain ⟨i, hi, j, hj, h1, h2⟩ := this
      exact ⟨i, Finset.mem_range.1 hi, j, Finset.mem_range.1 hj, h1, h2⟩
    have hgetC : ∀ {i : Nat} {x : Fin D → κ}, (C.map (meanVec v))[i]? = some x → ∃ c, C[i]? = some c ∧ x = meanVec v c := by
      intro i x hx
      rw [List.getElem?_map, Option.map_eq_some_iff] at hx
      obtain ⟨c, hc, rfl⟩ := hx
      exact ⟨c, hc, rfl⟩
    have hsum : (0 : κ) < (nbhs.map List.length).sum := by
      have : 0 < (nbhs.map List.length).sum := by
        rw [hlen]
        refine lt_of_lt_of_le (List.length_pos_iff.2 (component_ne_nil h ((hCmem _).1 (List.getElem_mem hi0)))) ?_
        exact List.single_le_sum (by simp) _ (List.mem_map.2 ⟨C[i0], List.getElem_mem hi0, rfl⟩)
      exact_mod_cast this
    have hsep : ∀ (i j r s : Nat) (P Q R S : List α), C[i]? = some P → C[j]? = some Q → C[r]? = some R → C[s]? = some S → i ≠ j →
        q i = q j → q r ≠ q s →
        (P.length : κ) * ch.sqrt (sqDist (meanVec v P) (meanVec v Q)) < R.length * ch.sqrt (sqDist (meanVec v R) (meanVec v S)) := by
      intro i j r s P Q R S hP hQ hR hS hij h1 h3
      refine hi P ((hCmem _).1 (List.mem_of_getElem? hP)) Q ((hCmem _).1 (List.mem_of_getElem? hQ)) R ((hCmem _).1 (List.mem_of_getElem? hR)) S
        ((hCmem _).1 (List.mem_of_getElem? hS)) (fun hPQ => ?_) (hsame i j P Q hP hQ h1) (hdiff r s R S hR hS h3)
      subst hPQ
      obtain ⟨hi1, hi2⟩ := List.getElem?_eq_some_iff.1 hP
      obtain ⟨hj1, hj2⟩ := List.getElem?_eq_some_iff.1 hQ
      exact hij ((hCn.getElem_inj_iff (hi := hi1) (hj := hj1)).1 (hi2.trans hj2.symm))
    have hws : WeightsSeparate (mpcExact ch w) (C.map (meanVec v)) (nbhs.map List.length) q := by
      refine ⟨?_, ?_, ?_⟩
      · intro s t a b hab
        exact mul_le_mul_of_nonneg_left hab (div_nonneg (Nat.cast_nonneg _) (Nat.cast_nonneg _))
      · intro r s z x y hx hy hz hne
        obtain ⟨R, hR, rfl⟩ := hgetC hx
        obtain ⟨S, hS, rfl⟩ := hgetC hy
        rw [hlen, List.getElem?_map, hR] at hz
        cases hz
        have := hsep i0 j0 r s _ _ R S (List.getElem?_eq_getElem hi0) (List.getElem?_eq_getElem hj0) hR hS hij0 hqij hne
        have h0 : (0 : κ) ≤ (C[i0].length : κ) * ch.sqrt (sqDist (meanVec v C[i0]) (meanVec v C[j0])) :=
          mul_nonneg (Nat.cast_nonneg _) (hroot _ (Finset.sum_nonneg fun _ _ => sq_nonneg _))
        show (0 : κ) < (R.length : κ) / ((nbhs.map List.length).sum : Nat) * ch.sqrt (sqDist (meanVec v R) (meanVec v S))
        rw [div_mul_eq_mul_div]
        exact div_pos (h0.trans_lt this) hsum
      · intro i j r s z z' x y x' y' hx hy hx' hy' hz hz' hij h1 h3
        obtain ⟨P, hP, rfl⟩ := hgetC hx
        obtain ⟨Q, hQ, rfl⟩ := hgetC hy
        obtain ⟨R, hR, rfl⟩ := hgetC hx'
        obtain ⟨S, hS, rfl⟩ := hgetC hy'
        rw [hlen, List.getElem?_map, hP] at hz
        rw [hlen, List.getElem?_map, hR] at hz'
        cases hz
        cases hz'
        show (P.length : κ) / ((nbhs.map List.length).sum : Nat) * ch.sqrt (sqDist (meanVec v P) (meanVec v Q)) <
          (R.length : κ) / ((nbhs.map List.length).sum : Nat) * ch.sqrt (sqDist (meanVec v R) (meanVec v S))
        rw [div_mul_eq_mul_div, div_mul_eq_mul_div]
        exact div_lt_div_of_pos_right (hsep i j r s P Q R S hP hQ hR hS hij h1 h3) hsum
    obtain ⟨tr, etr, h1, h3, h4⟩ := mpcTraversal_classes ha (points := C.map (meanVec v)) (sizes := nbhs.map List.length)
      (by
        intro h0
        have : C.length = 0 := by simpa using congrArg List.length h0
        omega) (by simp [hnl]) hws (k := classes f m.managed) (by omega) (by rw [List.length_map, hcard])
    rw [List.length_map] at h4
    obtain ⟨g1, g2, g3, g4⟩ := fin tr h1 h3 h4
    have e5 : (tr.mapM fun i => lget (C.map (meanVec v)) i) = .ok (tr.map fun i => coord (C.map (meanVec v)) i) := mapM_ok fun i hi => by
      have hget : C[i]? = some (C[i]'(h4 i hi)) := List.getElem?_eq_getElem (h4 i hi)
      rw [(lget_ok (x := meanVec v (C[i]'(h4 i hi)))).2 (by rw [List.getElem?_map, hget]; rfl),
        coord_get (x := meanVec v (C[i]'(h4 i hi))) (by rw [List.getElem?_map, hget]; rfl)]
    rw [etr]
    simp only
    rw [e5]
    refine ⟨_, tr.map q, rfl, g1, g2, g3, by simp, fun c p y hp hy => ?_⟩
    rw [List.getElem?_map, Option.map_eq_some_iff] at hy
    obtain ⟨i, hi, rfl⟩ := hy
    obtain ⟨P, hP, hPf, hCP⟩ := g4 c p i hp hi
    exact ⟨P, hP, hPf, coord_get (by rw [List.getElem?_map, hCP]; rfl)⟩
  · have heq : classes f m.managed = C.length := by omega
    rw [if_neg hlt, if_neg (by
      rintro ⟨h0, -⟩
      rw [h0] at hnl
      simp at hnl
      omega), if_neg (by omega)]
    obtain ⟨g1, g2, g3, g4⟩ := fin (List.range C.length) (by simp [heq]) (by
      rw [List.nodup_map_iff_inj_on List.nodup_range]
      intro i hi j hj hij
      have hinj : Set.InjOn q (Finset.range C.length) := by
        rw [← Finset.card_image_iff, hcard, heq, Finset.card_range]
      exact hinj (by simpa using hi) (by simpa using hj) hij) (by simp)
    refine ⟨_, _, rfl, g1, g2, g3, by simp, fun c p y hp hy => ?_⟩
    have hc : c < C.length := by
      obtain ⟨hh, -⟩ := List.getElem?_eq_some_iff.1 hy
      simpa using hh
    obtain ⟨P, hP, hPf, hCP⟩ := g4 c p c hp (List.getElem?_range hc)
    rw [List.getElem?_map, hCP] at hy
    cases hy
    exact ⟨P, hP, hPf, rfl⟩

/-- MPC-KMeans finds the classes: if the constraints agree with the classes, the components of one class are closer to
each other than those of different classes even when the distances are multiplied by their sizes, every ID is
closer to the components of its class, and the means of the other classes are farther than the spread times the
number of coordinates, then the clusters are the classes, for any weight, any shuffles and first choice, after any number of iterations. -/
theorem C117_classes {m : Manager α} (h : Reachable m) {f : α → Nat} (hf : Satisfies m f) {ch : MpcChoices κ D} {w : κ} (hw : 0 ≤ w)
    (ha : MpcAssumptions (mpcExact ch w)) (hd : ∀ c ∈ m.components, c.length ≤ ch.depth) {p : MpcParams} (hp : 1 ≤ p.maxIteration)
    {v : α → Fin D → κ} (hroot : ∀ a, 0 ≤ a → 0 ≤ ch.sqrt a) (hi : InitialSeparates ch.sqrt m v f) (h1 : FirstPassSeparates m v f)
    (hl : LaterPassesSeparate m.managed v f) (h2 : 2 ≤ classes f m.managed) :
    ∃ r, mpcCluster (mpcExact ch w) p m (some (m.managed.map fun x => (x, v x))) (some (classes f m.managed : Nat)) = .ok r ∧
      GivesClasses m.managed f r := by
  obtain ⟨ml, cl, mlg, clg, nbhs, em, ec, epre, hml, hcl, hn⟩ := C48_preprocess (enum := ch.enum) ha.enum h hd
  obtain ⟨start, K, einit, hKn, hK, hKl, hsl, hstart⟩ := mpcInit_classes h.inv hf hn ha hroot hi h2
  have hvals : dvals (m.managed.map fun x => (x, v x)) = m.managed.map v := by simp [dvals]
  have hkeys : dkeys (m.managed.map fun x => (x, v x)) = m.managed := by simp [dkeys, Function.comp_def]
  have hle : classes f m.managed ≤ m.managed.length := (classes_le h.inv hf).trans (components_le_managed h.inv)
  obtain ⟨left, hleft⟩ : ∃ left, p.maxIteration = left + 1 := ⟨p.maxIteration - 1, by omega⟩
  have hmin : min ((classes f m.managed : Nat) : Int).toNat m.managed.length = classes f m.managed := by omega
  have elabels : mpcLabels (mpcExact ch w) p m.managed.length (min ((classes f m.managed : Nat) : Int).toNat m.managed.length) ml cl
      (dvals (m.managed.map fun x => (x, v x))) = .ok (classLabels m.managed f K) := by
    rw [hvals, hmin]
    unfold mpcLabels
    show (do let g ← mpcPreprocess ch.enum ch.depth m.managed.length ml cl; _) = _
    rw [epre]
    simp only [bind, Except.bind]
    rw [einit]
    simp only
    rw [hleft, ← hKl]
    refine loop_classes h hf hK hKn (by omega) hw ha hl hml hcl left 0 (fun d => zero_lt_one) hsl (fun x hx => ?_) []
    refine firstNearest_idx hsl ((hK _).2 ⟨x, hx, rfl⟩) hKn fun c c' q y z hc hc' hne hy hz => ?_
    obtain ⟨P, hP, hPf, rfl⟩ := hstart c _ y hc hy
    obtain ⟨Q, hQ, hQf, rfl⟩ := hstart c' _ z hc' hz
    have := h1 x hx P hP Q hQ hPf fun u hu => by rw [hQf u hu]; exact hne
    simpa [mpcDist, mpcExact, sqDist] using this
  obtain ⟨r0, extra, e, hk, -, -, hgroup, hex, -, -⟩ := mpcCluster_of_labels (p := p) (nb := ((classes f m.managed : Nat) : Int)) (by omega)
    (vectors := m.managed.map fun x => (x, v x)) (by rw [hkeys]; exact h.inv.d.nodup) em ec (n := m.managed.length) (k := K.length)
    (by omega) (by omega) (by simp) elabels (classLabels_good hK hKn)
  have hextra : extra = [] := by
    cases extra with
    | nil => rfl
    | cons a l =>
      have := (hex a.1).1 (by simp [dkeys])
      rw [hkeys] at this
      exact absurd this.1 this.2
  rw [hextra, List.append_nil] at e
  refine ⟨r0, e, by rw [hk, hkeys], fun x hx y hy => ?_⟩
  obtain ⟨i, hi⟩ := List.getElem?_of_mem hx
  obtain ⟨j, hj⟩ := List.getElem?_of_mem hy
  rw [hgroup i j x y (by rw [hkeys]; exact hi) (by rw [hkeys]; exact hj), classLabels_get hi, classLabels_get hj, Option.some.injEq,
    Int.natCast_inj, idxOf_inj' ((hK _).2 ⟨x, hx, rfl⟩)]

end

/-! ### In the real numbers -/

section
variable {α : Type} [LinearOrder α] {D : Nat}

theorem sqrt_sqDist (x y : Fin D → ℝ) : √(sqDist x y) = dist (WithLp.toLp 2 x : EuclideanSpace ℝ (Fin D)) (WithLp.toLp 2 y) := by
  rw [EuclideanSpace.dist_eq]
  unfold sqDist
  congr 1
  exact Finset.sum_congr rfl fun d _ => by rw [Real.dist_eq, sq_abs]

theorem sqDist_nonneg (x y : Fin D → ℝ) : 0 ≤ sqDist x y := Finset.sum_nonneg fun _ _ => sq_nonneg _

theorem sqDist_eq (x y : Fin D → ℝ) : sqDist x y = dist (WithLp.toLp 2 x : EuclideanSpace ℝ (Fin D)) (WithLp.toLp 2 y) ^ 2 := by
  rw [← sqrt_sqDist, Real.sq_sqrt (sqDist_nonneg x y)]

omit [LinearOrder α] in
theorem meanVec_real (v : α → Fin D → ℝ) (l : List α) :
    (WithLp.toLp 2 (meanVec v l) : EuclideanSpace ℝ (Fin D)) = realMean (l.map fun x => WithLp.toLp 2 (v x)) := by
  have hsum : ∀ (l : List α) (d : Fin D), ((l.map fun x => (WithLp.toLp 2 (v x) : EuclideanSpace ℝ (Fin D))).sum) d = (l.map fun x => v x d).sum := by
    intro l d
    induction l with
    | nil => rfl
    | cons a l ih => simp only [List.map_cons, List.sum_cons, PiLp.add_apply, ih]
  ext d
  unfold realMean meanVec
  simp only [PiLp.smul_apply, hsum, List.length_map, smul_eq_mul]
  ring

omit [LinearOrder α] in
/-- The mean of IDs of a class is near the vectors of the class. -/
theorem mean_near {ids : List α} {v : α → Fin D → ℝ} {f : α → Nat} {r b : ℝ} (hg : VectorGap ids v f r b) {l : List α} (hl : l ≠ [])
    {x : α} (hx : x ∈ ids) (hin : ∀ y ∈ l, y ∈ ids ∧ f y = f x) :
    dist (WithLp.toLp 2 (meanVec v l) : EuclideanSpace ℝ (Fin D)) (WithLp.toLp 2 (v x)) ≤ r := by
  rw [meanVec_real]
  refine dist_realMean_le (by simpa using hl) fun u hu => ?_
  obtain ⟨y, hy, rfl⟩ := List.mem_map.1 hu
  rw [← sqrt_sqDist]
  exact (hg y (hin y hy).1 x hx).1 (hin y hy).2

/-- In the real numbers: it is enough that the distances between classes are more than `nD + 2` times the distances inside, for
`n` IDs and `D` coordinates, and more than `√(D / 10^9)` larger. -/
theorem C117_gap {m : Manager α} (h : Reachable m) {f : α → Nat} (hf : Satisfies m f) {ch : MpcChoices ℝ D} (hsq : ch.sqrt = Real.sqrt)
    {w : ℝ} (hw : 0 ≤ w) (ha : MpcAssumptions (mpcExact ch w)) (hd : ∀ c ∈ m.components, c.length ≤ ch.depth) {p : MpcParams}
    (hp : 1 ≤ p.maxIteration) {v : α → Fin D → ℝ} {r b : ℝ} (h0 : 0 ≤ r) (hg : VectorGap m.managed v f r b)
    (hb : ((m.managed.length : ℝ) * D + 2) * r < b) (he : (D : ℝ) < 10 ^ 9 * (b - r) ^ 2) (h2 : 2 ≤ classes f m.managed) :
    ∃ res, mpcCluster (mpcExact ch w) p m (some (m.managed.map fun x => (x, v x))) (some (classes f m.managed : Nat)) = .ok res ∧
      GivesClasses m.managed f res := by
  have hinv := h.inv
  have hb0 : 0 < b := lt_of_le_of_lt (by positivity) hb
  obtain ⟨x0, hx0, y0, hy0, hxy0⟩ : ∃ x ∈ m.managed, ∃ y ∈ m.managed, f x ≠ f y := by
    obtain ⟨p, hp, q, hq, hpq⟩ := Finset.one_lt_card.1 (show 1 < (m.managed.toFinset.image f).card from h2)
    obtain ⟨x, hx, rfl⟩ := Finset.mem_image.1 hp
    obtain ⟨y, hy, rfl⟩ := Finset.mem_image.1 hq
    exact ⟨x, by simpa using hx, y, by simpa using hy, hpq⟩
  have hn1 : (1 : ℝ) ≤ m.managed.length := by exact_mod_cast List.length_pos_of_mem hx0
  have hD1 : (1 : ℝ) ≤ D := by
    rcases Nat.eq_zero_or_pos D with h0 | h0
    · exfalso
      subst h0
      have := (hg x0 hx0 y0 hy0).2 hxy0
      simp [sqDist] at this
      linarith
    · exact_mod_cast h0
  have hnD : (m.managed.length : ℝ) ≤ m.managed.length * D := le_mul_of_one_le_right (by linarith) hD1
  have hnr : (m.managed.length : ℝ) * r ≤ m.managed.length * D * r := mul_le_mul_of_nonneg_right hnD h0
  -- vectors of one class and the mean of another class
  have hfar : ∀ {l : List α} {x y : α}, l ≠ [] → x ∈ m.managed → y ∈ m.managed → (∀ z ∈ l, z ∈ m.managed ∧ f z = f y) → f y ≠ f x →
      b - r ≤ dist (WithLp.toLp 2 (v x) : EuclideanSpace ℝ (Fin D)) (WithLp.toLp 2 (meanVec v l)) := by
    intro l x y hl hx hy hin hne
    have a1 := mean_near hg hl hy hin
    have a2 := (hg x hx y hy).2 (Ne.symm hne)
    rw [sqrt_sqDist] at a2
    have a3 := dist_triangle (WithLp.toLp 2 (v x) : EuclideanSpace ℝ (Fin D)) (WithLp.toLp 2 (meanVec v l)) (WithLp.toLp 2 (v y))
    linarith
  have hcomp : ∀ {c : List α}, c ∈ m.components → ∃ x ∈ c, x ∈ m.managed ∧ ∀ z ∈ c, z ∈ m.managed ∧ f z = f x := by
    intro c hc
    obtain ⟨x, hx⟩ := List.exists_mem_of_ne_nil _ (component_ne_nil hinv hc)
    refine ⟨x, hx, (mem_component_iff hinv hc hx).1, fun z hz => ⟨(mem_component_iff hinv hc hz).1, ?_⟩⟩
    rw [compClass_eq hinv hf hc hz, compClass_eq hinv hf hc hx]
  have hrb : r < b - r := by nlinarith
  have hsize : ∀ {c : List α}, c ∈ m.components → (1 : ℝ) ≤ c.length ∧ (c.length : ℝ) ≤ m.managed.length := by
    intro c hc
    refine ⟨by exact_mod_cast List.length_pos_iff.2 (component_ne_nil hinv hc), ?_⟩
    have : c.length ≤ m.managed.length :=
      ((component_nodup hinv hc).subperm fun x hx => (mem_component_iff hinv hc hx).1).length_le
    exact_mod_cast this
  refine C117_classes h hf hw ha hd hp (v := v) (fun a _ => by rw [hsq]; exact Real.sqrt_nonneg a) ?_ ?_ ?_ h2
  · intro P hP Q hQ R hR S hS _ hPQ hRS
    rw [hsq, sqrt_sqDist, sqrt_sqDist]
    obtain ⟨xp, hxp, hxpm, hinP⟩ := hcomp hP
    obtain ⟨xq, hxq, hxqm, hinQ⟩ := hcomp hQ
    obtain ⟨xr, hxr, hxrm, hinR⟩ := hcomp hR
    obtain ⟨xs, hxs, hxsm, hinS⟩ := hcomp hS
    have a1 : dist (WithLp.toLp 2 (meanVec v P) : EuclideanSpace ℝ (Fin D)) (WithLp.toLp 2 (meanVec v Q)) ≤ r := by
      rw [meanVec_real v P]
      refine dist_realMean_le (by simpa using component_ne_nil hinv hP) fun u hu => ?_
      obtain ⟨y, hy, rfl⟩ := List.mem_map.1 hu
      rw [dist_comm]
      exact mean_near hg (component_ne_nil hinv hQ) (hinP y hy).1 fun z hz => ⟨(hinQ z hz).1, (hPQ y hy z hz).symm⟩
    have a2 : b - 2 * r ≤ dist (WithLp.toLp 2 (meanVec v R) : EuclideanSpace ℝ (Fin D)) (WithLp.toLp 2 (meanVec v S)) := by
      have b1 := hfar (component_ne_nil hinv hS) hxrm hxsm hinS (Ne.symm (hRS xr hxr xs hxs))
      have b2 := mean_near hg (component_ne_nil hinv hR) hxrm hinR
      have b3 := dist_triangle (WithLp.toLp 2 (v xr) : EuclideanSpace ℝ (Fin D)) (WithLp.toLp 2 (meanVec v R)) (WithLp.toLp 2 (meanVec v S))
      rw [dist_comm] at b2
      linarith
    have c1 := (hsize hP).2
    have c2 := (hsize hR).1
    have d1 := mul_le_mul c1 a1 dist_nonneg (by linarith)
    have hpos : 0 < b - 2 * r := by linarith
    have d2 := mul_le_mul c2 a2 hpos.le (by linarith)
    nlinarith
  · intro x hx P hP Q hQ hPf hQf
    rw [sqDist_eq, sqDist_eq]
    obtain ⟨xq, hxq, hxqm, hinQ⟩ := hcomp hQ
    have a1 := mean_near hg (component_ne_nil hinv hP) hx fun z hz => ⟨(mem_component_iff hinv hP hz).1, hPf z hz⟩
    have a2 := hfar (component_ne_nil hinv hQ) hx hxqm hinQ (hQf xq hxq)
    rw [dist_comm] at a1
    exact pow_lt_pow_left₀ (lt_of_le_of_lt a1 (hrb.trans_le a2)) dist_nonneg two_ne_zero
  · intro x hx y hy hne
    have hcls : ∀ z ∈ m.managed, (m.managed.filter fun u => f u = f z) ≠ [] ∧ ∀ u ∈ m.managed.filter (fun u => f u = f z), u ∈ m.managed ∧ f u = f z := by
      intro z hz
      exact ⟨List.ne_nil_of_mem (List.mem_filter.2 ⟨hz, by simp⟩), fun u hu => ⟨(List.mem_filter.1 hu).1, by simpa using (List.mem_filter.1 hu).2⟩⟩
    have hspread : spread v m.managed f ≤ m.managed.length * r ^ 2 := by
      unfold spread
      have : ∀ l : List α, (∀ z ∈ l, z ∈ m.managed) → (l.map fun z => sqDist (v z) (classMean v m.managed f (f z))).sum ≤ l.length * r ^ 2 := by
        intro l hl
        induction l with
        | nil => simp
        | cons z l ih =>
          have := ih fun u hu => hl u (List.mem_cons_of_mem _ hu)
          have hz := hl z (List.mem_cons_self ..)
          have a1 := mean_near hg (hcls z hz).1 hz (hcls z hz).2
          rw [dist_comm] at a1
          have a2 := pow_le_pow_left₀ dist_nonneg a1 2
          rw [← sqDist_eq] at a2
          simp only [List.map_cons, List.sum_cons, List.length_cons]
          push_cast
          have a3 : sqDist (v z) (classMean v m.managed f (f z)) ≤ r ^ 2 := a2
          linarith
      exact this _ fun _ hz => hz
    have a2 := hfar (hcls y hy).1 hx hy (hcls y hy).2 hne
    have a3 : (b - r) ^ 2 ≤ sqDist (v x) (classMean v m.managed f (f y)) := by
      rw [sqDist_eq]
      exact pow_le_pow_left₀ (by linarith) a2 2
    refine lt_of_lt_of_le ?_ a3
    rw [mul_max_of_nonneg _ _ (by linarith), max_lt_iff]
    constructor
    · have c1 : (D : ℝ) * spread v m.managed f ≤ D * (m.managed.length * r ^ 2) := mul_le_mul_of_nonneg_left hspread (by linarith)
      have c2 : (m.managed.length * D + 1) * r < b - r := by nlinarith
      have c3 := pow_lt_pow_left₀ c2 (by positivity) two_ne_zero
      have c4 : (m.managed.length : ℝ) * D * r ^ 2 ≤ ((m.managed.length * D + 1) * r) ^ 2 := by
        have : (0 : ℝ) ≤ m.managed.length * D := by linarith
        rw [mul_pow]
        exact mul_le_mul_of_nonneg_right (by nlinarith) (sq_nonneg r)
      nlinarith
    · rw [mul_one_div, div_lt_iff₀ (by positivity)]
      linarith

end

/-! ### Each theorem applied to a concrete case -/

/-! ### Examples and witnesses -/

/-- Shuffles that change nothing; the traversal starts with the first component. -/
def mpcFirstChoices {κ : Type} [Zero κ] (root : κ → κ) (D : Nat) : MpcChoices κ D where
  enum := List.dedup
  depth := 1000
  shuffle _ n := List.range n
  pick _ := 0
  choice _ k := List.range k
  sqrt := root
  logDet _ := 0

theorem mpcFirst_ok {κ : Type} [Field κ] [LinearOrder κ] (root : κ → κ) (D : Nat) (w : κ) :
    MpcAssumptions (mpcExact (mpcFirstChoices root D) w) where
  enum l := ⟨List.nodup_dedup l, fun _ => List.mem_dedup⟩
  shuffle _ _ := List.Perm.refl _
  pick sizes h := List.length_pos_iff.2 h
  choice n k h := by
    show (List.range k).length = k ∧ ∀ i ∈ List.range k, i < n
    exact ⟨by simp, fun i hi => by have := List.mem_range.1 hi; omega⟩

def mpcFarVec (x : Nat) : Fin 1 → ℚ := fun _ => if x = 1 then 0 else if x = 2 then 1 else if x = 3 then 2 else if x = 4 then 40 else 41

def mpcFarManager : Manager Nat := runOps (Manager.init [1, 2, 3, 4, 5]) [.addConstraint 1 2 "MUST_LINK" 1, .addConstraint 1 5 "CANNOT_LINK" 1]

/-- The hypotheses of `C117_classes` with constraints of both types. -/
example : Reachable mpcFarManager ∧ Satisfies mpcFarManager (fun x => if x ≤ 3 then 0 else 1) ∧
    (∀ c ∈ mpcFarManager.components, c.length ≤ (mpcFirstChoices ratSqrt 1).depth) ∧ (∀ a : ℚ, 0 ≤ a → 0 ≤ ratSqrt a) ∧
    InitialSeparates ratSqrt mpcFarManager mpcFarVec (fun x => if x ≤ 3 then 0 else 1) ∧
    FirstPassSeparates mpcFarManager mpcFarVec (fun x => if x ≤ 3 then 0 else 1) ∧
    LaterPassesSeparate mpcFarManager.managed mpcFarVec (fun x => if x ≤ 3 then 0 else 1) ∧
    2 ≤ classes (fun x : Nat => if x ≤ 3 then 0 else 1) mpcFarManager.managed ∧
    MpcAssumptions (mpcExact (mpcFirstChoices ratSqrt 1) 1) := by
  refine ⟨⟨_, _, rfl⟩, ?_, ?_, fun a _ => ?_, ?_, ?_, ?_, ?_, mpcFirst_ok _ _ _⟩
  · exact satisfies_of_managed (Reachable.inv ⟨_, _, rfl⟩) (by decide +kernel)
  · decide +kernel
  · unfold ratSqrt; positivity
  · unfold InitialSeparates; decide +kernel
  · unfold FirstPassSeparates; decide +kernel
  · unfold LaterPassesSeparate; decide +kernel
  · decide +kernel

def mpcFarVecR (x : Nat) : Fin 1 → ℝ := fun _ => if x = 1 then 0 else if x = 2 then 1 else if x = 3 then 2 else if x = 4 then 40 else 41

theorem farVecR_gap : VectorGap [1, 2, 3, 4, 5] mpcFarVecR (fun x => if x ≤ 3 then 0 else 1) 2 38 := by
  unfold VectorGap
  simp only [sqDist, Fin.sum_univ_one, Real.sqrt_sq_eq_abs, List.mem_cons, List.not_mem_nil, or_false]
  rintro x (rfl | rfl | rfl | rfl | rfl) y (rfl | rfl | rfl | rfl | rfl) <;>
    refine ⟨fun h => ?_, fun h => ?_⟩ <;> first | (exact absurd h (by decide)) | (norm_num [mpcFarVecR])

/-- The hypotheses of `C117_gap`. -/
example : Reachable mpcFarManager ∧ Satisfies mpcFarManager (fun x => if x ≤ 3 then 0 else 1) ∧
    (mpcFirstChoices Real.sqrt 1).sqrt = Real.sqrt ∧ MpcAssumptions (mpcExact (mpcFirstChoices Real.sqrt 1) 1) ∧
    VectorGap mpcFarManager.managed mpcFarVecR (fun x => if x ≤ 3 then 0 else 1) 2 38 ∧
    ((mpcFarManager.managed.length : ℝ) * (1 : Nat) + 2) * 2 < 38 ∧ ((1 : Nat) : ℝ) < 10 ^ 9 * (38 - 2) ^ 2 ∧
    2 ≤ classes (fun x : Nat => if x ≤ 3 then 0 else 1) mpcFarManager.managed := by
  have hm : mpcFarManager.managed = [1, 2, 3, 4, 5] := by decide +kernel
  refine ⟨⟨_, _, rfl⟩, ?_, rfl, mpcFirst_ok _ _ _, ?_, ?_, by norm_num, ?_⟩
  · exact satisfies_of_managed (Reachable.inv ⟨_, _, rfl⟩) (by decide +kernel)
  · rw [hm]; exact farVecR_gap
  · rw [hm]; norm_num
  · decide +kernel

/-- One ID at 0, five at 2 and one at 9. -/
def mpcLineVec (x : Nat) : Fin 1 → ℚ := fun _ => if x = 1 then 0 else if x ≤ 6 then 2 else 9

def mpcLineIds : List Nat := [1, 2, 3, 4, 5, 6, 7]

/-- The five IDs at 2 are linked. -/
def mpcLineManager : Manager Nat := runOps (Manager.init mpcLineIds)
  [.addConstraint 2 3 "MUST_LINK" 1, .addConstraint 3 4 "MUST_LINK" 1, .addConstraint 4 5 "MUST_LINK" 1, .addConstraint 5 6 "MUST_LINK" 1]

/-- Finding: the size of a linked group counts when the first centres are chosen. Without constraint the two classes are
found. After four must-links that agree with them the two first centres are taken in the same class, and the
class `{1, ..., 6}` is cut: `7`, which is at distance 7 from the others, is in their cluster and `1` is alone. -/
theorem C117_weights : Satisfies mpcLineManager (fun x => if x ≤ 6 then 0 else 1) ∧
    (∀ x ∈ mpcLineIds, ∀ y ∈ mpcLineIds, ((if x ≤ 6 then 0 else 1) = (if y ≤ 6 then 0 else 1) → sqDist (mpcLineVec x) (mpcLineVec y) ≤ 2 ^ 2) ∧
      ((if x ≤ 6 then 0 else 1) ≠ (if y ≤ 6 then 0 else 1) → 7 ^ 2 ≤ sqDist (mpcLineVec x) (mpcLineVec y))) ∧
    mpcCluster (mpcExact (mpcFirstChoices ratSqrt 1) 1) ⟨150⟩ (Manager.init mpcLineIds) (some (mpcLineIds.map fun x => (x, mpcLineVec x))) (some 2) =
      .ok (mpcLineIds.map fun x => (x, if x ≤ 6 then 0 else 1)) ∧
    mpcCluster (mpcExact (mpcFirstChoices ratSqrt 1) 1) ⟨150⟩ mpcLineManager (some (mpcLineIds.map fun x => (x, mpcLineVec x))) (some 2) =
      .ok (mpcLineIds.map fun x => (x, if x ≤ 1 then 0 else 1)) := by
  refine ⟨?_, by decide +kernel, by decide +kernel, by decide +kernel⟩
  exact satisfies_of_managed (Reachable.inv ⟨_, _, rfl⟩) (by decide +kernel)

/-- `1` above the right half of its class, in a line with the other class. -/
def mpcPlaneVec (x : Nat) : Fin 2 → ℚ :=
  if x = 1 then ![1, 3 / 2] else if x ≤ 6 then ![-1, 0] else if x ≤ 11 then ![1, 0] else if x ≤ 14 then ![4, 3 / 2] else ![6, 3 / 2]

def mpcPlaneIds : List Nat := [1, 2, 3, 4, 5, 6, 7, 8, 9, 10, 11, 12, 13, 14, 15, 16, 17]

/-- Finding: the metric that is learned can undo a correct clustering. All distances inside the two classes are smaller than
all distances between them, and one pass finds the classes. With the default number of passes `1` leaves its
class, because it is the only ID that spreads the second coordinate. -/
theorem C117_metric :
    (∀ x ∈ mpcPlaneIds, ∀ y ∈ mpcPlaneIds, ((if x ≤ 11 then 0 else 1) = (if y ≤ 11 then 0 else 1) → sqDist (mpcPlaneVec x) (mpcPlaneVec y) ≤ (5 / 2) ^ 2) ∧
      ((if x ≤ 11 then 0 else 1) ≠ (if y ≤ 11 then 0 else 1) → 3 ^ 2 ≤ sqDist (mpcPlaneVec x) (mpcPlaneVec y))) ∧
    mpcCluster (mpcExact (mpcFirstChoices ratSqrt 2) 1) ⟨1⟩ (Manager.init mpcPlaneIds) (some (mpcPlaneIds.map fun x => (x, mpcPlaneVec x))) (some 2) =
      .ok (mpcPlaneIds.map fun x => (x, if x ≤ 11 then 0 else 1)) ∧
    mpcCluster (mpcExact (mpcFirstChoices ratSqrt 2) 1) ⟨150⟩ (Manager.init mpcPlaneIds) (some (mpcPlaneIds.map fun x => (x, mpcPlaneVec x))) (some 2) =
      .ok (mpcPlaneIds.map fun x => (x, if 2 ≤ x ∧ x ≤ 11 then 1 else 0)) :=
  ⟨by decide +kernel, by decide +kernel, by decide +kernel⟩

end Verif
