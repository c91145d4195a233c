import Verif.Props.MPCExact
import Verif.Spec.MpcSeparated

/-
Helpers for C117: MPC-KMeans on separated classes.
-/

namespace Verif

section
variable {κ : Type} [Field κ] [LinearOrder κ] [IsStrictOrderedRing κ] {D : Nat}

omit [IsStrictOrderedRing κ] in
theorem firstNearest_idx {A : Fin D → κ} {centers : List (Fin D → κ)} {K : List Nat} (hl : centers.length = K.length)
    {x : Fin D → κ} {q : Nat} (hq : q ∈ K) (hK : K.Nodup)
    (h : ∀ (c c' : Nat) (p : Nat) (y z : Fin D → κ), K[c]? = some q → K[c']? = some p → p ≠ q → centers[c]? = some y → centers[c']? = some z →
      mpcDist A x y < mpcDist A x z) : FirstNearest A centers x (K.idxOf q) := by
  have hlt : K.idxOf q < K.length := List.idxOf_lt_length_iff.2 hq
  have hget : K[K.idxOf q]? = some q := by rw [List.getElem?_eq_getElem hlt, List.getElem_idxOf]
  refine ⟨centers[K.idxOf q]'(by omega), List.getElem?_eq_getElem _, fun d z hz => ?_⟩
  have hd : d < K.length := by rw [← hl]; exact (List.getElem?_eq_some_iff.1 hz).1
  by_cases hdc : d = K.idxOf q
  · subst hdc
    rw [List.getElem?_eq_getElem (by omega)] at hz
    cases hz
    exact ⟨le_rfl, fun hh => absurd hh (lt_irrefl _)⟩
  · have hne : K[d] ≠ q := by
      intro heq
      apply hdc
      rw [← heq, hK.idxOf_getElem]
    have := h (K.idxOf q) d (K[d]) _ z hget (List.getElem?_eq_getElem hd) hne (List.getElem?_eq_getElem (by omega)) hz
    exact ⟨this.le, fun _ => this⟩

/-- The labels of the classes: their places in the list `K` of the classes. -/
def classLabels {α : Type} (ids : List α) (f : α → Nat) (K : List Nat) : List Int := ids.map fun x => ((K.idxOf (f x) : Nat) : Int)

section
variable {α : Type} {ids : List α} {f : α → Nat} {K : List Nat}

theorem classLabels_length : (classLabels ids f K).length = ids.length := by simp [classLabels]

theorem classLabels_get {i : Nat} {x : α} (h : ids[i]? = some x) : (classLabels ids f K)[i]? = some ((K.idxOf (f x) : Nat) : Int) := by
  simp [classLabels, h]

theorem idxOf_inj' {p q : Nat} (hp : p ∈ K) : K.idxOf p = K.idxOf q ↔ p = q := List.idxOf_inj hp

theorem classLabels_good (hK : ∀ q, q ∈ K ↔ ∃ x ∈ ids, f x = q) (hn : K.Nodup) :
    GoodLabels ids.length K.length (classLabels ids f K) := by
  refine ⟨classLabels_length, ?_, ?_⟩
  · intro l hl
    obtain ⟨x, hx, rfl⟩ := List.mem_map.1 hl
    exact ⟨by omega, by exact_mod_cast List.idxOf_lt_length_iff.2 ((hK _).2 ⟨x, hx, rfl⟩)⟩
  · intro c hc
    obtain ⟨x, hx, he⟩ := (hK _).1 (List.getElem_mem hc)
    exact List.mem_map.2 ⟨x, hx, by rw [he, hn.idxOf_getElem]⟩

end

omit [IsStrictOrderedRing κ] in
/-- The centres of the classes are the means of their vectors. -/
theorem mpcCenters_classes {α : Type} {ch : MpcChoices κ D} {w : κ} {ids : List α} {f : α → Nat} {K : List Nat} (v : α → Fin D → κ)
    (hn : K.Nodup) :
    mpcCenters (mpcExact ch w) (ids.map v) (classLabels ids f K) K.length = K.map (classMean v ids f) := by
  apply List.ext_getElem?
  intro c
  unfold mpcCenters
  rw [List.getElem?_map, List.getElem?_map]
  by_cases hc : c < K.length
  · rw [List.getElem?_range hc, List.getElem?_eq_getElem hc]
    simp only [Option.map_some, Option.some.injEq]
    have hfil : (((ids.map v).zip (classLabels ids f K)).filterMap fun q => if q.2 = (c : Int) then some q.1 else none) =
        (ids.filter fun x => f x = K[c]).map v := by
      unfold classLabels
      rw [List.zip_map', List.filterMap_map]
      have : ∀ l : List α, (∀ x ∈ l, x ∈ ids) → l.filterMap ((fun q : (Fin D → κ) × Int => if q.2 = (c : Int) then some q.1 else none) ∘
          fun x => (v x, ((K.idxOf (f x) : Nat) : Int))) = (l.filter fun x => f x = K[c]).map v := by
        intro l hl
        induction l with
        | nil => rfl
        | cons a l ih =>
          have iha := ih fun x hx => hl x (List.mem_cons_of_mem _ hx)
          have hiff : ((K.idxOf (f a) : Nat) : Int) = (c : Int) ↔ f a = K[c] := by
            rw [Int.natCast_inj]
            constructor
            · intro h
              subst h
              rw [List.getElem_idxOf]
            · intro h
              rw [h, hn.idxOf_getElem]
          rw [List.filter_cons]
          by_cases h : f a = K[c]
          · have e1 : ((fun q : (Fin D → κ) × Int => if q.2 = (c : Int) then some q.1 else none) ∘
                fun x => (v x, ((K.idxOf (f x) : Nat) : Int))) a = some (v a) := if_pos (hiff.2 h)
            rw [List.filterMap_cons_some e1, iha, if_pos (by simpa using h)]
            rfl
          · have e1 : ((fun q : (Fin D → κ) × Int => if q.2 = (c : Int) then some q.1 else none) ∘
                fun x => (v x, ((K.idxOf (f x) : Nat) : Int))) a = none := if_neg fun hh => h (hiff.1 hh)
            rw [List.filterMap_cons_none e1, iha, if_neg (by simpa using h)]
      exact this ids fun _ h => h
    rw [hfil]
    funext d
    show (((ids.filter fun x => f x = K[c]).map v).map fun x => x d).sum / (((ids.filter fun x => f x = K[c]).map v).length : κ) = _
    unfold classMean meanVec
    rw [List.map_map, List.length_map]
    rfl
  · rw [List.getElem?_eq_none (by simpa using hc), List.getElem?_eq_none (by simpa using hc)]
    rfl

omit [LinearOrder κ] [IsStrictOrderedRing κ] in
theorem sum_range_get {α : Type} {l : List α} {g : Nat → κ} {h : α → κ} (hg : ∀ i x, l[i]? = some x → g i = h x) :
    ∑ i ∈ Finset.range l.length, g i = (l.map h).sum := by
  rw [Finset.sum_range, show l.map h = List.ofFn (fun i : Fin l.length => h l[i]) by
    apply List.ext_getElem <;> simp, List.sum_ofFn]
  exact Finset.sum_congr rfl fun i _ => hg _ _ (by simp)

omit [LinearOrder κ] [IsStrictOrderedRing κ] in
theorem list_sum_comm {α : Type} (l : List α) (g : α → Fin D → κ) : (l.map fun x => ∑ d, g x d).sum = ∑ d, (l.map fun x => g x d).sum := by
  induction l with
  | nil => simp
  | cons a l ih =>
    simp only [List.map_cons, List.sum_cons]
    rw [ih, Finset.sum_add_distrib]

section
variable {α : Type} [LinearOrder α] {m : Manager α} {f : α → Nat}

theorem inferredAt_must (h : Reachable m) (hf : Satisfies m f) {i j : Nat} {x y : α} (hij : InferredAt m .mustLink i j)
    (hx : m.managed[i]? = some x) (hy : m.managed[j]? = some y) : f x = f y := by
  obtain ⟨x', y', hx', hy', e⟩ := hij
  rw [hx] at hx'; cases hx'
  rw [hy] at hy'; cases hy'
  exact satisfies_chain hf ((inferred_ml_iff h.inv (List.mem_of_getElem? hx) (List.mem_of_getElem? hy)).1 e)

theorem inferredAt_cannot (h : Reachable m) (hf : Satisfies m f) {i j : Nat} {x y : α} (hij : InferredAt m .cannotLink i j)
    (hx : m.managed[i]? = some x) (hy : m.managed[j]? = some y) : f x ≠ f y := by
  obtain ⟨x', y', hx', hy', e⟩ := hij
  rw [hx] at hx'; cases hx'
  rw [hy] at hy'; cases hy'
  exact satisfies_sep hf ((inferred_cl_iff h.inv (List.mem_of_getElem? hx) (List.mem_of_getElem? hy)).1 e)

/-- The metric after a pass that found the classes. -/
theorem metric_classes (h : Reachable m) (hf : Satisfies m f) {K : List Nat} (hK : ∀ q, q ∈ K ↔ ∃ x ∈ m.managed, f x = q)
    (ch : MpcChoices κ D) (w : κ) (v : α → Fin D → κ) {ml cl : Graph} (hml : GraphOf m.managed.length ml (InferredAt m .mustLink))
    (hcl : GraphOf m.managed.length cl (InferredAt m .cannotLink)) (far : Nat × Nat × κ) (d : Fin D) :
    (mpcExact ch w).metric (m.managed.map v) (classLabels m.managed f K) (K.map (classMean v m.managed f)) far ml cl d =
      m.managed.length / max (m.managed.map fun x => (v x d - classMean v m.managed f (f x) d) ^ 2).sum (1 / 10 ^ 9) := by
  classical
  rw [C79_update h ch w (by simp) hml hcl, Finset.sum_eq_zero (s := Finset.filter _ _), Finset.sum_eq_zero (s := Finset.filter _ _),
    mul_zero, mul_zero, add_zero, add_zero, List.length_map]
  · congr 2
    refine sum_range_get fun i x hx => ?_
    rw [coord_get (x := v x) (by simp [hx]), labelAt_get (classLabels_get hx), Int.toNat_natCast,
      coord_get (x := classMean v m.managed f (f x))]
    have hin : f x ∈ K := (hK _).2 ⟨x, List.mem_of_getElem? hx, rfl⟩
    rw [List.getElem?_map, List.getElem?_eq_getElem (List.idxOf_lt_length_iff.2 hin), List.getElem_idxOf]
    rfl
  · intro p hp
    exfalso
    obtain ⟨-, -, hc, heq⟩ := Finset.mem_filter.1 hp
    obtain ⟨x, y, hx, hy, e⟩ := id hc
    rw [labelAt_get (classLabels_get hx), labelAt_get (classLabels_get hy), Int.natCast_inj,
      idxOf_inj' ((hK _).2 ⟨x, List.mem_of_getElem? hx, rfl⟩)] at heq
    exact inferredAt_cannot h hf hc hx hy heq
  · intro p hp
    exfalso
    obtain ⟨-, -, hc, heq⟩ := Finset.mem_filter.1 hp
    obtain ⟨x, y, hx, hy, e⟩ := id hc
    rw [labelAt_get (classLabels_get hx), labelAt_get (classLabels_get hy), inferredAt_must h hf hc hx hy] at heq
    exact heq rfl

omit [LinearOrder α] in
/-- In that metric the classes are separated. -/
theorem later_near {ids : List α} {v : α → Fin D → κ} (hs : LaterPassesSeparate ids v f) {A : Fin D → κ}
    (hA : ∀ d, A d = ids.length / max (ids.map fun x => (v x d - classMean v ids f (f x) d) ^ 2).sum (1 / 10 ^ 9))
    {x y : α} (hx : x ∈ ids) (hy : y ∈ ids) (hne : f y ≠ f x) :
    mpcDist A (v x) (classMean v ids f (f x)) < mpcDist A (v x) (classMean v ids f (f y)) := by
  have hN : (0 : κ) < ids.length := by exact_mod_cast List.length_pos_of_mem hx
  have he : (0 : κ) < 1 / 10 ^ 9 := by positivity
  set S : Fin D → κ := fun d => (ids.map fun x => (v x d - classMean v ids f (f x) d) ^ 2).sum with hS
  have hS0 : ∀ d, 0 ≤ S d := fun d => List.sum_nonneg (by
    intro a ha
    obtain ⟨z, -, rfl⟩ := List.mem_map.1 ha
    positivity)
  have hsum : spread v ids f = ∑ d, S d := by
    unfold spread sqDist
    exact list_sum_comm _ _
  have hle : ∀ d, S d ≤ spread v ids f := fun d => by
    rw [hsum]
    exact Finset.single_le_sum (f := S) (fun d _ => hS0 d) (Finset.mem_univ d)
  have hM : ∀ d, 0 < max (S d) (1 / 10 ^ 9) := fun d => lt_max_of_lt_right he
  have hM' : 0 < max (spread v ids f) (1 / 10 ^ 9) := lt_max_of_lt_right he
  have h1 : mpcDist A (v x) (classMean v ids f (f x)) ≤ ids.length * D := by
    unfold mpcDist
    calc ∑ d, A d * (v x d - classMean v ids f (f x) d) ^ 2 ≤ ∑ _d : Fin D, (ids.length : κ) := Finset.sum_le_sum fun d _ => by
          rw [hA, div_mul_eq_mul_div, div_le_iff₀ (hM d)]
          refine mul_le_mul_of_nonneg_left (le_max_of_le_left ?_) hN.le
          exact List.single_le_sum (by
            intro a ha
            obtain ⟨z, -, rfl⟩ := List.mem_map.1 ha
            positivity) _ (List.mem_map.2 ⟨x, hx, rfl⟩)
      _ = _ := by simp [mul_comm]
  have h2 : ids.length / max (spread v ids f) (1 / 10 ^ 9) * sqDist (v x) (classMean v ids f (f y)) ≤
      mpcDist A (v x) (classMean v ids f (f y)) := by
    unfold mpcDist sqDist
    rw [Finset.mul_sum]
    refine Finset.sum_le_sum fun d _ => mul_le_mul_of_nonneg_right ?_ (sq_nonneg _)
    rw [hA]
    exact div_le_div_of_nonneg_left hN.le (hM d) (max_le_max_right _ (hle d))
  refine h1.trans_lt (lt_of_lt_of_le ?_ h2)
  rw [div_mul_eq_mul_div, lt_div_iff₀ hM', mul_assoc]
  exact mul_lt_mul_of_pos_left (hs x hx y hy hne) hN

theorem mpcDist_pos {A : Fin D → κ} (hA : ∀ d, 0 < A d) {x y : Fin D → κ} (hne : x ≠ y) : 0 < mpcDist A x y := by
  obtain ⟨d, hd⟩ := Function.ne_iff.1 hne
  exact Finset.sum_pos' (fun d _ => mul_nonneg (hA d).le (sq_nonneg _))
    ⟨d, Finset.mem_univ d, mul_pos (hA d) (by have := sub_ne_zero.2 hd; positivity)⟩

/-- A pass from centres nearest to their classes. -/
theorem assign_classes (h : Reachable m) (hf : Satisfies m f) {K : List Nat} (hK : ∀ q, q ∈ K ↔ ∃ x ∈ m.managed, f x = q) (hn : K.Nodup)
    (h2 : 2 ≤ K.length) {ch : MpcChoices κ D} {w : κ} (hw : 0 ≤ w) (ha : MpcAssumptions (mpcExact ch w)) (v : α → Fin D → κ) {ml cl : Graph}
    (hml : GraphOf m.managed.length ml (InferredAt m .mustLink)) (hcl : GraphOf m.managed.length cl (InferredAt m .cannotLink))
    {A : Fin D → κ} (hA : ∀ d, 0 < A d) {centers : List (Fin D → κ)} (hc : centers.length = K.length)
    (hnear : ∀ x ∈ m.managed, FirstNearest A centers (v x) (K.idxOf (f x))) (it : Nat) :
    ∃ far, mpcFarPair (mpcExact ch w) A (m.managed.map v) = .ok far ∧
      mpcAssign (mpcExact ch w) A far.2.2 (m.managed.map v) centers ml cl K.length it = .ok (classLabels m.managed f K) := by
  have hrd : MpcReady m.managed.length (m.managed.map v) ml cl (InferredAt m .mustLink) (InferredAt m .cannotLink) :=
    ⟨by simp, hml, hcl, fun i j hij => hij.lt.2, fun i j hij => hij.lt.2⟩
  have hfa : FarApart (mpcExact ch w) A (m.managed.map v) := by
    obtain ⟨x, hx, ex⟩ := (hK _).1 (List.getElem_mem (l := K) (n := 0) (by omega))
    obtain ⟨y, hy, ey⟩ := (hK _).1 (List.getElem_mem (l := K) (n := 1) (by omega))
    have hne : v x ≠ v y := by
      intro hxy
      have := (hnear x hx).unique (hxy ▸ hnear y hy)
      rw [ex, ey, hn.idxOf_getElem, hn.idxOf_getElem] at this
      cases this
    obtain ⟨i, hi⟩ := List.getElem?_of_mem hx
    obtain ⟨j, hj⟩ := List.getElem?_of_mem hy
    rcases lt_trichotomy i j with hlt | rfl | hlt
    · exact ⟨j, i, v y, v x, hlt, by simp [hj], by simp [hi], mpcDist_pos hA hne.symm⟩
    · rw [hi] at hj; cases hj; exact absurd rfl hne
    · exact ⟨i, j, v x, v y, hlt, by simp [hi], by simp [hj], mpcDist_pos hA hne⟩
  obtain ⟨i, j, d, e, -⟩ := (mpcFarPair_ok (mpcExact ch w) A (m.managed.map v)).1 hfa
  refine ⟨_, e, ?_⟩
  obtain ⟨-, -, hmax⟩ := mpcFarPair_max e
  have hne : centers ≠ [] := by
    intro h0
    rw [h0] at hc
    simp at hc
    omega
  have e1 := assign_nearest (ch := ch) hw ha.enum hrd hA hmax hne (o := ch.shuffle it m.managed.length)
    (ha.shuffle it m.managed.length) (t := classLabels m.managed f K) classLabels_length
    (by
      intro i u hi
      rw [List.getElem?_map, Option.map_eq_some_iff] at hi
      obtain ⟨x, hx, rfl⟩ := hi
      exact ⟨_, classLabels_get hx, hnear x (List.mem_of_getElem? hx)⟩)
    (by
      intro i j u u' hij hu hu' hcon
      exfalso
      obtain ⟨x, y, hx, hy, -⟩ := id hij
      apply hcon
      rw [classLabels_get hx, classLabels_get hy, inferredAt_must h hf hij hx hy])
    (by
      intro i j u u' hij _ hu hu' hcon
      exfalso
      obtain ⟨x, y, hx, hy, -⟩ := id hij
      rw [classLabels_get hx, classLabels_get hy, Option.some.injEq, Int.natCast_inj,
        idxOf_inj' ((hK _).2 ⟨x, List.mem_of_getElem? hx, rfl⟩)] at hcon
      exact inferredAt_cannot h hf hij hx hy hcon)
  obtain ⟨t, e2, -, -, hused, -⟩ := mpcAssign_cases ha hrd A d hne it
  have e3 : t = classLabels m.managed f K := by
    rw [List.length_map] at e2
    exact Except.ok.inj (e2.symm.trans e1)
  subst e3
  rw [hc] at hused
  exact hused (classLabels_good hK hn).2.2

/-- The loop, from centres nearest to their classes. -/
theorem loop_classes (h : Reachable m) (hf : Satisfies m f) {K : List Nat} (hK : ∀ q, q ∈ K ↔ ∃ x ∈ m.managed, f x = q) (hn : K.Nodup)
    (h2 : 2 ≤ K.length) {ch : MpcChoices κ D} {w : κ} (hw : 0 ≤ w) (ha : MpcAssumptions (mpcExact ch w)) {v : α → Fin D → κ}
    (hs : LaterPassesSeparate m.managed v f) {ml cl : Graph}
    (hml : GraphOf m.managed.length ml (InferredAt m .mustLink)) (hcl : GraphOf m.managed.length cl (InferredAt m .cannotLink))
    (left it : Nat) {A : Fin D → κ} (hA : ∀ d, 0 < A d) {centers : List (Fin D → κ)} (hc : centers.length = K.length)
    (hnear : ∀ x ∈ m.managed, FirstNearest A centers (v x) (K.idxOf (f x))) (labels : List Int) :
    mpcLoop (mpcExact ch w) (m.managed.map v) ml cl K.length (left + 1) it centers A labels = .ok (classLabels m.managed f K) := by
  induction left generalizing it A centers labels with
  | zero =>
    obtain ⟨far, e1, e2⟩ := assign_classes h hf hK hn h2 hw ha v hml hcl hA hc hnear it
    unfold mpcLoop
    rw [e1]
    simp only [bind, Except.bind]
    rw [e2]
    simp only
    split
    · rfl
    · rfl
  | succ left ih =>
    obtain ⟨far, e1, e2⟩ := assign_classes h hf hK hn h2 hw ha v hml hcl hA hc hnear it
    have hX : m.managed.map v ≠ [] := by
      obtain ⟨x, hx, -⟩ := (hK _).1 (List.getElem_mem (l := K) (n := 0) (by omega))
      exact List.ne_nil_of_mem (List.mem_map.2 ⟨x, hx, rfl⟩)
    unfold mpcLoop
    rw [e1]
    simp only [bind, Except.bind]
    rw [e2]
    simp only
    split
    · rfl
    · rw [mpcCenters_classes v hn]
      refine ih (it + 1) (fun d => (mpcUpdate_pos hX w _ _ far ml cl d).1) (by simp) (fun x hx => ?_) _
      refine firstNearest_idx (by simp) ((hK _).2 ⟨x, hx, rfl⟩) hn fun c c' p y z hq hp hne hy hz => ?_
      rw [List.getElem?_map, hq] at hy
      rw [List.getElem?_map, hp] at hz
      cases hy
      cases hz
      obtain ⟨z, hz, rfl⟩ := (hK p).1 (List.mem_of_getElem? hp)
      exact later_near hs (metric_classes h hf hK ch w v hml hcl far) hx hz hne

end

end

end Verif
