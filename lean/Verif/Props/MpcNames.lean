import Verif.Props.MPC
import Verif.Spec.MpcNames

/-
Property C112: IDs that end with NUL characters in MPC-KMeans. Specification vocabulary: `Verif/Spec/MPC.lean`,
`Verif/Spec/MpcNames.lean`, `Verif/Spec/Labels.lean`.
-/

namespace Verif

/-! ### Reading a string from a numpy array -/

theorem npStr_append (s : PyStr) (k : Nat) : npStr (s ++ List.replicate k 0) = npStr s := by
  unfold npStr
  congr 1
  rw [List.reverse_append, List.reverse_replicate]
  induction k with
  | zero => rfl
  | succ k ih => rw [List.replicate_succ, List.cons_append, List.dropWhile_cons_of_pos (by simp)]; exact ih

theorem npStr_of_not_nul {s : PyStr} (h : ¬ EndsWithNul s) : npStr s = s := by
  unfold npStr
  rcases List.eq_nil_or_concat s with rfl | ⟨t, c, rfl⟩
  · rfl
  · rw [List.concat_eq_append, List.reverse_append, List.reverse_singleton, List.singleton_append, List.dropWhile_cons_of_neg]
    · simp
    · intro hc
      exact h ⟨t, by simpa using hc⟩

theorem npStr_not_nul (s : PyStr) : ¬ EndsWithNul (npStr s) := by
  rintro ⟨t, ht⟩
  unfold npStr at ht
  have h := congrArg List.reverse ht
  rw [List.reverse_reverse, List.reverse_append, List.reverse_singleton, List.singleton_append] at h
  have := List.head_dropWhile_not (p := fun c : Nat => decide (c = 0)) (l := s.reverse) (by rw [h]; simp)
  simp only [h] at this
  simp at this

/-- A string read back from a numpy array is the string without the NUL characters at its end: `t` followed by NULs
is read as `t` if `t` does not end with NUL, and every string is of this form. -/
theorem C112_stored (s : PyStr) : (∃ k, s = npStr s ++ List.replicate k 0) ∧ ¬ EndsWithNul (npStr s) ∧
    ∀ t k, ¬ EndsWithNul t → s = t ++ List.replicate k 0 → npStr s = t := by
  refine ⟨?_, npStr_not_nul s, fun t k ht hs => by rw [hs, npStr_append, npStr_of_not_nul ht]⟩
  unfold npStr
  refine ⟨(s.reverse.takeWhile fun c => decide (c = 0)).length, ?_⟩
  have h := List.takeWhile_append_dropWhile (p := fun c : Nat => decide (c = 0)) (l := s.reverse)
  have h2 : (s.reverse.takeWhile fun c => decide (c = 0)) = List.replicate (s.reverse.takeWhile fun c => decide (c = 0)).length 0 := by
    rw [List.eq_replicate_iff]
    exact ⟨rfl, fun b hb => by
      have := List.all_eq_true.1 (List.all_takeWhile (p := fun c : Nat => decide (c = 0)) (l := s.reverse)) b hb
      simpa using this⟩
  have h3 := congrArg List.reverse h
  rw [List.reverse_append, List.reverse_reverse] at h3
  conv_lhs => rw [← h3]
  rw [h2]
  simp

section
variable {α V κ θ : Type} [LinearOrder α] [LinearOrder κ]

/-! ### Dictionaries with repeated keys -/

theorem mem_dkeys_dofList {ν : Type} (l : List (α × ν)) (y : α) : y ∈ dkeys (dofList l) ↔ y ∈ l.map Prod.fst := by
  rw [dkeys_dofList, mem_ounion]
  simp

theorem dget?_dofList_last {ν : Type} (p s : List (α × ν)) (y : α) (v : ν) (hs : ∀ q ∈ s, q.1 ≠ y) :
    dget? (dofList (p ++ (y, v) :: s)) y = some v := by
  have key : ∀ d : Dict α ν, dget? d y = some v → dget? (s.foldl (fun d p => dset d p.1 p.2) d) y = some v := by
    induction s with
    | nil => exact fun d h => h
    | cons a s ih =>
      intro d h
      rw [List.foldl_cons]
      refine ih (fun q hq => hs q (List.mem_cons_of_mem _ hq)) _ ?_
      rw [dget?_dset, if_neg (fun h' => hs a (List.mem_cons_self ..) h')]
      exact h
  unfold dofList
  rw [List.foldl_append, List.foldl_cons]
  exact key _ (by rw [dget?_dset, if_pos rfl])

/-- The loop of lines 283-285. -/
theorem mpcMissing (l : List α) (d : Dict α Int) : ∀ y,
    dget? (l.foldl (fun d x => if x ∈ dkeys d then d else dset d x (-1)) d) y =
      if y ∈ dkeys d then dget? d y else if y ∈ l then some (-1) else none := by
  induction l generalizing d with
  | nil =>
    intro y
    by_cases h : y ∈ dkeys d
    · rw [if_pos h]; rfl
    · rw [if_neg h, if_neg (by simp)]
      exact dget?_eq_none_iff.2 h
  | cons a l ih =>
    intro y
    rw [List.foldl_cons]
    by_cases ha : a ∈ dkeys d
    · rw [if_pos ha, ih]
      by_cases h : y ∈ dkeys d
      · rw [if_pos h, if_pos h]
      · rw [if_neg h, if_neg h]
        have : y ≠ a := fun h' => h (h' ▸ ha)
        simp [this]
    · rw [if_neg ha, ih]
      by_cases h : y ∈ dkeys d
      · have : y ≠ a := fun h' => ha (h' ▸ h)
        rw [if_pos h, if_pos (by rw [dset_of_notMem _ ha, dkeys_append]; exact List.mem_append_left _ h), dget?_dset, if_neg (Ne.symm this)]
      · rw [if_neg h]
        by_cases hya : y = a
        · subst hya
          rw [if_pos (by rw [dset_of_notMem _ ha, dkeys_append]; simp [dkeys]), dget?_dset, if_pos rfl, if_pos (List.mem_cons_self ..)]
        · rw [if_neg (by rw [dset_of_notMem _ ha, dkeys_append]; simp [dkeys, hya]; simpa [dkeys] using h)]
          simp [hya]

/-- Everything about a call, from the labels of the rows. -/
theorem mpcStored_of_labels (store : α → α) {env : MpcEnv V κ θ} {p : MpcParams} {m : Manager α} {nb : Int} (hnb : 2 ≤ nb)
    {vectors : Dict α V} {ml cl : List (Nat × Nat)} (em : mpcPairs m .mustLink = .ok ml)
    (ec : mpcPairs m .cannotLink = .ok cl) {labels : List Int} {k : Nat}
    (hl : mpcLabels env p m.managed.length (min nb.toNat m.managed.length) ml cl (dvals vectors) = .ok labels)
    (hg : GoodLabels vectors.length k labels) :
    ∃ r0, mpcClusterStored store env p m (some vectors) (some nb) =
        .ok (m.managed.foldl (fun d x => if x ∈ dkeys d then d else dset d x (-1)) r0) ∧
      (∀ y, y ∈ dkeys r0 ↔ ∃ x ∈ dkeys vectors, store x = y) ∧ FirstAppearanceOrder (dvals r0) ∧
      ∀ (i j : Nat) (x y x' y' : α), (dkeys vectors)[i]? = some x → (dkeys vectors)[j]? = some x' → LastStored store (dkeys vectors) x y →
        LastStored store (dkeys vectors) x' y' → (dkeys vectors).Nodup → (dget? r0 y = dget? r0 y' ↔ labels[i]? = labels[j]?) := by
  obtain ⟨g1, g2, g3⟩ := hg
  have hkl : (dkeys vectors).length = labels.length := by rw [g1]; simp [dkeys]
  have hfilter : (labels.zipIdx.filter fun q => decide (q.1 ≠ -1)) = labels.zipIdx := by
    rw [List.filter_eq_self]
    rintro ⟨l, i⟩ hq
    have := (g2 l (List.mem_of_getElem? ((List.mk_mem_zipIdx_iff_getElem?).1 hq))).1
    rw [decide_eq_true_eq]
    show l ≠ -1
    omega
  have hitems : (labels.zipIdx.mapM fun q => do return (← lget ((dkeys vectors).map store) q.2, q.1) : Except PyErr (List (α × Int))) =
      .ok (((dkeys vectors).map store).zip labels) := by
    rw [mapM_ok_iff, List.forall₂_iff_get]
    refine ⟨by simp [hkl], fun i h1 h2 => ?_⟩
    simp only [List.get_eq_getElem, List.getElem_zipIdx, List.getElem_zip, Nat.zero_add]
    have hi : i < ((dkeys vectors).map store).length := by
      rw [List.length_zip] at h2
      omega
    have : lget ((dkeys vectors).map store) i = .ok (((dkeys vectors).map store)[i]) := lget_ok.2 (List.getElem?_eq_getElem hi)
    rw [this]
    rfl
  obtain ⟨r0, er, r1, r2, r3⟩ := rename_ok (nodup_dkeys_dofList (((dkeys vectors).map store).zip labels))
  have hmem : ∀ y, y ∈ dkeys (dofList (((dkeys vectors).map store).zip labels)) ↔ ∃ x ∈ dkeys vectors, store x = y := by
    intro y
    rw [mem_dkeys_dofList, List.map_fst_zip (by simp [hkl]), List.mem_map]
  have hlast : ∀ (i : Nat) (x y : α), (dkeys vectors)[i]? = some x → LastStored store (dkeys vectors) x y → (dkeys vectors).Nodup →
      dget? (dofList (((dkeys vectors).map store).zip labels)) y = labels[i]? := by
    rintro i x y hi ⟨pre, suf, he, hy, hs⟩ hv
    have hip : i = pre.length := by
      have h2 : (dkeys vectors)[pre.length]? = some x := by rw [he]; simp
      exact (List.getElem?_inj (List.getElem?_eq_some_iff.1 hi).1 hv).1 (by rw [hi, h2])
    have hil : i < labels.length := by rw [← hkl]; exact (List.getElem?_eq_some_iff.1 hi).1
    have hsplit : labels = labels.take i ++ labels[i] :: labels.drop (i + 1) := by
      rw [List.getElem_cons_drop, List.take_append_drop]
    rw [List.getElem?_eq_getElem hil]
    have hz : ((dkeys vectors).map store).zip labels =
        (pre.map store).zip (labels.take i) ++ (y, labels[i]) :: (suf.map store).zip (labels.drop (i + 1)) := by
      conv_lhs => rw [he, hsplit, List.map_append, List.map_cons, hy]
      rw [List.zip_append (by rw [List.length_map, List.length_take]; omega), List.zip_cons_cons]
    rw [hz]
    refine dget?_dofList_last _ _ _ _ fun q hq => ?_
    obtain ⟨z, hz, hz'⟩ := List.mem_map.1 (List.of_mem_zip (show (q.1, q.2) ∈ _ from hq)).1
    rw [← hz']
    exact hs z hz
  refine ⟨r0, ?_, fun y => ?_, r3, ?_⟩
  · unfold mpcClusterStored
    simp only [bind, Except.bind, em, ec, hl, hfilter] at hitems ⊢
    rw [if_neg (by omega)]
    simp only [pure, Except.pure] at hitems ⊢
    rw [hitems]
    simp only [er]
  · rw [r1, List.mem_insertionSort, hmem]
  · intro i j x y x' y' hi hj hx hx' hv
    rw [← hlast i x y hi hx hv, ← hlast j x' y' hj hx' hv]
    have m1 : ∃ z ∈ dkeys vectors, store z = y := ⟨x, List.mem_of_getElem? hi, by obtain ⟨_, _, _, h, _⟩ := hx; exact h⟩
    have m2 : ∃ z ∈ dkeys vectors, store z = y' := ⟨x', List.mem_of_getElem? hj, by obtain ⟨_, _, _, h, _⟩ := hx'; exact h⟩
    exact (r2 y ((hmem y).2 m1) y' ((hmem y').2 m2)).symm

/-- Storing the names unchanged is the model of C48 and C62-C66. -/
theorem mpcStored_id {env : MpcEnv V κ θ} {p : MpcParams} {m : Manager α} {vectors : Option (Dict α V)} {nb : Option Int}
    (store : α → α) (h : ∀ v, vectors = some v → ∀ x ∈ dkeys v, store x = x) :
    mpcClusterStored store env p m vectors nb = mpcCluster env p m vectors nb := by
  cases vectors with
  | none => rfl
  | some v =>
    cases nb with
    | none => rfl
    | some nb =>
      have : (dkeys v).map store = dkeys v := by
        conv_rhs => rw [← List.map_id (dkeys v)]
        exact List.map_congr_left (h v rfl)
      unfold mpcClusterStored mpcCluster
      simp only [this]

/-- Which call fails, and with which exception, does not depend on how the names are stored. -/
theorem mpcStored_error {env : MpcEnv V κ θ} (ha : MpcAssumptions env) {p : MpcParams} (hp : 1 ≤ p.maxIteration) {m : Manager α}
    (h : Inv m) (store store' : α → α) {vectors : Option (Dict α V)} {nb : Option Int} {e : PyErr}
    (he : mpcClusterStored store env p m vectors nb = .error e) : mpcClusterStored store' env p m vectors nb = .error e := by
  cases vectors with
  | none => exact he
  | some v =>
    cases nb with
    | none => exact he
    | some nb =>
      obtain ⟨ml, cl, em, ec, -⟩ := mpcPreprocess_manager ha.enum h env.depth
      by_cases hnb : nb < 2
      · unfold mpcClusterStored at he ⊢
        simp only [bind, Except.bind, em, ec] at he ⊢
        rw [if_pos hnb] at he ⊢
        exact he
      · cases hl : mpcLabels env p m.managed.length (min nb.toNat m.managed.length) ml cl (dvals v) with
        | error e' =>
          unfold mpcClusterStored at he ⊢
          simp only [bind, Except.bind, em, ec, hl] at he ⊢
          rw [if_neg hnb] at he ⊢
          exact he
        | ok labels =>
          obtain ⟨g1, -, g3⟩ := mpcLabels_result ha hp h (by omega) em ec hl
          have hlen : m.managed.length = v.length := by rw [← g1]; simp [dvals]
          rw [hlen] at g3
          obtain ⟨r0, h1, -⟩ := mpcStored_of_labels store (by omega) em ec hl g3
          rw [h1] at he
          cases he

/-- Which call fails, and with which exception, does not depend on numpy's strings; the constraint
handling, the clusters of the rows and all failures are those of C48, C62-C66 and C79-C81. -/
theorem C112_errors {env : MpcEnv V κ θ} (ha : MpcAssumptions env) {p : MpcParams} (hp : 1 ≤ p.maxIteration) {m : Manager α}
    (h : Reachable m) (store : α → α) (vectors : Option (Dict α V)) (nb : Option Int) (e : PyErr) :
    mpcClusterStored store env p m vectors nb = .error e ↔ mpcCluster env p m vectors nb = .error e := by
  rw [← mpcStored_id (fun x => x) fun _ _ _ _ => rfl]
  exact ⟨mpcStored_error ha hp h.inv store _, mpcStored_error ha hp h.inv _ store⟩

/-- What the stored names do to the result `r` of the model in which names are stored unchanged: the result
labels the managed IDs and the stored names of the keys of the vectors; a stored name takes the place of
the last key that is stored so; a managed ID that is not the stored name of a key has label -1. -/
theorem C112_refines {env : MpcEnv V κ θ} (ha : MpcAssumptions env) {p : MpcParams} (hp : 1 ≤ p.maxIteration) {m : Manager α}
    (h : Reachable m) (store : α → α) {vectors : Dict α V} (hv : (dkeys vectors).Nodup) {nb : Option Int} {r : Dict α Int}
    (hr : mpcCluster env p m (some vectors) nb = .ok r) :
    ∃ r', mpcClusterStored store env p m (some vectors) nb = .ok r' ∧
      (∀ y, y ∈ dkeys r' ↔ y ∈ m.managed ∨ ∃ x ∈ dkeys vectors, store x = y) ∧
      (∀ x y, LastStored store (dkeys vectors) x y → ∃ c, 0 ≤ c ∧ dget? r' y = some c) ∧
      (∀ x y x' y', LastStored store (dkeys vectors) x y → LastStored store (dkeys vectors) x' y' →
        (dget? r' y = dget? r' y' ↔ dget? r x = dget? r x')) ∧
      ∀ y ∈ m.managed, (∀ x ∈ dkeys vectors, store x ≠ y) → dget? r' y = some (-1) := by
  cases nb with
  | none => cases hr
  | some nb =>
    obtain ⟨hnb, ml, cl, labels, em, ec, hl⟩ := mpcCluster_labels ha h.inv hr
    obtain ⟨g1, -, g3⟩ := mpcLabels_result ha hp h.inv (by omega) em ec hl
    have hlen : m.managed.length = vectors.length := by rw [← g1]; simp [dvals]
    rw [hlen] at g3
    obtain ⟨s0, e0, k0, -, p0⟩ := mpcStored_of_labels (fun x => x) hnb em ec hl g3
    obtain ⟨r0, e1, k1, f1, p1⟩ := mpcStored_of_labels store hnb em ec hl g3
    rw [mpcStored_id _ fun _ _ _ _ => rfl, hr] at e0
    cases e0
    have hself : ∀ x ∈ dkeys vectors, LastStored (fun x => x) (dkeys vectors) x x := by
      intro x hx
      obtain ⟨pre, suf, he⟩ := List.append_of_mem hx
      refine ⟨pre, suf, he, rfl, fun z hz hzx => ?_⟩
      rw [he] at hv
      subst hzx
      exact (List.nodup_cons.1 (List.nodup_append.1 hv).2.1).1 hz
    have hlm : ∀ {x y}, LastStored store (dkeys vectors) x y → x ∈ dkeys vectors ∧ store x = y := by
      rintro x y ⟨pre, suf, he, hy, -⟩
      exact ⟨by rw [he]; simp, hy⟩
    refine ⟨_, e1, fun y => ?_, fun x y hx => ?_, fun x y x' y' hx hx' => ?_, fun y hy hno => ?_⟩
    · rw [← exists_dget?_iff, mpcMissing, ← k1]
      by_cases hy : y ∈ dkeys r0
      · rw [if_pos hy]
        exact ⟨fun _ => .inr hy, fun _ => exists_dget?_iff.2 hy⟩
      · rw [if_neg hy]
        by_cases hm : y ∈ m.managed
        · simp [hm]
        · simp [hm, hy]
    · have hy : y ∈ dkeys r0 := (k1 y).2 ⟨x, hlm hx⟩
      obtain ⟨c, hc⟩ := exists_dget?_iff.2 hy
      refine ⟨c, ?_, by rw [mpcMissing, if_pos hy, hc]⟩
      exact (firstAppearance_labelsAre f1 c).1 (List.mem_map.2 ⟨(y, c), mem_of_dget? hc, rfl⟩) |>.1
    · obtain ⟨hxm, hxy⟩ := hlm hx
      obtain ⟨hxm', hxy'⟩ := hlm hx'
      obtain ⟨i, hi⟩ := List.mem_iff_getElem?.1 hxm
      obtain ⟨j, hj⟩ := List.mem_iff_getElem?.1 hxm'
      rw [mpcMissing, mpcMissing, mpcMissing, mpcMissing, if_pos ((k1 y).2 ⟨x, hxm, hxy⟩), if_pos ((k1 y').2 ⟨x', hxm', hxy'⟩),
        if_pos ((k0 x).2 ⟨x, hxm, rfl⟩), if_pos ((k0 x').2 ⟨x', hxm', rfl⟩), p1 i j x y x' y' hi hj hx hx' hv,
        p0 i j x x x' x' hi hj (hself x hxm) (hself x' hxm') hv]
    · have hn : y ∉ dkeys r0 := fun hy' => by
        obtain ⟨x, hx, hxy⟩ := (k1 y).1 hy'
        exact hno x hx hxy
      rw [mpcMissing, if_neg hn, if_pos hy]

/-- Without an ID that ends with NUL, numpy's strings change nothing. -/
theorem C112_same {env : MpcEnv V κ θ} {p : MpcParams} {m : Manager PyStr} {vectors : Dict PyStr V} {nb : Option Int}
    (h : ∀ x ∈ dkeys vectors, ¬ EndsWithNul x) : mpcClusterNp env p m (some vectors) nb = mpcCluster env p m (some vectors) nb :=
  mpcStored_id npStr fun v hv x hx => by cases hv; exact npStr_of_not_nul (h x hx)

theorem np_back {env : MpcEnv V κ θ} (ha : MpcAssumptions env) {p : MpcParams} (hp : 1 ≤ p.maxIteration) {m : Manager PyStr}
    (h : Reachable m) {vectors : Dict PyStr V} {nb : Option Int} {r : Dict PyStr Int}
    (hr : mpcClusterNp env p m (some vectors) nb = .ok r) : ∃ s, mpcCluster env p m (some vectors) nb = .ok s := by
  cases hs : mpcCluster env p m (some vectors) nb with
  | ok s => exact ⟨s, rfl⟩
  | error e =>
    have := (C112_errors ha hp h npStr (some vectors) nb e).2 hs
    unfold mpcClusterNp at hr
    rw [hr] at this
    cases this

/-- A managed ID that ends with NUL always has label -1, as if it had no vector; a key of the vectors
that does not end with NUL never has. So two managed IDs that end with NUL have one label even if they are
cannot-linked, and one that does never has the label of one that does not, even if they are must-linked. -/
theorem C112_lost {env : MpcEnv V κ θ} (ha : MpcAssumptions env) {p : MpcParams} (hp : 1 ≤ p.maxIteration) {m : Manager PyStr}
    (h : Reachable m) {vectors : Dict PyStr V} (hv : (dkeys vectors).Nodup) {nb : Option Int} {r : Dict PyStr Int}
    (hr : mpcClusterNp env p m (some vectors) nb = .ok r) :
    (∀ x ∈ m.managed, EndsWithNul x → dget? r x = some (-1)) ∧
      ∀ x ∈ dkeys vectors, ¬ EndsWithNul x → ∃ c, 0 ≤ c ∧ dget? r x = some c := by
  obtain ⟨s, hs⟩ := np_back ha hp h hr
  obtain ⟨r', e1, -, k2, -, k4⟩ := C112_refines ha hp h npStr hv hs
  unfold mpcClusterNp at hr
  rw [hr] at e1
  cases e1
  refine ⟨fun x hx hn => ?_, fun x hx hn => ?_⟩
  · convert k4 x hx fun z _ hz => npStr_not_nul z (by rw [hz]; exact hn)
  have hlast : ∀ l : List PyStr, (∃ z ∈ l, npStr z = x) → ∃ z, LastStored npStr l z x := by
    intro l
    induction l with
    | nil => rintro ⟨z, hz, -⟩; cases hz
    | cons a l ih =>
      intro hex
      by_cases hl : ∃ z ∈ l, npStr z = x
      · obtain ⟨z, pre, suf, he, h1, h2⟩ := ih hl
        exact ⟨z, a :: pre, suf, by rw [he]; rfl, h1, h2⟩
      · obtain ⟨z, hz, hzx⟩ := hex
        rcases List.mem_cons.1 hz with rfl | hz
        · exact ⟨z, [], l, rfl, hzx, fun w hw hwx => hl ⟨w, hw, hwx⟩⟩
        · exact absurd ⟨z, hz, hzx⟩ hl
  obtain ⟨z, hz⟩ := hlast (dkeys vectors) ⟨x, hx, npStr_of_not_nul hn⟩
  convert k2 z x hz

/-- With vectors for exactly the managed IDs, the result labels something that is not managed exactly when some managed ID ends with
NUL and the rest of it is not managed. -/
theorem C112_foreign {env : MpcEnv V κ θ} (ha : MpcAssumptions env) {p : MpcParams} (hp : 1 ≤ p.maxIteration) {m : Manager PyStr}
    (h : Reachable m) {vectors : Dict PyStr V} (hv : (dkeys vectors).Nodup) (hm : ∀ x, x ∈ dkeys vectors ↔ x ∈ m.managed)
    {nb : Option Int} {r : Dict PyStr Int} (hr : mpcClusterNp env p m (some vectors) nb = .ok r) :
    (∃ y ∈ dkeys r, y ∉ m.managed) ↔ ∃ x ∈ m.managed, EndsWithNul x ∧ npStr x ∉ m.managed := by
  obtain ⟨s, hs⟩ := np_back ha hp h hr
  obtain ⟨r', e1, k1, -⟩ := C112_refines ha hp h npStr hv hs
  unfold mpcClusterNp at hr
  rw [hr] at e1
  cases e1
  constructor
  · rintro ⟨y, hy, hn⟩
    rcases (k1 y).1 hy with hy | ⟨x, hx, rfl⟩
    · exact absurd hy hn
    · refine ⟨x, (hm x).1 hx, ?_, hn⟩
      by_contra hnul
      rw [npStr_of_not_nul hnul] at hn
      exact hn ((hm x).1 hx)
  · rintro ⟨x, hx, -, hn⟩
    exact ⟨npStr x, (k1 _).2 (.inr ⟨x, (hm x).2 hx, rfl⟩), hn⟩

end

/-! ### A concrete case -/

/-- The IDs `a`, `a` with NUL, `b` with NUL, `c`, where `b` with NUL is must-linked to `c`. -/
def nulDemo : Manager PyStr := runOps (Manager.init [[97], [97, 0], [98, 0], [99]]) [.addConstraint [98, 0] [99] "MUST_LINK" 1]

def nulDemoVectors : Dict PyStr Int := [([97], 0), ([97, 0], 50), ([98, 0], 51), ([99], 52)]

theorem nulDemo_reachable : Reachable nulDemo := ⟨_, _, rfl⟩

theorem nulDemo_run : mpcCluster mpcDemoEnv ⟨10⟩ nulDemo (some nulDemoVectors) (some 2) =
    .ok [([97], 0), ([97, 0], 1), ([98, 0], 1), ([99], 1)] := by
  decide +kernel

theorem nulDemo_np : mpcClusterNp mpcDemoEnv ⟨10⟩ nulDemo (some nulDemoVectors) (some 2) =
    .ok [([97], 0), ([98], 0), ([99], 0), ([97, 0], -1), ([98, 0], -1)] := by
  decide +kernel

/-- All of it happens: four IDs, of which `a` is alone and the others form one cluster, are returned as one
cluster of three names, one of which is not managed, and two IDs without cluster. -/
theorem C112_example : ∃ (env : MpcEnv Int Int Unit) (m : Manager PyStr) (v : Dict PyStr Int) (r s : Dict PyStr Int),
    MpcAssumptions env ∧ Reachable m ∧ (∀ x, x ∈ dkeys v ↔ x ∈ m.managed) ∧
    mpcCluster env ⟨10⟩ m (some v) (some 2) = .ok s ∧ mpcClusterNp env ⟨10⟩ m (some v) (some 2) = .ok r ∧
    LabelsAre (dvals s) 2 ∧ (dvals r).dedup.length = 2 ∧ (∃ y ∈ dkeys r, y ∉ m.managed) ∧
    (∃ x y, m.getInferred x y = .ok (some .mustLink) ∧ dget? s x = dget? s y ∧ dget? r x ≠ dget? r y) := by
  refine ⟨mpcDemoEnv, nulDemo, nulDemoVectors, _, _, mpcDemo_ok, nulDemo_reachable, ?_, nulDemo_run, nulDemo_np, ?_, by decide +kernel,
    ⟨[98], by decide +kernel, by decide +kernel⟩, [98, 0], [99], by decide +kernel, by decide +kernel, by decide +kernel⟩
  · have : dkeys nulDemoVectors = nulDemo.managed := by decide +kernel
    intro x
    rw [this]
  · intro d
    have : dvals [([97], (0 : Int)), ([97, 0], 1), ([98, 0], 1), ([99], 1)] = [0, 1, 1, 1] := rfl
    rw [this]
    simp only [List.mem_cons, List.not_mem_nil, or_false]
    omega

/-! ### Each theorem applied to a concrete case -/

example := C112_stored [97, 0, 98, 0, 0]

example := C112_errors mpcDemo_ok (p := ⟨10⟩) (by decide) nulDemo_reachable npStr (some nulDemoVectors) (some 1) (.valueError "nb_clusters")

example := C112_refines mpcDemo_ok (p := ⟨10⟩) (by decide) nulDemo_reachable npStr (by decide +kernel) nulDemo_run

example := C112_same (env := mpcDemoEnv) (p := ⟨10⟩) (m := Manager.init [[97], [98]]) (vectors := [([97], 0), ([98], 1)]) (nb := some 2) (by
  intro x hx
  simp only [dkeys, List.map_cons, List.map_nil, List.mem_cons, List.not_mem_nil, or_false] at hx
  rcases hx with rfl | rfl <;> exact fun ⟨t, ht⟩ => by
    have := congrArg List.getLast? ht
    simp at this)

example := C112_lost mpcDemo_ok (p := ⟨10⟩) (by decide) nulDemo_reachable (by decide +kernel) nulDemo_np

example := C112_foreign mpcDemo_ok (p := ⟨10⟩) (by decide) nulDemo_reachable (by decide +kernel) (by
    have : dkeys nulDemoVectors = nulDemo.managed := by decide +kernel
    intro x
    rw [this]) nulDemo_np

end Verif
