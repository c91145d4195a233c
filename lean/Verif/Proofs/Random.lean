import Mathlib.Data.List.Perm.Subperm
import Mathlib.Data.List.Permutation
import Mathlib.Data.Set.Card
import Mathlib.Combinatorics.Enumerative.DoubleCounting
import Mathlib.Logic.Equiv.Basic
import Verif.Model.Random
import Verif.Spec.Random
import Verif.Proofs.Sampling
import Verif.Proofs.Clustering

/-
Proofs about `random.sample` and `random.shuffle`.
-/

namespace Verif

variable {ι : Type}

theorem pyItem_ok {l : List ι} {i : Nat} {x : ι} : pyItem l i = .ok x ↔ l[i]? = some x := by
  unfold pyItem
  cases h : l[i]? with
  | none => simp
  | some y => simp

theorem pyItem_lt {l : List ι} {i : Nat} (h : i < l.length) : pyItem l i = .ok l[i] :=
  pyItem_ok.2 (List.getElem?_eq_getElem h)

/-- Taking the element at `j` out of a list, the last one filling the gap. -/
theorem perm_takeOut {P : List ι} {j : Nat} {x z : ι} (hx : P[j]? = some x) (hz : P.getLast? = some z) :
    P.Perm (x :: (P.set j z).dropLast) := by
  obtain ⟨hj, rfl⟩ := List.getElem?_eq_some_iff.1 hx
  obtain ⟨Q, rfl⟩ : ∃ Q, P = Q ++ [z] := ⟨P.dropLast, (List.dropLast_append_getLast? z hz).symm⟩
  by_cases hlt : j < Q.length
  · rw [List.set_append_left _ _ hlt, List.dropLast_concat, List.getElem_append_left hlt]
    have h1 : Q.Perm (Q[j] :: Q.eraseIdx j) := (List.getElem_cons_eraseIdx_perm hlt).symm
    have h2 : (Q.set j z).Perm (z :: Q.eraseIdx j) := by
      have := (List.getElem_cons_eraseIdx_perm (l := Q.set j z) (n := j) (by simpa using hlt)).symm
      simpa [List.eraseIdx_set_eq] using this
    calc (Q ++ [z]).Perm (z :: Q) := List.perm_append_singleton z Q
      _ |>.Perm (z :: Q[j] :: Q.eraseIdx j) := h1.cons z
      _ |>.Perm (Q[j] :: z :: Q.eraseIdx j) := .swap _ _ _
      _ |>.Perm (Q[j] :: Q.set j z) := h2.symm.cons _
  · have hj' : j = Q.length := by simp at hj; omega
    subst hj'
    simp only [List.getElem_append_right (le_refl _), Nat.sub_self, List.getElem_cons_zero]
    rw [List.set_append_right _ _ (le_refl _)]
    simp only [Nat.sub_self, List.set_cons_zero, List.dropLast_concat]
    exact List.perm_append_singleton z Q

/-- One iteration with the pool. -/
theorem pyPool_cons {n i j : Nat} {pool : List ι} (hl : pool.length = n) (hj : j < n - i) :
    ∃ x pool', pool[j]? = some x ∧ pool'.length = n ∧ (pool.take (n - i)).Perm (x :: pool'.take (n - (i + 1))) ∧
      ∀ js, pyPool n i pool (j :: js) = (do return x :: (← pyPool n (i + 1) pool' js)) := by
  have hj1 : j < pool.length := by omega
  have hj2 : n - i - 1 < pool.length := by omega
  refine ⟨pool[j], pool.set j pool[n - i - 1], List.getElem?_eq_getElem hj1, by simpa using hl, ?_, ?_⟩
  · have h1 : (pool.take (n - i))[j]? = some pool[j] := by
      rw [List.getElem?_take_of_lt hj, List.getElem?_eq_getElem hj1]
    have h2 : (pool.take (n - i)).getLast? = some pool[n - i - 1] := by
      rw [List.getLast?_eq_getElem?, List.length_take, show min (n - i) pool.length - 1 = n - i - 1 by omega,
        List.getElem?_take_of_lt (by omega), List.getElem?_eq_getElem hj2]
    have h3 := perm_takeOut h1 h2
    rw [← List.take_set, List.dropLast_eq_take, List.take_take, List.length_take, List.length_set,
      show min (min (n - i) pool.length - 1) (n - i) = n - i - 1 by omega] at h3
    exact h3
  · intro js
    rw [pyPool, pyItem_lt hj1, pyItem_lt hj2]
    rfl

theorem pyPool_perm {n : Nat} : ∀ (js : List Nat) {i : Nat} {pool : List ι}, pool.length = n →
    (∀ t j, js[t]? = some j → j < n - i - t) →
    ∃ r, pyPool n i pool js = .ok r ∧ r.length = js.length ∧ r.Subperm (pool.take (n - i)) := by
  intro js
  induction js with
  | nil => exact fun _ _ => ⟨[], rfl, rfl, List.nil_subperm⟩
  | cons j js ih =>
    intro i pool hl hb
    obtain ⟨x, pool', -, hl', hp, e⟩ := pyPool_cons hl (hb 0 j rfl)
    obtain ⟨r, e1, e2, e3⟩ := ih (i := i + 1) hl' fun t j' ht => by have := hb (t + 1) j' ht; omega
    refine ⟨x :: r, by rw [e, e1]; rfl, by rw [List.length_cons, List.length_cons, e2], ?_⟩
    exact ((List.subperm_cons x).2 e3).trans hp.symm.subperm

/-- Every arrangement of elements of the pool comes from exactly one list of numbers. -/
theorem pyPool_unique {n : Nat} : ∀ (r : List ι) {i : Nat} {pool : List ι}, pool.length = n → (pool.take (n - i)).Nodup → r.Nodup →
    (∀ x ∈ r, x ∈ pool.take (n - i)) →
    ∃ js, (js.length = r.length ∧ (∀ t j, js[t]? = some j → j < n - i - t) ∧ pyPool n i pool js = .ok r) ∧
      ∀ js', js'.length = r.length → (∀ t j, js'[t]? = some j → j < n - i - t) → pyPool n i pool js' = .ok r → js' = js := by
  intro r
  induction r with
  | nil =>
    intro i pool _ _ _ _
    exact ⟨[], ⟨rfl, fun t j h => by simp at h, rfl⟩, fun js' h _ _ => List.length_eq_zero_iff.1 h⟩
  | cons x r ih =>
    intro i pool hl hn hr hsub
    obtain ⟨j, hj⟩ := List.getElem?_of_mem (hsub x (by simp))
    have hjlt : j < n - i := by
      have := (List.getElem?_eq_some_iff.1 hj).1
      rw [List.length_take] at this; omega
    have hxj : pool[j]? = some x := by rw [← hj, List.getElem?_take_of_lt hjlt]
    obtain ⟨x', pool', hx', hl', hp, e⟩ := pyPool_cons hl hjlt
    rw [hxj] at hx'
    cases hx'
    have hn' := hp.nodup_iff.1 hn
    rw [List.nodup_cons] at hn' hr
    obtain ⟨js, ⟨h1, h2, h3⟩, huniq⟩ := ih (i := i + 1) hl' hn'.2 hr.2 fun y hy => by
      rcases List.mem_cons.1 (hp.mem_iff.1 (hsub y (by simp [hy]))) with rfl | h
      · exact absurd hy hr.1
      · exact h
    refine ⟨j :: js, ⟨by rw [List.length_cons, List.length_cons, h1], fun t j' ht => ?_, by rw [e, h3]; rfl⟩, ?_⟩
    · cases t with
      | zero => cases ht; exact hjlt
      | succ t => have := h2 t j' ht; omega
    · intro js' g1 g2 g3
      match js', g1 with
      | j' :: js', g1 =>
        obtain ⟨x'', pool'', hx'', hl'', hp'', e''⟩ := pyPool_cons hl (g2 0 j' rfl)
        rw [e''] at g3
        cases hrest : pyPool n (i + 1) pool'' js' with
        | error err => rw [hrest] at g3; cases g3
        | ok rest =>
          rw [hrest] at g3
          cases g3
          have hjj : j' = j := by
            have hg : j' < n - i := g2 0 j' rfl
            have hj' : (pool.take (n - i))[j']? = some x := by rw [List.getElem?_take_of_lt hg]; exact hx''
            obtain ⟨a1, a2⟩ := List.getElem?_eq_some_iff.1 hj
            obtain ⟨b1, b2⟩ := List.getElem?_eq_some_iff.1 hj'
            exact (hn.getElem_inj_iff).1 (b2.trans a2.symm)
          subst hjj
          have hpp : pyPool n (i + 1) pool' js' = .ok r := by
            have := (e js').symm.trans (e'' js')
            rw [hrest] at this
            cases hq : pyPool n (i + 1) pool' js' with
            | error err => rw [hq] at this; cases this
            | ok q => rw [hq] at this; cases this; rfl
          rw [huniq js' (by simpa using g1) (fun t j ht => by have := g2 (t + 1) j ht; omega) hpp]

/-! ### `random.sample` -/

theorem filterMap_range (l : List ι) : (List.range l.length).filterMap (l[·]?) = l := by
  induction l using List.reverseRecOn with
  | nil => rfl
  | append_singleton l a ih =>
    rw [List.length_append, List.length_singleton, List.range_succ, List.filterMap_append]
    have h1 : (List.range l.length).filterMap (fun i => (l ++ [a])[i]?) = (List.range l.length).filterMap (l[·]?) :=
      List.filterMap_congr fun i hi => List.getElem?_append_left (List.mem_range.1 hi)
    rw [h1, ih]
    simp

theorem pySample_perm {pool : Bool} {js : List Nat} {l : List ι} {k : Nat} (hk : k ≤ l.length) (h : SampleDraws pool l.length k js) :
    ∃ r, pySample pool js l = .ok r ∧ r.length = k ∧ r.Subperm l := by
  obtain ⟨h1, h2⟩ := h
  unfold pySample
  rw [if_neg (by omega)]
  cases pool with
  | true =>
    obtain ⟨r, e1, e2, e3⟩ := pyPool_perm js (i := 0) (pool := l) rfl (by simpa using h2)
    exact ⟨r, e1, by omega, by simpa using e3⟩
  | false =>
    obtain ⟨h2, h3⟩ := h2
    refine ⟨js.filterMap (l[·]?), ?_, ?_, ?_⟩
    · rw [if_neg (by decide), mapM_ok_iff]
      clear h1 h2
      induction js with
      | nil => exact .nil
      | cons j js ih =>
        have hj := h3 j (by simp)
        rw [List.filterMap_cons, List.getElem?_eq_getElem hj]
        exact .cons (pyItem_lt hj) (ih fun j hj => h3 j (by simp [hj]))
    · rw [List.length_filterMap_eq_countP, ← h1, List.countP_eq_length]
      intro j hj
      rw [List.getElem?_eq_getElem (h3 j hj)]; rfl
    · have hs : js.Subperm (List.range l.length) := List.subperm_of_subset h2 fun j hj => List.mem_range.2 (h3 j hj)
      obtain ⟨js', hp, hsub⟩ := hs
      have := hsub.filterMap (l[·]?)
      rw [filterMap_range] at this
      exact ⟨_, hp.filterMap _, this⟩

theorem mapM_pyItem {l : List ι} {js : List Nat} {r : List ι} : js.mapM (pyItem l) = .ok r ↔ List.Forall₂ (fun j x => l[j]? = some x) js r := by
  rw [mapM_ok_iff]
  simp only [pyItem_ok]

theorem pySample_unique {pool : Bool} {l : List ι} (hl : l.Nodup) {k : Nat} {r : List ι} (hr : Arrangement l k r) :
    ∃! js, SampleDraws pool l.length k js ∧ pySample pool js l = .ok r := by
  obtain ⟨hr1, rfl, hr2⟩ := hr
  have hle : r.length ≤ l.length := (List.subperm_of_subset hr1 hr2).length_le
  cases pool with
  | true =>
    obtain ⟨js, ⟨h1, h2, h3⟩, hu⟩ := pyPool_unique r (i := 0) (pool := l) rfl (by simpa using hl) hr1 (by simpa using hr2)
    refine ⟨js, ⟨⟨h1, by simpa using h2⟩, ?_⟩, ?_⟩
    · unfold pySample
      rw [if_neg (by omega)]; exact h3
    · rintro js' ⟨⟨g1, g2⟩, g3⟩
      unfold pySample at g3
      rw [if_neg (by omega)] at g3
      exact hu js' g1 (by simpa using g2) g3
  | false =>
    have hidx : ∀ x ∈ r, ∃ j, j < l.length ∧ l[j]? = some x := fun x hx => by
      obtain ⟨j, hj⟩ := List.getElem?_of_mem (hr2 x hx)
      exact ⟨j, (List.getElem?_eq_some_iff.1 hj).1, hj⟩
    have hinj : ∀ {i j : Nat} {x : ι}, l[i]? = some x → l[j]? = some x → i = j := by
      intro i j x hi hj
      obtain ⟨a1, a2⟩ := List.getElem?_eq_some_iff.1 hi
      obtain ⟨b1, b2⟩ := List.getElem?_eq_some_iff.1 hj
      exact (hl.getElem_inj_iff).1 (a2.trans b2.symm)
    have hex : ∃ js : List Nat, List.Forall₂ (fun j x => l[j]? = some x) js r := by
      clear hr1 hle
      induction r with
      | nil => exact ⟨[], .nil⟩
      | cons x r ih =>
        obtain ⟨js, hjs⟩ := ih (fun y hy => hr2 y (by simp [hy])) fun y hy => hidx y (by simp [hy])
        obtain ⟨j, -, hj⟩ := hidx x (by simp)
        exact ⟨j :: js, .cons hj hjs⟩
    obtain ⟨js, hjs⟩ := hex
    have hlen := hjs.length_eq
    refine ⟨js, ⟨⟨hlen, ?_, fun j hj => ?_⟩, ?_⟩, ?_⟩
    · clear hlen hle hr2 hidx
      induction hjs with
      | nil => exact List.nodup_nil
      | @cons j x js r h1 h2 ih =>
        rw [List.nodup_cons] at hr1 ⊢
        refine ⟨fun hmem => hr1.1 ?_, ih hr1.2⟩
        obtain ⟨y, hy, hyj⟩ := forall₂_mem_left h2 hmem
        rw [h1] at hyj
        cases hyj; exact hy
    · obtain ⟨x, -, hx⟩ := forall₂_mem_left hjs hj
      exact (List.getElem?_eq_some_iff.1 hx).1
    · unfold pySample
      rw [if_neg (by omega), if_neg (by decide), mapM_pyItem]; exact hjs
    · rintro js' ⟨⟨g1, -⟩, g3⟩
      unfold pySample at g3
      rw [if_neg (by omega), if_neg (by decide), mapM_pyItem] at g3
      clear g1 hlen hle hr1 hr2 hidx
      induction hjs generalizing js' with
      | nil => cases g3; rfl
      | cons h1 h2 ih =>
        cases g3 with
        | cons g4 g5 => rw [hinj g4 h1, ih _ g5]

/-! ### `random.shuffle` -/

theorem perm_swap {x : List ι} {i j : Nat} (hi : i < x.length) (hj : j < x.length) : ((x.set i x[j]).set j x[i]).Perm x := by
  exact List.set_set_perm hi hj

theorem pyShuffleFrom_cons {i j : Nat} {x : List ι} (hi : i + 1 < x.length) (hj : j < i + 2) :
    ∃ x', x'.Perm x ∧ x'.length = x.length ∧ x'.drop (i + 2) = x.drop (i + 2) ∧ x'[i + 1]? = x[j]? ∧
      ∀ js, pyShuffleFrom (i + 1) (j :: js) x = pyShuffleFrom i js x' := by
  have hj' : j < x.length := by omega
  refine ⟨(x.set (i + 1) x[j]).set j x[i + 1], perm_swap hi hj', by simp, ?_, ?_, ?_⟩
  · rw [List.drop_set_of_lt (by omega), List.drop_set_of_lt (by omega)]
  · by_cases h : j = i + 1
    · subst h
      simp
    · rw [List.getElem?_set_ne h, List.getElem?_set_self hi, List.getElem?_eq_getElem hj']
  · intro js
    rw [pyShuffleFrom, pyItem_lt hj', pyItem_lt hi]; rfl

theorem pyShuffleFrom_perm {js : List Nat} : ∀ {i : Nat} {x : List ι}, i < x.length ∨ i = 0 → js.length = i → (∀ t j, js[t]? = some j → j < i + 1 - t) →
    ∃ r, pyShuffleFrom i js x = .ok r ∧ r.Perm x := by
  induction js with
  | nil => rintro i x - h -; cases h; exact ⟨x, rfl, .rfl⟩
  | cons j js ih =>
    intro i x hi hlen hjs
    cases i with
    | zero => cases hlen
    | succ i =>
      obtain ⟨x', h1, h2, -, -, e⟩ := pyShuffleFrom_cons (i := i) (j := j) (x := x) (by omega) (by have := hjs 0 j rfl; omega)
      obtain ⟨r, hr, hp⟩ := ih (i := i) (x := x') (.inl (by omega)) (by simpa using hlen) fun t j ht => by
        have := hjs (t + 1) j ht; omega
      exact ⟨r, by rw [e, hr], hp.trans h1⟩

theorem pyShuffleFrom_drop {js : List Nat} : ∀ {i : Nat} {x r : List ι}, i < x.length ∨ i = 0 → (∀ t j, js[t]? = some j → j < i + 1 - t) →
    pyShuffleFrom i js x = .ok r → r.drop (i + 1) = x.drop (i + 1) := by
  induction js with
  | nil =>
    intro i x r _ _ h
    cases i with
    | zero => cases h; rfl
    | succ i => cases h
  | cons j js ih =>
    intro i x r hi hjs h
    cases i with
    | zero => cases h; rfl
    | succ i =>
      obtain ⟨x', h1, h2, h3, -, e⟩ := pyShuffleFrom_cons (i := i) (j := j) (x := x) (by omega) (by have := hjs 0 j rfl; omega)
      rw [e] at h
      have := ih (i := i) (x := x') (.inl (by omega)) (fun t j ht => by have := hjs (t + 1) j ht; omega) h
      rw [← h3, show i + 1 + 1 = i + 1 + 1 from rfl]
      have h4 := congrArg (List.drop 1) this
      simpa [List.drop_drop] using h4

theorem pyShuffleFrom_unique {i : Nat} : ∀ {x r : List ι}, i < x.length ∨ i = 0 → x.Nodup → r.Perm x → r.drop (i + 1) = x.drop (i + 1) →
    ∃ js, (js.length = i ∧ (∀ t j, js[t]? = some j → j < i + 1 - t) ∧ pyShuffleFrom i js x = .ok r) ∧
      ∀ js', js'.length = i → (∀ t j, js'[t]? = some j → j < i + 1 - t) → pyShuffleFrom i js' x = .ok r → js' = js := by
  induction i with
  | zero =>
    intro x r _ hx hp hd
    refine ⟨[], ⟨rfl, by simp, ?_⟩, fun js' h _ _ => List.length_eq_zero_iff.1 h⟩
    have : r = x := by
      cases x with
      | nil => exact hp.eq_nil
      | cons a x =>
        cases r with
        | nil => exact absurd hp.symm.eq_nil (by simp)
        | cons b r =>
          have hd : r = x := by simpa using hd
          subst hd
          have := hp.mem_iff (a := a)
          have hb : a ∉ r := (List.nodup_cons.1 hx).1
          have : a = b := by simpa [hb] using this
          rw [this]
    rw [this]; rfl
  | succ i ih =>
    intro x r hi hx hp hd
    have hi : i + 1 < x.length := by omega
    have hlr : r.length = x.length := hp.length_eq
    have hrn : r.Nodup := hp.symm.nodup hx
    obtain ⟨j, hj⟩ := List.getElem?_of_mem (hp.mem_iff.1 (List.getElem_mem (l := r) (n := i + 1) (by omega)))
    have hjx : j < x.length := (List.getElem?_eq_some_iff.1 hj).1
    have hjlt : j < i + 2 := by
      by_contra hge
      have h1 : r[j]? = x[j]? := by
        have := congrArg (fun l => l[j - (i + 2)]?) hd
        simpa [List.getElem?_drop, show i + 1 + 1 + (j - (i + 2)) = j by omega] using this
      rw [hj] at h1
      obtain ⟨b1, b2⟩ := List.getElem?_eq_some_iff.1 h1
      have := (hrn.getElem_inj_iff).1 b2
      omega
    obtain ⟨x', h1, h2, h3, h4, e⟩ := pyShuffleFrom_cons (i := i) (j := j) (x := x) hi hjlt
    have hdrop : ∀ {x' : List ι}, x'.length = x.length → x'.drop (i + 2) = x.drop (i + 2) → x'[i + 1]? = r[i + 1]? → r.drop (i + 1) = x'.drop (i + 1) := by
      intro x' hl h3 h4
      rw [List.drop_eq_getElem_cons (l := r) (by omega), List.drop_eq_getElem_cons (l := x') (by omega), h3, hd]
      congr 1
      rw [List.getElem?_eq_getElem (by omega), List.getElem?_eq_getElem (by omega)] at h4
      exact (Option.some.inj h4).symm
    have hr1 : r[i + 1]? = x[j]? := by rw [hj]; exact List.getElem?_eq_getElem (by omega)
    obtain ⟨js, ⟨g1, g2, g3⟩, hu⟩ := ih (x := x') (r := r) (.inl (by omega)) (h1.symm.nodup hx) (hp.trans h1.symm)
      (hdrop h2 h3 (h4.trans hr1.symm))
    refine ⟨j :: js, ⟨by simp [g1], fun t j' ht => ?_, by rw [e, g3]⟩, ?_⟩
    · cases t with
      | zero => cases ht; omega
      | succ t => have := g2 t j' ht; omega
    · intro js' k1 k2 k3
      match js', k1 with
      | j' :: js', k1 =>
        have hk : j' < i + 2 := by have := k2 0 j' rfl; omega
        obtain ⟨x'', l1, l2, l3, l4, e'⟩ := pyShuffleFrom_cons (i := i) (j := j') (x := x) hi hk
        have k3' := k3
        rw [e'] at k3
        have hb : ∀ t j, js'[t]? = some j → j < i + 1 - t := fun t j ht => by have := k2 (t + 1) j ht; omega
        have hdd := pyShuffleFrom_drop (.inl (by omega)) hb k3
        have hjj : j' = j := by
          have h5 : r[i + 1]? = x''[i + 1]? := by
            have := congrArg (fun l => l[0]?) hdd
            simpa [List.getElem?_drop] using this
          rw [l4, hr1, hj] at h5
          obtain ⟨a1, a2⟩ := List.getElem?_eq_some_iff.1 hj
          obtain ⟨b1, b2⟩ := List.getElem?_eq_some_iff.1 h5.symm
          exact (hx.getElem_inj_iff).1 (b2.trans a2.symm)
        subst hjj
        rw [e] at k3'
        rw [hu js' (by simpa using k1) hb k3']

theorem pyShuffle_perm {js : List Nat} {x : List ι} (h : ShuffleDraws x.length js) : ∃ r, pyShuffle js x = .ok r ∧ r.Perm x :=
  pyShuffleFrom_perm (by omega) h.1 fun t j ht => by
    have := h.2 t j ht; omega

theorem pyShuffle_unique {x r : List ι} (hx : x.Nodup) (hr : r.Perm x) : ∃! js, ShuffleDraws x.length js ∧ pyShuffle js x = .ok r := by
  have hl := hr.length_eq
  obtain ⟨js, ⟨h1, h2, h3⟩, hu⟩ := pyShuffleFrom_unique (i := x.length - 1) (x := x) (r := r) (by omega) hx hr (by
    rw [List.drop_eq_nil_of_le (by omega), List.drop_eq_nil_of_le (by omega)])
  have hb : ∀ {js : List Nat}, js.length = x.length - 1 → ((∀ t j, js[t]? = some j → j < x.length - 1 + 1 - t) ↔
      ∀ t j, js[t]? = some j → j < x.length - t) := by
    intro js hjs
    refine ⟨fun h t j ht => ?_, fun h t j ht => ?_⟩
    all_goals
      have := h t j ht
      have := (List.getElem?_eq_some_iff.1 ht).1
      omega
  exact ⟨js, ⟨⟨h1, (hb h1).1 h2⟩, h3⟩, fun js' ⟨⟨g1, g2⟩, g3⟩ => hu js' g1 ((hb g1).2 g2) g3⟩

/-! ### Counting -/

theorem arrangements_finite (l : List ι) (k : Nat) : {r | Arrangement l k r}.Finite := by
  refine (List.finite_toSet (l.sublists.flatMap List.permutations)).subset ?_
  rintro r ⟨h1, -, h3⟩
  obtain ⟨s, hs, hsub⟩ := List.subperm_of_subset h1 h3
  exact List.mem_flatMap.2 ⟨s, List.mem_sublists.2 hsub, List.mem_permutations.2 hs.symm⟩

/-- Draws and their results correspond one to one. -/
theorem draws_ncard {D : List Nat → Prop} {f : List Nat → Except PyErr (List ι)} {A : List ι → Prop}
    (h1 : ∀ js, D js → ∃ r, f js = .ok r ∧ A r) (h2 : ∀ r, A r → ∃! js, D js ∧ f js = .ok r) (P : List ι → Prop) :
    {js | D js ∧ ∃ r, f js = .ok r ∧ P r}.ncard = {r | A r ∧ P r}.ncard := by
  refine Set.ncard_congr (fun js _ => match f js with | .ok r => r | .error _ => []) ?_ ?_ ?_
  · rintro js ⟨hD, r, hr, hP⟩
    obtain ⟨r', hr', hA⟩ := h1 js hD
    rw [hr] at hr'; cases hr'
    rw [hr]; exact ⟨hA, hP⟩
  · rintro a b ⟨hDa, r, hr, -⟩ ⟨hDb, r', hr', -⟩ e
    rw [hr, hr'] at e
    have e : r = r' := e
    subst e
    obtain ⟨r', h, hA⟩ := h1 a hDa
    rw [hr] at h; cases h
    obtain ⟨js, -, hu⟩ := h2 r hA
    exact (hu a ⟨hDa, hr⟩).trans (hu b ⟨hDb, hr'⟩).symm
  · rintro r ⟨hA, hP⟩
    obtain ⟨js, ⟨hD, hr⟩, -⟩ := h2 r hA
    exact ⟨js, ⟨hD, r, hr, hP⟩, by rw [hr]⟩

theorem arrangement_swap [DecidableEq ι] {l : List ι} {k : Nat} {p q : ι} (hp : p ∈ l) (hq : q ∈ l) {r : List ι} (h : Arrangement l k r) :
    Arrangement l k (r.map (Equiv.swap p q)) := by
  refine ⟨h.1.map (Equiv.swap p q).injective, by rw [List.length_map, h.2.1], fun x hx => ?_⟩
  obtain ⟨y, hy, rfl⟩ := List.mem_map.1 hx
  have := h.2.2 y hy
  rcases Equiv.swap_apply_eq_iff.1 (rfl : Equiv.swap p q y = _) with -
  by_cases h1 : y = p
  · subst h1; rwa [Equiv.swap_apply_left]
  · by_cases h2 : y = q
    · subst h2; rwa [Equiv.swap_apply_right]
    · rwa [Equiv.swap_apply_of_ne_of_ne h1 h2]

theorem arrangement_chance {l : List ι} (hl : l.Nodup) {k : Nat} {p : ι} (hp : p ∈ l) :
    l.length * {r | Arrangement l k r ∧ p ∈ r}.ncard = k * {r | Arrangement l k r}.ncard := by
  classical
  have hfin := arrangements_finite l k
  set F := hfin.toFinset with hF
  have hmem : ∀ r, r ∈ F ↔ Arrangement l k r := fun r => by rw [hF, Set.Finite.mem_toFinset]; rfl
  have hc : ∀ q, {r | Arrangement l k r ∧ q ∈ r}.ncard = (F.filter fun r => q ∈ r).card := fun q => by
    rw [← Set.ncard_coe_finset]
    congr 1
    ext r
    simp [hmem]
  have hall : {r | Arrangement l k r}.ncard = F.card := by
    rw [← Set.ncard_coe_finset]
    congr 1
    ext r
    simp [hmem]
  have heq : ∀ q ∈ l.toFinset, (F.filter fun r => q ∈ r).card = (F.filter fun r => p ∈ r).card := by
    intro q hq
    have hq : q ∈ l := List.mem_toFinset.1 hq
    refine Finset.card_bij (fun r _ => r.map (Equiv.swap q p)) ?_ ?_ ?_
    · intro r hr
      rw [Finset.mem_filter] at hr ⊢
      exact ⟨(hmem _).2 (arrangement_swap hq hp ((hmem _).1 hr.1)), List.mem_map.2 ⟨q, hr.2, Equiv.swap_apply_left q p⟩⟩
    · intro a _ b _ e
      exact List.map_injective_iff.2 (Equiv.swap q p).injective e
    · intro r hr
      rw [Finset.mem_filter] at hr
      refine ⟨r.map (Equiv.swap q p), Finset.mem_filter.2 ⟨(hmem _).2 (arrangement_swap hq hp ((hmem _).1 hr.1)),
        List.mem_map.2 ⟨p, hr.2, Equiv.swap_apply_right q p⟩⟩, ?_⟩
      rw [List.map_map]
      conv_rhs => rw [← List.map_id r]
      exact List.map_congr_left fun x _ => Equiv.swap_apply_self q p x
  have hdc := Finset.sum_card_bipartiteAbove_eq_sum_card_bipartiteBelow (s := l.toFinset) (t := F) (fun q r => q ∈ r)
  have h1 : (∑ q ∈ l.toFinset, (F.filter fun r => q ∈ r).card) = l.length * (F.filter fun r => p ∈ r).card := by
    rw [Finset.sum_congr rfl heq, Finset.sum_const, List.toFinset_card_of_nodup hl]; rfl
  have h2 : (∑ r ∈ F, (l.toFinset.filter fun q => q ∈ r).card) = F.card * k := by
    rw [Finset.sum_const_nat]
    intro r hr
    obtain ⟨g1, g2, g3⟩ := (hmem r).1 hr
    have : (l.toFinset.filter fun q => q ∈ r) = r.toFinset := by
      ext q
      rw [Finset.mem_filter, List.mem_toFinset, List.mem_toFinset]
      exact ⟨fun h => h.2, fun h => ⟨g3 q h, h⟩⟩
    rw [this, List.toFinset_card_of_nodup g1, g2]
  rw [hc, hall, ← h1, Nat.mul_comm k, ← h2]
  exact hdc

theorem perms_ncard {l : List ι} (hl : l.Nodup) : {r : List ι | r.Perm l}.ncard = l.length.factorial := by
  classical
  rw [← List.length_permutations, ← List.toFinset_card_of_nodup (List.nodup_permutations l hl), ← Set.ncard_coe_finset]
  congr 1
  ext r
  simp

theorem perms_take_ncard {l : List ι} (hl : l.Nodup) {k : Nat} {r : List ι} (hr : Arrangement l k r) :
    {s : List ι | s.Perm l ∧ s.take k = r}.ncard = (l.length - k).factorial := by
  classical
  obtain ⟨h1, h2, h3⟩ := hr
  have hsub := List.subperm_of_subset h1 h3
  have ht : l.Perm (r ++ l.diff r) := (List.subperm_append_diff_self_of_count_le (List.subperm_ext_iff.1 hsub)).symm
  generalize l.diff r = t at ht
  have htn : t.Nodup := (List.nodup_append.1 (ht.nodup hl)).2.1
  have hlt : t.length = l.length - k := by
    have := ht.length_eq
    rw [List.length_append] at this; omega
  rw [← hlt, ← perms_ncard htn]
  refine Set.ncard_congr (fun s _ => s.drop k) ?_ ?_ ?_
  · rintro s ⟨hs, e⟩
    have hrs : r ++ s.drop k = s := by rw [← e, List.take_append_drop]
    have : (r ++ s.drop k).Perm (r ++ t) := by rw [hrs]; exact hs.trans ht
    exact (List.perm_append_left_iff r).1 this
  · rintro a b ⟨-, ha⟩ ⟨-, hb⟩ e
    rw [← List.take_append_drop k a, ← List.take_append_drop k b, ha, hb]
    exact congrArg _ e
  · intro s hs
    refine ⟨r ++ s, ⟨((List.perm_append_left_iff r).2 hs).trans ht.symm, ?_⟩, ?_⟩
    · rw [← h2, List.take_left']; rfl
    · rw [← h2, List.drop_left']; rfl

end Verif
