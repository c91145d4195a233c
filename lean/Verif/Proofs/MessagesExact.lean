import Verif.Proofs.MessagesSmall

/-
The environment of exact arithmetic: its assumptions hold, the median of small matrices, and the
result of the loop on two and on three closures.
-/

namespace Verif

section
variable {κ : Type} [LinearOrder κ]

/-- Positions in a sorted list, by counting. -/
theorem sorted_lt {l : List κ} (hs : l.Pairwise (· ≤ ·)) {i : Nat} {v x : κ} (hi : l[i]? = some v)
    (hc : l.countP (fun y => decide (y ≤ x)) ≤ i) : x < v := by
  by_contra hv
  push Not at hv
  have h1 : (l.take (i + 1)).countP (fun y => decide (y ≤ x)) = (l.take (i + 1)).length := by
    rw [List.countP_eq_length]
    intro y hy
    obtain ⟨j, hj⟩ := List.mem_iff_getElem?.1 hy
    rw [List.getElem?_take] at hj
    split at hj
    · rename_i hji
      obtain ⟨h1, e1⟩ := List.getElem?_eq_some_iff.1 hj
      obtain ⟨h2, e2⟩ := List.getElem?_eq_some_iff.1 hi
      have : y ≤ v := by
        rcases Nat.lt_or_ge j i with h | h
        · rw [← e1, ← e2]; exact List.pairwise_iff_getElem.1 hs j i h1 h2 h
        · have : j = i := by omega
          subst this
          rw [← e1, ← e2]
      exact decide_eq_true (this.trans hv)
    · cases hj
  have h2 := (List.take_sublist (i + 1) l).countP_le (p := fun y => decide (y ≤ x))
  have h3 := (List.getElem?_eq_some_iff.1 hi).1
  rw [h1, List.length_take, min_eq_left (by omega)] at h2
  omega

theorem sorted_le {l : List κ} (hs : l.Pairwise (· ≤ ·)) {i : Nat} {v x : κ} (hi : l[i]? = some v)
    (hc : l.countP (fun y => decide (y < x)) ≤ i) : x ≤ v := by
  by_contra hv
  push Not at hv
  have := sorted_lt hs hi (x := v) (le_trans (List.countP_mono_left fun y _ h => ?_) hc)
  · exact lt_irrefl _ this
  · simp only [decide_eq_true_eq] at h ⊢
    exact lt_of_le_of_lt h hv

theorem sorted_ge {l : List κ} (hs : l.Pairwise (· ≤ ·)) {i : Nat} {v x : κ} (hi : l[i]? = some v)
    (hc : i < l.countP (fun y => decide (y ≤ x))) : v ≤ x := by
  by_contra hv
  push Not at hv
  have h1 : (l.drop i).countP (fun y => decide (y ≤ x)) = 0 := by
    rw [List.countP_eq_zero]
    intro y hy
    obtain ⟨j, hj⟩ := List.mem_iff_getElem?.1 hy
    rw [List.getElem?_drop] at hj
    obtain ⟨h1, e1⟩ := List.getElem?_eq_some_iff.1 hj
    obtain ⟨h2, e2⟩ := List.getElem?_eq_some_iff.1 hi
    have : v ≤ y := by
      rcases Nat.eq_zero_or_pos j with h | h
      · subst h; simp only [Nat.add_zero] at e1; rw [← e1, ← e2]
      · rw [← e1, ← e2]; exact List.pairwise_iff_getElem.1 hs i (i + j) h2 h1 (by omega)
    simp only [decide_eq_true_eq, not_le]
    exact lt_of_lt_of_le hv this
  have h2 : l.countP (fun y => decide (y ≤ x)) =
      (l.take i).countP (fun y => decide (y ≤ x)) + (l.drop i).countP (fun y => decide (y ≤ x)) := by
    rw [← List.countP_append, List.take_append_drop]
  have h3 : (l.take i).countP (fun y => decide (y ≤ x)) ≤ i :=
    List.countP_le_length.trans (by rw [List.length_take]; exact min_le_left _ _)
  omega

end

section
variable {κ : Type} [Field κ] [LinearOrder κ] [IsStrictOrderedRing κ]

theorem npMedian_sorted (M : Mat κ) : ∃ l : List κ, l.Pairwise (· ≤ ·) ∧ l.Perm M.flatten ∧
    npMedian M = if l.length % 2 = 1 then (l[l.length / 2]?).getD 0
      else ((l[l.length / 2 - 1]?).getD 0 + (l[l.length / 2]?).getD 0) / 2 :=
  ⟨_, List.pairwise_insertionSort (· ≤ ·) M.flatten, List.perm_insertionSort _ _, rfl⟩

theorem npMedian_unique {M : Mat κ} {u : κ} (h : IsMedian M.flatten u) : npMedian M = u := by
  obtain ⟨s, hp, hs, a, b, ha, hb, rfl⟩ := h
  obtain ⟨l, hs', hp', e⟩ := npMedian_sorted M
  have : l = s := (hp'.trans hp.symm).eq_of_pairwise (fun _ _ _ _ h1 h2 => le_antisymm h1 h2) hs' hs
  subst this
  rw [e]
  split
  · rename_i hodd
    rw [show (l.length - 1) / 2 = l.length / 2 by omega, hb] at ha
    cases ha
    rw [hb]
    simp
  · rename_i hodd
    have hpos : 0 < l.length := by
      have := (List.getElem?_eq_some_iff.1 hb).1
      omega
    rw [show (l.length - 1) / 2 = l.length / 2 - 1 by omega] at ha
    rw [ha, hb]
    rfl

/-- The median is not smaller than every entry. -/
theorem npMedian_ge {n : Nat} {M : Mat κ} (hn : 0 < n) (hM : Square n M) : ∃ row ∈ M, ∃ v ∈ row, v ≤ npMedian M := by
  obtain ⟨l, hs, hp, e⟩ := npMedian_sorted M
  obtain ⟨v, hv⟩ := hM.get hn hn
  have hvm : v ∈ M.flatten := by
    unfold mget? at hv
    rw [Option.bind_eq_some_iff] at hv
    obtain ⟨row, h1, h2⟩ := hv
    exact List.mem_flatten.2 ⟨row, List.mem_of_getElem? h1, List.mem_of_getElem? h2⟩
  have hlen : 0 < l.length := by
    have := hp.mem_iff.2 hvm
    exact List.length_pos_of_mem this
  have back : ∀ x ∈ l, ∃ row ∈ M, x ∈ row := fun x hx => by
    obtain ⟨row, h1, h2⟩ := List.mem_flatten.1 (hp.mem_iff.1 hx)
    exact ⟨row, h1, h2⟩
  rw [e]
  by_cases h : l.length % 2 = 1
  · rw [if_pos h, List.getElem?_eq_getElem (show l.length / 2 < l.length by omega)]
    obtain ⟨row, h1, h2⟩ := back _ (List.getElem_mem (show l.length / 2 < l.length by omega))
    exact ⟨row, h1, _, h2, le_refl _⟩
  · rw [if_neg h, List.getElem?_eq_getElem (show l.length / 2 < l.length by omega),
      List.getElem?_eq_getElem (show l.length / 2 - 1 < l.length by omega)]
    obtain ⟨row, h1, h2⟩ := back _ (List.getElem_mem (show l.length / 2 - 1 < l.length by omega))
    refine ⟨row, h1, _, h2, ?_⟩
    have := List.pairwise_iff_getElem.1 hs (l.length / 2 - 1) (l.length / 2) (by omega) (by omega) (by omega)
    simp only [Option.getD_some]
    linarith

theorem apNoise_square {n : Nat} {S : Mat κ} (h : Square n S) (eps tiny : κ) (z : Nat → Nat → κ) :
    Square n (apNoise eps tiny z S) := by
  unfold apNoise
  refine ⟨by rw [List.length_mapIdx, h.1], fun row hr => ?_⟩
  rw [List.mem_mapIdx] at hr
  obtain ⟨i, hi, rfl⟩ := hr
  rw [List.length_mapIdx]
  exact h.2 _ (List.getElem_mem hi)

theorem mget?_apNoise (eps tiny : κ) (z : Nat → Nat → κ) (S : Mat κ) (i j : Nat) :
    mget? (apNoise eps tiny z S) i j = (mget? S i j).map fun s => s + (eps * s + tiny * 100) * z i j := by
  unfold apNoise mget?
  rw [List.getElem?_mapIdx]
  cases S[i]? with
  | none => rfl
  | some row => simp

/-- Exact arithmetic meets the assumptions on numpy. -/
theorem apExact_ok {V : Type} (dist : V → V → κ) (eps tiny : κ) (z : Nat → Nat → κ) :
    ApAssumptions (apExact dist eps tiny z) where
  noise _ _ h := apNoise_square h eps tiny z
  update n S s h := by
    show (apUpdate S s).2.length = n
    unfold apUpdate
    simp only
    split <;> simp [h.1]
  colsum S ii := by simp [apExact, apColsum]
  addZero x := add_zero x

theorem apExact_distance {V : Type} {dist : V → V → κ} (hd : ∀ v w, dist v v ≤ dist v w) (eps tiny : κ) (z : Nat → Nat → κ) :
    ApDistance (apExact dist eps tiny z) where
  self := hd
  neg _ _ h := neg_le_neg h
  median _ _ hn h := npMedian_ge hn h

/-! ### Small matrices -/

theorem square_two {W : Mat κ} (h : Square 2 W) :
    W = [[entry W 0 0, entry W 0 1], [entry W 1 0, entry W 1 1]] := by
  obtain ⟨h1, h2⟩ := h
  match W, h1 with
  | [r, t], _ =>
    have hr := h2 r (by simp)
    have ht := h2 t (by simp)
    match r, t, hr, ht with
    | [a, b], [c, d], _, _ => rfl

theorem square_three {W : Mat κ} (h : Square 3 W) :
    W = [[entry W 0 0, entry W 0 1, entry W 0 2], [entry W 1 0, entry W 1 1, entry W 1 2],
      [entry W 2 0, entry W 2 1, entry W 2 2]] := by
  obtain ⟨h1, h2⟩ := h
  match W, h1 with
  | [r, t, u], _ =>
    have hr := h2 r (by simp)
    have ht := h2 t (by simp)
    have hu := h2 u (by simp)
    match r, t, u, hr, ht, hu with
    | [a, b, c], [d, e, f], [g, x, y], _, _, _ => rfl

/-- Two closures: the preference is greater than both similarities between them. -/
theorem median_two {W : Mat κ} (h : Square 2 W) (h1 : ∀ i < 2, ∀ a b, a < 2 → b < 2 → a ≠ b → entry W a b < entry W i i) :
    ∀ a b, a < 2 → b < 2 → a ≠ b → entry W a b < npMedian W := by
  obtain ⟨l, hs, hp, e⟩ := npMedian_sorted W
  have a1 := h1 0 (by omega) 0 1 (by omega) (by omega) (by omega)
  have a2 := h1 1 (by omega) 0 1 (by omega) (by omega) (by omega)
  have a3 := h1 0 (by omega) 1 0 (by omega) (by omega) (by omega)
  have a4 := h1 1 (by omega) 1 0 (by omega) (by omega) (by omega)
  have hW := square_two h
  generalize entry W 0 0 = d0 at *
  generalize entry W 1 1 = d1 at *
  have key : entry W 0 1 < npMedian W ∧ entry W 1 0 < npMedian W := by
    generalize entry W 0 1 = s at *
    generalize entry W 1 0 = t at *
    have hlen : l.length = 4 := by rw [hp.length_eq, hW]; rfl
    rw [hlen] at e
    norm_num at e
    have g1 := List.getElem?_eq_getElem (show 1 < l.length by omega)
    have g2 := List.getElem?_eq_getElem (show 2 < l.length by omega)
    rw [e]
    have m1 : max s t ≤ l[1] := by
      refine sorted_le hs g1 ?_
      rw [hp.countP_eq, hW]
      rcases le_total s t with hst | hst
      · rw [max_eq_right hst]
        simp [List.countP_cons, List.countP_nil, not_lt.2 a4.le, not_lt.2 a3.le]
        split <;> omega
      · rw [max_eq_left hst]
        simp [List.countP_cons, List.countP_nil, not_lt.2 a1.le, not_lt.2 a2.le]
        split <;> omega
    have m2 : max s t < l[2] := by
      refine sorted_lt hs g2 ?_
      rw [hp.countP_eq, hW]
      have b1 : ¬ d0 ≤ max s t := not_le.2 (max_lt a1 a3)
      have b2 : ¬ d1 ≤ max s t := not_le.2 (max_lt a2 a4)
      simp only [List.flatten_cons, List.flatten_nil, List.append_nil, List.cons_append, List.nil_append,
        List.countP_cons, List.countP_nil, b1, b2, decide_false]
      simp
    have m3 := le_max_left s t
    have m4 := le_max_right s t
    simp only [g1, g2, Option.getD_some]
    constructor <;> linarith
  intro a b ha hb hab
  rcases (show a = 0 ∧ b = 1 ∨ a = 1 ∧ b = 0 by omega) with ⟨rfl, rfl⟩ | ⟨rfl, rfl⟩
  · exact key.1
  · exact key.2

/-- The entries of a 3 × 3 matrix, in any order of the three positions. -/
theorem flatten_three {W : Mat κ} (h : Square 3 W) {k l t : Nat} (hk : k < 3) (hl : l < 3) (ht : t < 3) (hkl : k ≠ l)
    (hkt : k ≠ t) (hlt : l ≠ t) (f : κ → Bool) :
    W.flatten.countP f = [entry W k k, entry W l l, entry W t t, entry W k l, entry W l k, entry W k t, entry W t k,
      entry W l t, entry W t l].countP f := by
  have hW := square_three h
  have e : W.flatten = [entry W 0 0, entry W 0 1, entry W 0 2, entry W 1 0, entry W 1 1, entry W 1 2,
      entry W 2 0, entry W 2 1, entry W 2 2] := by
    conv_lhs => rw [hW]
    rfl
  rw [e]
  simp only [List.countP_cons, List.countP_nil]
  interval_cases k <;> interval_cases l <;> first | exact absurd rfl hkl | skip
  all_goals interval_cases t <;> first | exact absurd rfl hkt | exact absurd rfl hlt | omega

/-- Three closures: the preference is the smaller of the two similarities of the closest pair. -/
theorem median_three {W : Mat κ} (h : Square 3 W) {k l t : Nat} (hk : k < 3) (hl : l < 3) (ht : t < 3) (hkl : k ≠ l)
    (hkt : k ≠ t) (hlt : l ≠ t) (hq : entry W k l ≤ entry W l k) (h1 : entry W k t < entry W k l)
    (h2 : entry W t k < entry W k l) (h3 : entry W l t < entry W k l) (h4 : entry W t l < entry W k l)
    (h5 : ∀ i < 3, entry W l k < entry W i i) : npMedian W = entry W k l := by
  obtain ⟨m, hs, hp, e⟩ := npMedian_sorted W
  have hlen : m.length = 9 := by
    rw [hp.length_eq]
    conv_lhs => rw [square_three h]
    rfl
  rw [hlen] at e
  norm_num at e
  have g := List.getElem?_eq_getElem (show 4 < m.length by omega)
  have d1 := h5 k hk
  have d2 := h5 l hl
  have d3 := h5 t ht
  rw [e, g]
  refine le_antisymm (sorted_ge hs g ?_) (sorted_le hs g ?_)
  · rw [hp.countP_eq, flatten_three h hk hl ht hkl hkt hlt]
    simp only [List.countP_cons, List.countP_nil, h1.le, h2.le, h3.le, h4.le, le_refl, decide_true, if_true]
    omega
  · rw [hp.countP_eq, flatten_three h hk hl ht hkl hkt hlt]
    have b1 : ¬ entry W k k < entry W k l := by linarith
    have b2 : ¬ entry W l l < entry W k l := by linarith
    have b3 : ¬ entry W t t < entry W k l := by linarith
    have b4 : ¬ entry W l k < entry W k l := by linarith
    simp only [List.countP_cons, List.countP_nil, h1, h2, h3, h4, lt_irrefl, b1, b2, b3, b4, decide_true, decide_false, if_true]
    simp

/-! ### The loop -/

theorem entry_zeros (n i j : Nat) : entry (tabulate n fun _ _ => (0 : κ)) i j = 0 := by
  unfold entry
  rw [mget?_tabulate]
  split <;> rfl

theorem signed_zeros (n : Nat) : SignedAvail n (entry (tabulate n fun _ _ => (0 : κ))) :=
  ⟨fun i _ k _ _ => (entry_zeros n i k).le, fun k _ => (entry_zeros n k k).ge⟩

/-- The exemplars of one update. -/
theorem apUpdate_exemplars {n : Nat} (hn : 2 ≤ n) {S : Mat κ} (hS : Square n S) (s : ApMessages κ) {E : List Bool}
    (hE : E.length = n) (h : ∀ k < n, E[k]? = some (decide (0 < entry (apUpdate S s).1.avail k k + entry (apUpdate S s).1.resp k k))) :
    (apUpdate S s).2 = E := by
  obtain ⟨-, -, -, h4⟩ := apUpdate_ok hn hS s
  have hlen : (apUpdate S s).2.length = n := by
    unfold apUpdate
    simp only
    split <;> simp [hS.1]
  apply List.ext_getElem?
  intro k
  by_cases hk : k < n
  · rw [h4 k hk, h k hk]
  · rw [List.getElem?_eq_none (by omega), List.getElem?_eq_none (by omega)]

variable {V : Type} {dist : V → V → κ} {eps tiny : κ} {z : Nat → Nat → κ} {p : ApParams}

/-- A point that prefers itself to any other is an exemplar whenever the loop converges. -/
theorem apLoop_isolated (hp : p.absolute = true) {N : Nat} (hN : 2 ≤ N) {M : Mat κ} (hM : Square N M) {k : Nat} (hk : k < N)
    (hs : ∀ j < N, j ≠ k → entry M k j < entry M k k) {n : Nat} {cls : List (Nat × Nat)} {left : Nat} {E : List Bool} {Sp : Mat κ}
    (h : apLoop (apExact dist eps tiny z) p M n cls left 0 (apInit (apExact dist eps tiny z) p N cls) = some (E, Sp)) :
    E[k]? = some true := by
  refine apLoop_result hp (fun s : ApMessages κ => SignedAvail N (entry s.avail) ∧ 0 ≤ entry s.resp k k)
    (fun E => E[k]? = some true) ?_ ?_ h
  · rintro s ⟨h1, h2⟩
    obtain ⟨-, -, h3, h4⟩ := apUpdate_ok hN hM s
    have h5 := h3.isolated h1 hk hs h2
    have h6 := h3.signed h1
    refine ⟨⟨h6, h5.le⟩, ?_⟩
    show (apUpdate M s).2[k]? = some true
    rw [h4 k hk, decide_eq_true]
    have := h6.2 k hk
    linarith
  · exact ⟨signed_zeros N, (entry_zeros N k k).ge⟩

/-- Two points that prefer themselves: the loop converges and both are exemplars. -/
theorem apLoop_two (hp : p.absolute = true) (hc : 0 < p.convergenceIteration) (hcm : p.convergenceIteration < p.maxIteration)
    {N : Nat} (hN : 2 ≤ N) {M : Mat κ} (hM : Square N M) (hs : ∀ k < N, ∀ j < N, j ≠ k → entry M k j < entry M k k)
    (n : Nat) (cls : List (Nat × Nat)) :
    apLoop (apExact dist eps tiny z) p M n cls p.maxIteration 0 (apInit (apExact dist eps tiny z) p N cls) =
      some (List.replicate N true, M) := by
  refine apLoop_steady hp n cls
    (fun s : ApMessages κ => SignedAvail N (entry s.avail) ∧ ∀ k < N, 0 ≤ entry s.resp k k) ?_ ?_ _ _ _ ?_ ?_ (by omega) (by omega) hc (by omega)
  · rw [List.countP_replicate]; simp; omega
  · rintro s ⟨h1, h2⟩
    obtain ⟨-, -, h3, h4⟩ := apUpdate_ok hN hM s
    have h5 := fun k hk => h3.isolated h1 hk (hs k hk) (h2 k hk)
    have h6 := h3.signed h1
    refine ⟨⟨h6, fun k hk => (h5 k hk).le⟩, apUpdate_exemplars hN hM s (by simp) fun k hk => ?_⟩
    rw [decide_eq_true, List.getElem?_replicate, if_pos hk]
    have := h6.2 k hk
    have := h5 k hk
    linarith
  · exact ⟨signed_zeros N, fun k _ => (entry_zeros N k k).ge⟩
  · simp [apInit]

/-- Three points, `s l k` greater than the preference: `k` and `t` are the exemplars. -/
theorem apLoop_pair (hp : p.absolute = true) (hc : 0 < p.convergenceIteration) (hcm : p.convergenceIteration < p.maxIteration)
    {M : Mat κ} (hM : Square 3 M) {k l t : Nat} (hs : ClosestPair (entry M) k l t) (hq : entry M k k < entry M l k)
    (n : Nat) (cls : List (Nat × Nat)) :
    apLoop (apExact dist eps tiny z) p M n cls p.maxIteration 0 (apInit (apExact dist eps tiny z) p 3 cls) =
      some ((List.range 3).map fun i => decide (i ≠ l), M) := by
  refine apLoop_steady hp n cls
    (fun s : ApMessages κ => PairState (entry s.avail) (entry s.resp) k l t) ?_ ?_ _ _ _ ?_ ?_ (by omega) (by omega) hc (by omega)
  · rw [List.countP_pos_iff]
    exact ⟨true, List.mem_map.2 ⟨k, List.mem_range.2 hs.hk, by simp [hs.kl]⟩, rfl⟩
  · intro s h1
    obtain ⟨-, -, h3, h4⟩ := apUpdate_ok (by omega) hM s
    obtain ⟨g1, g2, g3, g4⟩ := h1.step h3 hs hq
    refine ⟨g1, apUpdate_exemplars (by omega) hM s (by simp) fun i hi => ?_⟩
    rw [List.getElem?_map, List.getElem?_range hi, Option.map_some, Option.some.injEq, decide_eq_decide]
    obtain ⟨hk, hl, ht, kl, kt, lt, -⟩ := hs
    rcases (show i = k ∨ i = l ∨ i = t by omega) with rfl | rfl | rfl
    · simp [kl, g2]
    · simp [not_lt.2 g3.le]
    · simp [lt.symm, g4]
  · have z0 := entry_zeros (κ := κ) 3
    refine ⟨signed_zeros 3, z0 l k, z0 l l, (z0 k k).ge, (z0 k l).le, (z0 t l).le, (z0 t t).ge, (z0 l l).le, (z0 l k).ge⟩
  · simp [apInit]

/-- Three points, the closest pair exactly as similar as the preference: only `t` is an exemplar. -/
theorem apLoop_tie (hp : p.absolute = true) (hc : 0 < p.convergenceIteration) (hcm : p.convergenceIteration < p.maxIteration)
    {M : Mat κ} (hM : Square 3 M) {k l t : Nat} (hs : ClosestPair (entry M) k l t) (hq : entry M l k = entry M k k)
    (n : Nat) (cls : List (Nat × Nat)) :
    apLoop (apExact dist eps tiny z) p M n cls p.maxIteration 0 (apInit (apExact dist eps tiny z) p 3 cls) =
      some ((List.range 3).map fun i => decide (i = t), M) := by
  refine apLoop_steady hp n cls
    (fun s : ApMessages κ => TieState (entry s.avail) (entry s.resp) k l t) ?_ ?_ _ _ _ ?_ ?_ (by omega) (by omega) hc (by omega)
  · rw [List.countP_pos_iff]
    exact ⟨true, List.mem_map.2 ⟨t, List.mem_range.2 hs.ht, by simp⟩, rfl⟩
  · intro s h1
    obtain ⟨-, -, h3, h4⟩ := apUpdate_ok (by omega) hM s
    obtain ⟨g1, g2, g3, g4⟩ := h1.step h3 hs hq
    refine ⟨g1, apUpdate_exemplars (by omega) hM s (by simp) fun i hi => ?_⟩
    rw [List.getElem?_map, List.getElem?_range hi, Option.map_some, Option.some.injEq, decide_eq_decide]
    obtain ⟨hk, hl, ht, kl, kt, lt, -⟩ := hs
    rcases (show i = k ∨ i = l ∨ i = t by omega) with rfl | rfl | rfl
    · simp [kt, g2]
    · simp [lt, g3]
    · simp [g4]
  · have z0 := entry_zeros (κ := κ) 3
    exact ⟨signed_zeros 3, z0 l k, z0 l l, z0 k l, z0 k k, z0 k k, z0 k l, z0 l l, z0 l k, (z0 t l).le, (z0 t k).le, (z0 t t).ge⟩
  · simp [apInit]

end

end Verif
