import Verif.Spec.IeeeLink
import Verif.Proofs.IeeeLink
import Verif.Props.Ieee

/-
C126: hierarchical clustering of texts with the linkages "average" and "ward" (the default), in binary64 with its range.
-/

namespace Verif

set_option exponentiation.threshold 2000

/-- C126. Python's `sum` of floats that are 0 or between `2^(-900)` and `2^900`, with all versions of Python: the range of binary64 does not
matter, so that the error bound of `C123_sum` holds. -/
theorem C126_sum {l : List ℚ} (h : ∀ x ∈ l, 0 ≤ x ∧ Entry64 900 x) (hl : l.length ≤ 2 ^ 23) {o : Option ℚ} (ho : PySum64 l o) :
    ∃ t, o = some t ∧ |t - l.sum| ≤ (10 * l.length + 2) / 2 ^ 53 * l.sum := by
  obtain ⟨t, h1, h2, -⟩ := pySum64_eq (fun x hx => ⟨(h x hx).1, ⟨(h x hx).2.1, (h x hx).2.2.1⟩, (le_abs_self x).trans (h x hx).2.2.2⟩) hl ho
  have hs := C123_sum h2 hl
  have habs : (l.map fun x => |x|) = l := by
    conv_rhs => rw [← List.map_id l]
    exact List.map_congr_left fun x hx => abs_of_nonneg (h x hx).1
  rw [habs] at hs
  exact ⟨t, h1, hs⟩

section
variable {α : Type} [LinearOrder α] {m : Manager α} {vs : Dict α (List ℝ)} {vs' : Dict α (List ℚ)} {D n : Nat} {η : ℝ}
  {env' : HierEnv (List ℚ) ℝ}

/-- The exact and the computed mean of the vectors of managed IDs. -/
theorem text_means (hη : TextError D n η) (h : TextVectors D vs vs') (h64 : Rows64 vs') (hf : FlRowHier64 env') {xs : List α} (hne : xs ≠ [])
    (hlen : xs.length ≤ n) {w : List (List ℝ)} {w' : List (List ℚ)} (h1 : List.Forall₂ (fun x v => dget? vs x = some v) xs w)
    (h2 : List.Forall₂ (fun x v => dget? vs' x = some v) xs w') :
    RowNear D (D + n + 20) (rowMean w) (env'.mean w') ∧ UnitRow (rowMean w) ∧ ∀ a ∈ env'.mean w', Entry64 450 a := by
  have hall : List.Forall₂ (fun v v' => RowNear D (D + 18) v v' ∧ UnitRow v) w w' := by
    clear hne hlen
    induction h1 generalizing w' with
    | nil => cases h2; exact .nil
    | cons a _ ih =>
      cases h2 with
      | cons b t => exact .cons (h.rows _ _ _ a b) (ih t)
  have hw : w ≠ [] := by
    rintro rfl
    cases h1
    exact hne rfl
  have hw' : w' ≠ [] := by
    rintro rfl
    cases hall
    exact hw rfl
  have hl : w.length ≤ n := by
    rw [← h1.length_eq]
    exact hlen
  obtain ⟨m1, m2⟩ := colwise64 hw' (by rw [← hall.length_eq]; exact hl.trans hη.size.2) fun r hr => by
    obtain ⟨x, -, h4⟩ := forall₂_mem_right h2 hr
    exact h64 x r h4
  rw [hf.mean _ _ m1]
  obtain ⟨r1, r2, r3⟩ := mean_rows hw (hall.imp fun _ _ h => h.1)
  refine ⟨⟨r1, r2, fun i hi => (r3 i hi).mono (by omega)⟩, mean_unit (D := D) hw (fun r hr => ?_) (fun r hr => ?_), m2⟩
  · obtain ⟨r', -, h3⟩ := forall₂_mem_left hall hr
    exact h3.1.1
  · obtain ⟨r', -, h3⟩ := forall₂_mem_left hall hr
    exact h3.2

/-- C126. The distances of the linkage "average" are off by at most `3 * η`. -/
theorem C126_average_within (hf : FlRowHier64 env') (hη : TextError D n η) (h : TextVectors D vs vs') (h64 : Rows64 vs')
    (hn : m.managed.length ≤ n) : LinkageWithin (3 * η) .average m rowHierEnv vs env' vs' := by
  intro xs ys hx hy hnd hman d d' hd hd'
  obtain ⟨v, w, h1, h2, rfl⟩ := hd
  obtain ⟨v', w', h1', h2', rfl⟩ := hd'
  have hN : xs.length + ys.length ≤ n := by
    rw [← List.length_append]
    exact (hnd.subperm hman).length_le.trans hn
  obtain ⟨a1, a2, a3⟩ := text_means hη h h64 hf hx (by omega) h1 h1'
  obtain ⟨b1, b2, b3⟩ := text_means hη h h64 hf hy (by omega) h2 h2'
  obtain ⟨o, c1, c2⟩ := hf.metric D _ _ a1.2.1 b1.2.1
  obtain ⟨s, rfl, c3⟩ := C125_distance (hη.size.1.trans (by norm_num)) (entry64_rowVec a3) (entry64_rowVec b3) c1
  rw [c2 s rfl]
  exact (flEuclid_rows hη (by omega) a1 b1 a2 b2 c3).1

theorem textError_low (hη : TextError D n η) : (1 : ℝ) / 2 ^ 24 ≤ η := by
  have h3 : ((1 : ℝ) / 2 ^ 24) ^ 2 ≤ η ^ 2 := by
    refine le_trans ?_ hη.2.2
    have : (0 : ℝ) ≤ D := by positivity
    have : (0 : ℝ) ≤ n := by positivity
    have e : (21 : ℝ) / 2 ^ 50 ≤ ((D : ℝ) + n + 21) / 2 ^ 50 := div_le_div_of_nonneg_right (by linarith) (by positivity)
    refine le_trans ?_ e
    norm_num
  exact (pow_le_pow_iff_left₀ (by positivity) hη.1 (by norm_num)).1 h3

/-- C126. The distances of the linkage "ward" for up to `2^12` IDs are off by at most `2 * N * η`, where `N` is the number of IDs. -/
theorem C126_ward_within (hf : FlRowHier64 env') (hη : TextError D n η) (h : TextVectors D vs vs') (h64 : Rows64 vs')
    (hn : m.managed.length ≤ 2 ^ 12) : LinkageWithin (2 * m.managed.length * η) .ward m rowHierEnv vs env' vs' := by
  have key := ward_rounded (m := m) (env := rowHierEnv) (env' := env') (M := 4) (P := fun s => (IsFloat s ∧ (s = 0 ∨ 1 / 2 ^ 900 ≤ |s|)) ∧ s ≤ 2 ^ 900)
    (fun _ _ _ => rfl) (C125_distances hη h h64 hf.metric) (fun x hx v' e1 y hy w' e2 => by
      obtain ⟨v, hv, v1, v2⟩ := h.get e1
      obtain ⟨w, hw, w1, w2⟩ := h.get e2
      obtain ⟨o, h1, h2⟩ := hf.metric D v' w' v1.2.1 w1.2.1
      obtain ⟨s, rfl, h3, h4, h5⟩ := flEuclid64_low (hη.size.1.trans (by norm_num))
        (entry64_rowVec fun a ha => (h64 x v' e1 a ha).2.mono (by norm_num))
        (entry64_rowVec fun a ha => (h64 y w' e2 a ha).2.mono (by norm_num)) h1
      obtain ⟨h6, h7⟩ := flEuclid_rows hη (by omega) v1 w1 v2 w2 h3
      refine ⟨s, h4, h5, h2 s rfl, ?_⟩
      have := (abs_le.1 h6).2
      have := hη.2.1
      linarith)
    (fun l i j hl hlen hi hj hij => by
      obtain ⟨o, h1, h2⟩ := hf.ward l i j
      obtain ⟨t, rfl, h3, h4, h5⟩ := pySum64_eq hl hlen h1
      refine ⟨t, h3, h2 t _ rfl (rnd64_mid ?_ ?_)⟩
      all_goals
        have hp : (1 : ℚ) ≤ (i * j : Nat) := by exact_mod_cast Nat.mul_pos hi hj
        have hp' : ((i * j : Nat) : ℚ) ≤ 2 ^ 24 := by
          have : i * j ≤ 2 ^ 12 * 2 ^ 12 := Nat.mul_le_mul (by omega) (by omega)
          have : i * j ≤ 2 ^ 24 := this
          exact_mod_cast this
        generalize ((i * j : Nat) : ℚ) = P at hp hp'
      · rcases h4 with rfl | h4
        · left
          simp
        · right
          rw [abs_div, abs_of_pos (by linarith : 0 < P), le_div_iff₀ (by linarith)]
          have e1 : (1 : ℚ) / 2 ^ 1022 * P ≤ 1 / 2 ^ 1022 * 2 ^ 24 := mul_le_mul_of_nonneg_left hp' (by positivity)
          have e2 : (1 : ℚ) / 2 ^ 1022 * 2 ^ 24 = 1 / 2 ^ 998 := by
            rw [show (2 : ℚ) ^ 1022 = 2 ^ 998 * 2 ^ 24 by rw [← pow_add]]
            field_simp
          have e3 : (1 : ℚ) / 2 ^ 998 ≤ 1 / 2 ^ 901 :=
            one_div_le_one_div_of_le (by positivity) (pow_le_pow_right₀ (by norm_num) (by norm_num))
          linarith
      · rw [abs_div, abs_of_pos (by linarith : 0 < P)]
        have e1 : |t| / P ≤ |t| := div_le_self (abs_nonneg _) hp
        have e2 : (2 : ℚ) ^ 990 ≤ 2 ^ 1023 := pow_le_pow_right₀ (by norm_num) (by norm_num)
        linarith) hn
  intro xs ys hx hy hnd hman d d' hd hd'
  refine (key xs ys hx hy hnd hman d d' hd hd').trans ?_
  have hηl := textError_low hη
  have hN0 : (0 : ℝ) ≤ m.managed.length := by positivity
  have e3 : (1 : ℝ) / 2 ^ 25 * m.managed.length ≤ 1 / 2 * η * m.managed.length := mul_le_mul_of_nonneg_right (by linarith) hN0
  have e6 : (1 : ℝ) / 2 ^ 26 * (4 * m.managed.length / 2) = 1 / 2 ^ 25 * m.managed.length := by ring
  rw [e6]
  linarith

/-- C126. Hierarchical clustering of texts with the linkage "average" returns in binary64 what it returns in exact arithmetic, when each
merge of the exact tree wins by more than `6 * η`. -/
theorem C126_average (hm : Reachable m) (hf : FlRowHier64 env') (hη : TextError D m.managed.length η) (h : TextVectors D vs vs')
    (h64 : Rows64 vs') {o o₁ : HObject α (List ℝ)} {o' : HObject α (List ℚ)} (hl : o.linkage = .average) (ho : SameTree o o') {nb : Option Int}
    {r : Dict α Int} (hr : o.cluster rowHierEnv m (some vs) nb = (o₁, .ok r))
    (hmargin : MergeMargin (6 * η) rowHierEnv .average m vs o₁.storage) :
    (o'.cluster env' m (some vs') nb).2 = .ok r ∧ SameTree o₁ (o'.cluster env' m (some vs') nb).1 := by
  obtain ⟨vs0, n0, h0, -, -, hv0, -⟩ := hier_args hr
  cases h0
  refine C111_hierarchical hm ho hr (h.has hv0) (ε := 3 * η) (hl ▸ C126_average_within hf hη h h64 le_rfl) ?_
  rw [show 3 * η + 3 * η = 6 * η by ring, hl]
  exact hmargin

/-- C126. The same with the linkage "ward" (the default) for up to `2^12` texts, when each merge of the exact tree wins by more than
`4 * N * η`. -/
theorem C126_ward (hm : Reachable m) (hf : FlRowHier64 env') (hη : TextError D n η) (h : TextVectors D vs vs') (h64 : Rows64 vs')
    (hn : m.managed.length ≤ 2 ^ 12) {o o₁ : HObject α (List ℝ)} {o' : HObject α (List ℚ)} (hl : o.linkage = .ward) (ho : SameTree o o')
    {nb : Option Int} {r : Dict α Int} (hr : o.cluster rowHierEnv m (some vs) nb = (o₁, .ok r))
    (hmargin : MergeMargin (4 * m.managed.length * η) rowHierEnv .ward m vs o₁.storage) :
    (o'.cluster env' m (some vs') nb).2 = .ok r ∧ SameTree o₁ (o'.cluster env' m (some vs') nb).1 := by
  obtain ⟨vs0, n0, h0, -, -, hv0, -⟩ := hier_args hr
  cases h0
  refine C111_hierarchical hm ho hr (h.has hv0) (ε := 2 * m.managed.length * η) (hl ▸ C126_ward_within hf hη h h64 hn) ?_
  rw [show 2 * m.managed.length * η + 2 * m.managed.length * η = 4 * m.managed.length * η by ring, hl]
  exact hmargin

/-- C126. Without any margin and with any linkage: no merge of the run in binary64 is, computed exactly, more than `(6 + 4 * N) * η` farther
apart than another pair of clusters that existed and that has no cannot-link. -/
theorem C126_near_best (hm : Reachable m) (hf : FlRowHier64 env') (hη : TextError D m.managed.length η) (h : TextVectors D vs vs')
    (h64 : Rows64 vs') (hn : m.managed.length ≤ 2 ^ 12) {o o₁ : HObject α (List ℚ)} {nb : Option Int} {r : Dict α Int}
    (hr : o.cluster env' m (some vs') nb = (o₁, .ok r)) {i a b : Nat} {nd : HCluster α (List ℚ)} (hi : dget? o₁.storage i = some nd)
    (hc : nd.children = [a, b]) {c e : Nat} (hca : Alive o₁.storage i c) (hea : Alive o₁.storage i e) (hce : c < e)
    (hop : ¬ Opposed m (membersOf o₁.storage c) (membersOf o₁.storage e)) {d d' : ℝ}
    (hd : LinkageIs rowHierEnv o.linkage vs (membersOf o₁.storage a) (membersOf o₁.storage b) d)
    (hd' : LinkageIs rowHierEnv o.linkage vs (membersOf o₁.storage c) (membersOf o₁.storage e) d') :
    d ≤ d' + (6 + 4 * m.managed.length) * η := by
  obtain ⟨vs0, n0, h0, -, -, hv0, -⟩ := hier_args hr
  cases h0
  have hv : HasVectors m vs := fun x hx => by
    rw [exists_dget?_iff, ← h.keys, ← exists_dget?_iff]
    exact hv0 x hx
  have hN0 : (0 : ℝ) ≤ m.managed.length := by positivity
  have hNη : 0 ≤ (m.managed.length : ℝ) * η := mul_nonneg hN0 hη.1
  have hη0 := hη.1
  have hw : LinkageWithin ((3 + 2 * m.managed.length) * η) o.linkage m rowHierEnv vs env' vs' := by
    have weak : ∀ {ε : ℝ}, ε ≤ (3 + 2 * m.managed.length) * η → LinkageWithin ε o.linkage m rowHierEnv vs env' vs' →
        LinkageWithin ((3 + 2 * m.managed.length) * η) o.linkage m rowHierEnv vs env' vs' :=
      fun hle h xs ys h1 h2 h3 h4 d d' h5 h6 => (h xs ys h1 h2 h3 h4 d d' h5 h6).trans hle
    cases hl : o.linkage with
    | average => exact hl ▸ weak (by nlinarith) (hl ▸ C126_average_within hf hη h h64 le_rfl)
    | ward => exact hl ▸ weak (by nlinarith) (hl ▸ C126_ward_within hf hη h h64 hn)
    | single => exact hl ▸ weak (ε := 3 * η) (by nlinarith) (C111_linkage (.inl hl) hv hv0 (C125_distances hη h h64 hf.metric))
    | complete => exact hl ▸ weak (ε := 3 * η) (by nlinarith) (C111_linkage (.inr hl) hv hv0 (C125_distances hη h h64 hf.metric))
  have := C111_near_best hm hr hw hi hc hca hea hce hop hd hd'
  linarith

end

/-! ### Examples -/

/-- The hypotheses of `C126_sum`, with a sum whose compensation matters. -/
example : (∀ x ∈ [fl (1 / 10), fl (2 / 10), fl (3 / 10)], 0 ≤ x ∧ Entry64 900 x) ∧ neuSum64 [fl (1 / 10), fl (2 / 10), fl (3 / 10)] = some (fl (6 / 10)) ∧
    flSum64 [fl (1 / 10), fl (2 / 10), fl (3 / 10)] ≠ some (fl (6 / 10)) := by
  refine ⟨?_, by decide +kernel, by decide +kernel⟩
  have h : ∀ x ∈ [fl (1 / 10), fl (2 / 10), fl (3 / 10)], 0 ≤ x ∧ (x = 0 ∨ 1 / 2 ^ 900 ≤ |x|) ∧ |x| ≤ 2 ^ 900 := by decide +kernel
  intro x hx
  refine ⟨(h x hx).1, ?_, (h x hx).2⟩
  simp only [List.mem_cons, List.not_mem_nil, or_false] at hx
  rcases hx with rfl | rfl | rfl <;> exact fl_isFloat _

/-- An environment of the hierarchical clustering in binary64, with the sum of Python 3.12; 0 where the results are not finite. -/
noncomputable def row64Hier : HierEnv (List ℚ) ℝ where
  metric := (row64Env (α := Nat) 0 id id).metric
  mean := (row64Env (α := Nat) 0 id id).mean
  ward l i j :=
    open Classical in
    if h : ∃ q : List ℚ, l = q.map (fun s : ℚ => (s : ℝ)) then (((neuSum64 h.choose).bind fun t => rnd64 (t / (i * j : Nat))).getD 0 : ℚ) else 0

theorem row64Hier_ok : FlRowHier64 row64Hier := by
  refine ⟨(row64_ok (α := Nat) 0 id id).metric, (row64_ok (α := Nat) 0 id id).mean, fun l i j => ⟨neuSum64 l, .inr rfl, fun t s ht hs => ?_⟩⟩
  have h : ∃ q : List ℚ, (l.map fun s : ℚ => (s : ℝ)) = q.map (fun s : ℚ => (s : ℝ)) := ⟨l, rfl⟩
  have e0 : row64Hier.ward (l.map fun s : ℚ => (s : ℝ)) i j = (((neuSum64 h.choose).bind fun t => rnd64 (t / (i * j : Nat))).getD 0 : ℚ) := dif_pos h
  have e : h.choose = l := (List.map_injective_iff.2 Rat.cast_injective h.choose_spec).symm
  rw [e0, e, ht, Option.bind_some, hs]
  rfl

theorem threadHier : MovedHier threadRow threadMono lineEnv rowHierEnv where
  mono := threadMono_strict
  metric v w := rowDist_thread v w
  mean l hl := threadMoved.mean l hl
  ward l i j := by
    show (l.map threadMono).sum / ((i : ℝ) * j) = ((l.sum / ((i * j : Nat) : ℚ) : ℚ) : ℝ) / 20
    have : (l.map threadMono).sum = ((l.sum : ℚ) : ℝ) / 20 := by
      induction l with
      | nil => simp
      | cons a l ih =>
        rw [List.map_cons, List.sum_cons, ih, List.sum_cons, Rat.cast_add, add_div]
        rfl
    rw [this, Rat.cast_div, div_right_comm]
    push_cast
    rfl

theorem thread_list {xs : List Nat} {w : List (List ℝ)} (h : List.Forall₂ (fun x v => dget? (dmap id threadRow slopeLine) x = some v) xs w) :
    w = (xs.map fun x => (dget? slopeLine x).getD 0).map threadRow := by
  induction h with
  | nil => rfl
  | cons a _ ih =>
    obtain ⟨t, ht, rfl⟩ := thread_get a
    rw [ih, List.map_cons, List.map_cons, ht]
    rfl

theorem thread_average {xs ys : List Nat} (hx : xs ≠ []) (hy : ys ≠ []) {d : ℝ}
    (h : LinkageIs rowHierEnv .average (dmap id threadRow slopeLine) xs ys d) : d = 1 / 20 * (slopeAverage xs ys : ℚ) := by
  obtain ⟨v, w, h1, h2, rfl⟩ := h
  rw [thread_list h1, thread_list h2, threadHier.mean _ (by simpa using hx), threadHier.mean _ (by simpa using hy), threadHier.metric]
  show ((_ : ℚ) : ℝ) / 20 = _
  rw [div_eq_inv_mul, one_div]
  rfl

theorem thread_ward {xs ys : List Nat} {d : ℝ} (h : LinkageIs rowHierEnv .ward (dmap id threadRow slopeLine) xs ys d) :
    d = 1 / 20 * (slopeWard xs ys : ℚ) := by
  obtain ⟨ds, h1, rfl⟩ := h
  have e : ds = ((laterPairs (xs ++ ys)).map fun p => lineEnv.metric ((dget? slopeLine p.1).getD 0) ((dget? slopeLine p.2).getD 0)).map threadMono := by
    generalize laterPairs (xs ++ ys) = L at h1
    induction h1 with
    | nil => rfl
    | cons a _ ih =>
      obtain ⟨v, w, e1, e2, rfl⟩ := a
      obtain ⟨s, hs, rfl⟩ := thread_get e1
      obtain ⟨t, ht, rfl⟩ := thread_get e2
      rw [List.map_cons, List.map_cons, ← ih, hs, ht, threadHier.metric]
      rfl
  rw [e, threadHier.ward]
  show ((_ : ℚ) : ℝ) / 20 = _
  rw [div_eq_inv_mul, one_div]
  rfl

/-- The hypotheses of `C126_average`, and what is returned in binary64. -/
example : ((⟨.average, [], none, []⟩ : HObject Nat (List ℚ)).cluster row64Hier (Manager.init [1, 2, 3, 4]) (some threadFloat) (some 2)).2 =
    .ok [(1, 0), (2, 0), (3, 0), (4, 1)] := by
  have hk : ∀ q ∈ slopeTree .average, q.1 ∈ List.range 7 ∧ (∀ c ∈ q.2.children, c ∈ List.range 7) ∧ q.2.members ≠ [] := by decide +kernel
  obtain ⟨h1, h2⟩ := slope_members .average (by decide +kernel) hk
  have hmar := moved_tree_margin threadHier (k := 1 / 20) (by norm_num) (link := .average) (val := slopeAverage) (μ := 6 * (1 / 2 ^ 20))
    (by norm_num) (by decide +kernel) hk (fun _ _ _ hx hy h => thread_average hx hy h) h1 h2
  have hx : ((⟨.average, [], none, []⟩ : HObject Nat ℚ).cluster lineEnv (Manager.init [1, 2, 3, 4]) (some slopeLine) (some 2)).2 = .ok [(1, 0), (2, 0), (3, 0), (4, 1)] := by
    decide +kernel
  have h := (C90_hierarchical_moved (m := Manager.init [1, 2, 3, 4]) ⟨_, [], rfl⟩ threadHier (o := ⟨.average, [], none, []⟩)
    (o' := ⟨.average, [], none, []⟩) ⟨rfl, rfl, rfl, rfl⟩ (vs := slopeLine) (vs' := threadRows)
    (fun x _ => dget?_dmap (f := id) Function.injective_id threadRow slopeLine x) (some 2)).1
  rw [hx] at h
  have hη : TextError 1 (Manager.init [1, 2, 3, 4]).managed.length (1 / 2 ^ 20) := by
    rw [show (Manager.init [1, 2, 3, 4]).managed.length = 4 by decide +kernel]
    exact threadError
  exact (C126_average (m := Manager.init [1, 2, 3, 4]) (o' := ⟨.average, [], none, []⟩) ⟨_, [], rfl⟩ row64Hier_ok hη thread_near thread_64
    rfl ⟨rfl, rfl, rfl, rfl⟩ (Prod.ext_iff.2 ⟨rfl, h⟩) hmar).1

/-- The hypotheses of `C126_ward`, and what is returned in binary64. -/
theorem thread_ward_run : ((⟨.ward, [], none, []⟩ : HObject Nat (List ℚ)).cluster row64Hier (Manager.init [1, 2, 3, 4]) (some threadFloat)
    (some 2)).2 = .ok [(1, 0), (2, 0), (3, 1), (4, 1)] := by
  have hk : ∀ q ∈ slopeTree .ward, q.1 ∈ List.range 7 ∧ (∀ c ∈ q.2.children, c ∈ List.range 7) ∧ q.2.members ≠ [] := by decide +kernel
  obtain ⟨h1, h2⟩ := slope_members .ward (by decide +kernel) hk
  have hlen : (Manager.init [1, 2, 3, 4]).managed.length = 4 := by decide +kernel
  have hmar := moved_tree_margin threadHier (k := 1 / 20) (by norm_num) (link := .ward) (val := slopeWard)
    (μ := 4 * ((Manager.init [1, 2, 3, 4]).managed.length : ℝ) * (1 / 2 ^ 20)) (by rw [hlen]; push_cast; norm_num)
    (by decide +kernel) hk (fun _ _ _ _ _ h => thread_ward h) h1 h2
  have hx : ((⟨.ward, [], none, []⟩ : HObject Nat ℚ).cluster lineEnv (Manager.init [1, 2, 3, 4]) (some slopeLine) (some 2)).2 = .ok [(1, 0), (2, 0), (3, 1), (4, 1)] := by
    decide +kernel
  have h := (C90_hierarchical_moved (m := Manager.init [1, 2, 3, 4]) ⟨_, [], rfl⟩ threadHier (o := ⟨.ward, [], none, []⟩)
    (o' := ⟨.ward, [], none, []⟩) ⟨rfl, rfl, rfl, rfl⟩ (vs := slopeLine) (vs' := threadRows)
    (fun x _ => dget?_dmap (f := id) Function.injective_id threadRow slopeLine x) (some 2)).1
  rw [hx] at h
  exact (C126_ward (m := Manager.init [1, 2, 3, 4]) (o' := ⟨.ward, [], none, []⟩) ⟨_, [], rfl⟩ row64Hier_ok threadError thread_near thread_64
    (by rw [hlen]; norm_num) rfl ⟨rfl, rfl, rfl, rfl⟩ (Prod.ext_iff.2 ⟨rfl, h⟩) hmar).1

/-- The hypotheses of `C126_near_best` about the run, and what it then says about the merges. -/
example : ∃ o₁ r, (⟨.ward, [], none, []⟩ : HObject Nat (List ℚ)).cluster row64Hier (Manager.init [1, 2, 3, 4]) (some threadFloat) (some 2) =
    (o₁, .ok r) ∧ ∀ i nd a b c e d d', dget? o₁.storage i = some nd → nd.children = [a, b] → Alive o₁.storage i c → Alive o₁.storage i e → c < e →
      LinkageIs rowHierEnv .ward threadRows (membersOf o₁.storage a) (membersOf o₁.storage b) d →
      LinkageIs rowHierEnv .ward threadRows (membersOf o₁.storage c) (membersOf o₁.storage e) d' → d ≤ d' + 22 / 2 ^ 20 := by
  have hlen : (Manager.init [1, 2, 3, 4]).managed.length = 4 := by decide +kernel
  have hη : TextError 1 (Manager.init [1, 2, 3, 4]).managed.length (1 / 2 ^ 20) := by
    rw [hlen]
    exact threadError
  refine ⟨_, _, Prod.ext_iff.2 ⟨rfl, thread_ward_run⟩, fun i nd a b c e d d' hi hc hca hea hce hd hd' => ?_⟩
  have := C126_near_best (m := Manager.init [1, 2, 3, 4]) ⟨_, [], rfl⟩ row64Hier_ok hη thread_near thread_64 (by rw [hlen]; norm_num)
    (Prod.ext_iff.2 ⟨rfl, thread_ward_run⟩) hi hc hca hea hce (by
      rintro ⟨x, -, y, -, h⟩
      exact satisfies_sep (init_satisfies [1, 2, 3, 4] fun _ => 0) h rfl) hd hd'
  rw [hlen] at this
  norm_num at this ⊢
  linarith

end Verif
