import Verif.Proofs.ApLabels

/-
Affinity propagation: matrices, the loop, and the whole run.
-/

namespace Verif

section
variable {κ : Type} [LinearOrder κ]

theorem square_of_rows {V : Type} (rows : List V) (k : V → V → κ) :
    Square rows.length (rows.map fun v => rows.map fun w => k v w) := by
  refine ⟨by simp, fun row hr => ?_⟩
  obtain ⟨v, -, rfl⟩ := List.mem_map.1 hr
  simp

theorem Square.get {n : Nat} {S : Mat κ} (h : Square n S) {i j : Nat} (hi : i < n) (hj : j < n) :
    ∃ v, mget? S i j = some v := by
  have hiS : i < S.length := by rw [h.1]; exact hi
  unfold mget?
  rw [List.getElem?_eq_getElem hiS]
  have : j < S[i].length := by rw [h.2 _ (List.getElem_mem hiS)]; exact hj
  exact ⟨S[i][j], by simp [this]⟩

theorem Square.lt {n : Nat} {S : Mat κ} (h : Square n S) {i j : Nat} {v : κ} (hv : mget? S i j = some v) :
    i < n ∧ j < n := by
  unfold mget? at hv
  rw [Option.bind_eq_some_iff] at hv
  obtain ⟨row, h1, h2⟩ := hv
  refine ⟨?_, ?_⟩
  · rw [← h.1]; exact (List.getElem?_eq_some_iff.1 h1).1
  · rw [← h.2 row (List.mem_of_getElem? h1)]; exact (List.getElem?_eq_some_iff.1 h2).1

theorem mget_ok {S : Mat κ} {i j : Nat} {v : κ} : mget S i j = .ok v ↔ mget? S i j = some v := by
  unfold mget
  cases mget? S i j <;> simp

theorem mem_offDiagonal {S : Mat κ} {v : κ} : v ∈ offDiagonal S ↔ ∃ i j, i ≠ j ∧ mget? S i j = some v := by
  unfold offDiagonal mget?
  rw [List.mem_flatten]
  constructor
  · rintro ⟨l, hl, hv⟩
    rw [List.mem_mapIdx] at hl
    obtain ⟨i, hi, rfl⟩ := hl
    rw [List.mem_eraseIdx_iff_getElem?] at hv
    obtain ⟨j, hj, hv⟩ := hv
    exact ⟨i, j, Ne.symm hj, by rw [List.getElem?_eq_getElem hi]; exact hv⟩
  · rintro ⟨i, j, hij, hv⟩
    rw [Option.bind_eq_some_iff] at hv
    obtain ⟨row, h1, h2⟩ := hv
    obtain ⟨hi, rfl⟩ := List.getElem?_eq_some_iff.1 h1
    refine ⟨S[i].eraseIdx i, List.mem_mapIdx.2 ⟨i, hi, rfl⟩, ?_⟩
    rw [List.mem_eraseIdx_iff_getElem?]
    exact ⟨j, Ne.symm hij, h2⟩

theorem apEqual_ok {n : Nat} {S : Mat κ} (h : Square n S) (hn : 2 ≤ n) :
    ∃ b, apEqual S = .ok b ∧ (b = true ↔ ∃ s, ∀ i j v, i ≠ j → mget? S i j = some v → v = s) := by
  unfold apEqual
  cases e : offDiagonal S with
  | nil =>
    obtain ⟨v, hv⟩ := h.get (i := 0) (j := 1) (by omega) (by omega)
    have : v ∈ offDiagonal S := mem_offDiagonal.2 ⟨0, 1, by omega, hv⟩
    rw [e] at this
    cases this
  | cons a l =>
    refine ⟨_, rfl, ?_⟩
    rw [List.all_eq_true]
    constructor
    · intro hall
      refine ⟨a, fun i j v hij hv => ?_⟩
      have : v ∈ offDiagonal S := mem_offDiagonal.2 ⟨i, j, hij, hv⟩
      rw [e] at this
      simpa using hall v this
    · rintro ⟨s, hs⟩ b hb
      have key : ∀ b ∈ a :: l, b = s := by
        intro b hb
        rw [← e] at hb
        obtain ⟨i, j, hij, hv⟩ := mem_offDiagonal.1 hb
        exact hs i j b hij hv
      rw [decide_eq_true_eq, key b hb, key a (by simp)]

theorem apMax_ok {l : List κ} (h : l ≠ []) : ∃ a, apMax l = .ok a ∧ a ∈ l ∧ ∀ b ∈ l, b ≤ a := by
  unfold apMax
  cases e : l.max? with
  | none => rw [List.max?_eq_none_iff] at e; exact absurd e h
  | some a => exact ⟨a, rfl, (max?_spec e).1, (max?_spec e).2⟩

theorem npMin_ok {l : List κ} (h : l ≠ []) : ∃ a, npMin l = .ok a := by
  unfold npMin
  cases e : l.min? with
  | none => rw [List.min?_eq_none_iff] at e; exact absurd e h
  | some a => exact ⟨a, rfl⟩

theorem apMaxLink_ok {n : Nat} {S : Mat κ} (h : Square n S) {P Q : List Nat} (hP : P ≠ []) (hQ : Q ≠ [])
    (hPn : ∀ i ∈ P, i < n) (hQn : ∀ i ∈ Q, i < n) :
    ∃ a, apMaxLink S P Q = .ok a ∧ (∃ i ∈ P, ∃ j ∈ Q, mget? S i j = some a) ∧
      ∀ i ∈ P, ∀ j ∈ Q, ∀ v, mget? S i j = some v → v ≤ a := by
  obtain ⟨vals, hvals⟩ := mapM_total (f := fun p : Nat × Nat => mget S p.1 p.2) (l := P.product Q) fun p hp => by
    obtain ⟨i, j⟩ := p
    rw [List.pair_mem_product] at hp
    obtain ⟨v, hv⟩ := h.get (hPn i hp.1) (hQn j hp.2)
    exact ⟨v, mget_ok.2 hv⟩
  have hf := (mapM_ok_iff.1 hvals).imp fun a b hab => mget_ok.1 hab
  have hne : vals ≠ [] := by
    rintro rfl
    obtain ⟨i, hi⟩ := List.exists_mem_of_ne_nil P hP
    obtain ⟨j, hj⟩ := List.exists_mem_of_ne_nil Q hQ
    obtain ⟨b, hb, -⟩ := forall₂_mem_left hf (a := (i, j)) (List.pair_mem_product.2 ⟨hi, hj⟩)
    cases hb
  obtain ⟨a, e, h1, h2⟩ := apMax_ok hne
  refine ⟨a, by unfold apMaxLink; rw [hvals]; exact e, ?_, fun i hi j hj v hv => ?_⟩
  · obtain ⟨⟨i, j⟩, hp, hij⟩ := forall₂_mem_right hf h1
    rw [List.pair_mem_product] at hp
    exact ⟨i, hp.1, j, hp.2, hij⟩
  · obtain ⟨b, hb, hr⟩ := forall₂_mem_left hf (a := (i, j)) (List.pair_mem_product.2 ⟨hi, hj⟩)
    simp only at hr
    rw [hv] at hr
    cases hr
    exact h2 v hb

theorem setDiagonal_square {n : Nat} {S : Mat κ} (h : Square n S) (v : κ) : Square n (setDiagonal S v) := by
  unfold setDiagonal
  refine ⟨by simp [h.1], fun row hr => ?_⟩
  rw [List.mem_mapIdx] at hr
  obtain ⟨i, hi, rfl⟩ := hr
  rw [List.length_set]
  exact h.2 _ (List.getElem_mem hi)

theorem setDiagonal_get {S : Mat κ} {v : κ} {i j : Nat} (hij : i ≠ j) : mget? (setDiagonal S v) i j = mget? S i j := by
  unfold setDiagonal mget?
  rw [List.getElem?_mapIdx]
  cases S[i]? with
  | none => rfl
  | some row => simp [List.getElem?_set, hij]

theorem setDiagonal_diag {n : Nat} {S : Mat κ} (h : Square n S) {v : κ} {i : Nat} (hi : i < n) :
    mget? (setDiagonal S v) i i = some v := by
  obtain ⟨w, hw⟩ := h.get hi hi
  unfold setDiagonal mget? at *
  rw [List.getElem?_mapIdx]
  rw [Option.bind_eq_some_iff] at hw
  obtain ⟨row, h1, h2⟩ := hw
  rw [h1]
  simp [(List.getElem?_eq_some_iff.1 h2).1]

/-- The matrix between closures, lines 320-327. -/
theorem apSaml_ok {n : Nat} {S : Mat κ} (h : Square n S) {mls : List (List Nat)} (hne : ∀ P ∈ mls, P ≠ [])
    (hlt : ∀ P ∈ mls, ∀ i ∈ P, i < n) :
    ∃ M, (mls.mapM fun P => mls.mapM fun Q => apMaxLink S P Q : Except PyErr (Mat κ)) = .ok M ∧ Square mls.length M ∧
      ∀ (a b : Nat) (P Q : List Nat) (v : κ), mls[a]? = some P → mls[b]? = some Q → mget? M a b = some v →
        (∃ i ∈ P, ∃ j ∈ Q, mget? S i j = some v) ∧ ∀ i ∈ P, ∀ j ∈ Q, ∀ w, mget? S i j = some w → w ≤ v := by
  have hrow : ∀ P ∈ mls, ∃ row, (mls.mapM fun Q => apMaxLink S P Q : Except PyErr (List κ)) = .ok row := fun P hP =>
    mapM_total fun Q hQ => by
      obtain ⟨a, ha, -⟩ := apMaxLink_ok h (hne P hP) (hne Q hQ) (hlt P hP) (hlt Q hQ)
      exact ⟨a, ha⟩
  obtain ⟨M, hM⟩ := mapM_total (f := fun P => (mls.mapM fun Q => apMaxLink S P Q : Except PyErr (List κ))) (l := mls) hrow
  have hf := mapM_ok_iff.1 hM
  refine ⟨M, hM, ⟨hf.length_eq.symm, fun row hr => ?_⟩, ?_⟩
  · obtain ⟨P, -, hP⟩ := forall₂_mem_right hf hr
    exact (mapM_ok_iff.1 hP).length_eq.symm
  · intro a b P Q v hP hQ hv
    unfold mget? at hv
    rw [Option.bind_eq_some_iff] at hv
    obtain ⟨row, h1, h2⟩ := hv
    obtain ⟨ha, rfl⟩ := List.getElem?_eq_some_iff.1 h1
    obtain ⟨ha', rfl⟩ := List.getElem?_eq_some_iff.1 hP
    obtain ⟨hb', rfl⟩ := List.getElem?_eq_some_iff.1 hQ
    have hr := (List.forall₂_iff_get.1 hf).2 a ha' ha
    simp only [List.get_eq_getElem] at hr
    have hf2 := mapM_ok_iff.1 hr
    obtain ⟨hb, rfl⟩ := List.getElem?_eq_some_iff.1 h2
    have hr2 := (List.forall₂_iff_get.1 hf2).2 b hb' hb
    simp only [List.get_eq_getElem] at hr2
    have hPm := List.getElem_mem ha'
    have hQm := List.getElem_mem hb'
    obtain ⟨v, e, h3, h4⟩ := apMaxLink_ok h (hne _ hPm) (hne _ hQm) (hlt _ hPm) (hlt _ hQm)
    rw [hr2] at e
    cases e
    exact ⟨h3, h4⟩

end

section
variable {V κ μ θ : Type} [LinearOrder κ]

theorem apMeta_ok (env : ApEnv V κ μ θ) {n : Nat} {S : Mat κ} (h : Square n S) {i : Nat} (hi : i < n) {P : List Nat}
    (hP : P ≠ []) (hPn : ∀ j ∈ P, j < n) : ∃ a, apMeta env S i P = .ok a := by
  unfold apMeta
  by_cases hm : i ∈ P
  · exact ⟨_, by rw [if_pos hm]⟩
  · rw [if_neg hm]
    obtain ⟨vals, hvals⟩ := mapM_total (f := fun j => mget S i j) (l := P) fun j hj => by
      obtain ⟨v, hv⟩ := h.get hi (hPn j hj)
      exact ⟨v, mget_ok.2 hv⟩
    have hne : vals ≠ [] := by
      rintro rfl
      have := (mapM_ok_iff.1 hvals).length_eq
      exact hP (List.eq_nil_of_length_eq_zero this)
    obtain ⟨a, e, -⟩ := apMax_ok hne
    exact ⟨a, by rw [hvals]; exact e⟩

theorem apBlock_ok (env : ApEnv V κ μ θ) {n : Nat} {S : Mat κ} (h : Square n S) (hn : 0 < n) {mls : List (List Nat)}
    (hne : ∀ P ∈ mls, P ≠ []) (hlt : ∀ P ∈ mls, ∀ i ∈ P, i < n) :
    ∃ M, apBlock env S mls = .ok M ∧ Square (n + mls.length) M := by
  obtain ⟨low, e1⟩ := npMin_ok (l := S.flatten) (by
    obtain ⟨v, hv⟩ := h.get hn hn
    unfold mget? at hv
    rw [Option.bind_eq_some_iff] at hv
    obtain ⟨row, h1, h2⟩ := hv
    intro e
    have : v ∈ S.flatten := List.mem_flatten.2 ⟨row, List.mem_of_getElem? h1, List.mem_of_getElem? h2⟩
    rw [e] at this
    cases this)
  have hmeta : ∀ i < n, ∃ r, (mls.mapM fun P => apMeta env S i P : Except PyErr (List κ)) = .ok r := fun i hi =>
    mapM_total fun P hP => apMeta_ok env h hi (hne P hP) (hlt P hP)
  obtain ⟨top, e2⟩ := mapM_total (l := S.zipIdx)
    (f := fun p => (do return p.1 ++ (← mls.mapM fun P => apMeta env S p.2 P) : Except PyErr (List κ))) fun p hp => by
      obtain ⟨row, i⟩ := p
      have hi : i < n := by
        rw [List.mk_mem_zipIdx_iff_getElem?] at hp
        rw [← h.1]; exact (List.getElem?_eq_some_iff.1 hp).1
      obtain ⟨r, hr⟩ := hmeta i hi
      exact ⟨row ++ r, by simp only [hr]; rfl⟩
  obtain ⟨bottom, e3⟩ := mapM_total (l := mls)
    (f := fun P => (do
      return (← (List.range S.length).mapM fun i => apMeta env S i P) ++ List.replicate mls.length (env.double low) :
        Except PyErr (List κ))) fun P hP => by
      obtain ⟨r, hr⟩ := mapM_total (f := fun i => apMeta env S i P) (l := List.range S.length) fun i hi => by
        rw [List.mem_range, h.1] at hi
        exact apMeta_ok env h hi (hne P hP) (hlt P hP)
      exact ⟨r ++ List.replicate mls.length (env.double low), by simp only [hr]; rfl⟩
  refine ⟨top ++ bottom, ?_, ?_, fun row hr => ?_⟩
  · unfold apBlock
    simp only [e1, bind, Except.bind]
    simp only [bind, Except.bind] at e2 e3
    rw [e2]
    simp only
    rw [e3]
    rfl
  · rw [List.length_append, ← (mapM_ok_iff.1 e2).length_eq, ← (mapM_ok_iff.1 e3).length_eq, List.length_zipIdx, h.1]
  · rcases List.mem_append.1 hr with hr | hr
    · obtain ⟨⟨r0, i⟩, hp, hrow⟩ := forall₂_mem_right (mapM_ok_iff.1 e2) hr
      have hr0 : r0 ∈ S := by
        rw [List.mk_mem_zipIdx_iff_getElem?] at hp
        exact List.mem_of_getElem? hp
      simp only at hrow
      cases e4 : (mls.mapM fun P => apMeta env S i P : Except PyErr (List κ)) with
      | error _ => rw [e4] at hrow; cases hrow
      | ok r =>
        rw [e4] at hrow
        cases hrow
        rw [List.length_append, h.2 r0 hr0, ← (mapM_ok_iff.1 e4).length_eq]
    · obtain ⟨P, hp, hrow⟩ := forall₂_mem_right (mapM_ok_iff.1 e3) hr
      cases e4 : ((List.range S.length).mapM fun i => apMeta env S i P : Except PyErr (List κ)) with
      | error _ => rw [e4] at hrow; cases hrow
      | ok r =>
        rw [e4] at hrow
        cases hrow
        rw [List.length_append, List.length_replicate, ← (mapM_ok_iff.1 e4).length_eq, List.length_range, h.1]

/-! ### The loop -/

omit [LinearOrder κ] in
/-- The cannot-links are pairs of data points, so no row of a closure is ever changed. -/
theorem apSp_eq {env : ApEnv V κ μ θ} (ha : ApAssumptions env) (S : Mat κ) {n : Nat} {cls : List (Nat × Nat)}
    (hc : ∀ c ∈ cls, c.1 < n ∧ c.2 < n) (q : θ) : apSp env S n cls q = S := by
  unfold apSp
  apply List.ext_getElem
  · simp
  · intro i h1 h2
    rw [List.getElem_mapIdx]
    by_cases hi : i < n
    · rw [if_pos hi]
    · rw [if_neg hi]
      have hf : cls.zipIdx.filter (fun c => decide (i = c.1.1 ∨ i = c.1.2)) = [] := by
        rw [List.filter_eq_nil_iff]
        rintro ⟨c, k⟩ hck
        rw [List.mk_mem_zipIdx_iff_getElem?] at hck
        have := hc c (List.mem_of_getElem? hck)
        simp only [decide_eq_true_eq]
        omega
      simp only [hf, List.foldl_nil]
      apply List.ext_getElem
      · simp
      · intro j h3 h4
        simp [ha.addZero]

omit [LinearOrder κ] in
theorem apLoop_congr {env : ApEnv V κ μ θ} (ha : ApAssumptions env) (p : ApParams) (S : Mat κ) {n : Nat}
    {cls cls' : List (Nat × Nat)} (hc : ∀ c ∈ cls, c.1 < n ∧ c.2 < n) (hc' : ∀ c ∈ cls', c.1 < n ∧ c.2 < n)
    (left it : Nat) {s s' : ApState μ θ} (hm : s.messages = s'.messages) (hh : s.hist = s'.hist) :
    apLoop env p S n cls left it s = apLoop env p S n cls' left it s' := by
  induction left generalizing it s s' with
  | zero => rfl
  | succ left ih =>
    have hSp : ∀ (b : Bool) (cls : List (Nat × Nat)), (∀ c ∈ cls, c.1 < n ∧ c.2 < n) → ∀ q,
        (if b = true then S else apSp env S n cls q) = S := by
      intro b cls hc q
      split
      · rfl
      · exact apSp_eq ha S hc q
    unfold apLoop
    simp only [apIter, hSp _ cls hc, hSp _ cls' hc', hm, hh]
    split
    · rfl
    · exact ih (it + 1) rfl rfl

omit [LinearOrder κ] in
/-- When the loop is left by `break`. -/
theorem apLoop_some {env : ApEnv V κ μ θ} (ha : ApAssumptions env) (p : ApParams) {S : Mat κ} {N : Nat} (hS : Square N S)
    {n : Nat} {cls : List (Nat × Nat)} (hc : ∀ c ∈ cls, c.1 < n ∧ c.2 < n) {left it : Nat} {s : ApState μ θ}
    {E : List Bool} {Sp : Mat κ} (h : apLoop env p S n cls left it s = some (E, Sp)) :
    Sp = S ∧ E.length = N ∧ 0 < E.countP (fun b => b) ∧ p.convergenceIteration < it + left := by
  induction left generalizing it s with
  | zero => cases h
  | succ left ih =>
    unfold apLoop at h
    simp only at h
    split at h
    · rename_i hstop
      simp only [Option.some.injEq, Prod.mk.injEq] at h
      obtain ⟨rfl, rfl⟩ := h
      have hSp : (apIter env p S n cls it s).2.1 = S := by
        unfold apIter
        simp only
        split
        · rfl
        · exact apSp_eq ha S hc s.q
      refine ⟨hSp, ?_, ?_, ?_⟩
      · have : (apIter env p S n cls it s).2.2 = (env.update (apIter env p S n cls it s).2.1 s.messages).2 := rfl
        rw [this, hSp]
        exact ha.update N S _ hS
      · unfold apStops at hstop
        simp only [Bool.and_eq_true, decide_eq_true_eq] at hstop
        exact hstop.2
      · unfold apStops at hstop
        simp only [Bool.and_eq_true, decide_eq_true_eq] at hstop
        omega
    · obtain ⟨h1, h2, h3, h4⟩ := ih h
      exact ⟨h1, h2, h3, by omega⟩

theorem mem_apExemplars {E : List Bool} {i : Nat} : i ∈ apExemplars E ↔ E[i]? = some true := by
  unfold apExemplars
  rw [List.mem_filter, List.mem_range, decide_eq_true_eq]
  exact ⟨fun h => h.2, fun h => ⟨(List.getElem?_eq_some_iff.1 h).1, h⟩⟩

theorem apExemplars_props (E : List Bool) : (apExemplars E).Nodup ∧ (∀ i ∈ apExemplars E, i < E.length) ∧
    (apExemplars E).length = E.countP (fun b => b) := by
  unfold apExemplars
  refine ⟨List.nodup_range.filter _, fun i hi => ?_, ?_⟩
  · rw [List.mem_filter, List.mem_range] at hi; exact hi.1
  · rw [← List.countP_eq_length_filter]
    induction E using List.reverseRecOn with
    | nil => rfl
    | append_singleton E b ih =>
      rw [List.length_append, List.length_singleton, List.range_succ, List.countP_append, List.countP_append]
      have h1 : (List.range E.length).countP (fun i => decide ((E ++ [b])[i]? = some true)) =
          (List.range E.length).countP (fun i => decide (E[i]? = some true)) := by
        apply List.countP_congr
        intro i hi
        rw [List.mem_range] at hi
        rw [List.getElem?_append_left hi]
      rw [h1, ih]
      congr 1
      cases b <;> simp

/-! ### The whole run -/

theorem apFinish_absolute {env : ApEnv V κ μ θ} (ha : ApAssumptions env) {p : ApParams} (hp : p.absolute = true) (pref : κ)
    {n : Nat} {S : Mat κ} (hS : Square n S) {mls : List (List Nat)} (hm : Closures n mls) {cls : List (Nat × Nat)}
    (hc : ∀ c ∈ cls, c.1 < n ∧ c.2 < n) :
    ∃ r M, apFinish env p pref S mls cls = .ok r ∧ r.length = n ∧ ClosureMatrix env.median S mls M ∧
      ((apLoop env p M n cls p.maxIteration 0 (apInit env p mls.length cls) = none ∧ r = List.replicate n (-1)) ∨
        ∃ E labels I, apLoop env p M n cls p.maxIteration 0 (apInit env p mls.length cls) = some (E, M) ∧
          labels.length = mls.length ∧ I.length = E.countP (fun b => b) ∧ 0 < I.length ∧ (∀ i ∈ I, i < mls.length) ∧
          RefinedExemplars (env.colsum M) M (apExemplars E) I ∧ ExemplarLabels M I labels ∧ SpreadLabels mls labels r) := by
  obtain ⟨M, eM, hM, hent⟩ := apSaml_ok hS hm.ne hm.lt
  have hM' := setDiagonal_square hM (env.median M)
  have hcm : ClosureMatrix env.median S mls (setDiagonal M (env.median M)) :=
    ⟨M, ⟨hM, hent⟩, hM', fun a b hab => setDiagonal_get hab, fun a ha => setDiagonal_diag hM ha⟩
  unfold apFinish
  simp only [hp, if_true, bind, Except.bind, pure, Except.pure]
  rw [eM]
  simp only [hS.1, hM'.1]
  cases e : apLoop env p (setDiagonal M (env.median M)) n cls p.maxIteration 0 (apInit env p mls.length cls) with
  | none => exact ⟨_, _, rfl, by simp, hcm, .inl ⟨e, rfl⟩⟩
  | some r =>
    obtain ⟨E, Sp⟩ := r
    obtain ⟨rfl, hE, hpos, -⟩ := apLoop_some ha p hM' hc e
    obtain ⟨x1, x2, x3⟩ := apExemplars_props E
    have hpos' : 0 < (apExemplars E).length := by rw [x3]; exact hpos
    obtain ⟨labels, I, e2, hl, hIl, hIlt, href, hex⟩ := apLabels_ok ha (setDiagonal M (env.median M)) hM'
      (I := apExemplars E) (by intro c; rw [c] at hpos'; simp at hpos') x1 (by rw [hE] at x2; exact x2)
    obtain ⟨s1, s2⟩ := apSpread_ok (n := n) (labels := labels) hm.disjoint hm.lt
    simp only
    rw [if_pos hpos', e2]
    refine ⟨apCompact (apSpread n labels mls), _, rfl, by rw [apCompact_length, s1], hcm,
      .inr ⟨E, labels, I, e, hl, by rw [hIl, x3], by rw [hIl]; exact hpos', hIlt, href, hex, ?_⟩⟩
    intro a b i j P Q hP hQ hi hj
    have ha' : a < labels.length := by rw [hl]; exact (List.getElem?_eq_some_iff.1 hP).1
    have hb' : b < labels.length := by rw [hl]; exact (List.getElem?_eq_some_iff.1 hQ).1
    have hin := hm.lt P (List.mem_of_getElem? hP) i hi
    have hjn := hm.lt Q (List.mem_of_getElem? hQ) j hj
    rw [apCompact_iff (by rw [s1]; exact hin) (by rw [s1]; exact hjn),
      s2 a i P _ hP hi (List.getElem?_eq_getElem ha'), s2 b j Q _ hQ hj (List.getElem?_eq_getElem hb'),
      List.getElem?_eq_getElem ha', List.getElem?_eq_getElem hb', Option.some.injEq, Option.some.injEq, Int.natCast_inj]

theorem apFinish_relative {env : ApEnv V κ μ θ} (ha : ApAssumptions env) {p : ApParams} (hp : p.absolute = false) (pref : κ)
    {n : Nat} {S : Mat κ} (hS : Square n S) (hn : 0 < n) {mls : List (List Nat)} (hm : Closures n mls) {cls : List (Nat × Nat)}
    (hc : ∀ c ∈ cls, c.1 < n ∧ c.2 < n) :
    ∃ r, apFinish env p pref S mls cls = .ok r ∧ r.length = n ∧
      (p.maxIteration ≤ p.convergenceIteration → r = List.replicate n (-1)) := by
  obtain ⟨M, eM, hM⟩ := apBlock_ok env hS hn hm.ne hm.lt
  have hM' := setDiagonal_square hM pref
  unfold apFinish
  simp only [hp, bind, Except.bind, pure, Except.pure]
  simp only [Bool.false_eq_true, if_false]
  rw [eM]
  simp only [hS.1, hM'.1]
  cases e : apLoop env p (setDiagonal M pref) n cls p.maxIteration 0 (apInit env p (n + mls.length) cls) with
  | none => exact ⟨_, rfl, by simp, fun _ => rfl⟩
  | some r =>
    obtain ⟨E, Sp⟩ := r
    obtain ⟨rfl, hE, hpos, hit⟩ := apLoop_some ha p hM' hc e
    obtain ⟨x1, x2, x3⟩ := apExemplars_props E
    have hpos' : 0 < (apExemplars E).length := by rw [x3]; exact hpos
    obtain ⟨labels, I, e2, hl, hIl, hIlt, -, hex⟩ := apLabels_ok ha (setDiagonal M pref) hM'
      (I := apExemplars E) (by intro c; rw [c] at hpos'; simp at hpos') x1 (by rw [hE] at x2; exact x2)
    simp only
    rw [if_pos hpos', e2]
    exact ⟨_, rfl, by rw [apCompact_length]; simp [hl], fun c => by omega⟩

/-- Without any effect of the cannot-links. -/
theorem apFinish_congr {env : ApEnv V κ μ θ} (ha : ApAssumptions env) (p : ApParams) (pref : κ)
    {S : Mat κ} (mls : List (List Nat)) {cls cls' : List (Nat × Nat)}
    (hc : ∀ c ∈ cls, c.1 < S.length ∧ c.2 < S.length) (hc' : ∀ c ∈ cls', c.1 < S.length ∧ c.2 < S.length) :
    apFinish env p pref S mls cls = apFinish env p pref S mls cls' := by
  unfold apFinish
  simp only [bind, Except.bind]
  have hl : ∀ S' : Mat κ, apLoop env p S' S.length cls p.maxIteration 0 (apInit env p S'.length cls) =
      apLoop env p S' S.length cls' p.maxIteration 0 (apInit env p S'.length cls') := fun S' =>
    apLoop_congr ha p S' hc hc' _ _ rfl rfl
  simp only [hl]

end

end Verif
