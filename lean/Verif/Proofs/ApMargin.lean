import Mathlib.Algebra.Order.BigOperators.Group.Finset
import Verif.Spec.ApMargin
import Verif.Proofs.MpcMargin
import Verif.Proofs.MessagesExact

/-
Lemmas for C128: affinity propagation with rounding errors.
-/

namespace Verif

theorem Follows.mapM₂ {ε ι ι' β β' : Type} {T : ι → ι' → Prop} {R : β → β' → Prop} {f : ι → Except ε β} {f' : ι' → Except ε β'}
    {l : List ι} {l' : List ι'} (hl : List.Forall₂ T l l') (h : ∀ i ∈ l, ∀ i', T i i' → Follows R (f i) (f' i')) :
    Follows (List.Forall₂ R) (l.mapM f) (l'.mapM f') := by
  induction hl with
  | nil => rw [List.mapM_nil, List.mapM_nil]; exact Follows.pure .nil
  | cons hab hl ih =>
    rw [List.mapM_cons, List.mapM_cons]
    exact (h _ List.mem_cons_self _ hab).bind fun b b' _ hb => (ih fun i hi => h i (List.mem_cons_of_mem _ hi)).bind fun c c' _ hc =>
      Follows.pure (.cons hb hc)

section
variable {κ : Type} [Field κ] [LinearOrder κ] [IsStrictOrderedRing κ]

omit [IsStrictOrderedRing κ] in
theorem npArgmax_unique {l : List κ} {c : Nat} (hc : c < l.length) (h : ∀ d (hd : d < l.length), d ≠ c → l[d] < l[c]) : npArgmax l = .ok c := by
  obtain ⟨k, e, a, ha, hmax⟩ := npArgmax_ok (l := l) (by rintro rfl; simp at hc)
  rw [e]
  by_contra hne
  have hkc : k ≠ c := fun h => hne (by rw [h])
  obtain ⟨hk, rfl⟩ := List.getElem?_eq_some_iff.1 ha
  exact absurd (h k hk hkc) (not_lt.2 (hmax _ (List.getElem_mem hc)))

theorem npArgmax_near {ε : κ} {l l' : List κ} (h : List.Forall₂ (fun a b => |b - a| ≤ ε) l l') (hm : GreatestMargin ε l) :
    npArgmax l' = npArgmax l := by
  obtain ⟨c, hc, hc'⟩ := hm
  have hlen := h.length_eq
  have hget := (List.forall₂_iff_get.1 h).2
  simp only [List.get_eq_getElem] at hget
  have hbeat : ∀ d (hd : d < l.length), d ≠ c → l[d] + 2 * ε < l[c] := fun d hd hdc =>
    hc' d hd hdc _ (List.getElem?_eq_getElem hc) _ (List.getElem?_eq_getElem hd)
  have hε : 0 ≤ ε := le_trans (abs_nonneg _) (hget c hc (by omega))
  rw [npArgmax_unique hc fun d hd hdc => by linarith [hbeat d hd hdc], npArgmax_unique (l := l') (c := c) (by omega) fun d hd hdc => by
    have h1 := abs_le.1 (hget c hc (by omega))
    have h2 := abs_le.1 (hget d (by omega) hd)
    linarith [hbeat d (by omega) hdc]]

/-! ### Arrays -/

omit [IsStrictOrderedRing κ] in
theorem MatNear.length {σ : κ} {M M' : Mat κ} (h : MatNear σ M M') : M'.length = M.length := (List.Forall₂.length_eq h).symm

theorem MatNear.square {σ : κ} {M M' : Mat κ} (h : MatNear σ M M') {n : Nat} (hM : Square n M) : Square n M' := by
  refine ⟨h.length.trans hM.1, fun row' hrow' => ?_⟩
  obtain ⟨i, hi, rfl⟩ := List.getElem_of_mem hrow'
  have hi0 : i < M.length := by rw [← h.length]; exact hi
  have := (List.forall₂_iff_get.1 h).2 i hi0 hi
  rw [← List.get_eq_getElem (l := M') (i := ⟨i, hi⟩), ← this.length_eq]
  exact hM.2 _ (List.get_mem _ _)

theorem MatNear.entry {σ : κ} {M M' : Mat κ} (h : MatNear σ M M') {n : Nat} (hM : Square n M) {i j : Nat} (hi : i < n) (hj : j < n) :
    |entry M' i j - entry M i j| ≤ σ := by
  have hM' := h.square hM
  have a1 : i < M.length := by rw [hM.1]; exact hi
  have a2 : i < M'.length := by rw [hM'.1]; exact hi
  have hr := (List.forall₂_iff_get.1 h).2 i a1 a2
  have b1 : j < M[i].length := by rw [hM.2 _ (List.getElem_mem a1)]; exact hj
  have b2 : j < M'[i].length := by rw [hM'.2 _ (List.getElem_mem a2)]; exact hj
  have hv := (List.forall₂_iff_get.1 hr).2 j b1 b2
  unfold Verif.entry mget?
  rw [List.getElem?_eq_getElem a1, List.getElem?_eq_getElem a2]
  simp only [Option.bind_some]
  rw [List.getElem?_eq_getElem b1, List.getElem?_eq_getElem b2]
  exact hv

omit [IsStrictOrderedRing κ] in
theorem matNear_of_entries {σ : κ} {M M' : Mat κ} {n : Nat} (hM : Square n M) (hM' : Square n M')
    (h : ∀ i < n, ∀ j < n, |entry M' i j - entry M i j| ≤ σ) : MatNear σ M M' := by
  refine List.forall₂_iff_get.2 ⟨hM.1.trans hM'.1.symm, fun i a1 a2 => ?_⟩
  have r1 : M[i].length = n := hM.2 _ (List.getElem_mem a1)
  have r2 : M'[i].length = n := hM'.2 _ (List.getElem_mem a2)
  refine List.forall₂_iff_get.2 ⟨by simp only [List.get_eq_getElem]; rw [r1, r2], fun j b1 b2 => ?_⟩
  simp only [List.get_eq_getElem] at b1 b2 ⊢
  have := h i (by rw [← hM.1]; exact a1) j (by rw [← r1]; exact b1)
  unfold Verif.entry mget? at this
  rw [List.getElem?_eq_getElem a1, List.getElem?_eq_getElem a2] at this
  simp only [Option.bind_some] at this
  rw [List.getElem?_eq_getElem b1, List.getElem?_eq_getElem b2] at this
  exact this

omit [IsStrictOrderedRing κ] in
theorem MatNear.mono {σ τ : κ} (h : σ ≤ τ) {M M' : Mat κ} (hM : MatNear σ M M') : MatNear τ M M' :=
  hM.imp fun _ _ hr => hr.imp fun _ _ hab => hab.trans h

theorem setDiagonal_near {σ τ : κ} (hst : σ ≤ τ) {n : Nat} {W W' : Mat κ} (hW : Square n W) (h : MatNear σ W W') {v v' : κ} (hv : |v' - v| ≤ τ) :
    MatNear τ (setDiagonal W v) (setDiagonal W' v') := by
  have hW' := h.square hW
  refine matNear_of_entries (setDiagonal_square hW v) (setDiagonal_square hW' v') fun i hi j hj => ?_
  by_cases hij : i = j
  · subst hij
    unfold Verif.entry
    rw [setDiagonal_diag hW hi, setDiagonal_diag hW' hi]
    exact hv
  · have := h.entry hW hi hj
    unfold Verif.entry at this ⊢
    rw [setDiagonal_get hij, setDiagonal_get hij]
    exact this.trans hst

/-! ### Messages -/

omit [IsStrictOrderedRing κ] in
theorem greatest_near [IsStrictOrderedRing κ] {e : κ} {P : Nat → Prop} {f f' : Nat → κ} (h : ∀ k, P k → |f' k - f k| ≤ e) {y y' : κ}
    (hy : IsGreatest {v | ∃ k, P k ∧ v = f k} y) (hy' : IsGreatest {v | ∃ k, P k ∧ v = f' k} y') : |y' - y| ≤ e := by
  obtain ⟨k, hk, rfl⟩ := hy.1
  obtain ⟨k', hk', rfl⟩ := hy'.1
  have h1 := hy.2 ⟨k', hk', rfl⟩
  have h2 := hy'.2 ⟨k, hk, rfl⟩
  have a := abs_le.1 (h k hk)
  have b := abs_le.1 (h k' hk')
  rw [abs_le]
  constructor <;> linarith

theorem max_near {e a b : κ} (h : |b - a| ≤ e) : |max 0 b - max 0 a| ≤ e := by
  have he : 0 ≤ e := (abs_nonneg _).trans h
  rw [abs_le] at h ⊢
  rcases le_total 0 a with ha | ha <;> rcases le_total 0 b with hb | hb <;>
    simp only [max_eq_left, max_eq_right, ha, hb] <;> constructor <;> linarith

theorem min_near {e a b : κ} (h : |b - a| ≤ e) : |min 0 b - min 0 a| ≤ e := by
  have he : 0 ≤ e := (abs_nonneg _).trans h
  rw [abs_le] at h ⊢
  rcases le_total 0 a with ha | ha <;> rcases le_total 0 b with hb | hb <;>
    simp only [min_eq_left, min_eq_right, ha, hb] <;> constructor <;> linarith

theorem sum_near {e : κ} (he : 0 ≤ e) {n : Nat} {F : Finset Nat} (hF : F.card + 1 ≤ n) {f f' : Nat → κ} (h : ∀ j ∈ F, |f' j - f j| ≤ e) :
    |∑ j ∈ F, max 0 (f' j) - ∑ j ∈ F, max 0 (f j)| ≤ (n - 1) * e := by
  rw [← Finset.sum_sub_distrib]
  refine (Finset.abs_sum_le_sum_abs _ _).trans ?_
  refine (Finset.sum_le_card_nsmul F _ e fun j hj => max_near (h j hj)).trans ?_
  rw [nsmul_eq_mul]
  refine mul_le_mul_of_nonneg_right ?_ he
  have : ((F.card + 1 : Nat) : κ) ≤ (n : κ) := Nat.cast_le.2 hF
  push_cast at this
  linarith

/-- The messages depend on their input continuously. -/
theorem freyDueck_near {n : Nat} {τ e : κ} {s a r a1 r1 s' a' r' a1' r1' : Nat → Nat → κ} (h : FreyDueck n s a r a1 r1)
    (h' : FreyDueck n s' a' r' a1' r1') (hs : ∀ i < n, ∀ k < n, |s' i k - s i k| ≤ τ)
    (ha : ∀ i < n, ∀ k < n, |a' i k - a i k| ≤ e ∧ |r' i k - r i k| ≤ e) (i : Nat) (hi : i < n) (k : Nat) (hk : k < n) :
    |a1' i k - a1 i k| ≤ n * (e + τ) ∧ |r1' i k - r1 i k| ≤ n * (e + τ) := by
  have he : 0 ≤ e := (abs_nonneg _).trans (ha i hi k hk).1
  have ht : 0 ≤ τ := (abs_nonneg _).trans (hs i hi k hk)
  have hn : (1 : κ) ≤ n := by exact_mod_cast (by omega : 1 ≤ n)
  have hne : e + τ ≤ n * (e + τ) := le_mul_of_one_le_left (by linarith) hn
  have hr : ∀ i < n, ∀ k < n, |r1' i k - r1 i k| ≤ e + τ := by
    intro i hi k hk
    obtain ⟨y, hy, e1⟩ := h.resp i hi k hk
    obtain ⟨y', hy', e2⟩ := h'.resp i hi k hk
    have hyy := greatest_near (e := e + τ) (P := fun k' => k' < n ∧ k' ≠ k) (f := fun k' => a i k' + s i k') (f' := fun k' => a' i k' + s' i k')
      (fun k' hk' => by
        have h1 := abs_le.1 (ha i hi k' hk'.1).1
        have h2 := abs_le.1 (hs i hi k' hk'.1)
        rw [abs_le]
        constructor <;> linarith) (y := y) (y' := y') (by simpa only [and_assoc] using hy) (by simpa only [and_assoc] using hy')
    rw [e1, e2]
    have h1 := abs_le.1 (ha i hi k hk).2
    have h2 := abs_le.1 (hs i hi k hk)
    have h3 := abs_le.1 hyy
    rw [abs_le]
    constructor <;> linarith
  refine ⟨?_, (hr i hi k hk).trans hne⟩
  have h1 := abs_le.1 (ha i hi k hk).1
  by_cases hik : i = k
  · subst hik
    rw [h.self i hi, h'.self i hi]
    have hsum := abs_le.1 (sum_near (e := e + τ) (by linarith) (n := n) (F := (Finset.range n).filter (fun j => j ≠ i)) (by
      have : ((Finset.range n).filter (fun j => j ≠ i)).card < (Finset.range n).card :=
        Finset.card_lt_card (Finset.filter_ssubset.2 ⟨i, Finset.mem_range.2 hi, by simp⟩)
      rw [Finset.card_range] at this
      omega) (f := fun j => r1 j i) (f' := fun j => r1' j i) fun j hj => hr j (Finset.mem_range.1 (Finset.mem_filter.1 hj).1) i hi)
    rw [abs_le]
    constructor <;> linarith
  · rw [h.avail i hi k hk hik, h'.avail i hi k hk hik]
    have hsum := abs_le.1 (sum_near (e := e + τ) (by linarith) (n := n) (F := (Finset.range n).filter (fun j => j ≠ i ∧ j ≠ k)) (by
      have : ((Finset.range n).filter (fun j => j ≠ i ∧ j ≠ k)).card < (Finset.range n).card :=
        Finset.card_lt_card (Finset.filter_ssubset.2 ⟨i, Finset.mem_range.2 hi, by simp⟩)
      rw [Finset.card_range] at this
      omega) (f := fun j => r1 j k) (f' := fun j => r1' j k) fun j hj => hr j (Finset.mem_range.1 (Finset.mem_filter.1 hj).1) k hk)
    have hkk := abs_le.1 (hr k hk k hk)
    have hmin := abs_le.1 (min_near (e := n * (e + τ))
      (a := r1 k k + ∑ j ∈ (Finset.range n).filter (fun j => j ≠ i ∧ j ≠ k), max 0 (r1 j k))
      (b := r1' k k + ∑ j ∈ (Finset.range n).filter (fun j => j ≠ i ∧ j ≠ k), max 0 (r1' j k)) (by
        rw [abs_le]
        constructor <;> linarith))
    rw [abs_le]
    constructor <;> linarith

theorem abs_le_of_near {a b e B : κ} (h : |b - a| ≤ e) (hB : |a| + e ≤ B) : |b| + 0 ≤ B := by
  have h1 := abs_le.1 h
  have h2 := abs_le.1 (le_refl |a|)
  rw [add_zero, abs_le]
  constructor <;> linarith

theorem decide_pos_near {a b e : κ} (h : |b - a| ≤ e) (hm : e < |a|) : decide (0 < b) = decide (0 < a) := by
  have h1 := abs_le.1 h
  rw [decide_eq_decide]
  rcases lt_abs.1 hm with h2 | h2
  · constructor <;> intro _ <;> linarith
  · constructor <;> intro _ <;> linarith

variable {V V' θ θ' : Type}

theorem apLoop_near {env : ApEnv V κ (ApMessages κ) θ} (henv : env.update = apUpdate) {env' : ApEnv V' κ (ApMessages κ) θ'} {N : Nat}
    {σ τ u γ B : κ} (hN : ApNear env' N σ τ u γ B) (h2 : 2 ≤ N) {p : ApParams} (hp : p.absolute = true) {S S' : Mat κ}
    (hS : Square N S) (hSn : MatNear τ S S') (n : Nat) (cls : List (Nat × Nat)) :
    ∀ (left it : Nat) (s : ApState (ApMessages κ) θ) (s' : ApState (ApMessages κ) θ'),
      MessagesNear N (apError N τ u it) s.messages s'.messages → s'.hist = s.hist →
      ApLoopMargin N τ u B p.convergenceIteration S left it s.messages s.hist →
      apLoop env' p S' n cls left it s' = (apLoop env p S n cls left it s).map fun q => (q.1, S') := by
  have hS' := hSn.square hS
  intro left
  induction left with
  | zero => intros; rfl
  | succ left ih =>
    intro it s s' hM hh hm
    obtain ⟨hB, hE, hnext⟩ := hm
    have hB' : MessagesWithin N B 0 0 S' s'.messages := fun i hi k hk =>
      ⟨abs_le_of_near (hSn.entry hS hi hk) (hB i hi k hk).1, abs_le_of_near (hM i hi k hk).1 (hB i hi k hk).2.1,
        abs_le_of_near (hM i hi k hk).2 (hB i hi k hk).2.2⟩
    obtain ⟨hu, hE'⟩ := hN.update S' s'.messages hS' hB'
    obtain ⟨-, -, f1, g1⟩ := apUpdate_ok h2 hS s.messages
    obtain ⟨-, -, f2, -⟩ := apUpdate_ok h2 hS' s'.messages
    have hnear : MessagesNear N (apError N τ u (it + 1)) (apUpdate S s.messages).1 (env'.update S' s'.messages).1 := by
      intro i hi k hk
      obtain ⟨b1, b2⟩ := freyDueck_near f1 f2 (fun i hi k hk => hSn.entry hS hi hk) hM i hi k hk
      obtain ⟨c1, c2⟩ := hu i hi k hk
      rw [apError]
      rw [abs_le] at b1 b2 c1 c2
      constructor <;> rw [abs_le] <;> constructor <;> linarith
    have hEE : (env'.update S' s'.messages).2 = (apUpdate S s.messages).2 := by
      rw [hE']
      apply List.ext_getElem?
      intro k
      by_cases hk : k < N
      · rw [g1 k hk, List.getElem?_map, List.getElem?_range hk]
        simp only [Option.map_some]
        obtain ⟨b1, b2⟩ := hnear k hk k hk
        rw [abs_le] at b1 b2
        rw [decide_pos_near (e := 2 * apError N τ u (it + 1)) _ (hE k hk)]
        rw [abs_le]
        constructor <;> linarith
      · have hl : (apUpdate S s.messages).2.length = N := by
          unfold apUpdate
          simp only [hS.1]
          rw [if_neg (by omega)]
          simp
        rw [List.getElem?_eq_none (by rw [List.length_map, List.length_range]; omega), List.getElem?_eq_none (by rw [hl]; omega)]
    unfold apLoop
    simp only [apIter, hp, if_true, henv, hEE, hh, hS.1, hS'.1]
    rw [hS.1] at hnext
    by_cases hst : apStops p.convergenceIteration N (s.hist.set (it % p.convergenceIteration) (apUpdate S s.messages).2) it (apUpdate S s.messages).2 = true
    · rw [if_pos hst, if_pos hst]
      rfl
    · rw [if_neg hst, if_neg hst]
      exact ih _ _ _ hnear rfl (hnext (by simpa using hst))

/-! ### Labels -/

theorem apNearest_near {τ : κ} {row row' : List κ} (h : List.Forall₂ (fun a b => |b - a| ≤ τ) row row') {I : List Nat}
    (hm : GreatestMargin τ (I.map fun i => (row[i]?).getD 0)) : Follows (fun b b' => b' = b) (apNearest row I) (apNearest row' I) := by
  unfold apNearest
  refine (Follows.mapM fun i _ => Follows.lget h i).bind ?_
  intro v v' hv hvv
  have e : v = I.map fun i => (row[i]?).getD 0 := by
    clear hm hvv
    induction I generalizing v with
    | nil => rw [List.mapM_nil] at hv; cases hv; rfl
    | cons i I ih =>
      rw [List.mapM_cons] at hv
      cases h1 : lget row i with
      | error e => rw [h1] at hv; cases hv
      | ok x =>
        cases h2 : I.mapM fun i => lget row i with
        | error e => rw [h1, h2] at hv; cases hv
        | ok w =>
          rw [h1, h2] at hv
          cases hv
          rw [List.map_cons, ← ih w h2, lget_ok.1 h1]
          rfl
  rw [npArgmax_near hvv (by rw [e]; exact hm)]
  exact Follows.refl _

theorem forall₂_eq {β : Type} {l l' : List β} (h : List.Forall₂ (fun b b' => b' = b) l l') : l' = l := by
  induction h with
  | nil => rfl
  | cons h1 _ ih => rw [h1, ih]

theorem apAssign_near {τ : κ} {S S' : Mat κ} (h : MatNear τ S S') {I : List Nat} (hm : NearestMargin τ S I) :
    Follows (fun b b' => b' = b) (apAssign S I) (apAssign S' I) := by
  unfold apAssign
  refine (Follows.mapM₂ h fun row hrow row' hr => apNearest_near hr (hm row hrow)).bind ?_
  intro c c' _ hc
  rw [forall₂_eq hc]
  exact Follows.refl _

omit [IsStrictOrderedRing κ] in
theorem apAssign_length {S : Mat κ} {I c : List Nat} (h : apAssign S I = .ok c) : c.length = S.length := by
  have hset : ∀ (q : List (Nat × Nat)) (c : List Nat), (q.foldl (fun c q => c.set q.1 q.2) c).length = c.length := by
    intro q
    induction q with
    | nil => intro c; rfl
    | cons a q ih => intro c; rw [List.foldl_cons, ih, List.length_set]
  unfold apAssign at h
  cases hc : S.mapM fun row => apNearest row I with
  | error e => rw [hc] at h; cases h
  | ok d =>
    rw [hc] at h
    cases h
    rw [hset]
    have : Follows (List.Forall₂ fun _ _ => True) (S.mapM fun row => apNearest row I) (S.mapM fun row => Except.ok (ε := PyErr) row) :=
      Follows.mapM fun row _ b _ => ⟨row, rfl, trivial⟩
    obtain ⟨b', e, hb⟩ := this d hc
    have hb' : b' = S := by
      have e2 : (S.mapM fun row => Except.ok (ε := PyErr) row) = .ok S := by
        clear * -
        induction S with
        | nil => rfl
        | cons a S ih => rw [List.mapM_cons, ih]; rfl
      rw [e2] at e
      cases e
      rfl
    rw [hb.length_eq, hb']

theorem apLabels_near {env : ApEnv V κ (ApMessages κ) θ} (henv : env.colsum = apColsum) {env' : ApEnv V' κ (ApMessages κ) θ'} {N : Nat}
    {σ τ u γ B : κ} (hN : ApNear env' N σ τ u γ B) {S S' : Mat κ} (hS : Square N S) (hB : MatWithin B S) (hSn : MatNear τ S S') {I : List Nat}
    (hm : ApLabelsMargin τ γ S I) : Follows (fun b b' => b' = b) (apLabels env S S I) (apLabels env' S' S' I) := by
  obtain ⟨m1, m2⟩ := hm
  unfold apLabels
  refine (apAssign_near hSn m1).bind ?_
  rintro _ c hc rfl
  rw [hc] at m2
  obtain ⟨m3, m4⟩ := m2
  have hl := apAssign_length hc
  have hr : apRefine env S c = apRefine (apExact (fun (_ _ : Unit) => (0 : κ)) 0 0 fun _ _ => 0) S c := by
    funext k
    unfold apRefine
    rw [henv]
    rfl
  have hstep : Follows (List.Forall₂ fun b b' => b' = b) ((List.range I.length).mapM (apRefine env S c)) ((List.range I.length).mapM (apRefine env' S' c)) := by
    refine Follows.mapM fun k hk => ?_
    unfold apRefine
    dsimp only
    rw [henv, npArgmax_near (hN.colsum S S' _ hS hB hSn (List.nodup_range.filter _) fun i hi => by
      have := List.mem_range.1 (List.mem_filter.1 hi).1
      rw [hl, hS.1] at this
      exact this) (m3 k (List.mem_range.1 hk))]
    exact Follows.refl _
  refine hstep.bind ?_
  intro I1 I1' hI1 hII
  rw [forall₂_eq hII]
  rw [← hr, hI1] at m4
  refine (apAssign_near hSn m4).bind ?_
  rintro _ c' _ rfl
  exact Follows.refl _

/-! ### The whole run -/

theorem apMax_near {σ : κ} {l l' : List κ} (h : List.Forall₂ (fun a b => |b - a| ≤ σ) l l') : Follows (fun a b => |b - a| ≤ σ) (apMax l) (apMax l') := by
  intro a ha
  unfold apMax at ha ⊢
  cases h1 : l.max? with
  | none => rw [h1] at ha; cases ha
  | some b =>
    rw [h1] at ha
    cases ha
    cases h2 : l'.max? with
    | none =>
      rw [List.max?_eq_none_iff] at h2
      subst h2
      cases h
      simp at h1
    | some b' =>
      refine ⟨b', rfl, ?_⟩
      have k1 := List.max?_eq_some_iff.1 h1
      have k2 := List.max?_eq_some_iff.1 h2
      have hget := (List.forall₂_iff_get.1 h).2
      obtain ⟨i, hi, e1⟩ := List.getElem_of_mem k1.1
      obtain ⟨j, hj, e2⟩ := List.getElem_of_mem k2.1
      have hlen := h.length_eq
      have g1 := abs_le.1 (hget i hi (by omega))
      have g2 := abs_le.1 (hget j (by omega) hj)
      simp only [List.get_eq_getElem] at g1 g2
      have m1 := k1.2 l[j] (List.getElem_mem _)
      have m2 := k2.2 l'[i] (List.getElem_mem _)
      rw [e1] at g1
      rw [e2] at g2
      refine abs_le.2 ?_
      constructor <;> linarith

theorem mget_near {σ : κ} {S S' : Mat κ} (h : MatNear σ S S') (i j : Nat) : Follows (fun a b => |b - a| ≤ σ) (mget S i j) (mget S' i j) := by
  intro a ha
  unfold mget mget? at ha ⊢
  cases h1 : S[i]? with
  | none => rw [h1] at ha; cases ha
  | some row =>
    rw [h1] at ha
    obtain ⟨hi, rfl⟩ := List.getElem?_eq_some_iff.1 h1
    have hi' : i < S'.length := by rw [h.length]; exact hi
    have hr := (List.forall₂_iff_get.1 h).2 i hi hi'
    simp only [Option.bind_some] at ha
    cases h2 : S[i][j]? with
    | none => rw [h2] at ha; cases ha
    | some b =>
      rw [h2] at ha
      cases ha
      obtain ⟨hj, rfl⟩ := List.getElem?_eq_some_iff.1 h2
      have hlr := hr.length_eq
      simp only [List.get_eq_getElem] at hlr
      have hj' : j < S'[i].length := by rw [← hlr]; exact hj
      refine ⟨S'[i][j], ?_, (List.forall₂_iff_get.1 hr).2 j hj hj'⟩
      rw [List.getElem?_eq_getElem hi']
      simp only [Option.bind_some]
      rw [List.getElem?_eq_getElem hj']

theorem apMaxLink_near {σ : κ} {S S' : Mat κ} (h : MatNear σ S S') (P Q : List Nat) :
    Follows (fun a b => |b - a| ≤ σ) (apMaxLink S P Q) (apMaxLink S' P Q) := by
  unfold apMaxLink
  exact (Follows.mapM fun q _ => mget_near h q.1 q.2).bind fun _ _ _ hl => apMax_near hl

theorem mapM_len {ε β ι : Type} {f : ι → Except ε β} {l : List ι} {r : List β} (h : l.mapM f = .ok r) : r.length = l.length ∧ ∀ b ∈ r, ∃ i ∈ l, f i = .ok b := by
  induction l generalizing r with
  | nil => rw [List.mapM_nil] at h; cases h; simp
  | cons a l ih =>
    rw [List.mapM_cons] at h
    cases h1 : f a with
    | error e => rw [h1] at h; cases h
    | ok b =>
      cases h2 : l.mapM f with
      | error e => rw [h1, h2] at h; cases h
      | ok r' =>
        rw [h1, h2] at h
        cases h
        obtain ⟨i1, i2⟩ := ih h2
        refine ⟨by simp [i1], fun c hc => ?_⟩
        rcases List.mem_cons.1 hc with rfl | hc
        · exact ⟨a, List.mem_cons_self, h1⟩
        · obtain ⟨i, hi, e⟩ := i2 c hc
          exact ⟨i, List.mem_cons_of_mem _ hi, e⟩

theorem apFinish_near {env : ApEnv V κ (ApMessages κ) θ} (hu : env.update = apUpdate) (hc : env.colsum = apColsum) (hmed : env.median = npMedian)
    (hi : ∀ n, env.initM n = ⟨tabulate n fun _ _ => 0, tabulate n fun _ _ => 0⟩) {env' : ApEnv V' κ (ApMessages κ) θ'}
    {mls : List (List Nat)} {σ τ u γ B : κ} (hN : ApNear env' mls.length σ τ u γ B) (h2 : 2 ≤ mls.length) {p : ApParams} (hp : p.absolute = true)
    {S S' : Mat κ} (hS : MatNear σ S S') (pref pref' : κ) (cls : List (Nat × Nat)) (hm : ApMargin τ u γ B env p S mls cls) :
    Follows (fun b b' => b' = b) (apFinish env p pref S mls cls) (apFinish env' p pref' S' mls cls) := by
  unfold apFinish
  simp only [hp, if_true]
  unfold ApMargin at hm
  rw [hS.length]
  have hW : Follows (MatNear σ) (mls.mapM fun P => mls.mapM fun Q => apMaxLink S P Q) (mls.mapM fun P => mls.mapM fun Q => apMaxLink S' P Q) :=
    Follows.mapM fun P _ => Follows.mapM fun Q _ => apMaxLink_near hS P Q
  refine hW.bind ?_
  intro W W' hWe hWW
  rw [hWe] at hm
  obtain ⟨b1, b2, hm⟩ := hm
  have hsq : Square mls.length W := by
    obtain ⟨l1, l2⟩ := mapM_len hWe
    refine ⟨l1, fun row hrow => ?_⟩
    obtain ⟨P, -, hP⟩ := l2 row hrow
    exact (mapM_len hP).1
  have hD : MatNear τ (setDiagonal W (env.median W)) (setDiagonal W' (env'.median W')) :=
    setDiagonal_near hN.le hsq hWW (by rw [hmed]; exact hN.median W W' hsq b1 hWW)
  have hDs := setDiagonal_square hsq (env.median W)
  simp only [pure_bind]
  obtain ⟨m1, m2⟩ := hm
  have hloop := apLoop_near (env := env) hu hN h2 hp hDs hD S.length cls p.maxIteration 0
    (apInit env p (setDiagonal W (env.median W)).length cls) (apInit env' p (setDiagonal W' (env'.median W')).length cls)
    (by
      simp only [apInit, hDs.1, (hD.square hDs).1, hi, hN.initM]
      intro i _ k _
      simp [apError])
    (by simp only [apInit, hDs.1, (hD.square hDs).1]) (by simp only [apInit, hDs.1]; exact m1)
  rw [hloop]
  cases hq : apLoop env p (setDiagonal W (env.median W)) S.length cls p.maxIteration 0 (apInit env p (setDiagonal W (env.median W)).length cls) with
  | none => exact Follows.refl _
  | some q =>
    obtain ⟨E, Sp⟩ := q
    rw [hq] at m2
    have hSp : Sp = setDiagonal W (env.median W) := by
      have key : ∀ (D : Mat κ) (left it : Nat) (s : ApState (ApMessages κ) θ), apLoop env p D S.length cls left it s = some (E, Sp) → Sp = D := by
        intro D left
        induction left with
        | zero => intro it s h; cases h
        | succ left ih =>
          intro it s h
          unfold apLoop at h
          simp only [apIter, hp, if_true] at h
          split at h
          · cases h; rfl
          · exact ih _ _ h
      exact key _ _ _ _ hq
    subst hSp
    simp only [Option.map_some]
    by_cases h0 : 0 < (apExemplars E).length
    · rw [if_pos h0, if_pos h0]
      refine (apLabels_near hc hN hDs b2 hD m2).bind ?_
      rintro _ L _ rfl
      exact Follows.refl _
    · rw [if_neg h0, if_neg h0]
      exact Follows.refl _

/-! ### Sorted lists -/

theorem orderedInsert_near {σ : κ} {l l' : List κ} (h : List.Forall₂ (fun a b => |b - a| ≤ σ) l l') (hl : l.Pairwise (· ≤ ·))
    (hl' : l'.Pairwise (· ≤ ·)) {a a' : κ} (ha : |a' - a| ≤ σ) :
    List.Forall₂ (fun a b => |b - a| ≤ σ) (l.orderedInsert (· ≤ ·) a) (l'.orderedInsert (· ≤ ·) a') := by
  induction h generalizing a a' with
  | nil => exact .cons ha .nil
  | @cons b b' t t' hb ht ih =>
    have head : ∀ {x : κ} {t : List κ}, (x :: t).Pairwise (· ≤ ·) → t.orderedInsert (· ≤ ·) x = x :: t := by
      intro x t hx
      cases t with
      | nil => rfl
      | cons y t => rw [List.orderedInsert_cons, if_pos (List.rel_of_pairwise_cons hx List.mem_cons_self)]
    have t1 := (List.pairwise_cons.1 hl).2
    have t2 := (List.pairwise_cons.1 hl').2
    rw [List.orderedInsert_cons, List.orderedInsert_cons]
    have ha' := abs_le.1 ha
    have hb' := abs_le.1 hb
    by_cases h1 : a ≤ b <;> by_cases h2 : a' ≤ b'
    · rw [if_pos h1, if_pos h2]
      exact .cons ha (.cons hb ht)
    · rw [if_pos h1, if_neg h2]
      rw [not_le] at h2
      refine .cons ?_ ?_
      · rw [abs_le]; constructor <;> linarith
      · rw [← head hl]
        exact ih t1 t2 (by rw [abs_le]; constructor <;> linarith)
    · rw [if_neg h1, if_pos h2]
      rw [not_le] at h1
      refine .cons ?_ ?_
      · rw [abs_le]; constructor <;> linarith
      · rw [← head hl']
        exact ih t1 t2 (by rw [abs_le]; constructor <;> linarith)
    · rw [if_neg h1, if_neg h2]
      exact .cons hb (ih t1 t2 ha)

theorem insertionSort_near {σ : κ} {l l' : List κ} (h : List.Forall₂ (fun a b => |b - a| ≤ σ) l l') :
    List.Forall₂ (fun a b => |b - a| ≤ σ) (l.insertionSort (· ≤ ·)) (l'.insertionSort (· ≤ ·)) := by
  induction h with
  | nil => exact .nil
  | cons ha _ ih => exact orderedInsert_near ih (List.pairwise_insertionSort _ _) (List.pairwise_insertionSort _ _) ha

omit [IsStrictOrderedRing κ] in
theorem flatten_near {σ : κ} {M M' : Mat κ} (h : MatNear σ M M') : List.Forall₂ (fun a b => |b - a| ≤ σ) M.flatten M'.flatten := by
  induction h with
  | nil => exact .nil
  | cons hr _ ih => rw [List.flatten_cons, List.flatten_cons]; exact List.rel_append hr ih

theorem getD_near {σ : κ} (hσ : 0 ≤ σ) {l l' : List κ} (h : List.Forall₂ (fun a b => |b - a| ≤ σ) l l') (i : Nat) :
    |(l'[i]?).getD 0 - (l[i]?).getD 0| ≤ σ := by
  have hlen := h.length_eq
  by_cases hi : i < l.length
  · rw [List.getElem?_eq_getElem hi, List.getElem?_eq_getElem (by omega)]
    exact (List.forall₂_iff_get.1 h).2 i hi (by omega)
  · rw [List.getElem?_eq_none (by omega), List.getElem?_eq_none (by omega)]
    simpa using hσ

/-- The median moves no more than the entries. -/
theorem npMedian_near {σ : κ} (hσ : 0 ≤ σ) {M M' : Mat κ} (h : MatNear σ M M') : |npMedian M' - npMedian M| ≤ σ := by
  have hs := insertionSort_near (flatten_near h)
  unfold npMedian
  dsimp only
  rw [← hs.length_eq]
  split_ifs
  · exact getD_near hσ hs _
  · have h1 := abs_le.1 (getD_near hσ hs ((M.flatten.insertionSort (· ≤ ·)).length / 2 - 1))
    have h2 := abs_le.1 (getD_near hσ hs ((M.flatten.insertionSort (· ≤ ·)).length / 2))
    rw [abs_le]
    constructor <;> linarith

end

end Verif
