import Mathlib.Algebra.BigOperators.Group.List.Basic
import Mathlib.Algebra.Order.BigOperators.Group.List
import Mathlib.Data.List.TakeWhile
import Mathlib.Tactic.Linarith
import Mathlib.Tactic.Ring
import Mathlib.Tactic.Positivity
import Mathlib.Tactic.FieldSimp
import Verif.Spec.Tfidf
import Verif.Props.Text

/-
Lemmas on the TF-IDF vectors.
-/

namespace Verif

/-! ### Words -/

section
variable {f : Char → Bool}

theorem wordPieces_ne (s : List Char) : wordPieces f s ≠ [] := by
  cases s with
  | nil => simp [wordPieces]
  | cons c s =>
    rw [wordPieces]
    split
    · split <;> simp
    · simp

theorem wordPieces_word {c : Char} {s w : List Char} {ws : List (List Char)} (hc : f c = true) (h : wordPieces f s = w :: ws) :
    wordPieces f (c :: s) = (c :: w) :: ws := by
  rw [wordPieces, if_pos hc, h]

theorem wordPieces_stop {s : List Char} (h : ∀ c ∈ s.head?, f c = false) : ∃ ws, wordPieces f s = [] :: ws ∧
    (wordPieces f s).filter (fun w => decide (w ≠ [])) = ws.filter fun w => decide (w ≠ []) := by
  cases s with
  | nil => exact ⟨[], rfl, rfl⟩
  | cons c s =>
    have hc := h c (by simp)
    refine ⟨wordPieces f s, by rw [wordPieces, if_neg (by simp [hc])], ?_⟩
    rw [wordPieces, if_neg (by simp [hc])]
    simp

theorem wordPieces_append {s : List Char} {ws : List (List Char)} (h : wordPieces f s = [] :: ws) : ∀ {w : List Char},
    (∀ c ∈ w, f c = true) → wordPieces f (w ++ s) = w :: ws
  | [], _ => h
  | c :: w, hw => wordPieces_word (hw c (by simp)) (wordPieces_append h fun c hc => hw c (by simp [hc]))

theorem runs_pieces {s : List Char} {ws : List (List Char)} (h : WordRuns f s ws) :
    ws = (wordPieces f s).filter fun w => decide (w ≠ []) := by
  induction h with
  | nil => rfl
  | skip hc _ ih =>
    rw [wordPieces, if_neg (by simp [hc]), List.filter_cons_of_neg (by simp)]
    exact ih
  | run hne hw hs _ ih =>
    obtain ⟨ws', e, e'⟩ := wordPieces_stop hs
    rw [wordPieces_append e hw, List.filter_cons_of_pos (by simpa using hne), ih, e']

theorem runs_exist (s : List Char) : ∃ ws, WordRuns f s ws := by
  induction hn : s.length using Nat.strong_induction_on generalizing s with
  | _ n ih =>
    cases s with
    | nil => exact ⟨[], .nil⟩
    | cons c s =>
      by_cases hc : f c = true
      · have e : c :: s = (c :: s).takeWhile f ++ (c :: s).dropWhile f := List.takeWhile_append_dropWhile.symm
        have hl : ((c :: s).dropWhile f).length < n := by
          rw [List.dropWhile_cons_of_pos hc, ← hn]
          exact Nat.lt_succ_of_le (List.dropWhile_suffix _).length_le
        obtain ⟨ws, h⟩ := ih _ hl _ rfl
        refine ⟨(c :: s).takeWhile f :: ws, ?_⟩
        have := WordRuns.run (isWord := f) (w := (c :: s).takeWhile f) (s := (c :: s).dropWhile f) (ws := ws)
          (by rw [List.takeWhile_cons_of_pos hc]; simp) (fun x hx => List.mem_takeWhile_imp hx)
          (by
            intro x hx
            have := List.head?_dropWhile_not f (c :: s)
            rw [Option.mem_def] at hx
            rw [hx] at this
            simpa using this) h
        rwa [← e] at this
      · obtain ⟨ws, h⟩ := ih s.length (by rw [← hn]; simp) s rfl
        exact ⟨ws, .skip (by simpa using hc) h⟩

theorem pieces_word : ∀ {s : List Char} {w : List Char}, w ∈ wordPieces f s → ∀ c ∈ w, f c = true
  | [], w, h => by simp only [wordPieces, List.mem_singleton] at h; subst h; simp
  | c :: s, w, h => by
    rw [wordPieces] at h
    split at h
    · rename_i hc
      cases hp : wordPieces f s with
      | nil => exact absurd hp (wordPieces_ne s)
      | cons v vs =>
        rw [hp] at h
        rcases List.mem_cons.1 h with rfl | h
        · intro x hx
          rcases List.mem_cons.1 hx with rfl | hx
          · exact hc
          · exact pieces_word (s := s) (w := v) (by simp [hp]) x hx
        · exact pieces_word (s := s) (by simp [hp, h])
    · rcases List.mem_cons.1 h with rfl | h
      · simp
      · exact pieces_word h

end

section
variable {e : TfidfEnv}

theorem wordOf_iff {s w : List Char} : WordOf e s w ↔ w ∈ tfTokens e s := by
  constructor
  · rintro ⟨ws, h1, h2, h3⟩
    rw [runs_pieces h1] at h2
    exact List.mem_filter.2 ⟨(List.mem_filter.1 h2).1, by simpa using h3⟩
  · intro h
    obtain ⟨h1, h2⟩ := List.mem_filter.1 h
    obtain ⟨ws, hw⟩ := runs_exist (f := e.isWord) (e.lower s)
    have h2 : 2 ≤ w.length := by simpa using h2
    refine ⟨ws, hw, ?_, h2⟩
    rw [runs_pieces hw]
    refine List.mem_filter.2 ⟨h1, ?_⟩
    have : w ≠ [] := by rintro rfl; simp at h2
    simpa using this

theorem token_word {s w : List Char} (h : w ∈ tfTokens e s) : ∀ c ∈ w, e.isWord c = true :=
  pieces_word (List.mem_filter.1 h).1

theorem token_term {s w : List Char} (h : w ∈ tfTokens e s) : w ∈ tfTerms e s := by
  unfold tfTerms
  simp [h]

theorem mem_ngrams {n : Nat} (hn : 0 < n) {l : List (List Char)} {t : List Char} (h : t ∈ ngrams n l) :
    ∃ w g, t = joinSpace (w :: g) ∧ w ∈ l := by
  obtain ⟨i, hi, rfl⟩ := List.mem_map.1 h
  have hi := List.mem_range.1 hi
  have hl : i < l.length := by omega
  rw [List.drop_eq_getElem_cons hl]
  obtain ⟨n, rfl⟩ : ∃ k, n = k + 1 := ⟨n - 1, by omega⟩
  exact ⟨l[i], _, rfl, List.getElem_mem hl⟩

theorem mem_terms {s t : List Char} (h : t ∈ tfTerms e s) : ∃ w g, t = joinSpace (w :: g) ∧ w ∈ tfTokens e s := by
  unfold tfTerms at h
  rcases List.mem_append.1 h with h | h
  · rcases List.mem_append.1 h with h | h
    · exact ⟨t, [], rfl, h⟩
    · exact mem_ngrams (by decide) h
  · exact mem_ngrams (by decide) h

/-- The first word of a term can be read off. -/
theorem term_head (hsp : e.isWord ' ' = false) {w : List Char} (hw : ∀ c ∈ w, e.isWord c = true) (g : List (List Char)) :
    (joinSpace (w :: g)).takeWhile e.isWord = w := by
  cases g with
  | nil => exact List.takeWhile_eq_self_iff.2 hw
  | cons v g =>
    rw [joinSpace, List.takeWhile_append_of_pos hw, List.takeWhile_cons_of_neg (by simp [hsp]), List.append_nil]
    simp

theorem terms_share (hsp : e.isWord ' ' = false) {s s' t : List Char} (h : t ∈ tfTerms e s) (h' : t ∈ tfTerms e s') :
    ShareWord e s s' := by
  obtain ⟨w, g, e1, k⟩ := mem_terms h
  obtain ⟨w', g', e2, k'⟩ := mem_terms h'
  have := term_head hsp (token_word k) g
  have h2 := term_head hsp (token_word k') g'
  rw [← e1] at this
  rw [← e2, this] at h2
  subst h2
  exact ⟨w, wordOf_iff.2 k, wordOf_iff.2 k'⟩

theorem share_term {s s' : List Char} (h : ShareWord e s s') : ∃ t, t ∈ tfTerms e s ∧ t ∈ tfTerms e s' := by
  obtain ⟨w, h1, h2⟩ := h
  exact ⟨w, token_term (wordOf_iff.1 h1), token_term (wordOf_iff.1 h2)⟩

end

/-! ### Document frequencies and the vocabulary -/

theorem one_le_countP {ι : Type} {p : ι → Bool} {l : List ι} : 1 ≤ l.countP p ↔ ∃ (j : Nat) (b : ι), l[j]? = some b ∧ p b = true := by
  rw [Nat.one_le_iff_ne_zero, ← Nat.pos_iff_ne_zero, List.countP_pos_iff]
  constructor
  · rintro ⟨b, hb, hp⟩
    obtain ⟨j, hj⟩ := List.mem_iff_getElem?.1 hb
    exact ⟨j, b, hj, hp⟩
  · rintro ⟨j, b, hj, hp⟩
    exact ⟨b, List.mem_of_getElem? hj, hp⟩

theorem two_le_countP {ι : Type} {p : ι → Bool} : ∀ {l : List ι}, 2 ≤ l.countP p ↔
    ∃ (i j : Nat) (a b : ι), i < j ∧ l[i]? = some a ∧ l[j]? = some b ∧ p a = true ∧ p b = true
  | [] => by simp
  | x :: l => by
    by_cases hx : p x = true
    · rw [List.countP_cons_of_pos hx]
      constructor
      · intro h
        obtain ⟨j, b, hj, hb⟩ := one_le_countP.1 (show 1 ≤ l.countP p by omega)
        exact ⟨0, j + 1, x, b, by omega, by simp, by simpa using hj, hx, hb⟩
      · rintro ⟨i, j, a, b, hij, -, hj, -, hb⟩
        obtain ⟨j, rfl⟩ : ∃ k, j = k + 1 := ⟨j - 1, by omega⟩
        have := one_le_countP.2 ⟨j, b, by simpa using hj, hb⟩
        omega
    · rw [List.countP_cons_of_neg hx, two_le_countP (l := l)]
      constructor
      · rintro ⟨i, j, a, b, hij, hi, hj, ha, hb⟩
        exact ⟨i + 1, j + 1, a, b, by omega, by simpa using hi, by simpa using hj, ha, hb⟩
      · rintro ⟨i, j, a, b, hij, hi, hj, ha, hb⟩
        obtain ⟨j, rfl⟩ : ∃ k, j = k + 1 := ⟨j - 1, by omega⟩
        cases i with
        | zero => simp only [List.getElem?_cons_zero, Option.some.injEq] at hi; subst hi; exact absurd ha hx
        | succ i => exact ⟨i, j, a, b, by omega, by simpa using hi, by simpa using hj, ha, hb⟩

section
variable {docs : List (List (List Char))}

theorem docFreq_two {t : List Char} : 2 ≤ docFreq docs t ↔
    ∃ (i j : Nat) (a b : List (List Char)), i < j ∧ docs[i]? = some a ∧ docs[j]? = some b ∧ t ∈ a ∧ t ∈ b := by
  unfold docFreq
  rw [two_le_countP]
  simp

theorem docFreq_two' {t : List Char} {i j : Nat} {a b : List (List Char)} (hij : i ≠ j) (hi : docs[i]? = some a) (hj : docs[j]? = some b)
    (ha : t ∈ a) (hb : t ∈ b) : 2 ≤ docFreq docs t := by
  rw [docFreq_two]
  rcases Nat.lt_or_gt_of_ne hij with h | h
  · exact ⟨i, j, a, b, h, hi, hj, ha, hb⟩
  · exact ⟨j, i, b, a, h, hj, hi, hb, ha⟩

theorem docFreq_other {t : List Char} {i : Nat} (h : 2 ≤ docFreq docs t) : ∃ (j : Nat) (b : List (List Char)), j ≠ i ∧
    docs[j]? = some b ∧ t ∈ b := by
  obtain ⟨k, j, a, b, hkj, hk, hj, ha, hb⟩ := docFreq_two.1 h
  by_cases e : j = i
  · exact ⟨k, a, by omega, hk, ha⟩
  · exact ⟨j, b, e, hj, hb⟩

theorem mem_vocabulary {t : List Char} : t ∈ vocabulary docs ↔ 2 ≤ docFreq docs t := by
  unfold vocabulary
  rw [List.mem_insertionSort, List.mem_filter, List.mem_dedup]
  constructor
  · intro h
    simpa using h.2
  · intro h
    obtain ⟨i, j, a, b, -, hi, -, ha, -⟩ := docFreq_two.1 h
    exact ⟨List.mem_flatten.2 ⟨a, List.mem_of_getElem? hi, ha⟩, by simpa using h⟩

theorem nodup_vocabulary : (vocabulary docs).Nodup :=
  (List.perm_insertionSort _ _).nodup_iff.2 ((List.nodup_dedup _).filter _)

theorem docFreq_le (t : List Char) : docFreq docs t ≤ docs.length := List.countP_le_length

theorem idf_pos {n df : Nat} (h : df ≤ n) : 0 < idf n df := by
  unfold idf
  have : 0 ≤ Real.log ((1 + n) / (1 + df)) := by
    apply Real.log_nonneg
    rw [le_div_iff₀ (by positivity)]
    have : (df : ℝ) ≤ n := by exact_mod_cast h
    linarith
  linarith

end

/-! ### Rows -/

theorem sum_map_nonneg {ι : Type} {l : List ι} {f : ι → ℝ} (h : ∀ t ∈ l, 0 ≤ f t) : 0 ≤ (l.map f).sum := by
  apply List.sum_nonneg
  intro x hx
  obtain ⟨t, ht, rfl⟩ := List.mem_map.1 hx
  exact h t ht

theorem sum_map_eq_zero {ι : Type} {l : List ι} {f : ι → ℝ} (h : ∀ t ∈ l, 0 ≤ f t) : (l.map f).sum = 0 ↔ ∀ t ∈ l, f t = 0 := by
  induction l with
  | nil => simp
  | cons a l ih =>
    have h1 := h a (by simp)
    have h2 := sum_map_nonneg fun t ht => h t (List.mem_cons_of_mem _ ht)
    rw [List.map_cons, List.sum_cons, List.forall_mem_cons, ← ih fun t ht => h t (List.mem_cons_of_mem _ ht)]
    constructor
    · intro e
      constructor <;> linarith
    · rintro ⟨e1, e2⟩
      linarith

theorem sum_map_congr {ι : Type} {l : List ι} {f g : ι → ℝ} (h : ∀ t ∈ l, f t = g t) : (l.map f).sum = (l.map g).sum := by
  rw [List.map_congr_left h]

theorem rowNorm_map {ι : Type} (l : List ι) (f : ι → ℝ) : rowNorm (l.map f) = √((l.map fun t => f t ^ 2).sum) := by
  unfold rowNorm
  rw [List.map_map]
  rfl

theorem rowNorm_zero {ι : Type} {l : List ι} {f : ι → ℝ} : rowNorm (l.map f) = 0 ↔ ∀ t ∈ l, f t = 0 := by
  rw [rowNorm_map, Real.sqrt_eq_zero (sum_map_nonneg fun t _ => sq_nonneg _), sum_map_eq_zero fun t _ => sq_nonneg _]
  simp

/-- The factor of a row. -/
theorem normalizeRow_map {ι : Type} (l : List ι) (f : ι → ℝ) : ∃ c : ℝ, 0 < c ∧ normalizeRow (l.map f) = l.map (fun t => c * f t) ∧
    ((∃ t ∈ l, f t ≠ 0) → (l.map fun t => (c * f t) ^ 2).sum = 1) := by
  unfold normalizeRow
  by_cases h : rowNorm (l.map f) = 0
  · refine ⟨1, one_pos, by simp [h], ?_⟩
    rintro ⟨t, ht, hne⟩
    exact absurd (rowNorm_zero.1 h t ht) hne
  · have hp : 0 < rowNorm (l.map f) := lt_of_le_of_ne (Real.sqrt_nonneg _) (Ne.symm h)
    refine ⟨(rowNorm (l.map f))⁻¹, inv_pos.2 hp, ?_, fun _ => ?_⟩
    · rw [if_neg h, List.map_map]
      apply List.map_congr_left
      intro t _
      simp only [Function.comp]
      rw [div_eq_inv_mul]
    · have e : (rowNorm (l.map f)) ^ 2 = (l.map fun t => f t ^ 2).sum := by
        rw [rowNorm_map, Real.sq_sqrt (sum_map_nonneg fun t _ => sq_nonneg _)]
      have : (l.map fun t => ((rowNorm (l.map f))⁻¹ * f t) ^ 2) = l.map fun t => ((rowNorm (l.map f))⁻¹) ^ 2 * f t ^ 2 :=
        List.map_congr_left fun t _ => by ring
      rw [this, List.sum_map_mul_left, ← e]
      field_simp

theorem rowDist_map {ι : Type} (l : List ι) (f g : ι → ℝ) : rowDist (l.map f) (l.map g) = √((l.map fun t => (f t - g t) ^ 2).sum) := by
  unfold rowDist
  rw [List.zipWith_map]
  congr 1
  congr 1
  induction l with
  | nil => rfl
  | cons a l ih => simp

theorem sum_sq_sub {ι : Type} (l : List ι) (f g : ι → ℝ) : (l.map fun t => (f t - g t) ^ 2).sum =
    (l.map fun t => f t ^ 2).sum + (l.map fun t => g t ^ 2).sum - 2 * (l.map fun t => f t * g t).sum := by
  induction l with
  | nil => simp
  | cons a l ih =>
    simp only [List.map_cons, List.sum_cons]
    rw [ih]
    ring

end Verif
