import Mathlib.Data.Finset.Prod
import Mathlib.Order.Interval.Finset.Nat
import Verif.Proofs.Tfidf
import Verif.Props.Usage

/-
C102: the TF-IDF vectors of `vectorize`.
-/

namespace Verif

variable {e : TfidfEnv}

theorem joinSpace_eq (l : List (List Char)) : joinSpace l = [' '].intercalate l := by
  induction l with
  | nil => rfl
  | cons w ws ih =>
    cases ws with
    | nil => simp [joinSpace]
    | cons v vs => rw [joinSpace, ih, List.intercalate_cons_cons]; simp; simp

theorem ngrams_count (n : Nat) (hn : 0 < n) (W : List (List Char)) (t : List Char) : (ngrams n W).count t =
    ((Finset.range W.length).filter fun i => i + n ≤ W.length ∧ [' '].intercalate ((W.drop i).take n) = t).card := by
  unfold ngrams
  rw [List.count, List.countP_map, List.countP_eq_length_filter]
  have h1 : ((List.range (W.length + 1 - n)).filter ((fun x => x == t) ∘ fun i => joinSpace ((W.drop i).take n))).length =
      (((List.range (W.length + 1 - n)).filter ((fun x => x == t) ∘ fun i => joinSpace ((W.drop i).take n))).toFinset).card :=
    (List.toFinset_card_of_nodup (List.nodup_range.filter _)).symm
  rw [h1]
  congr 1
  ext i
  simp only [List.mem_toFinset, List.mem_filter, List.mem_range, Function.comp_apply, beq_iff_eq, Finset.mem_filter, Finset.mem_range,
    joinSpace_eq]
  constructor
  · rintro ⟨a, b⟩; exact ⟨by omega, by omega, b⟩
  · rintro ⟨a, b, c⟩; exact ⟨by omega, c⟩

theorem ngrams_one (W : List (List Char)) : ngrams 1 W = W := by
  unfold ngrams
  apply List.ext_getElem
  · simp
  · intro i h1 h2
    simp [List.take_one_drop_eq_of_lt_length h2, joinSpace]

/-- C102: a term of a text is a sequence of one to three of its words (of two characters or more) that follow each other, joined by spaces,
and counts as often as there are such places. -/
theorem C102_terms {s : List Char} {ws : List (List Char)} (h : WordRuns e.isWord (e.lower s) ws) (t : List Char) :
    (tfTerms e s).count t = (((Finset.range (ws.filter fun w => decide (2 ≤ w.length)).length) ×ˢ Finset.Icc 1 3).filter fun p =>
      p.1 + p.2 ≤ (ws.filter fun w => decide (2 ≤ w.length)).length ∧
        [' '].intercalate (((ws.filter fun w => decide (2 ≤ w.length)).drop p.1).take p.2) = t).card := by
  have hw : tfTokens e s = ws.filter fun w => decide (2 ≤ w.length) := by
    unfold tfTokens
    rw [runs_pieces h, List.filter_filter]
    apply List.filter_congr
    intro w _
    cases w <;> simp
  unfold tfTerms
  rw [hw]
  generalize ws.filter (fun w => decide (2 ≤ w.length)) = W
  simp only
  rw [List.count_append, List.count_append]
  have h1 := ngrams_count 1 (by norm_num) W t
  rw [ngrams_one] at h1
  rw [h1, ngrams_count 2 (by norm_num), ngrams_count 3 (by norm_num)]
  simp only [Finset.card_filter]
  rw [Finset.sum_product_right, show Finset.Icc 1 3 = {1, 2, 3} from rfl, Finset.sum_insert (by decide), Finset.sum_insert (by decide),
    Finset.sum_singleton, Nat.add_assoc]

/-- In "de carte de" the word "de" counts twice and "de carte de" once; "carte carte" does not occur. -/
example : ∃ ws, WordRuns (fun c => c != ' ') "de carte de".toList ws ∧ (∃ w ∈ ws, 2 ≤ w.length) := by
  refine ⟨["de".toList, "carte".toList, "de".toList], ?_, "de".toList, by simp, by decide⟩
  refine .run (w := "de".toList) (s := " carte de".toList) (by decide) (by decide) (by decide) (.skip (by decide) ?_)
  refine .run (w := "carte".toList) (s := " de".toList) (by decide) (by decide) (by decide) (.skip (by decide) ?_)
  exact .run (w := "de".toList) (s := []) (by decide) (by decide) (by decide) .nil

theorem docs_getElem {texts : List (List Char)} {i : Nat} {d : List (List Char)} :
    (texts.map (tfTerms e))[i]? = some d ↔ ∃ s, texts[i]? = some s ∧ d = tfTerms e s := by
  rw [List.getElem?_map]
  cases texts[i]? <;> simp [eq_comm]

theorem vocabulary_share (hsp : e.isWord ' ' = false) {texts : List (List Char)} : vocabulary (texts.map (tfTerms e)) ≠ [] ↔
    ∃ (i j : Nat) (s s' : List Char), i < j ∧ texts[i]? = some s ∧ texts[j]? = some s' ∧ ShareWord e s s' := by
  constructor
  · intro h
    obtain ⟨t, ht⟩ := List.exists_mem_of_ne_nil _ h
    obtain ⟨i, j, a, b, hij, hi, hj, ha, hb⟩ := docFreq_two.1 (mem_vocabulary.1 ht)
    obtain ⟨s, h1, rfl⟩ := docs_getElem.1 hi
    obtain ⟨s', h2, rfl⟩ := docs_getElem.1 hj
    exact ⟨i, j, s, s', hij, h1, h2, terms_share hsp ha hb⟩
  · rintro ⟨i, j, s, s', hij, h1, h2, h3⟩
    obtain ⟨t, k1, k2⟩ := share_term h3
    have : t ∈ vocabulary (texts.map (tfTerms e)) := mem_vocabulary.2 (docFreq_two.2
      ⟨i, j, _, _, hij, docs_getElem.2 ⟨s, h1, rfl⟩, docs_getElem.2 ⟨s', h2, rfl⟩, k1, k2⟩)
    exact List.ne_nil_of_mem this

theorem tfidf_ok {texts : List (List Char)} (h : vocabulary (texts.map (tfTerms e)) ≠ []) :
    tfidf e texts = .ok ((texts.map (tfTerms e)).map fun d => normalizeRow (tfWeights (texts.map (tfTerms e)) d)) := by
  obtain ⟨t, ht⟩ := List.exists_mem_of_ne_nil _ h
  obtain ⟨i, j, a, b, hij, hi, hj, ha, hb⟩ := docFreq_two.1 (mem_vocabulary.1 ht)
  have h1 : (texts.map (tfTerms e)).flatten ≠ [] :=
    List.ne_nil_of_mem (List.mem_flatten.2 ⟨a, List.mem_of_getElem? hi, ha⟩)
  have h2 : ¬ texts.length < 2 := by
    have := (List.getElem?_eq_some_iff.1 hj).1
    rw [List.length_map] at this
    omega
  unfold tfidf
  dsimp only
  rw [if_neg h1, if_neg h2, if_neg h]

theorem tfidf_error {texts : List (List Char)} (h : vocabulary (texts.map (tfTerms e)) = []) : ∃ msg, tfidf e texts = .error (.valueError msg) := by
  unfold tfidf
  dsimp only
  rw [if_pos h]
  split
  · exact ⟨_, rfl⟩
  split <;> exact ⟨_, rfl⟩

/-- C102. TF-IDF vectorization succeeds exactly if two of the texts have a word in common; otherwise it raises `ValueError`. -/
theorem C102_succeeds (hsp : e.isWord ' ' = false) (texts : List (List Char)) :
    ((∃ rows, tfidf e texts = .ok rows) ↔
      ∃ (i j : Nat) (s s' : List Char), i < j ∧ texts[i]? = some s ∧ texts[j]? = some s' ∧ ShareWord e s s') ∧
    ∀ err, tfidf e texts = .error err → ∃ msg, err = .valueError msg := by
  rw [← vocabulary_share hsp]
  by_cases h : vocabulary (texts.map (tfTerms e)) = []
  · obtain ⟨msg, hm⟩ := tfidf_error h
    refine ⟨⟨?_, fun k => absurd h k⟩, ?_⟩
    · rintro ⟨rows, hr⟩
      rw [hm] at hr
      cases hr
    · intro err he
      rw [hm] at he
      cases he
      exact ⟨msg, rfl⟩
  · refine ⟨⟨fun _ => h, fun _ => ⟨_, tfidf_ok h⟩⟩, ?_⟩
    intro err he
    rw [tfidf_ok h] at he
    cases he

/-- The rows of a successful vectorization. -/
theorem tfidf_rows {texts : List (List Char)} {rows : List (List ℝ)} (h : tfidf e texts = .ok rows) :
    rows = texts.map fun s => normalizeRow (tfWeights (texts.map (tfTerms e)) (tfTerms e s)) := by
  by_cases hv : vocabulary (texts.map (tfTerms e)) = []
  · obtain ⟨msg, hm⟩ := tfidf_error hv
    rw [hm] at h
    cases h
  · rw [tfidf_ok hv] at h
    cases h
    rw [List.map_map]
    rfl

theorem weight_pos {docs : List (List (List Char))} {d : List (List Char)} {t : List Char} :
    0 ≤ (d.count t : ℝ) * idf docs.length (docFreq docs t) ∧ ((d.count t : ℝ) * idf docs.length (docFreq docs t) ≠ 0 ↔ t ∈ d) := by
  have hp := idf_pos (docFreq_le (docs := docs) t)
  refine ⟨by positivity, ?_⟩
  rw [mul_ne_zero_iff, Nat.cast_ne_zero, ← Nat.pos_iff_ne_zero, List.count_pos_iff]
  exact ⟨fun h => h.1, fun h => ⟨h, hp.ne'⟩⟩

/-- A row as a function of the terms. -/
theorem row_map (docs : List (List (List Char))) (d : List (List Char)) : ∃ v : List Char → ℝ,
    normalizeRow (tfWeights docs d) = (vocabulary docs).map v ∧ (∀ t, 0 ≤ v t) ∧ (∀ t, v t ≠ 0 ↔ t ∈ d) ∧
    ((∃ t ∈ vocabulary docs, t ∈ d) → ((vocabulary docs).map fun t => v t ^ 2).sum = 1) := by
  obtain ⟨c, h1, h2, h3⟩ := normalizeRow_map (vocabulary docs) fun t => (d.count t : ℝ) * idf docs.length (docFreq docs t)
  refine ⟨_, h2, fun t => mul_nonneg h1.le weight_pos.1, fun t => ?_, ?_⟩
  · rw [mul_ne_zero_iff]
    exact ⟨fun h => weight_pos.2.1 h.2, fun h => ⟨h1.ne', weight_pos.2.2 h⟩⟩
  · rintro ⟨t, ht, htd⟩
    exact h3 ⟨t, ht, weight_pos.2.2 htd⟩

/-- A text is related to another one exactly if one of its terms is in the vocabulary. -/
theorem related_iff (hsp : e.isWord ' ' = false) {texts : List (List Char)} {i : Nat} {s : List Char} (hi : texts[i]? = some s) :
    Related e texts i ↔ ∃ t ∈ vocabulary (texts.map (tfTerms e)), t ∈ tfTerms e s := by
  constructor
  · rintro ⟨j, s1, s', hij, h1, h2, h3⟩
    rw [hi] at h1
    cases h1
    obtain ⟨t, k1, k2⟩ := share_term h3
    exact ⟨t, mem_vocabulary.2 (docFreq_two' hij (docs_getElem.2 ⟨s', h2, rfl⟩) (docs_getElem.2 ⟨s, hi, rfl⟩) k2 k1), k1⟩
  · rintro ⟨t, h1, h2⟩
    obtain ⟨j, b, hj, hb, htb⟩ := docFreq_other (i := i) (mem_vocabulary.1 h1)
    obtain ⟨s', k, rfl⟩ := docs_getElem.1 hb
    exact ⟨j, s, s', hj, hi, k, terms_share hsp h2 htb⟩

/-- Two texts have a word in common exactly if they have a term of the vocabulary in common. -/
theorem share_iff (hsp : e.isWord ' ' = false) {texts : List (List Char)} {i j : Nat} {s s' : List Char} (hij : i ≠ j)
    (hi : texts[i]? = some s) (hj : texts[j]? = some s') :
    ShareWord e s s' ↔ ∃ t ∈ vocabulary (texts.map (tfTerms e)), t ∈ tfTerms e s ∧ t ∈ tfTerms e s' := by
  constructor
  · intro h
    obtain ⟨t, k1, k2⟩ := share_term h
    exact ⟨t, mem_vocabulary.2 (docFreq_two' hij (docs_getElem.2 ⟨s, hi, rfl⟩) (docs_getElem.2 ⟨s', hj, rfl⟩) k1 k2), k1, k2⟩
  · rintro ⟨t, -, h1, h2⟩
    exact terms_share hsp h1 h2

/-- C102. One row for each text, all of the same length and without negative entries. The row of a text that has a word in common with
another text has norm 1; every other row is zero. -/
theorem C102_rows (hsp : e.isWord ' ' = false) {texts : List (List Char)} {rows : List (List ℝ)} (h : tfidf e texts = .ok rows) :
    rows.length = texts.length ∧ (∃ n, 0 < n ∧ ∀ r ∈ rows, r.length = n) ∧ (∀ r ∈ rows, ∀ x ∈ r, 0 ≤ x) ∧
    ∀ i r, rows[i]? = some r → (Related e texts i → (r.map fun x => x ^ 2).sum = 1) ∧ (¬ Related e texts i → ∀ x ∈ r, x = 0) := by
  have hv : vocabulary (texts.map (tfTerms e)) ≠ [] := by
    intro hv
    obtain ⟨msg, hm⟩ := tfidf_error hv
    rw [hm] at h
    cases h
  have hr := tfidf_rows h
  subst hr
  refine ⟨by simp, ⟨(vocabulary (texts.map (tfTerms e))).length, List.length_pos_of_ne_nil hv, ?_⟩, ?_, ?_⟩
  · intro r hr
    obtain ⟨s, -, rfl⟩ := List.mem_map.1 hr
    obtain ⟨v, hv, -⟩ := row_map (texts.map (tfTerms e)) (tfTerms e s)
    rw [hv, List.length_map]
  · intro r hr x hx
    obtain ⟨s, -, rfl⟩ := List.mem_map.1 hr
    obtain ⟨v, hv, h1, -⟩ := row_map (texts.map (tfTerms e)) (tfTerms e s)
    rw [hv] at hx
    obtain ⟨t, -, rfl⟩ := List.mem_map.1 hx
    exact h1 t
  · intro i r hr
    rw [List.getElem?_map, Option.map_eq_some_iff] at hr
    obtain ⟨s, hs, rfl⟩ := hr
    obtain ⟨v, hv, h1, h2, h3⟩ := row_map (texts.map (tfTerms e)) (tfTerms e s)
    rw [hv, related_iff hsp hs]
    refine ⟨fun k => ?_, fun k x hx => ?_⟩
    · rw [List.map_map]
      exact h3 k
    · obtain ⟨t, ht, rfl⟩ := List.mem_map.1 hx
      by_contra hne
      exact k ⟨t, ht, (h2 t).1 hne⟩

/-- C102. Distances: below `√2` for two texts with a word in common, exactly `√2` for two texts without one that have words in common
with other texts, 1 if exactly one of them has no word in common with any other text, and 0 if neither has. -/
theorem C102_distances (hsp : e.isWord ' ' = false) {texts : List (List Char)} {rows : List (List ℝ)} (h : tfidf e texts = .ok rows)
    {i j : Nat} (hij : i ≠ j) {s s' : List Char} (hi : texts[i]? = some s) (hj : texts[j]? = some s') {r r' : List ℝ}
    (hr : rows[i]? = some r) (hr' : rows[j]? = some r') :
    (ShareWord e s s' → rowDist r r' < √2) ∧
    (¬ ShareWord e s s' → Related e texts i → Related e texts j → rowDist r r' = √2) ∧
    (Related e texts i → ¬ Related e texts j → rowDist r r' = 1) ∧
    (¬ Related e texts i → Related e texts j → rowDist r r' = 1) ∧
    (¬ Related e texts i → ¬ Related e texts j → rowDist r r' = 0) := by
  have hrows := tfidf_rows h
  subst hrows
  rw [List.getElem?_map, hi] at hr
  rw [List.getElem?_map, hj] at hr'
  simp only [Option.map_some, Option.some.injEq] at hr hr'
  obtain ⟨v, hv, v1, v2, v3⟩ := row_map (texts.map (tfTerms e)) (tfTerms e s)
  obtain ⟨w, hw, w1, w2, w3⟩ := row_map (texts.map (tfTerms e)) (tfTerms e s')
  rw [← hr, ← hr', hv, hw, rowDist_map, sum_sq_sub, share_iff hsp hij hi hj, related_iff hsp hi, related_iff hsp hj]
  have zv : (¬ ∃ t ∈ vocabulary (texts.map (tfTerms e)), t ∈ tfTerms e s) → ∀ t ∈ vocabulary (texts.map (tfTerms e)), v t = 0 := by
    intro k t ht
    by_contra hne
    exact k ⟨t, ht, (v2 t).1 hne⟩
  have zw : (¬ ∃ t ∈ vocabulary (texts.map (tfTerms e)), t ∈ tfTerms e s') → ∀ t ∈ vocabulary (texts.map (tfTerms e)), w t = 0 := by
    intro k t ht
    by_contra hne
    exact k ⟨t, ht, (w2 t).1 hne⟩
  have sv : (¬ ∃ t ∈ vocabulary (texts.map (tfTerms e)), t ∈ tfTerms e s) →
      ((vocabulary (texts.map (tfTerms e))).map fun t => v t ^ 2).sum = 0 := fun k =>
    (sum_map_eq_zero fun t _ => sq_nonneg _).2 fun t ht => by rw [zv k t ht]; ring
  have sw : (¬ ∃ t ∈ vocabulary (texts.map (tfTerms e)), t ∈ tfTerms e s') →
      ((vocabulary (texts.map (tfTerms e))).map fun t => w t ^ 2).sum = 0 := fun k =>
    (sum_map_eq_zero fun t _ => sq_nonneg _).2 fun t ht => by rw [zw k t ht]; ring
  have dot : (¬ ∃ t ∈ vocabulary (texts.map (tfTerms e)), t ∈ tfTerms e s ∧ t ∈ tfTerms e s') →
      ((vocabulary (texts.map (tfTerms e))).map fun t => v t * w t).sum = 0 := fun k =>
    (sum_map_eq_zero fun t _ => mul_nonneg (v1 t) (w1 t)).2 fun t ht => by
      by_contra hne
      obtain ⟨n1, n2⟩ := mul_ne_zero_iff.1 hne
      exact k ⟨t, ht, (v2 t).1 n1, (w2 t).1 n2⟩
  refine ⟨?_, ?_, ?_, ?_, ?_⟩
  · rintro ⟨t, ht, t1, t2⟩
    rw [v3 ⟨t, ht, t1⟩, w3 ⟨t, ht, t2⟩]
    have hd : 0 < ((vocabulary (texts.map (tfTerms e))).map fun t => v t * w t).sum := by
      refine lt_of_le_of_ne (sum_map_nonneg fun t _ => mul_nonneg (v1 t) (w1 t)) fun h0 => ?_
      have := (sum_map_eq_zero fun t _ => mul_nonneg (v1 t) (w1 t)).1 h0.symm t ht
      exact mul_ne_zero ((v2 t).2 t1) ((w2 t).2 t2) this
    apply Real.sqrt_lt_sqrt
    · have := sum_sq_sub (vocabulary (texts.map (tfTerms e))) v w
      rw [v3 ⟨t, ht, t1⟩, w3 ⟨t, ht, t2⟩] at this
      rw [← this]
      exact sum_map_nonneg fun t _ => sq_nonneg _
    · linarith
  · intro k1 k2 k3
    rw [v3 k2, w3 k3, dot k1]
    norm_num
  · intro k1 k2
    rw [v3 k1, sw k2, dot fun ⟨t, ht, h1, h2⟩ => k2 ⟨t, ht, h2⟩]
    norm_num
  · intro k1 k2
    rw [sv k1, w3 k2, dot fun ⟨t, ht, h1, h2⟩ => k1 ⟨t, ht, h1⟩]
    norm_num
  · intro k1 k2
    rw [sv k1, sw k2, dot fun ⟨t, ht, h1, h2⟩ => k1 ⟨t, ht, h1⟩]
    norm_num

/-! ### The order of the texts -/

theorem docFreq_perm {docs docs' : List (List (List Char))} (h : docs.Perm docs') : docFreq docs = docFreq docs' := by
  funext t
  exact h.countP_eq _

theorem vocabulary_perm {docs docs' : List (List (List Char))} (h : docs.Perm docs') : vocabulary docs = vocabulary docs' := by
  apply List.Perm.eq_of_pairwise (le := fun a b => a ≤ b)
  · intro a b _ _ h1 h2
    exact le_antisymm h1 h2
  · exact List.pairwise_insertionSort _ _
  · exact List.pairwise_insertionSort _ _
  · rw [List.perm_ext_iff_of_nodup nodup_vocabulary nodup_vocabulary]
    intro t
    rw [mem_vocabulary, mem_vocabulary, docFreq_perm h]

/-- C102. The row of a text depends on the text and on the collection of all texts, not on their order. -/
theorem C102_order {texts texts' : List (List Char)} (h : texts.Perm texts') : ∃ r : Except PyErr (List Char → List ℝ),
    tfidf e texts = r.map (fun f => texts.map f) ∧ tfidf e texts' = r.map (fun f => texts'.map f) := by
  have hd : (texts.map (tfTerms e)).Perm (texts'.map (tfTerms e)) := h.map _
  have h1 : ((texts.map (tfTerms e)).flatten = []) ↔ (texts'.map (tfTerms e)).flatten = [] := by
    rw [List.flatten_eq_nil_iff, List.flatten_eq_nil_iff]
    exact ⟨fun k l hl => k l (hd.mem_iff.2 hl), fun k l hl => k l (hd.mem_iff.1 hl)⟩
  have hw : ∀ d, tfWeights (texts'.map (tfTerms e)) d = tfWeights (texts.map (tfTerms e)) d := by
    intro d
    unfold tfWeights
    rw [vocabulary_perm hd, docFreq_perm hd, hd.length_eq]
  unfold tfidf
  dsimp only
  rw [← vocabulary_perm hd, ← h.length_eq]
  by_cases k1 : (texts.map (tfTerms e)).flatten = []
  · rw [if_pos k1, if_pos (h1.1 k1)]
    exact ⟨.error _, rfl, rfl⟩
  rw [if_neg k1, if_neg (fun k => k1 (h1.2 k))]
  by_cases k2 : texts.length < 2
  · rw [if_pos k2, if_pos k2]
    exact ⟨.error _, rfl, rfl⟩
  rw [if_neg k2, if_neg k2]
  by_cases k3 : vocabulary (texts.map (tfTerms e)) = []
  · rw [if_pos k3, if_pos k3]
    exact ⟨.error _, rfl, rfl⟩
  rw [if_neg k3, if_neg k3]
  refine ⟨.ok fun s => normalizeRow (tfWeights (texts.map (tfTerms e)) (tfTerms e s)), ?_, ?_⟩
  · rw [List.map_map]
    rfl
  · simp only [Except.map]
    rw [List.map_map]
    congr 1
    apply List.map_congr_left
    intro s _
    simp only [Function.comp]
    rw [hw]

/-! ### Equal rows -/

theorem rowNorm_smul {ι : Type} (l : List ι) (f : ι → ℝ) {c : ℝ} (hc : 0 < c) : rowNorm (l.map fun t => c * f t) = c * rowNorm (l.map f) := by
  rw [rowNorm_map, rowNorm_map]
  have : (l.map fun t => (c * f t) ^ 2) = l.map fun t => c ^ 2 * f t ^ 2 := List.map_congr_left fun t _ => by ring
  rw [this, List.sum_map_mul_left, Real.sqrt_mul (sq_nonneg _), Real.sqrt_sq hc.le]

theorem normalizeRow_smul {ι : Type} (l : List ι) (f : ι → ℝ) {c : ℝ} (hc : 0 < c) :
    normalizeRow (l.map fun t => c * f t) = normalizeRow (l.map f) := by
  unfold normalizeRow
  rw [rowNorm_smul l f hc]
  by_cases h : rowNorm (l.map f) = 0
  · rw [if_pos h, if_pos (by rw [h, mul_zero])]
    apply List.map_congr_left
    intro t ht
    rw [rowNorm_zero.1 h t ht, mul_zero]
  · rw [if_neg h, if_neg (mul_ne_zero hc.ne' h), List.map_map, List.map_map]
    apply List.map_congr_left
    intro t ht
    simp only [Function.comp]
    rw [mul_div_mul_left _ _ hc.ne']

/-- C102. Two texts have the same row exactly if the terms that occur in at least two of the texts occur in them in the same
proportions; terms of one text alone do not count. -/
theorem C102_equal {texts : List (List Char)} {rows : List (List ℝ)} (h : tfidf e texts = .ok rows) {i j : Nat} {s s' : List Char}
    (hi : texts[i]? = some s) (hj : texts[j]? = some s') : rows[i]? = rows[j]? ↔
    ∃ c : ℝ, 0 < c ∧ ∀ t, 2 ≤ docFreq (texts.map (tfTerms e)) t → ((tfTerms e s).count t : ℝ) = c * (tfTerms e s').count t := by
  have hr := tfidf_rows h
  subst hr
  rw [List.getElem?_map, List.getElem?_map, hi, hj]
  simp only [Option.map_some, Option.some.injEq]
  constructor
  · intro k
    unfold tfWeights at k
    obtain ⟨c1, p1, e1, -⟩ := normalizeRow_map (vocabulary (texts.map (tfTerms e))) fun t =>
      ((tfTerms e s).count t : ℝ) * idf (texts.map (tfTerms e)).length (docFreq (texts.map (tfTerms e)) t)
    obtain ⟨c2, p2, e2, -⟩ := normalizeRow_map (vocabulary (texts.map (tfTerms e))) fun t =>
      ((tfTerms e s').count t : ℝ) * idf (texts.map (tfTerms e)).length (docFreq (texts.map (tfTerms e)) t)
    rw [e1, e2] at k
    refine ⟨c2 / c1, by positivity, fun t ht => ?_⟩
    have := List.map_inj_left.1 k t (mem_vocabulary.2 ht)
    have hp := idf_pos (docFreq_le (docs := texts.map (tfTerms e)) t)
    generalize idf (texts.map (tfTerms e)).length (docFreq (texts.map (tfTerms e)) t) = q at *
    have h2 : c1 * ((tfTerms e s).count t : ℝ) = c2 * ((tfTerms e s').count t : ℝ) :=
      mul_right_cancel₀ hp.ne' (by linarith)
    rw [div_mul_eq_mul_div, eq_div_iff p1.ne']
    linarith
  · rintro ⟨c, hc, k⟩
    unfold tfWeights
    rw [← normalizeRow_smul _ (fun t => ((tfTerms e s').count t : ℝ) *
      idf (texts.map (tfTerms e)).length (docFreq (texts.map (tfTerms e)) t)) hc]
    congr 1
    apply List.map_congr_left
    intro t ht
    rw [k t (mem_vocabulary.1 ht)]
    ring

/-! ### The documented program, from the texts -/

section
variable {α δ : Type} [LinearOrder α] [LinearOrder δ]

/-- C102. The documented program on texts that could be preprocessed: it stops with `ValueError` if no two preprocessed texts have a word
in common, and otherwise gives every ID a vector and continues as described in C72. -/
theorem C102_program (hsp : e.isWord ' ' = false) {tenv : TextEnv (List ℝ)} (ht : tenv.tfidf = tfidf e) {texts : Dict α PyText}
    (hn : (dkeys texts).Nodup) {pre : Dict α (List Char)} (hp : preprocess tenv {} texts = .ok pre)
    (answer : Manager α → α → α → CType) (first : KMeansEnv α (List ℝ) δ) (chances : List (Chance α (List ℝ) δ)) :
    ((∀ x y s s', x ≠ y → dget? pre x = some s → dget? pre y = some s' → ¬ ShareWord e s s') →
      ∃ msg, usageTexts tenv texts answer first chances = .error (.valueError msg)) ∧
    (∀ x y s s', x ≠ y → dget? pre x = some s → dget? pre y = some s' → ShareWord e s s' →
      ∃ vectors, vectorize tenv (pre.map fun p => (p.1, PyText.str p.2)) "tfidf" "fr_core_news_md" = .ok vectors ∧
        (∀ x ∈ dkeys texts, ∃ v, dget? vectors x = some v) ∧
        usageTexts tenv texts answer first chances = usage (dkeys texts) vectors answer first chances) := by
  have hk : dkeys pre = dkeys texts := C52_preprocess_keys hn hp
  have hkeys : dkeys (pre.map fun p => (p.1, PyText.str p.2)) = dkeys pre := by
    unfold dkeys
    rw [List.map_map]
    rfl
  have hn' : (dkeys (pre.map fun p => (p.1, PyText.str p.2))).Nodup := by rw [hkeys, hk]; exact hn
  have hpn : (dkeys pre).Nodup := by rw [hk]; exact hn
  obtain ⟨v1, v2⟩ := C52_vectorize_tfidf (env := tenv) hn' "fr_core_news_md"
  have hstr : (pre.map fun p => (p.1, PyText.str p.2)).map (fun p => p.2.toStr) = pre.map Prod.snd := by
    rw [List.map_map]
    rfl
  rw [hstr, ht] at v1 v2
  have share : (∃ (i j : Nat) (s s' : List Char), i < j ∧ (pre.map Prod.snd)[i]? = some s ∧ (pre.map Prod.snd)[j]? = some s' ∧
      ShareWord e s s') ↔ ∃ x y s s', x ≠ y ∧ dget? pre x = some s ∧ dget? pre y = some s' ∧ ShareWord e s s' := by
    constructor
    · rintro ⟨i, j, s, s', hij, h1, h2, h3⟩
      rw [List.getElem?_map, Option.map_eq_some_iff] at h1 h2
      obtain ⟨⟨x, _⟩, k1, rfl⟩ := h1
      obtain ⟨⟨y, _⟩, k2, rfl⟩ := h2
      refine ⟨x, y, _, _, ?_, dget?_of_mem hpn (List.mem_of_getElem? k1), dget?_of_mem hpn (List.mem_of_getElem? k2), h3⟩
      rintro rfl
      have a1 : (dkeys pre)[i]? = some x := by simp [dkeys, k1]
      have a2 : (dkeys pre)[j]? = some x := by simp [dkeys, k2]
      exact hij.ne ((List.getElem?_inj (List.getElem?_eq_some_iff.1 a1).1 hpn).1 (a1.trans a2.symm))
    · rintro ⟨x, y, s, s', hxy, h1, h2, h3⟩
      obtain ⟨i, hi⟩ := List.mem_iff_getElem?.1 (mem_of_dget? h1)
      obtain ⟨j, hj⟩ := List.mem_iff_getElem?.1 (mem_of_dget? h2)
      have hij : i ≠ j := by
        rintro rfl
        rw [hi] at hj
        cases hj
        exact hxy rfl
      rcases Nat.lt_or_gt_of_ne hij with h | h
      · exact ⟨i, j, s, s', h, by simp [hi], by simp [hj], h3⟩
      · obtain ⟨w, w1, w2⟩ := h3
        exact ⟨j, i, s', s, h, by simp [hj], by simp [hi], w, w2, w1⟩
  obtain ⟨t1, t2⟩ := C102_succeeds hsp (pre.map Prod.snd)
  rw [share] at t1
  constructor
  · intro hno
    cases hr : tfidf e (pre.map Prod.snd) with
    | ok rows =>
      obtain ⟨x, y, s, s', a, b, c, d⟩ := t1.1 ⟨rows, hr⟩
      exact absurd d (hno x y s s' a b c)
    | error err =>
      obtain ⟨msg, rfl⟩ := t2 err hr
      refine ⟨msg, ?_⟩
      unfold usageTexts
      rw [hp]
      dsimp only [bind, Except.bind]
      rw [v1 _ hr]
  · intro x y s s' a b c d
    obtain ⟨rows, hr⟩ := t1.2 ⟨x, y, s, s', a, b, c, d⟩
    have hlen := (C102_rows hsp hr).1
    obtain ⟨r, k1, k2, k3⟩ := (v2 rows hr).2 (by rw [hlen]; simp)
    refine ⟨r, k1, ?_, ?_⟩
    · intro x hx
      rw [← hk, ← hkeys] at hx
      obtain ⟨i, hi⟩ := List.mem_iff_getElem?.1 hx
      rw [k3 i x hi]
      have : i < rows.length := by
        rw [hlen]
        have := (List.getElem?_eq_some_iff.1 hi).1
        simpa [dkeys] using this
      exact ⟨_, List.getElem?_eq_getElem this⟩
    · unfold usageTexts
      rw [hp]
      dsimp only [bind, Except.bind]
      rw [k1]

/-- C102. From texts to classes: with two preprocessed texts that have a word in common, truthful answers and at least two classes, the
documented program ends with exactly the classes. -/
theorem C102_truthful (hsp : e.isWord ' ' = false) {tenv : TextEnv (List ℝ)} (ht : tenv.tfidf = tfidf e) {texts : Dict α PyText}
    (hn : (dkeys texts).Nodup) {pre : Dict α (List Char)} (hp : preprocess tenv {} texts = .ok pre) {x y : α} {s s' : List Char}
    (hxy : x ≠ y) (hx : dget? pre x = some s) (hy : dget? pre y = some s') (hs : ShareWord e s s')
    {answer : Manager α → α → α → CType} {truth : α → Nat} (hans : ∀ m x y, Agrees truth x y (answer m x y))
    (htwo : ∃ x ∈ dkeys texts, ∃ y ∈ dkeys texts, truth x ≠ truth y) {first : KMeansEnv α (List ℝ) δ} (hf : first.Ok)
    {chances : List (Chance α (List ℝ) δ)} (hc : ∀ c ∈ chances, c.Ok)
    (hlen : (dkeys texts).length * ((dkeys texts).length - 1) / 2 ≤ chances.length) :
    ∃ m r, usageTexts tenv texts answer first chances = .ok (m, r) ∧ (∀ x, x ∈ dkeys r ↔ x ∈ dkeys texts) ∧
      ∀ x ∈ dkeys texts, ∀ y ∈ dkeys texts, (dget? r x = dget? r y ↔ truth x = truth y) := by
  obtain ⟨vectors, -, h2, h3⟩ := (C102_program hsp ht hn hp answer first chances).2 x y s s' hxy hx hy hs
  rw [h3]
  exact C72_truthful h2 hans htwo hf hc hlen

end

/-! ### Examples and witnesses -/

/-- Letters and digits in ASCII. -/
def asciiTfidf : TfidfEnv := ⟨fun s => s.map Char.toLower, fun c => c.isAlphanum || c == '_'⟩

/-- The texts of `/repo/docs/usage.md`, lines 19-27, preprocessed. -/
def usagePageTexts : List (List Char) :=
  ["this is my first question".toList, "this is my second item".toList, "this is my third query".toList,
   "this is my fourth issue".toList, "this is my last request".toList]

theorem usagePage_vocabulary : vocabulary (usagePageTexts.map (tfTerms asciiTfidf)) =
    ["is".toList, "is my".toList, "my".toList, "this".toList, "this is".toList, "this is my".toList] := by decide +kernel

/-- On the texts of the documentation, the vectorization of the documentation gives the same vector to all texts: what distinguishes them
is dropped by `min_df=2`. -/
theorem C102_documentation : ∃ rows, tfidf asciiTfidf usagePageTexts = .ok rows ∧ rows.length = 5 ∧
    ∀ r ∈ rows, ∀ r' ∈ rows, r = r' := by
  have hv : vocabulary (usagePageTexts.map (tfTerms asciiTfidf)) ≠ [] := by rw [usagePage_vocabulary]; simp
  refine ⟨_, tfidf_ok hv, by simp [usagePageTexts], ?_⟩
  have key : ∀ s ∈ usagePageTexts, ∀ t ∈ vocabulary (usagePageTexts.map (tfTerms asciiTfidf)), (tfTerms asciiTfidf s).count t = 1 := by
    rw [usagePage_vocabulary]
    decide +kernel
  have rows : ∀ s ∈ usagePageTexts, normalizeRow (tfWeights (usagePageTexts.map (tfTerms asciiTfidf)) (tfTerms asciiTfidf s)) =
      normalizeRow ((vocabulary (usagePageTexts.map (tfTerms asciiTfidf))).map fun t =>
        ((1 : Nat) : ℝ) * idf (usagePageTexts.map (tfTerms asciiTfidf)).length (docFreq (usagePageTexts.map (tfTerms asciiTfidf)) t)) := by
    intro s hs
    congr 1
    apply List.map_congr_left
    intro t ht
    rw [key s hs t ht]
  intro r hr r' hr'
  rw [List.map_map] at hr hr'
  obtain ⟨s, hs, rfl⟩ := List.mem_map.1 hr
  obtain ⟨s', hs', rfl⟩ := List.mem_map.1 hr'
  exact (rows s hs).trans (rows s' hs').symm

/-- The vectors of two texts depend on the other texts: equal vectors become different when a text is added. -/
theorem C102_context : ∃ (texts : List (List Char)) (more : List Char) (rows rows' : List (List ℝ)),
    tfidf asciiTfidf texts = .ok rows ∧ tfidf asciiTfidf (texts ++ [more]) = .ok rows' ∧ rows[0]? = rows[1]? ∧ rows'[0]? ≠ rows'[1]? := by
  have h1 : vocabulary ((["bank card".toList, "bank loan".toList] : List (List Char)).map (tfTerms asciiTfidf)) ≠ [] := by decide +kernel
  have h2 : vocabulary ((["bank card".toList, "bank loan".toList, "card".toList] : List (List Char)).map (tfTerms asciiTfidf)) ≠ [] := by
    decide +kernel
  refine ⟨["bank card".toList, "bank loan".toList], "card".toList, _, _, tfidf_ok h1, tfidf_ok h2, ?_, ?_⟩
  · refine (C102_equal (tfidf_ok h1) (i := 0) (j := 1) rfl rfl).2 ⟨1, one_pos, fun t ht => ?_⟩
    have hm := mem_vocabulary.2 ht
    have e1 : vocabulary ((["bank card".toList, "bank loan".toList] : List (List Char)).map (tfTerms asciiTfidf)) = ["bank".toList] := by
      decide +kernel
    rw [e1, List.mem_singleton] at hm
    subst hm
    have a : (tfTerms asciiTfidf "bank card".toList).count "bank".toList = 1 := by decide +kernel
    have b : (tfTerms asciiTfidf "bank loan".toList).count "bank".toList = 1 := by decide +kernel
    rw [a, b]
    norm_num
  · intro hc
    obtain ⟨c, hc, k⟩ := (C102_equal (tfidf_ok h2) (i := 0) (j := 1) rfl rfl).1 hc
    have := k "card".toList (by decide +kernel)
    have a : (tfTerms asciiTfidf "bank card".toList).count "card".toList = 1 := by decide +kernel
    have b : (tfTerms asciiTfidf "bank loan".toList).count "card".toList = 0 := by decide +kernel
    rw [a, b] at this
    norm_num at this

/-- Two texts that have no word in common with each other nor with any other text have the same vector: they are closest neighbours. -/
example : ∃ rows r r', tfidf asciiTfidf ["red car".toList, "my car".toList, "hello".toList, "good bye".toList] = .ok rows ∧
    rows[2]? = some r ∧ rows[3]? = some r' ∧ rowDist r r' = 0 := by
  have hv : vocabulary ((["red car".toList, "my car".toList, "hello".toList, "good bye".toList] : List (List Char)).map
    (tfTerms asciiTfidf)) ≠ [] := by decide +kernel
  refine ⟨_, _, _, tfidf_ok hv, rfl, rfl, ?_⟩
  refine (C102_distances (by decide) (tfidf_ok hv) (i := 2) (j := 3) (by decide) rfl rfl rfl rfl).2.2.2.2 ?_ ?_
  · rw [related_iff (by decide) (i := 2) rfl]
    decide +kernel
  · rw [related_iff (by decide) (i := 3) rfl]
    decide +kernel

/-- Texts with a word in common, and texts without. -/
example : ShareWord asciiTfidf "Red car!".toList "my CAR".toList ∧ ¬ ShareWord asciiTfidf "a red car".toList "a boat".toList := by
  refine ⟨⟨"car".toList, wordOf_iff.2 (by decide +kernel), wordOf_iff.2 (by decide +kernel)⟩, ?_⟩
  rintro ⟨w, h1, h2⟩
  have h1 := wordOf_iff.1 h1
  have h2 := wordOf_iff.1 h2
  have e1 : tfTokens asciiTfidf "a red car".toList = ["red".toList, "car".toList] := by decide +kernel
  have e2 : tfTokens asciiTfidf "a boat".toList = ["boat".toList] := by decide +kernel
  rw [e1] at h1
  rw [e2] at h2
  rw [List.mem_singleton] at h2
  subst h2
  exact absurd h1 (by decide)

/-- The terms of a text, and the vocabulary of the repository's own test (tests/utils/test_vectorization.py, line 45). -/
example : tfTerms asciiTfidf "signaler une perte de carte".toList = ["signaler", "une", "perte", "de", "carte", "signaler une",
      "une perte", "perte de", "de carte", "signaler une perte", "une perte de", "perte de carte"].map String.toList ∧
    vocabulary (["comment signaler une perte de carte de paiement".toList,
      "quelle est la procedure pour chercher une carte de credit avalee".toList,
      "ma carte visa a un plafond de paiment trop bas puis je l augmenter".toList].map (tfTerms asciiTfidf)) =
      ["carte", "carte de", "de", "une"].map String.toList := by
  constructor <;> decide +kernel

/-- A spaCy that splits at spaces, for the example of `C102_program`. -/
noncomputable def tfidfDemoEnv : TextEnv (List ℝ) where
  lower s := s
  strip s := s
  nfkd s := s
  combining _ := false
  installed _ := true
  nlp _ s := .ok ((wordPieces (fun c => c != ' ') s).map fun w => ⟨w, w, w.isEmpty, false, false, false, 0⟩)
  vector _ _ := .ok []
  tfidf := tfidf asciiTfidf

/-- The hypotheses of `C102_program` are met by two texts with a word in common. -/
example : (dkeys ([(1, .str "red car".toList), (2, .str "my, car".toList)] : Dict Nat PyText)).Nodup ∧
    preprocess tfidfDemoEnv {} ([(1, .str "red car".toList), (2, .str "my, car".toList)] : Dict Nat PyText) =
      .ok [(1, "red car".toList), (2, "my car".toList)] ∧ ShareWord asciiTfidf "red car".toList "my car".toList := by
  refine ⟨by decide, by rfl, "car".toList, wordOf_iff.2 (by decide +kernel), wordOf_iff.2 (by decide +kernel)⟩

/-- The whole program on these two texts, in two classes. -/
noncomputable def tfidfDemoKMeans : KMeansEnv Nat (List ℝ) ℝ := ⟨rowDist, fun l => l.headD [], fun _ => true, List.dedup, fun l => l⟩

example : ∃ m r, usageTexts tfidfDemoEnv ([(1, .str "red car".toList), (2, .str "my, car".toList)] : Dict Nat PyText)
      (usageTruth id) tfidfDemoKMeans [⟨tfidfDemoKMeans, fun l k => l.reverse.take k, plainOrders⟩] = .ok (m, r) ∧
    dget? r 1 ≠ dget? r 2 := by
  have henv : tfidfDemoKMeans.Ok := ⟨fun l => ⟨List.nodup_dedup l, fun x => List.mem_dedup⟩, fun l => .refl l⟩
  obtain ⟨m, r, h1, -, h3⟩ := C102_truthful (e := asciiTfidf) (tenv := tfidfDemoEnv) (by decide) rfl
    (texts := ([(1, .str "red car".toList), (2, .str "my, car".toList)] : Dict Nat PyText)) (by decide)
    (pre := [(1, "red car".toList), (2, "my car".toList)]) (by rfl) (x := 1) (y := 2) (by decide) rfl rfl
    ⟨"car".toList, wordOf_iff.2 (by decide +kernel), wordOf_iff.2 (by decide +kernel)⟩ (answer := usageTruth id) (truth := id)
    (fun m x y => by unfold usageTruth; split <;> assumption) ⟨1, by decide, 2, by decide, by decide⟩ henv
    (chances := [⟨tfidfDemoKMeans, fun l k => l.reverse.take k, plainOrders⟩])
    (by
      intro c hc
      rw [List.mem_singleton] at hc
      subst hc
      exact ⟨henv, fun l k hk => ⟨by simpa using hk, ((List.take_sublist _ _).subperm).trans (List.reverse_perm l).subperm⟩,
        fun nodes adj => plainOrders_valid nodes adj⟩) (by decide)
  exact ⟨m, r, h1, fun h => absurd ((h3 1 (by decide) 2 (by decide)).1 h) (by decide)⟩

end Verif
