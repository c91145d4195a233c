import Verif.Proofs.FloatTfidf
import Verif.Props.FloatLink

/-
C124: the TF-IDF vectors in binary64, and what they change.
-/

namespace Verif

variable {c : FlCalc} {e : TfidfEnv}

theorem flTfidf_ok {texts : List (List Char)} (h : vocabulary (texts.map (tfTerms e)) ≠ []) :
    flTfidf c e texts = .ok ((texts.map (tfTerms e)).map fun d => flNormalize c (flWeights c (texts.map (tfTerms e)) d)) := by
  obtain ⟨t, ht⟩ := List.exists_mem_of_ne_nil _ h
  obtain ⟨i, j, a, b, hij, hi, hj, ha, hb⟩ := docFreq_two.1 (mem_vocabulary.1 ht)
  have h1 : (texts.map (tfTerms e)).flatten ≠ [] :=
    List.ne_nil_of_mem (List.mem_flatten.2 ⟨a, List.mem_of_getElem? hi, ha⟩)
  have h2 : ¬ texts.length < 2 := by
    have := (List.getElem?_eq_some_iff.1 hj).1
    rw [List.length_map] at this
    omega
  unfold flTfidf
  dsimp only
  rw [if_neg h1, if_neg h2, if_neg h]

/-- C124. Vectorization in binary64 raises the exceptions of the exact one. Otherwise all rows have `D` entries, for some `D`; the entries
are the exact ones up to a factor between `(1 + 2^(-52))^(-(D + 18))` and `(1 + 2^(-52))^(D + 18)`, and the exact rows have length at most 1. -/
theorem C124_rows (hc : c.Ok) (e : TfidfEnv) (texts : List (List Char)) :
    (∀ err, flTfidf c e texts = .error err ↔ tfidf e texts = .error err) ∧
    ∀ rows, tfidf e texts = .ok rows → ∃ D rows', flTfidf c e texts = .ok rows' ∧
      List.Forall₂ (fun r r' => RowNear D (D + 18) r r' ∧ UnitRow r) rows rows' := by
  by_cases hv : vocabulary (texts.map (tfTerms e)) = []
  · constructor
    · intro err
      unfold flTfidf tfidf
      dsimp only
      rw [if_pos hv, if_pos hv]
      split
      · simp
      split <;> simp
    · intro rows hr
      obtain ⟨msg, hm⟩ := tfidf_error hv
      rw [hm] at hr
      cases hr
  · rw [flTfidf_ok hv, tfidf_ok hv]
    refine ⟨by simp, fun rows hr => ?_⟩
    cases hr
    refine ⟨(vocabulary (texts.map (tfTerms e))).length, _, rfl, ?_⟩
    generalize texts.map (tfTerms e) = docs
    rw [List.forall₂_map_left_iff, List.forall₂_map_right_iff, List.forall₂_same]
    intro d _
    obtain ⟨v, v', h1, h2, h3⟩ := flNormalize_nearBy hc (l := vocabulary docs) fun t _ => flWeight_nearBy hc docs d t
    have e1 : normalizeRow (tfWeights docs d) = (vocabulary docs).map v := h1
    have e2 : flNormalize c (flWeights c docs d) = (vocabulary docs).map v' := h2
    rw [e1, e2]
    refine ⟨⟨by simp, by simp, fun i hi => ?_⟩, ?_⟩
    · rw [List.getElem?_map, List.getElem?_map, List.getElem?_eq_getElem hi]
      exact h3 _ (List.getElem_mem hi)
    · rw [← e1]
      obtain ⟨f, -, k2, k3⟩ := normalizeRow_map (vocabulary docs) fun t => (d.count t : ℝ) * idf docs.length (docFreq docs t)
      have k2' : normalizeRow (tfWeights docs d) = _ := k2
      unfold UnitRow
      rw [k2', List.map_map]
      by_cases hz : ∃ t ∈ vocabulary docs, (d.count t : ℝ) * idf docs.length (docFreq docs t) ≠ 0
      · exact (k3 hz).le
      · push Not at hz
        refine le_trans (le_of_eq ?_) zero_le_one
        refine (sum_map_eq_zero (f := fun t => (f * (d.count t * idf docs.length (docFreq docs t))) ^ 2) fun t _ => sq_nonneg _).2 ?_
        intro t ht
        simp [hz t ht]

/-- C124. The relative error of an entry, and its sign: computed entries are 0 exactly where the exact ones are. -/
theorem C124_entry {D k : Nat} {v : List ℝ} {v' : List ℚ} (h : RowNear D k v v') {i : Nat} {a : ℝ} {b : ℚ} (ha : v[i]? = some a)
    (hb : v'[i]? = some b) : |(b : ℝ) - a| ≤ ((1 + 1 / 2 ^ 52) ^ k - 1) * a ∧ (b = 0 ↔ a = 0) ∧ 0 ≤ b := by
  have hi : i < D := h.1 ▸ (List.getElem?_eq_some_iff.1 ha).1
  have h1 := h.2.2 i hi
  rw [ha, hb] at h1
  have this : NearBy k a b := h1
  refine ⟨this.err, ?_, by exact_mod_cast this.2.1⟩
  rw [← this.zero_iff]
  simp

/-- C124. Computed distances of rows are off by at most `3 * η`. -/
theorem C124_distance {D n : Nat} {η : ℝ} (hη : TextError D n η) {v w : List ℝ} {v' w' : List ℚ} (hv : RowNear D (D + 18) v v')
    (hw : RowNear D (D + 18) w w') (uv : UnitRow v) (uw : UnitRow w) {d : List ℚ → List ℚ → ℝ} (hd : ComputedRows d) :
    |d v' w' - rowDist v w| ≤ 3 * η := by
  obtain ⟨s, h1, h2⟩ := hd D v' w' hv.2.1 hw.2.1
  rw [h2]
  exact (flEuclid_rows hη (by omega) hv hw uv uw h1).1

/-- C124. What the computed distance of two texts says: texts without a common word are at distance about `√2`; a text that has a word in
common with another one and a text that has not are at distance about 1; two texts that have no word in common with any other text are at
distance about 0. -/
theorem C124_words (hc : c.Ok) (hsp : e.isWord ' ' = false) {texts : List (List Char)} {rows' : List (List ℚ)}
    (h : flTfidf c e texts = .ok rows') {i j : Nat} (hij : i ≠ j) {s s' : List Char} (hi : texts[i]? = some s) (hj : texts[j]? = some s')
    {r r' : List ℚ} (hr : rows'[i]? = some r) (hr' : rows'[j]? = some r') {η : ℝ} (hη : TextError r.length 0 η) {d : List ℚ → List ℚ → ℝ}
    (hd : ComputedRows d) :
    (ShareWord e s s' → d r r' < √2 + 3 * η) ∧
    (¬ ShareWord e s s' → Related e texts i → Related e texts j → |d r r' - √2| ≤ 3 * η) ∧
    (Related e texts i → ¬ Related e texts j → |d r r' - 1| ≤ 3 * η) ∧
    (¬ Related e texts i → ¬ Related e texts j → |d r r'| ≤ 3 * η) := by
  obtain ⟨h1, h2⟩ := C124_rows hc e texts
  cases ht : tfidf e texts with
  | error err =>
    rw [(h1 err).2 ht] at h
    cases h
  | ok rows =>
    obtain ⟨D, rows'', h3, h4⟩ := h2 rows ht
    rw [h] at h3
    cases h3
    have get : ∀ {i : Nat} {r : List ℚ}, rows'[i]? = some r → ∃ v, rows[i]? = some v ∧ RowNear D (D + 18) v r ∧ UnitRow v := fun {i r} hr => by
      obtain ⟨hlt, rfl⟩ := List.getElem?_eq_some_iff.1 hr
      have hlt' : i < rows.length := by rw [h4.length_eq]; exact hlt
      exact ⟨rows[i], List.getElem?_eq_getElem hlt', h4.get hlt' hlt⟩
    obtain ⟨v, v1, v2, v3⟩ := get hr
    obtain ⟨w, w1, w2, w3⟩ := get hr'
    rw [v2.2.1] at hη
    have key := C124_distance hη v2 w2 v3 w3 hd
    obtain ⟨c1, c2, c3, -, c5⟩ := C102_distances hsp ht hij hi hj v1 w1
    refine ⟨fun k => ?_, fun k1 k2 k3 => ?_, fun k1 k2 => ?_, fun k1 k2 => ?_⟩
    · have := (abs_le.1 key).2
      have := c1 k
      linarith
    · rw [← c2 k1 k2 k3]; exact key
    · rw [← c3 k1 k2]; exact key
    · rw [← sub_zero (d r r'), ← c5 k1 k2]; exact key

section
variable {α : Type} [LinearOrder α]

/-- C124. `vectorize` in binary64 and in exact arithmetic. -/
theorem C124_vectors (hc : c.Ok) {tenv : TextEnv (List ℝ)} (ht : tenv.tfidf = tfidf e) {tenv' : TextEnv (List ℚ)}
    (ht' : tenv'.tfidf = flTfidf c e) {texts : Dict α PyText} (hn : (dkeys texts).Nodup) (model : String) :
    (∀ err, vectorize tenv' texts "tfidf" model = .error err ↔ vectorize tenv texts "tfidf" model = .error err) ∧
    ∀ vs, vectorize tenv texts "tfidf" model = .ok vs → ∃ D vs', vectorize tenv' texts "tfidf" model = .ok vs' ∧ TextVectors D vs vs' := by
  obtain ⟨v1, v2⟩ := C52_vectorize_tfidf (env := tenv) hn model
  obtain ⟨w1, w2⟩ := C52_vectorize_tfidf (env := tenv') hn model
  rw [ht] at v1 v2
  rw [ht'] at w1 w2
  obtain ⟨r1, r2⟩ := C124_rows hc e (texts.map fun p => p.2.toStr)
  cases hr : tfidf e (texts.map fun p => p.2.toStr) with
  | error err =>
    rw [v1 _ hr, w1 _ ((r1 err).2 hr)]
    simp
  | ok rows =>
    obtain ⟨D, rows', h1, h2⟩ := r2 rows hr
    have hlen : rows.length = texts.length := by
      have := congrArg List.length (tfidf_rows hr)
      simpa using this
    obtain ⟨vs, a1, a2, a3⟩ := (v2 rows hr).2 hlen.ge
    obtain ⟨vs', b1, b2, b3⟩ := (w2 rows' h1).2 (h2.length_eq ▸ hlen.ge)
    rw [a1, b1]
    refine ⟨by simp, fun us hu => ?_⟩
    cases hu
    refine ⟨D, vs', rfl, b2.trans a2.symm, fun x v v' hx hx' => ?_⟩
    have hmem : x ∈ dkeys texts := a2 ▸ mem_dkeys_of_dget? hx
    obtain ⟨i, hi⟩ := List.mem_iff_getElem?.1 hmem
    rw [a3 i x hi] at hx
    rw [b3 i x hi] at hx'
    obtain ⟨l1, rfl⟩ := List.getElem?_eq_some_iff.1 hx
    obtain ⟨l2, rfl⟩ := List.getElem?_eq_some_iff.1 hx'
    exact h2.get l1 l2

variable {m : Manager α} {vs : Dict α (List ℝ)} {vs' : Dict α (List ℚ)} {D n : Nat} {η : ℝ}

theorem TextVectors.get (h : TextVectors D vs vs') {x : α} {v' : List ℚ} (hx : dget? vs' x = some v') :
    ∃ v, dget? vs x = some v ∧ RowNear D (D + 18) v v' ∧ UnitRow v := by
  obtain ⟨v, hv⟩ := exists_dget?_iff.2 (h.keys ▸ mem_dkeys_of_dget? hx)
  exact ⟨v, hv, h.rows x v v' hv hx⟩

theorem TextVectors.domain (h : TextVectors D vs vs') : SameDomain m vs vs' := by
  intro x _
  rw [Bool.eq_iff_iff, Option.isSome_iff_exists, Option.isSome_iff_exists, exists_dget?_iff, exists_dget?_iff, h.keys]

theorem TextVectors.has (h : TextVectors D vs vs') (hv : HasVectors m vs) : HasVectors m vs' := fun x hx => by
  obtain ⟨v, hxv⟩ := hv x hx
  exact exists_dget?_iff.2 (h.keys.symm ▸ mem_dkeys_of_dget? hxv)

/-- C124. The distances between IDs that are computed from computed vectors. -/
theorem C124_distances (hη : TextError D n η) (h : TextVectors D vs vs') {d : List ℚ → List ℚ → ℝ} (hd : ComputedRows d) :
    DistancesWithin (3 * η) m rowDist vs d vs' := by
  intro x _ y _ a b ha hb
  unfold distanceOf at ha hb
  cases e1 : dget? vs' x with
  | none => rw [e1] at hb; simp at hb
  | some v' =>
    cases e2 : dget? vs' y with
    | none => rw [e1, e2] at hb; simp at hb
    | some w' =>
      obtain ⟨v, hv, v1, v2⟩ := h.get e1
      obtain ⟨w, hw, w1, w2⟩ := h.get e2
      rw [e1, e2] at hb
      rw [hv, hw] at ha
      cases ha
      cases hb
      exact C124_distance hη v1 w1 v2 w2 hd

/-- C124. Hierarchical clustering (single, complete) of texts: the same tree and clusters as in exact arithmetic, when different pairs of
texts have distances that differ by more than `6 * η`. -/
theorem C124_hierarchical (hm : Reachable m) (hη : TextError D n η) (h : TextVectors D vs vs') {env : HierEnv (List ℝ) ℝ}
    {env' : HierEnv (List ℚ) ℝ} (he : env.metric = rowDist) (he' : ComputedRows env'.metric) {o o₁ : HObject α (List ℝ)}
    {o' : HObject α (List ℚ)} (hl : o.linkage = .single ∨ o.linkage = .complete) (ho : SameTree o o') {nb : Option Int} {r : Dict α Int}
    (hr : o.cluster env m (some vs) nb = (o₁, .ok r)) (hgap : GapDistances (6 * η) rowDist vs m.managed) :
    (o'.cluster env' m (some vs') nb).2 = .ok r ∧ SameTree o₁ (o'.cluster env' m (some vs') nb).1 := by
  obtain ⟨vs0, n0, h0, -, -, hv0, -⟩ := hier_args hr
  cases h0
  refine C111_hierarchical hm ho hr (h.has hv0) (ε := 3 * η) (C111_linkage hl hv0 (h.has hv0) (he ▸ C124_distances hη h he')) ?_
  rw [show 3 * η + 3 * η = 6 * η by ring]
  exact C111_gap hl hm hr (he ▸ hgap)

/-- C124. C-DBScan on texts, when no distance is within `3 * η` of the radius. -/
theorem C124_dbscan (hη : TextError D n η) (h : TextVectors D vs vs') {env : DbEnv α (List ℝ) ℝ} {env' : DbEnv α (List ℚ) ℝ}
    (he : env.metric = rowDist) (he' : ComputedRows env'.metric) {p : DbParams ℝ} (hmargin : RadiusMargin (3 * η) m rowDist vs p.eps)
    (henum : env'.enum = env.enum) (hnone : env'.none = env.none) (nb : Option Int) :
    dbCluster env' p m (some vs') nb = dbCluster env p m (some vs) nb :=
  C111_dbscan h.domain (he ▸ C124_distances hη h he') (he ▸ hmargin) rfl henum hnone rfl rfl nb

/-- C124. Sampling of pairs of texts, when the distances of the eligible pairs differ by more than `6 * η`. -/
theorem C124_sampling (hm : Reachable m) (hη : TextError D n η) (h : TextVectors D vs vs') {cfg : Sampler} {d : List ℚ → List ℚ → ℝ}
    (hd : ComputedRows d) {clustering : Option (Dict α Int)}
    (hgap : ∀ p q, Eligible cfg m clustering p → Eligible cfg m clustering q → p ≠ q → ∀ a b, distanceOf rowDist vs p.1 p.2 = some a →
      distanceOf rowDist vs q.1 q.2 = some b → 6 * η < |b - a|) (nb : Option Int) (pick : List (α × α) → Nat → List (α × α)) :
    cfg.sample m nb clustering (some vs') d pick = cfg.sample m nb clustering (some vs) rowDist pick :=
  C111_sampling hm h.domain (C124_distances hη h hd) (by
    rw [show 3 * η + 3 * η = 6 * η by ring]
    exact hgap) nb pick

/-! ### COP-KMeans -/

variable {tol : ℚ} {enum : List Int → List Int} {shuffle : List α → List α} {env' : KMeansEnv α (List ℚ) ℝ}

/-- An environment that computes in binary64 with the rows that satisfy `P` (those of texts) and `Q` (those of texts and centroids). -/
structure RowsOn (D n : Nat) (P Q : List ℚ → Prop) (tol : ℚ) (env : KMeansEnv α (List ℚ) ℝ) : Prop where
  sub : ∀ v, P v → Q v
  metric : ∀ v w, Q v → Q w → v.length = D → w.length = D → ∃ s : ℚ, FlEuclid (rowVec D v) (rowVec D w) s ∧ env.metric v w = s
  mean : ∀ l, l ≠ [] → l.length ≤ n → (∀ r ∈ l, P r ∧ r.length = D) → env.mean l = colwise flMean l ∧ Q (colwise flMean l)
  small : ∀ l : List (List ℚ × List ℚ), l.length ≤ n → (∀ p ∈ l, (Q p.1 ∧ p.1.length = D) ∧ Q p.2 ∧ p.2.length = D) → ∃ ds : List ℚ,
    List.Forall₂ (fun p s => FlEuclid (rowVec D p.1) (rowVec D p.2) s) l ds ∧ (env.small l = true ↔ flSum ds < tol)

variable {P Q : List ℚ → Prop}

theorem FlRowKmeans.rowsOn (hf : FlRowKmeans tol env') : RowsOn D n (fun _ => True) (fun _ => True) tol env' where
  sub _ h := h
  metric v w _ _ hv hw := hf.metric D v w hv hw
  mean l _ _ _ := ⟨by rw [hf.mean], trivial⟩
  small l hl h := by
    obtain ⟨ds, h1, h2⟩ := hf.small l fun p hp => (h p hp).1.2.trans (h p hp).2.2.symm
    refine ⟨ds, ?_, h2⟩
    clear h2 hl
    induction h1 with
    | nil => exact .nil
    | @cons p s l ds a _ ih =>
      refine .cons ?_ (ih fun q hq => h q (by simp [hq]))
      rw [← (h p (by simp)).1.2]
      exact a

/-- Rows made from the same texts. -/
theorem source_rows (hf : RowsOn D n P Q tol env') (hP : ∀ x v, dget? vs' x = some v → P v) (h : TextVectors D vs vs') (hn : m.managed.length ≤ n) {c : List ℝ} {c' : List ℚ}
    (hs : SameSource (rowKmEnv (tol : ℝ) enum shuffle) env' m vs vs' c c') :
    (RowNear D (D + n + 20) c c' ∧ UnitRow c) ∧ Q c' := by
  have mono : ∀ {k l : Nat} {v : List ℝ} {v' : List ℚ}, k ≤ l → RowNear D k v v' → RowNear D l v v' :=
    fun hkl hv => ⟨hv.1, hv.2.1, fun i hi => (hv.2.2 i hi).mono hkl⟩
  cases hs with
  | vector hx h1 h2 =>
    obtain ⟨a, b⟩ := h.rows _ _ _ h1 h2
    exact ⟨⟨mono (by omega) a, b⟩, hf.sub _ (hP _ _ h2)⟩
  | @mean S w w' hne hsub h1 h2 =>
    have hall : List.Forall₂ (fun v v' => RowNear D (D + 18) v v' ∧ UnitRow v) w w' := by
      clear hne hsub
      induction h1 generalizing w' with
      | nil => cases h2; exact .nil
      | cons a _ ih =>
        cases h2 with
        | cons b t => exact .cons (h.rows _ _ _ a b) (ih t)
    have hw : w ≠ [] := by
      rintro rfl
      cases h1
      exact hne rfl
    have hlen : w.length ≤ n := by
      rw [← h1.length_eq]
      exact hsub.length_le.trans hn
    have hw' : w' ≠ [] := by
      rintro rfl
      cases hall
      exact hw rfl
    obtain ⟨m1, m2⟩ := hf.mean w' hw' (by rw [← hall.length_eq]; exact hlen) fun r hr => by
      obtain ⟨r', -, h3⟩ := forall₂_mem_right hall hr
      obtain ⟨x, -, h4⟩ := forall₂_mem_right h2 hr
      exact ⟨hP _ _ h4, h3.1.2.1⟩
    rw [m1]
    refine ⟨⟨mono ?_ (mean_rows hw (hall.imp fun _ _ h => h.1)), ?_⟩, m2⟩
    · omega
    · refine mean_unit (D := D) hw (fun r hr => ?_) (fun r hr => ?_)
      · obtain ⟨r', -, h3⟩ := forall₂_mem_left hall hr
        exact h3.1.1
      · obtain ⟨r', -, h3⟩ := forall₂_mem_left hall hr
        exact h3.2

/-- The distances between texts and centroids. -/
theorem rows_centers (hf : RowsOn D n P Q tol env') (hP : ∀ x v, dget? vs' x = some v → P v) (hη : TextError D n η) (h : TextVectors D vs vs')
    (hn : m.managed.length ≤ n) : CentersWithin (3 * η) (rowKmEnv (tol : ℝ) enum shuffle) env' m vs vs' := by
  intro x hx v v' hxv hxv' c c' hc
  obtain ⟨⟨c1, c2⟩, c3⟩ := source_rows hf hP h hn hc
  obtain ⟨⟨v1, v2⟩, v3⟩ := source_rows hf hP h hn (.vector (env := rowKmEnv (tol : ℝ) enum shuffle) (env' := env') hx hxv hxv')
  obtain ⟨s, h1, h2⟩ := hf.metric v' c' v3 c3 v1.2.1 c1.2.1
  rw [h2]
  exact (flEuclid_rows hη (by omega) v1 c1 v2 c2 h1).1

/-- The comparisons with the tolerance. -/
theorem rows_stops (he : (rowKmEnv (tol : ℝ) enum shuffle).Ok) (hm : Reachable m) (hvs : HasVectors m vs) (hf : RowsOn D n P Q tol env')
    (hP : ∀ x v, dget? vs' x = some v → P v)
    (hη : TextError D n η) (h : TextVectors D vs vs') (hn : m.managed.length ≤ n) {nb : Nat} (hnb : 0 < nb) (hnb' : nb ≤ m.managed.length)
    (hs : RowMoveMargin (4 * η) tol (rowKmEnv (tol : ℝ) enum shuffle) m vs nb) :
    SameStops (rowKmEnv (tol : ℝ) enum shuffle) env' m vs vs' nb := by
  intro C new C₁ hC hp l hl hl2
  have hk : l.length ≤ n := by
    rw [← hl2.length_eq]
    exact (centroids_count he hm.inv hvs hnb hnb' hC).trans hn
  have hmar := hs C new C₁ hC hp (l.map fun p => (p.1.1, p.2.1)) (by
    rw [List.forall₂_map_right_iff]
    exact hl2)
  rw [List.length_map, List.map_map] at hmar
  have hsrc' := fun p (hp : p ∈ l) => (⟨source_rows hf hP h hn (hl p hp).1, source_rows hf hP h hn (hl p hp).2⟩ : _ ∧ _)
  have hsrc : ∀ p ∈ l, (RowNear D (D + n + 20) p.1.1 p.1.2 ∧ UnitRow p.1.1) ∧ RowNear D (D + n + 20) p.2.1 p.2.2 ∧ UnitRow p.2.1 :=
    fun p hp => ⟨(hsrc' p hp).1.1, (hsrc' p hp).2.1⟩
  obtain ⟨ds, hds, hsmall⟩ := hf.small (l.map fun p => (p.1.2, p.2.2)) (by rw [List.length_map]; exact hk) (fun q hq => by
    obtain ⟨p, hp, rfl⟩ := List.mem_map.1 hq
    exact ⟨⟨(hsrc' p hp).1.2, (hsrc p hp).1.1.2.1⟩, (hsrc' p hp).2.2, (hsrc p hp).2.1.2.1⟩)
  rw [List.forall₂_map_left_iff] at hds
  obtain ⟨hη0, hη1, -⟩ := id hη
  have hnear : ∀ p s, p ∈ l → FlEuclid (rowVec D p.1.2) (rowVec D p.2.2) s →
      |(s : ℝ) - rowDist p.1.1 p.2.1| ≤ 3 * η ∧ rowDist p.1.1 p.2.1 ≤ 2 := fun p s hp h => by
    obtain ⟨⟨a1, a2⟩, b1, b2⟩ := hsrc p hp
    exact flEuclid_rows hη (by omega) a1 b1 a2 b2 h
  have hlen := hds.length_eq
  have h2 : |(ds.map fun s : ℚ => (s : ℝ)).sum - (l.map fun p => rowDist p.1.1 p.2.1).sum| ≤ l.length * (3 * η) ∧
      (l.map fun p => rowDist p.1.1 p.2.1).sum ≤ l.length * 2 := by
    clear hl hl2 hk hmar hsmall hlen hsrc hsrc'
    induction hds with
    | nil => simp
    | @cons p s l ds h _ ih =>
      simp only [List.map_cons, List.sum_cons, List.length_cons]
      obtain ⟨a1, a3⟩ := hnear p s (by simp) h
      obtain ⟨a2, a4⟩ := ih fun q t hq => hnear q t (by simp [hq])
      have a1 := abs_le.1 a1
      have a2 := abs_le.1 a2
      push_cast
      refine ⟨?_, by linarith⟩
      rw [abs_le]
      constructor <;> linarith
  have hsum := (flSum_nearBy (l := ds) (fun s hs => by
    obtain ⟨p, -, hps⟩ := forall₂_mem_right hds hs
    exact flEuclid_nonneg hps)).err
  push_cast at hsum
  have hρ := hη.factor (k := ds.length) (by omega)
  obtain ⟨h2, h2'⟩ := h2
  have h0 : (0 : ℝ) ≤ l.length := by positivity
  have h4 : |(flSum ds : ℝ) - (l.map fun p => rowDist p.1.1 p.2.1).sum| ≤ l.length * (4 * η) := by
    have t := abs_sub_le (flSum ds : ℝ) (ds.map fun s : ℚ => (s : ℝ)).sum (l.map fun p => rowDist p.1.1 p.2.1).sum
    have t2 := (abs_le.1 h2).2
    have t3 : (ds.map fun s : ℚ => (s : ℝ)).sum ≤ l.length * 3 := by nlinarith
    have hρ0 := sub_nonneg.2 (NearBy.base_pow ds.length)
    have t4 : ((1 + 1 / 2 ^ 52) ^ ds.length - 1) * (ds.map fun s : ℚ => (s : ℝ)).sum ≤ η ^ 2 / 2 * (l.length * 3) :=
      (mul_le_mul_of_nonneg_left t3 hρ0).trans (mul_le_mul_of_nonneg_right hρ (by positivity))
    have t5 : η ^ 2 / 2 * (l.length * 3) ≤ l.length * η := by
      have : η ^ 2 / 2 * 3 ≤ η := by nlinarith
      nlinarith
    have e5 : (l.length : ℝ) * (4 * η) = l.length * η + l.length * (3 * η) := by ring
    linarith
  have h5 := abs_le.1 h4
  have hmar' : (l.length : ℝ) * (4 * η) < |(l.map fun p => rowDist p.1.1 p.2.1).sum - tol| := hmar
  have key : (flSum ds < tol) ↔ (l.map fun p => rowDist p.1.1 p.2.1).sum < (tol : ℝ) := by
    rw [← Rat.cast_lt (K := ℝ)]
    rcases lt_abs.1 hmar' with h6 | h6
    · constructor <;> intro h7 <;> linarith
    · constructor <;> intro h7 <;> linarith
  rw [Bool.eq_iff_iff, hsmall, key]
  show _ ↔ decide ((((l.map fun p => (p.1.1, p.2.1)).map fun p : List ℝ × List ℝ => rowDist p.1 p.2)).sum < (tol : ℝ)) = true
  rw [List.map_map, decide_eq_true_iff]
  exact Iff.rfl

/-- COP-KMeans of texts returns in binary64 the clusters that it returns in exact arithmetic, when each decision of the exact run wins
by more than `6 * η` and no sum of moves of `k` centroids is within `k * 4 * η` of the tolerance. -/
theorem rows_kmeans (he : (rowKmEnv (tol : ℝ) enum shuffle).Ok) (hm : Reachable m) (hvs : HasVectors m vs) (hf : RowsOn D m.managed.length P Q tol env')
    (hP : ∀ x v, dget? vs' x = some v → P v)
    (hen : env'.enum = enum) (hsh : env'.shuffle = shuffle) (hη : TextError D m.managed.length η) (h : TextVectors D vs vs')
    {model : String} {i : Int} {neg : Bool} {it : Nat} (hi : kmInit model i neg = .ok it) {nb : Int}
    (hmar : CenterMargin (6 * η) (rowKmEnv (tol : ℝ) enum shuffle) m vs (min nb.toNat m.managed.length))
    (hs : RowMoveMargin (4 * η) tol (rowKmEnv (tol : ℝ) enum shuffle) m vs (min nb.toNat m.managed.length)) {r : Dict α Int}
    {cs : Dict Int (List ℝ)} (hr : kmCluster (rowKmEnv (tol : ℝ) enum shuffle) it m (some vs) (some nb) = .ok (r, cs)) :
    ∃ cs', kmCluster env' it m (some vs') (some nb) = .ok (r, cs') ∧ dkeys cs' = dkeys cs ∧
      ∀ k c c', dget? cs k = some c → dget? cs' k = some c' → RowNear D (D + m.managed.length + 20) c c' := by
  obtain ⟨n, e, hn2, hne⟩ := kmCluster_ok_args hr (kmInit_pos hi)
  cases e
  have hpos : 0 < min nb.toNat m.managed.length := by
    have := List.length_pos_iff.2 hne
    omega
  obtain ⟨cs', h1, h2, h3⟩ := C121_margin (env' := env') he hm hvs h.keys hen hsh hi (rows_centers hf hP hη h le_rfl)
    (by rw [show 3 * η + 3 * η = 6 * η by ring]; exact hmar)
    (rows_stops he hm hvs hf hP hη h le_rfl hpos (Nat.min_le_right _ _) hs) hr
  exact ⟨cs', h1, h2, fun k c c' hc hc' => (source_rows hf hP h le_rfl (h3 k c c' hc hc')).1.1⟩

/-- C124. The distances between texts and centroids. -/
theorem C124_centers (hf : FlRowKmeans tol env') (hη : TextError D n η) (h : TextVectors D vs vs') (hn : m.managed.length ≤ n) :
    CentersWithin (3 * η) (rowKmEnv (tol : ℝ) enum shuffle) env' m vs vs' :=
  rows_centers hf.rowsOn (fun _ _ _ => trivial) hη h hn

/-- C124. The comparisons with the tolerance. -/
theorem C124_stops (he : (rowKmEnv (tol : ℝ) enum shuffle).Ok) (hm : Reachable m) (hvs : HasVectors m vs) (hf : FlRowKmeans tol env')
    (hη : TextError D n η) (h : TextVectors D vs vs') (hn : m.managed.length ≤ n) {nb : Nat} (hnb : 0 < nb) (hnb' : nb ≤ m.managed.length)
    (hs : RowMoveMargin (4 * η) tol (rowKmEnv (tol : ℝ) enum shuffle) m vs nb) :
    SameStops (rowKmEnv (tol : ℝ) enum shuffle) env' m vs vs' nb :=
  rows_stops he hm hvs hf.rowsOn (fun _ _ _ => trivial) hη h hn hnb hnb' hs

/-- C124. COP-KMeans of texts returns in binary64 the clusters that it returns in exact arithmetic, when each decision of the exact run wins
by more than `6 * η` and no sum of moves of `k` centroids is within `k * 4 * η` of the tolerance. -/
theorem C124_kmeans (he : (rowKmEnv (tol : ℝ) enum shuffle).Ok) (hm : Reachable m) (hvs : HasVectors m vs) (hf : FlRowKmeans tol env')
    (hen : env'.enum = enum) (hsh : env'.shuffle = shuffle) (hη : TextError D m.managed.length η) (h : TextVectors D vs vs')
    {model : String} {i : Int} {neg : Bool} {it : Nat} (hi : kmInit model i neg = .ok it) {nb : Int}
    (hmar : CenterMargin (6 * η) (rowKmEnv (tol : ℝ) enum shuffle) m vs (min nb.toNat m.managed.length))
    (hs : RowMoveMargin (4 * η) tol (rowKmEnv (tol : ℝ) enum shuffle) m vs (min nb.toNat m.managed.length)) {r : Dict α Int}
    {cs : Dict Int (List ℝ)} (hr : kmCluster (rowKmEnv (tol : ℝ) enum shuffle) it m (some vs) (some nb) = .ok (r, cs)) :
    ∃ cs', kmCluster env' it m (some vs') (some nb) = .ok (r, cs') ∧ dkeys cs' = dkeys cs ∧
      ∀ k c c', dget? cs k = some c → dget? cs' k = some c' → RowNear D (D + m.managed.length + 20) c c' :=
  rows_kmeans he hm hvs hf.rowsOn (fun _ _ _ => trivial) hen hsh hη h hi hmar hs hr

/-! ### The documented program -/

/-- C124. The program of the documentation, from the texts, with vectors in binary64 and any distances: with a truthful annotator it ends
with the true clusters. -/
theorem C124_truthful {δ : Type} [LinearOrder δ] (hc : c.Ok) (hsp : e.isWord ' ' = false) {tenv : TextEnv (List ℚ)}
    (ht : tenv.tfidf = flTfidf c e) {texts : Dict α PyText}
    (hn : (dkeys texts).Nodup) {pre : Dict α (List Char)} (hp : preprocess tenv {} texts = .ok pre) {x y : α} {s s' : List Char}
    (hxy : x ≠ y) (hx : dget? pre x = some s) (hy : dget? pre y = some s') (hs : ShareWord e s s')
    {answer : Manager α → α → α → CType} {truth : α → Nat} (hans : ∀ m x y, Agrees truth x y (answer m x y))
    (htwo : ∃ x ∈ dkeys texts, ∃ y ∈ dkeys texts, truth x ≠ truth y) {first : KMeansEnv α (List ℚ) δ} (hf : first.Ok)
    {chances : List (Chance α (List ℚ) δ)} (hch : ∀ c ∈ chances, c.Ok)
    (hlen : (dkeys texts).length * ((dkeys texts).length - 1) / 2 ≤ chances.length) :
    ∃ m r, usageTexts tenv texts answer first chances = .ok (m, r) ∧ (∀ x, x ∈ dkeys r ↔ x ∈ dkeys texts) ∧
      ∀ x ∈ dkeys texts, ∀ y ∈ dkeys texts, (dget? r x = dget? r y ↔ truth x = truth y) := by
  set exact : TextEnv (List ℝ) := ⟨tenv.lower, tenv.strip, tenv.nfkd, tenv.combining, tenv.installed, tenv.nlp, fun _ _ => .ok [], tfidf e⟩
    with hex
  have hp' : preprocess exact {} texts = .ok pre := hp
  have hk : dkeys pre = dkeys texts := C52_preprocess_keys hn hp
  have hkeys : dkeys (pre.map fun p => (p.1, PyText.str p.2)) = dkeys pre := by
    unfold dkeys
    rw [List.map_map]
    rfl
  obtain ⟨vs, h1, h2, -⟩ := (C102_program hsp (tenv := exact) rfl hn hp' answer
    (⟨fun _ _ => (0 : Nat), fun _ => [], fun _ => true, id, id⟩ : KMeansEnv α (List ℝ) Nat) []).2 x y s s' hxy hx hy hs
  obtain ⟨D, vs', h3, h4⟩ := (C124_vectors hc (tenv := exact) rfl ht (by rw [hkeys, hk]; exact hn) "fr_core_news_md").2 vs h1
  have h5 : usageTexts tenv texts answer first chances = usage (dkeys texts) vs' answer first chances := by
    unfold usageTexts
    rw [hp]
    dsimp only [bind, Except.bind]
    rw [h3]
  rw [h5]
  refine C72_truthful (fun z hz => ?_) hans htwo hf hch hlen
  obtain ⟨v, hv⟩ := h2 z hz
  exact exists_dget?_iff.2 (h4.keys.symm ▸ mem_dkeys_of_dget? hv)

end

/-! ### Texts with equal vectors -/

theorem fl_nat {k : Nat} (hk : k ≤ 2 ^ 53) : fl (k : ℚ) = k := by
  have := fl_exact (m := (k : ℤ)) (k := 0) (by rw [abs_of_nonneg (by positivity)]; exact_mod_cast hk)
  simpa using this

/-- A permutation of pairs of natural numbers. -/
theorem natPairs_perm {a : List (Nat × Nat)} {l : List (ℚ × ℚ)} (h : (a.map fun p => ((p.1 : ℚ), (p.2 : ℚ))).Perm l) :
    ∃ a' : List (Nat × Nat), a.Perm a' ∧ l = a'.map fun p => ((p.1 : ℚ), (p.2 : ℚ)) := by
  refine ⟨l.map fun q => (q.1.num.toNat, q.2.num.toNat), ?_, ?_⟩
  · have := h.map fun q : ℚ × ℚ => (q.1.num.toNat, q.2.num.toNat)
    rwa [List.map_map, show ((fun q : ℚ × ℚ => (q.1.num.toNat, q.2.num.toNat)) ∘ fun p : Nat × Nat => ((p.1 : ℚ), (p.2 : ℚ))) = id by
      funext p; simp, List.map_id] at this
  · rw [List.map_map]
    conv_lhs => rw [← List.map_id l]
    refine List.map_congr_left fun q hq => ?_
    obtain ⟨p, -, rfl⟩ := List.mem_map.1 (h.mem_iff.2 hq)
    simp

/-- Sums of products of small natural numbers are exact, in every order. -/
theorem flDot_nat {l : List (ℚ × ℚ)} {s : ℚ} (h : FlDot l s) : ∀ a : List (Nat × Nat), l = a.map (fun p => ((p.1 : ℚ), (p.2 : ℚ))) →
    (a.map fun p => p.1 * p.2).sum ≤ 2 ^ 53 → s = ((a.map fun p => p.1 * p.2).sum : Nat) := by
  induction h with
  | nil =>
    intro a ha _
    have : a = [] := by simpa using ha.symm
    simp [this]
  | prod x y =>
    intro a ha hs
    match a, ha with
    | [p], ha =>
      simp only [List.map_cons, List.map_nil, List.cons.injEq, Prod.mk.injEq, and_true] at ha
      obtain ⟨rfl, rfl⟩ := ha
      simp only [List.map_cons, List.map_nil, List.sum_cons, List.sum_nil, Nat.add_zero] at hs ⊢
      rw [← Nat.cast_mul, fl_nat hs]
  | @add l r t x y _ _ ht ih1 ih2 =>
    intro a ha hs
    subst ha
    obtain ⟨a', hp, h3⟩ := natPairs_perm ht
    obtain ⟨b, c, rfl, rfl, rfl⟩ := List.map_eq_append_iff.1 h3.symm
    have hsum := (hp.map fun p => p.1 * p.2).sum_eq
    rw [List.map_append, List.sum_append] at hsum
    rw [ih1 b rfl (by omega), ih2 c rfl (by omega), ← Nat.cast_add, ← hsum, fl_nat hs]
  | @fma l t x u v _ ht ih =>
    intro a ha hs
    subst ha
    obtain ⟨a', hp, h3⟩ := natPairs_perm ht
    obtain ⟨⟨p, q⟩, b, rfl, hpq, rfl⟩ := List.map_eq_cons_iff.1 h3.symm
    simp only [Prod.mk.injEq] at hpq
    obtain ⟨rfl, rfl⟩ := hpq
    have hsum := (hp.map fun p => p.1 * p.2).sum_eq
    rw [List.map_cons, List.sum_cons] at hsum
    dsimp only at hsum
    rw [ih b rfl (by omega), ← Nat.cast_mul, ← Nat.cast_add, Nat.add_comm, ← hsum, fl_nat hs]

/-- Two texts in which the three common words appear once, and three times. -/
def equalTexts : List (List Char) := ["card not lost but bank".toList,
  "card one lost two bank ten card six lost five bank four card three lost nine bank".toList]

theorem equalTexts_rows {c : FlCalc} (hc : c.Ok) : flTfidf c asciiTfidf equalTexts =
    .ok [List.replicate 3 (fl (1 / flSqrt 3)), List.replicate 3 (fl (3 / flSqrt 27))] := by
  have hv : vocabulary (equalTexts.map (tfTerms asciiTfidf)) = ["bank".toList, "card".toList, "lost".toList] := by decide +kernel
  have hcount : equalTexts.map (fun s => (vocabulary (equalTexts.map (tfTerms asciiTfidf))).map fun t => (tfTerms asciiTfidf s).count t) =
      [List.replicate 3 1, List.replicate 3 3] := by decide +kernel
  have hdf : ∀ t ∈ vocabulary (equalTexts.map (tfTerms asciiTfidf)), docFreq (equalTexts.map (tfTerms asciiTfidf)) t = 2 := by
    rw [hv]
    decide +kernel
  have hidf : flIdf c 2 2 = 1 := by
    have e1 : fl (fl (1 + (2 : Nat)) / fl (fl (2 : Nat) + 1)) = 1 := by decide +kernel
    have h0 := hc.log 1 one_pos
    rw [Rat.cast_one, Real.log_one, abs_zero, zero_div, sub_zero] at h0
    have h0 : (c.log 1 : ℝ) = 0 := abs_nonpos_iff.1 h0
    unfold flIdf
    rw [e1, Rat.cast_eq_zero.1 h0, zero_add, fl_one]
  have hw : ∀ s : List Char, flWeights c (equalTexts.map (tfTerms asciiTfidf)) (tfTerms asciiTfidf s) =
      ((vocabulary (equalTexts.map (tfTerms asciiTfidf))).map fun t => (tfTerms asciiTfidf s).count t).map fun k : Nat => fl (fl k) := by
    intro s
    unfold flWeights
    rw [List.map_map]
    refine List.map_congr_left fun t ht => ?_
    rw [hdf t ht, List.length_map, show equalTexts.length = 2 from rfl, hidf, mul_one]
    rfl
  have hn : ∀ k : Nat, 0 < k → 3 * (k * k) ≤ 2 ^ 53 → flNormalize c ((List.replicate 3 k).map fun k : Nat => fl (fl k)) =
      List.replicate 3 (fl (k / flSqrt ((3 * (k * k) : Nat) : ℚ))) := by
    intro k hk hk'
    have hk2 : k ≤ 2 ^ 53 := by nlinarith
    have hd : c.dot ((((List.replicate 3 k).map fun k : Nat => fl (fl k))).map fun x => (x, x)) = ((3 * (k * k) : Nat) : ℚ) := by
      have := flDot_nat (hc.dot ((((List.replicate 3 k).map fun k : Nat => fl (fl k))).map fun x => (x, x))) (List.replicate 3 (k, k))
        (by simp [fl_nat hk2])
        (by rw [List.map_replicate, List.sum_replicate, smul_eq_mul]; exact hk')
      rw [this, List.map_replicate, List.sum_replicate, smul_eq_mul]
    have h0 : ((3 * (k * k) : Nat) : ℚ) ≠ 0 := by positivity
    unfold flNormalize
    rw [hd, if_neg h0]
    simp [fl_nat hk2]
  rw [flTfidf_ok (by rw [hv]; simp), List.map_map]
  have hmap : equalTexts.map ((fun d => flNormalize c (flWeights c (equalTexts.map (tfTerms asciiTfidf)) d)) ∘ tfTerms asciiTfidf) =
      (equalTexts.map (fun s => (vocabulary (equalTexts.map (tfTerms asciiTfidf))).map fun t => (tfTerms asciiTfidf s).count t)).map fun l =>
        flNormalize c (l.map fun k : Nat => fl (fl k)) := by
    rw [List.map_map]
    refine List.map_congr_left fun s _ => ?_
    show flNormalize c _ = flNormalize c _
    rw [hw s]
  rw [hmap, hcount]
  simp only [List.map_cons, List.map_nil]
  have a1 := hn 1 (by norm_num) (by norm_num)
  have a3 := hn 3 (by norm_num) (by norm_num)
  norm_num at a1 a3 ⊢
  exact ⟨a1, a3⟩

/-- C124. Equal vectors become different: for every logarithm and every order of the additions the computed vectors of these two texts
differ, although their vectors are equal, and one of the possible computed distances is `2^(-26)` instead of 0. -/
theorem C124_equal : ∃ rows r, tfidf asciiTfidf equalTexts = .ok rows ∧ rows = [r, r] ∧ ∀ c : FlCalc, c.Ok → ∃ s s',
    flTfidf c asciiTfidf equalTexts = .ok [s, s'] ∧ s ≠ s' ∧ ∃ d, ComputedRows d ∧ d s s' = 1 / 2 ^ 26 := by
  have hv : vocabulary (equalTexts.map (tfTerms asciiTfidf)) = ["bank".toList, "card".toList, "lost".toList] := by decide +kernel
  have hok := tfidf_ok (e := asciiTfidf) (texts := equalTexts) (by rw [hv]; simp)
  refine ⟨_, normalizeRow (tfWeights (equalTexts.map (tfTerms asciiTfidf)) (tfTerms asciiTfidf "card not lost but bank".toList)), hok, ?_, fun c hc => ⟨_, _, equalTexts_rows hc, by decide +kernel, ?_⟩⟩
  · have e1 := (C102_equal hok (i := 0) (j := 1) rfl rfl).2 ⟨1 / 3, by norm_num, fun t ht => by
      have hm := mem_vocabulary.2 ht
      have hcount : ∀ t ∈ vocabulary (equalTexts.map (tfTerms asciiTfidf)), ∀ s ∈ equalTexts.head?, ∀ s' ∈ equalTexts[1]?,
          (tfTerms asciiTfidf s).count t = 1 ∧ (tfTerms asciiTfidf s').count t = 3 := by
        rw [hv]
        decide +kernel
      obtain ⟨h1, h2⟩ := hcount t hm _ rfl _ rfl
      rw [h1, h2]
      norm_num⟩
    have e2 := Option.some.inj e1
    show [_, _] = [_, _]
    exact congrArg₂ (fun a b => [a, b]) rfl e2.symm
  · refine ⟨fun v w => (distSeq (rowVec v.length v) (rowVec v.length w) : ℚ), fun D v w hv hw => ⟨_, ?_, rfl⟩, ?_⟩
    · subst hv
      exact distSeq_spec _ _
    · have : distSeq (rowVec 3 (List.replicate 3 (fl (1 / flSqrt 3)))) (rowVec 3 (List.replicate 3 (fl (3 / flSqrt 27)))) = 1 / 2 ^ 26 := by
        decide +kernel
      show ((distSeq (rowVec 3 (List.replicate 3 (fl (1 / flSqrt 3)))) (rowVec 3 (List.replicate 3 (fl (3 / flSqrt 27)))) : ℚ) : ℝ) = _
      rw [this]
      norm_num

/-! ### Examples -/

/-- One of the possible environments of COP-KMeans in binary64, with rows. -/
def seqRowEnv {α : Type} (tolerance : ℚ) (enum : List Int → List Int) (shuffle : List α → List α) : KMeansEnv α (List ℚ) ℝ where
  metric v w := (distSeq (rowVec v.length v) (rowVec v.length w) : ℚ)
  mean := colwise flMean
  small l := decide (flSum (l.map fun p => distSeq (rowVec p.1.length p.1) (rowVec p.1.length p.2)) < tolerance)
  enum := enum
  shuffle := shuffle

/-- Adding up one after the other is one of the computations that the theorems are about. -/
theorem C124_one {α : Type} (tol : ℚ) (enum : List Int → List Int) (shuffle : List α → List α) :
    FlRowKmeans tol (seqRowEnv tol enum shuffle) := by
  refine ⟨fun D v w hv _ => by subst hv; exact ⟨_, distSeq_spec _ _, rfl⟩, rfl,
    fun l _ => ⟨l.map fun p => distSeq (rowVec p.1.length p.1) (rowVec p.1.length p.2), ?_, ?_⟩⟩
  · rw [List.forall₂_map_right_iff]
    exact List.forall₂_same.2 fun p _ => distSeq_spec _ _
  · show decide _ = true ↔ _
    rw [decide_eq_true_iff]

/-- There are logarithms and sums as in `FlCalc.Ok`. -/
theorem flCalc_ok : ∃ c : FlCalc, c.Ok := by
  have h : ∀ x : ℚ, ∃ y : ℚ, |(y : ℝ) - Real.log x| ≤ |Real.log x| / 2 ^ 50 := by
    intro x
    by_cases hx : Real.log x = 0
    · exact ⟨0, by simp [hx]⟩
    · have : 0 < |Real.log x| / 2 ^ 50 := by positivity
      obtain ⟨y, h1, h2⟩ := exists_rat_btwn (show Real.log x - |Real.log x| / 2 ^ 50 < Real.log x + |Real.log x| / 2 ^ 50 by linarith)
      exact ⟨y, abs_le.2 ⟨by linarith, by linarith⟩⟩
  choose log hlog using h
  exact ⟨⟨log, dotSeq⟩, fun x _ => hlog x, dotSeq_spec⟩

/-- 300 terms and 1000 texts: distances with errors of at most one ten-thousandth. -/
example : TextError 300 1000 (1 / 2 ^ 15) := by
  unfold TextError
  norm_num

/-- The hypotheses of `C124_words` for two texts of the repository's own test (tests/utils/test_vectorization.py). -/
example : ∃ c : FlCalc, c.Ok ∧ ∃ rows, flTfidf c asciiTfidf ["comment signaler une perte de carte de paiement".toList,
    "quelle est la procedure pour chercher une carte de credit avalee".toList] = .ok rows ∧ rows.length = 2 ∧
    ShareWord asciiTfidf "comment signaler une perte de carte de paiement".toList
      "quelle est la procedure pour chercher une carte de credit avalee".toList := by
  obtain ⟨c, hc⟩ := flCalc_ok
  refine ⟨c, hc, _, flTfidf_ok (by decide +kernel), by simp, "carte".toList, wordOf_iff.2 (by decide +kernel), wordOf_iff.2 (by decide +kernel)⟩

theorem threadError : TextError 1 4 (1 / 2 ^ 20) := by
  unfold TextError
  norm_num

/-- Rows with one entry. -/
noncomputable def threadRow (t : ℚ) : List ℝ := [(t : ℝ) / 20]

/-- The rows `(0)`, `(0.15)`, `(0.5)`, `(0.95)`. -/
noncomputable def threadRows : Dict Nat (List ℝ) := dmap id threadRow slopeLine

/-- The same rows in binary64. -/
def threadFloat : Dict Nat (List ℚ) := dmap id (fun t => [fl (t / 20)]) slopeLine

theorem rowDist_thread (s t : ℚ) : rowDist (threadRow s) (threadRow t) = ((lineKmEnv (α := Nat) 0 id id).metric s t : ℚ) / 20 := by
  rw [lineKm_metric]
  unfold rowDist threadRow
  simp only [List.zipWith_cons_cons, List.zipWith_nil_right, List.sum_cons, List.sum_nil, add_zero]
  rw [Real.sqrt_sq_eq_abs, ← sub_div, abs_div]
  norm_num

noncomputable def threadMono : ℚ → ℝ := fun d => (d : ℝ) / 20

theorem threadMono_strict : StrictMono threadMono := fun a b h => by
  have : (a : ℝ) < b := by exact_mod_cast h
  show (a : ℝ) / 20 < b / 20
  linarith

theorem threadMoved : MovedKMeans threadRow threadMono (Manager.init [1, 2, 3, 4]) (lineKmEnv (1 / 500) List.dedup id)
    (rowKmEnv ((1 / 10000 : ℚ) : ℝ) List.dedup id) where
  mono := threadMono_strict
  metric v w := rowDist_thread v w
  mean l hl := by
    have hD : ∀ r ∈ l.map threadRow, r.length = 1 := fun r hr => by
      obtain ⟨t, -, rfl⟩ := List.mem_map.1 hr
      rfl
    obtain ⟨h1, h2⟩ := at0_rowMean (D := 1) (by simpa using hl) hD
    have h3 := h2 0 (by omega)
    have h4 : ((l.map threadRow).map fun r => at0 r 0).sum = ((l.sum : ℚ) : ℝ) / 20 := by
      clear h1 h2 h3 hD hl
      induction l with
      | nil => simp
      | cons s l ih =>
        rw [List.map_cons, List.map_cons, List.sum_cons, ih, List.sum_cons]
        show (s : ℝ) / 20 + _ = _
        push_cast
        ring
    rw [h4, List.length_map, List.length_map] at h3
    show rowMean (l.map threadRow) = [((l.sum / (l.length : ℚ) : ℚ) : ℝ) / 20]
    obtain ⟨x, hx⟩ := List.length_eq_one_iff.1 h1
    rw [hx] at h3 ⊢
    have h3 : x = ((l.sum : ℚ) : ℝ) / 20 / l.length := h3
    rw [h3]
    push_cast
    rw [div_right_comm]
  small l := by
    show decide _ = decide _
    rw [Bool.eq_iff_iff, decide_eq_true_iff, decide_eq_true_iff, List.map_map]
    have h : (l.map ((fun p : List ℝ × List ℝ => rowDist p.1 p.2) ∘ fun q : ℚ × ℚ => (threadRow q.1, threadRow q.2))).sum =
        (((l.map fun p => (lineKmEnv (α := Nat) 0 id id).metric p.1 p.2).sum : ℚ) : ℝ) / 20 := by
      induction l with
      | nil => simp
      | cons p l ih =>
        rw [List.map_cons, List.sum_cons, ih, List.map_cons, List.sum_cons]
        show rowDist (threadRow p.1) (threadRow p.2) + _ = _
        rw [rowDist_thread]
        push_cast
        ring
    have h2 : (l.map fun p => (lineKmEnv (α := Nat) 0 id id).metric p.1 p.2).sum < 1 / 500 ↔
        (((l.map fun p => (lineKmEnv (α := Nat) 0 id id).metric p.1 p.2).sum : ℚ) : ℝ) < ((1 / 500 : ℚ) : ℝ) := Rat.cast_lt.symm
    rw [h]
    refine Iff.trans ?_ h2.symm
    generalize (l.map fun p => (lineKmEnv (α := Nat) 0 id id).metric p.1 p.2).sum = z
    push_cast
    constructor <;> intro h <;> linarith
  enum := rfl
  shuffle := rfl

theorem thread_get {κ : Type} [DecidableEq κ] {d : Dict κ ℚ} {x : κ} {v : List ℝ} (h : dget? (dmap id threadRow d) x = some v) :
    ∃ t, dget? d x = some t ∧ v = threadRow t := by
  have := dget?_dmap (f := id) Function.injective_id threadRow d x
  rw [id, h] at this
  cases e : dget? d x with
  | none => rw [e] at this; cases this
  | some t => rw [e] at this; exact ⟨t, rfl, by simpa using this⟩

theorem thread_centroids {C : Dict Int ℚ} (h : RunCentroids (lineKmEnv (1 / 500) List.dedup id) (Manager.init [1, 2, 3, 4]) slopeLine 2 C) :
    C ∈ slopeCentroids := by
  induction h with
  | init e =>
    have h1 : ∃ c ∈ slopeCentroids, kmInitialize (lineKmEnv (1 / 500) List.dedup id) (Manager.init [1, 2, 3, 4]).managed slopeLine 2 = .ok c := by
      decide +kernel
    obtain ⟨c, hc, e1⟩ := h1
    rw [e] at e1
    cases e1
    exact hc
  | @pass C new C' _ e ih =>
    have h1 : ∀ c ∈ slopeCentroids, ∃ c' ∈ slopeCentroids,
        (kmPass (lineKmEnv (1 / 500) List.dedup id) (Manager.init [1, 2, 3, 4]) slopeLine 2 c).map Prod.snd = .ok c' := by decide +kernel
    obtain ⟨c', hc', e1⟩ := h1 C ih
    rw [e] at e1
    cases e1
    exact hc'

theorem thread_run {C : Dict Int (List ℝ)}
    (h : RunCentroids (rowKmEnv ((1 / 10000 : ℚ) : ℝ) List.dedup id) (Manager.init [1, 2, 3, 4]) threadRows 2 C) :
    ∃ C₀, C = dmap id threadRow C₀ ∧
      RunCentroids (lineKmEnv (1 / 500) List.dedup id) (Manager.init [1, 2, 3, 4]) slopeLine 2 C₀ := by
  induction h with
  | init e =>
    rw [threadRows, kmInitialize_geo threadMoved] at e
    cases e1 : kmInitialize (lineKmEnv (1 / 500) List.dedup id) (Manager.init [1, 2, 3, 4]).managed slopeLine 2 with
    | error _ => rw [e1] at e; cases e
    | ok C₀ =>
      rw [e1] at e
      cases e
      exact ⟨C₀, rfl, .init e1⟩
  | @pass C new C' _ e ih =>
    obtain ⟨C₀, rfl, h0⟩ := ih
    rw [threadRows, kmPass_geo threadMoved] at e
    cases e1 : kmPass (lineKmEnv (1 / 500) List.dedup id) (Manager.init [1, 2, 3, 4]) slopeLine 2 C₀ with
    | error _ => rw [e1] at e; cases e
    | ok r =>
      rw [e1] at e
      cases e
      exact ⟨r.2, rfl, .pass h0 e1⟩

theorem thread_env_ok : (rowKmEnv (α := Nat) ((1 / 10000 : ℚ) : ℝ) List.dedup id).Ok :=
  ⟨fun l => ⟨List.nodup_dedup l, fun _ => List.mem_dedup⟩, fun l => .refl l⟩

theorem thread_has : HasVectors (Manager.init [1, 2, 3, 4]) threadRows := by
  intro x hx
  have h : ∀ x ∈ (Manager.init [1, 2, 3, 4]).managed, x ∈ dkeys slopeLine := by decide +kernel
  rw [exists_dget?_iff]
  show x ∈ dkeys (dmap id threadRow slopeLine)
  rw [dkeys_dmap, List.map_id]
  exact h x hx

theorem thread_near : TextVectors 1 threadRows threadFloat := by
  have hk : ∀ {κ : Type} (f : ℚ → κ), dkeys (dmap id f slopeLine) = dkeys slopeLine := fun f => by rw [dkeys_dmap, List.map_id]
  refine ⟨(hk _).trans (hk _).symm, fun x v v' hv hv' => ?_⟩
  obtain ⟨t, ht, rfl⟩ := thread_get hv
  have := dget?_dmap (f := id) Function.injective_id (fun t => [fl (t / 20)]) slopeLine x
  rw [id, show dget? (dmap id (fun t => [fl (t / 20)]) slopeLine) x = some v' from hv', ht] at this
  simp only [Option.map_some, Option.some.injEq] at this
  subst this
  have h : ∀ x ∈ dkeys slopeLine, 0 ≤ (dget? slopeLine x).getD 0 ∧ (dget? slopeLine x).getD 0 ≤ 19 := by decide +kernel
  have h1 := h x (mem_dkeys_of_dget? ht)
  rw [ht] at h1
  simp only [Option.getD_some] at h1
  obtain ⟨h1, h2⟩ := h1
  refine ⟨⟨rfl, rfl, fun i hi => ?_⟩, ?_⟩
  · obtain rfl : i = 0 := by omega
    have := fl_nearBy (q := t / 20) (by positivity)
    push_cast at this
    exact this.mono (by omega)
  · have h3 : (t : ℝ) ≤ 19 := by exact_mod_cast h2
    have h4 : (0 : ℝ) ≤ t := by exact_mod_cast h1
    show (([(t : ℝ) / 20] : List ℝ).map fun x => x ^ 2).sum ≤ 1
    simp only [List.map_cons, List.map_nil, List.sum_cons, List.sum_nil, add_zero]
    rw [sq_le_one_iff_abs_le_one, abs_le]
    constructor <;> linarith

theorem thread_margin : CenterMargin (6 * (1 / 2 ^ 20)) (rowKmEnv ((1 / 10000 : ℚ) : ℝ) List.dedup id)
    (Manager.init [1, 2, 3, 4]) threadRows 2 := by
  refine C121_gap thread_env_ok ⟨_, [], rfl⟩ thread_has (by decide) (by decide +kernel) fun C hC x hx v hv a b p q ha hb hab => ?_
  obtain ⟨C₀, rfl, h0⟩ := thread_run hC
  obtain ⟨t, ht, rfl⟩ := thread_get hv
  obtain ⟨p, hp, rfl⟩ := thread_get ha
  obtain ⟨q, hq, rfl⟩ := thread_get hb
  have h : ∀ C ∈ slopeCentroids, ∀ x ∈ (Manager.init [1, 2, 3, 4]).managed, ∀ a ∈ dkeys C, ∀ b ∈ dkeys C, a ≠ b →
      1 ≤ (lineKmEnv (α := Nat) 0 id id).metric ((dget? slopeLine x).getD 0) ((dget? C b).getD 0) -
        (lineKmEnv (α := Nat) 0 id id).metric ((dget? slopeLine x).getD 0) ((dget? C a).getD 0) ∨
      1 ≤ -((lineKmEnv (α := Nat) 0 id id).metric ((dget? slopeLine x).getD 0) ((dget? C b).getD 0) -
        (lineKmEnv (α := Nat) 0 id id).metric ((dget? slopeLine x).getD 0) ((dget? C a).getD 0)) := by decide +kernel
  have h1 := h C₀ (thread_centroids h0) x hx a (mem_dkeys_of_dget? hp) b (mem_dkeys_of_dget? hq) hab
  rw [ht, hp, hq] at h1
  simp only [Option.getD_some] at h1
  show _ < |rowDist (threadRow t) (threadRow q) - rowDist (threadRow t) (threadRow p)|
  rw [rowDist_thread, rowDist_thread]
  rw [lt_abs]
  rcases h1 with h1 | h1
  · have h2 : (1 : ℝ) ≤ ((lineKmEnv (α := Nat) 0 id id).metric t q : ℚ) - ((lineKmEnv (α := Nat) 0 id id).metric t p : ℚ) := by exact_mod_cast h1
    left
    push_cast
    norm_num
    linarith
  · have h2 : (1 : ℝ) ≤ -(((lineKmEnv (α := Nat) 0 id id).metric t q : ℚ) - ((lineKmEnv (α := Nat) 0 id id).metric t p : ℚ)) := by exact_mod_cast h1
    right
    push_cast
    norm_num
    linarith

theorem thread_moves : RowMoveMargin (4 * (1 / 2 ^ 20)) ((1 / 10000 : ℚ) : ℝ) (rowKmEnv ((1 / 10000 : ℚ) : ℝ) List.dedup id)
    (Manager.init [1, 2, 3, 4]) threadRows 2 := by
  intro C new C₁ hC hp l hl
  obtain ⟨C₀, rfl, h0⟩ := thread_run hC
  rw [threadRows, kmPass_geo threadMoved] at hp
  cases e1 : kmPass (lineKmEnv (1 / 500) List.dedup id) (Manager.init [1, 2, 3, 4]) slopeLine 2 C₀ with
  | error _ => rw [e1] at hp; cases hp
  | ok r =>
    rw [e1] at hp
    cases hp
    have h : ∀ C ∈ slopeCentroids, ∀ C₁ ∈ slopeCentroids,
        (kmPass (lineKmEnv (1 / 500) List.dedup id) (Manager.init [1, 2, 3, 4]) slopeLine 2 C).map Prod.snd = .ok C₁ →
        (dkeys C).length = 2 ∧
        (1 / 2 ≤ ((dkeys C).map fun k => (lineKmEnv (α := Nat) 0 id id).metric ((dget? C k).getD 0) ((dget? C₁ k).getD 0)).sum ∨
        ((dkeys C).map fun k => (lineKmEnv (α := Nat) 0 id id).metric ((dget? C k).getD 0) ((dget? C₁ k).getD 0)).sum = 0) := by
      decide +kernel
    obtain ⟨h2, h1⟩ := h C₀ (thread_centroids h0) r.2 (thread_centroids (.pass h0 e1)) (by rw [e1]; rfl)
    rw [dkeys_dmap, List.map_id] at hl
    have e : (l.map fun p => rowDist p.1 p.2).sum =
        ((((dkeys C₀).map fun k => (lineKmEnv (α := Nat) 0 id id).metric ((dget? C₀ k).getD 0) ((dget? r.2 k).getD 0)).sum : ℚ) : ℝ) / 20 := by
      clear h1 h2
      generalize dkeys C₀ = ks at hl
      induction hl with
      | nil => simp
      | @cons k p ks l a _ ih =>
        obtain ⟨s, hs, e1⟩ := thread_get a.1
        obtain ⟨t, ht, e2⟩ := thread_get a.2
        rw [List.map_cons, List.map_cons, List.sum_cons, List.sum_cons, ih, e1, e2, hs, ht, rowDist_thread]
        push_cast
        simp only [Option.getD_some]
        ring
    rw [e, ← hl.length_eq, h2, lt_abs]
    generalize ((dkeys C₀).map fun k => (lineKmEnv (α := Nat) 0 id id).metric ((dget? C₀ k).getD 0) ((dget? r.2 k).getD 0)).sum = z at h1
    rcases h1 with h1 | rfl
    · have : ((1 / 2 : ℚ) : ℝ) ≤ z := by exact_mod_cast h1
      push_cast at this
      left
      push_cast
      norm_num
      linarith
    · right
      push_cast
      norm_num

theorem thread_kmeans : ∃ cs, kmCluster (rowKmEnv ((1 / 10000 : ℚ) : ℝ) List.dedup id) 150 (Manager.init [1, 2, 3, 4]) (some threadRows) (some 2) =
    .ok ([(1, 0), (2, 0), (3, 1), (4, 1)], cs) := by
  have hx : kmCluster (lineKmEnv (1 / 500) List.dedup id) 150 (Manager.init [1, 2, 3, 4]) (some slopeLine) (some 2) =
      .ok ([(1, 0), (2, 0), (3, 1), (4, 1)], [(0, 3 / 2), (1, 29 / 2)]) := by decide +kernel
  have h := C90_kmeans threadMoved thread_env_ok 150 (vs := slopeLine) (vs' := threadRows)
    (fun x _ => dget?_dmap (f := id) Function.injective_id threadRow slopeLine x) (some 2)
  rw [hx] at h
  exact ⟨_, h⟩

/-- The hypotheses of `C124_kmeans`, and what COP-KMeans returns in binary64. -/
example : ∃ cs', kmCluster (seqRowEnv (1 / 10000) List.dedup id) 150 (Manager.init [1, 2, 3, 4]) (some threadFloat) (some 2) =
    .ok ([(1, 0), (2, 0), (3, 1), (4, 1)], cs') := by
  obtain ⟨cs, h⟩ := thread_kmeans
  obtain ⟨cs', h1, -⟩ := C124_kmeans (m := Manager.init [1, 2, 3, 4]) thread_env_ok ⟨_, [], rfl⟩ thread_has (C124_one _ _ _) rfl rfl
    threadError thread_near (model := "COP") (i := 150) (neg := false) rfl (nb := 2) thread_margin thread_moves h
  exact ⟨cs', h1⟩

theorem thread_gap : GapDistances (6 * (1 / 2 ^ 20)) rowDist threadRows (Manager.init [1, 2, 3, 4]).managed := by
  have h : GapDistances (1 / 2) lineEnv.metric slopeLine (Manager.init [1, 2, 3, 4]).managed := gap_of_rat (by decide +kernel)
  have key : ∀ x y d, distanceOf rowDist threadRows x y = some d → ∃ e, distanceOf lineEnv.metric slopeLine x y = some e ∧ d = (e : ℝ) / 20 := by
    intro x y d hd
    unfold distanceOf at hd ⊢
    cases e1 : dget? threadRows x with
    | none => rw [e1] at hd; simp at hd
    | some v =>
      cases e2 : dget? threadRows y with
      | none => rw [e1, e2] at hd; simp at hd
      | some w =>
        obtain ⟨s, hs, rfl⟩ := thread_get e1
        obtain ⟨t, ht, rfl⟩ := thread_get e2
        rw [e1, e2] at hd
        rw [hs, ht]
        simp only [Option.some.injEq] at hd
        exact ⟨_, rfl, by rw [← hd, rowDist_thread]; rfl⟩
  intro x hx y hy x' hx' y' hy' h1 h2 h3 d d' hd hd'
  obtain ⟨e, he, rfl⟩ := key _ _ _ hd
  obtain ⟨e', he', rfl⟩ := key _ _ _ hd'
  have h4 := h x hx y hy x' hx' y' hy' h1 h2 h3 e e' he he'
  have h5 : ((1 / 2 : ℚ) : ℝ) < |(e' : ℝ) - e| := by exact_mod_cast h4
  push_cast at h5
  rw [← sub_div, abs_div]
  push_cast
  norm_num
  linarith

noncomputable def threadExact : HierEnv (List ℝ) ℝ := ⟨rowDist, fun _ => [], fun l a b => l.sum / (a * b : Nat)⟩

noncomputable def threadEnv : HierEnv (List ℚ) ℝ := ⟨(seqRowEnv (α := Nat) 0 id id).metric, colwise flMean, fun l a b => l.sum / (a * b : Nat)⟩

theorem thread_hier : ((⟨.complete, [], none, []⟩ : HObject Nat (List ℝ)).cluster threadExact (Manager.init [1, 2, 3, 4]) (some threadRows) (some 2)).2 =
    .ok [(1, 0), (2, 0), (3, 1), (4, 1)] := by
  have hx : ((⟨.complete, [], none, []⟩ : HObject Nat ℚ).cluster lineEnv (Manager.init [1, 2, 3, 4]) (some slopeLine) (some 2)).2 =
      .ok [(1, 0), (2, 0), (3, 1), (4, 1)] := by decide +kernel
  have h := (C90_hierarchical_distances (m := Manager.init [1, 2, 3, 4]) (env := lineEnv) (env' := threadExact) (o := ⟨.complete, [], none, []⟩)
    (o' := ⟨.complete, [], none, []⟩) ⟨_, [], rfl⟩ ⟨rfl, rfl, rfl, rfl⟩ (by decide) threadMono_strict (fun h => by cases h)
    (vs := slopeLine) (vs' := threadRows) (fun x _ => by
      rw [show dget? threadRows x = _ from dget?_dmap (f := id) Function.injective_id threadRow slopeLine x, Option.isSome_map])
    (fun x _ y _ => by
      have h1 : dget? threadRows x = _ := dget?_dmap (f := id) Function.injective_id threadRow slopeLine x
      have h2 : dget? threadRows y = _ := dget?_dmap (f := id) Function.injective_id threadRow slopeLine y
      unfold distanceOf
      rw [h1, h2]
      cases dget? slopeLine x with
      | none => rfl
      | some s =>
        cases dget? slopeLine y with
        | none => rfl
        | some t =>
          show some (rowDist (threadRow s) (threadRow t)) = _
          rw [rowDist_thread]
          rfl) (some 2)).1
  rw [hx] at h
  exact h

/-- The hypotheses of `C124_hierarchical`, and what hierarchical clustering returns in binary64. -/
example : ((⟨.complete, [], none, []⟩ : HObject Nat (List ℚ)).cluster threadEnv (Manager.init [1, 2, 3, 4]) (some threadFloat) (some 2)).2 =
    .ok [(1, 0), (2, 0), (3, 1), (4, 1)] := by
  exact (C124_hierarchical (m := Manager.init [1, 2, 3, 4]) (o' := ⟨.complete, [], none, []⟩) ⟨_, [], rfl⟩ threadError thread_near
    (env := threadExact) (env' := threadEnv) rfl (C124_one (α := Nat) 0 id id).metric (.inr rfl) ⟨rfl, rfl, rfl, rfl⟩
    (Prod.ext_iff.2 ⟨rfl, thread_hier⟩) thread_gap).1

/-- The hypotheses of `C124_dbscan`: the radius 0.6 is between the distances 0.5 and 0.8. -/
theorem thread_radius : RadiusMargin (3 * (1 / 2 ^ 20)) (Manager.init [1, 2, 3, 4]) rowDist threadRows (3 / 5) := by
  have h : ∀ x ∈ (Manager.init [1, 2, 3, 4]).managed, ∀ y ∈ (Manager.init [1, 2, 3, 4]).managed,
      lineEnv.metric ((dget? slopeLine x).getD 0) ((dget? slopeLine y).getD 0) ≤ 10 ∨
      16 ≤ lineEnv.metric ((dget? slopeLine x).getD 0) ((dget? slopeLine y).getD 0) := by decide +kernel
  intro x hx y hy d hd
  unfold distanceOf at hd
  cases e1 : dget? threadRows x with
  | none => rw [e1] at hd; simp at hd
  | some v =>
    cases e2 : dget? threadRows y with
    | none => rw [e1, e2] at hd; simp at hd
    | some w =>
      obtain ⟨s, hs, rfl⟩ := thread_get e1
      obtain ⟨t, ht, rfl⟩ := thread_get e2
      rw [e1, e2] at hd
      simp only [Option.some.injEq] at hd
      have h1 := h x hx y hy
      rw [hs, ht] at h1
      simp only [Option.getD_some] at h1
      rw [rowDist_thread] at hd
      have h2 : ((lineKmEnv (α := Nat) 0 id id).metric s t : ℚ) = lineEnv.metric s t := rfl
      rw [h2] at hd
      rw [← hd]
      rcases h1 with h1 | h1
      · left
        have : ((lineEnv.metric s t : ℚ) : ℝ) ≤ 10 := by exact_mod_cast h1
        push_cast
        norm_num
        linarith
      · right
        have : (16 : ℝ) ≤ ((lineEnv.metric s t : ℚ) : ℝ) := by exact_mod_cast h1
        push_cast
        norm_num
        linarith

/-- The hypotheses of `C124_sampling`. -/
example : ∀ p q, Eligible (⟨none, some .closestNeighbors, true, true⟩ : Sampler) (Manager.init [1, 2, 3, 4]) none p →
    Eligible (⟨none, some .closestNeighbors, true, true⟩ : Sampler) (Manager.init [1, 2, 3, 4]) none q → p ≠ q → ∀ e f,
    distanceOf rowDist threadRows p.1 p.2 = some e → distanceOf rowDist threadRows q.1 q.2 = some f →
    6 * (1 / 2 ^ 20) < |f - e| := fun p q hp hq hpq d e hd he =>
  thread_gap p.1 hp.left p.2 hp.right q.1 hq.left q.2 hq.right (ne_of_lt hp.ordered) (ne_of_lt hq.ordered) (by
    rintro (⟨h1, h2⟩ | ⟨h1, h2⟩)
    · exact hpq (Prod.ext h1 h2)
    · have := hp.ordered; have := hq.ordered; omega) d e hd he

/-- The documented program, from two texts with vectors in binary64. -/
example : ∃ (tenv : TextEnv (List ℚ)) (m : Manager Nat) (r : Dict Nat Int),
    usageTexts tenv ([(1, .str "red car".toList), (2, .str "my, car".toList)] : Dict Nat PyText) (usageTruth id)
      (seqRowEnv (1 / 10000) List.dedup id) [⟨seqRowEnv (1 / 10000) List.dedup id, fun l k => l.reverse.take k, plainOrders⟩] = .ok (m, r) ∧
    dget? r 1 ≠ dget? r 2 := by
  obtain ⟨c, hc⟩ := flCalc_ok
  have henv : (seqRowEnv (α := Nat) (1 / 10000) List.dedup id).Ok := ⟨fun l => ⟨List.nodup_dedup l, fun x => List.mem_dedup⟩, fun l => .refl l⟩
  obtain ⟨m, r, h1, -, h3⟩ := C124_truthful hc (e := asciiTfidf) (tenv := ⟨id, id, id, fun _ => false, fun _ => true,
      fun _ s => .ok ((wordPieces (fun c => c != ' ') s).map fun w => ⟨w, w, w.isEmpty, false, false, false, 0⟩), fun _ _ => .ok [],
      flTfidf c asciiTfidf⟩) (by decide) rfl
    (texts := ([(1, .str "red car".toList), (2, .str "my, car".toList)] : Dict Nat PyText)) (by decide)
    (pre := [(1, "red car".toList), (2, "my car".toList)]) (by rfl) (x := 1) (y := 2) (by decide) rfl rfl
    ⟨"car".toList, wordOf_iff.2 (by decide +kernel), wordOf_iff.2 (by decide +kernel)⟩ (answer := usageTruth id) (truth := id)
    (fun m x y => by unfold usageTruth; split <;> assumption) ⟨1, by decide, 2, by decide, by decide⟩ henv
    (chances := [⟨seqRowEnv (1 / 10000) List.dedup id, fun l k => l.reverse.take k, plainOrders⟩])
    (by
      intro c hc
      rw [List.mem_singleton] at hc
      subst hc
      exact ⟨henv, fun l k hk => ⟨by simpa using hk, ((List.take_sublist _ _).subperm).trans (List.reverse_perm l).subperm⟩,
        fun nodes adj => plainOrders_valid nodes adj⟩) (by decide)
  exact ⟨_, m, r, h1, fun h => absurd ((h3 1 (by decide) 2 (by decide)).1 h) (by decide)⟩

end Verif
