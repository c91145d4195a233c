import Verif.Model.Text
import Verif.Spec.Text
import Verif.Spec.Clustering
import Verif.Py.DictLemmas
import Verif.Proofs.Sampling
import Verif.Proofs.Clustering
import Verif.Proofs.DBScan
import Verif.Proofs.Bounds

/-
C52: text utilities.
-/

namespace Verif

theorem listed_iff (c : Char) : c ∈ punctuation ↔ Listed c := by
  have : punctuation = ".,;:!¡?¿…•(){}[]«»^`'\"\\/|-_#&~@".toList := by decide +kernel
  rw [this]
  rfl

theorem translate_cleaned (s : List Char) : Cleaned s (translate s) := by
  induction s with
  | nil => exact .nil
  | cons c s ih =>
    refine .cons ?_ ih
    by_cases h : c ∈ punctuation
    · exact .inl ⟨(listed_iff c).1 h, by simp [h]⟩
    · exact .inr ⟨fun hl => h ((listed_iff c).2 hl), by simp [h]⟩

theorem cleaned_unique {s a b : List Char} (ha : Cleaned s a) (hb : Cleaned s b) : a = b := by
  induction ha generalizing b with
  | nil => cases hb; rfl
  | cons h _ ih =>
    cases hb with
    | cons h' ht =>
      rw [ih ht]
      congr 1
      rcases h with ⟨h1, rfl⟩ | ⟨h1, rfl⟩ <;> rcases h' with ⟨h2, rfl⟩ | ⟨h2, rfl⟩ <;> first | rfl | contradiction

theorem cleaned_punctFree {s a : List Char} (ha : Cleaned s a) : PunctFree a := by
  induction ha with
  | nil => intro c hc; cases hc
  | cons h _ ih =>
    intro c hc
    rcases List.mem_cons.1 hc with rfl | hc
    · rcases h with ⟨-, rfl⟩ | ⟨h1, rfl⟩
      · unfold Listed; decide +kernel
      · exact h1
    · exact ih c hc

theorem keepToken_iff (o : PreOptions) (t : Token) : keepToken o t = true ↔ Kept o t := by
  unfold keepToken
  constructor
  · intro h
    simp only [Bool.and_eq_true, Bool.not_eq_true', Bool.or_eq_true, decide_eq_true_eq] at h
    obtain ⟨⟨⟨h1, h2, h3⟩, h4⟩, h5⟩ := h
    refine ⟨h1, h2, h3, fun e => ?_, fun e => ?_⟩
    · simpa [e] using h4
    · simpa [e] using h5
  · rintro ⟨h1, h2, h3, h4, h5⟩
    cases hs : o.stopwords <;> cases hp : o.parsing <;> simp_all

theorem joinSpace_joined (ws : List (List Char)) : Joined ws (joinSpace ws) := by
  induction ws with
  | nil => exact .nil
  | cons w ws ih =>
    cases ws with
    | nil => exact .single w
    | cons w' ws => exact .cons _ _ _ _ ih

theorem joined_mem {ws : List (List Char)} {l : List Char} (h : Joined ws l) {c : Char} (hc : c ∈ l) :
    c = ' ' ∨ ∃ w ∈ ws, c ∈ w := by
  induction h with
  | nil => cases hc
  | single w => exact .inr ⟨w, by simp, hc⟩
  | cons w w' ws l _ ih =>
    rcases List.mem_append.1 hc with hc | hc
    · exact .inr ⟨w, by simp, hc⟩
    · rcases List.mem_cons.1 hc with rfl | hc
      · exact .inl rfl
      · rcases ih hc with h | ⟨v, hv, hcv⟩
        · exact .inl h
        · exact .inr ⟨v, by simp [List.mem_cons.1 hv], hcv⟩

section
variable {α V : Type} [DecidableEq α]

/-- The loop of `preprocess`. -/
theorem preprocess_loop {f : PyText → Except PyErr (List Char)} {texts : Dict α PyText} {d : Dict α (List Char)}
    (hn : (dkeys d ++ dkeys texts).Nodup) {r : Dict α (List Char)}
    (hr : texts.foldlM (fun d p => do return dset d p.1 (← f p.2)) d = .ok r) :
    ∃ r', r = d ++ r' ∧ List.Forall₂ (fun (p : α × PyText) q => q.1 = p.1 ∧ f p.2 = .ok q.2) texts r' := by
  induction texts generalizing d with
  | nil => cases hr; exact ⟨[], by simp, .nil⟩
  | cons p texts ih =>
    rw [List.foldlM_cons] at hr
    cases hf : f p.2 with
    | error e => rw [hf] at hr; cases hr
    | ok t =>
      rw [hf] at hr
      simp only [bind, Except.bind, pure, Except.pure] at hr
      have hp : p.1 ∉ dkeys d := fun h => by
        have := (List.nodup_append.1 hn).2.2 _ h p.1 (by simp [dkeys])
        exact this rfl
      rw [dset_of_notMem t hp] at hr
      obtain ⟨r', rfl, h2⟩ := ih (d := d ++ [(p.1, t)]) (by simpa [dkeys, List.append_assoc] using hn)
        (by simpa only [bind, Except.bind, pure, Except.pure] using hr)
      exact ⟨(p.1, t) :: r', by simp, .cons ⟨rfl, hf⟩ h2⟩

theorem preprocess_loop_total {f : PyText → Except PyErr (List Char)} {texts : Dict α PyText}
    (h : ∀ p ∈ texts, ∃ t, f p.2 = .ok t) (d : Dict α (List Char)) :
    ∃ r, texts.foldlM (fun d p => do return dset d p.1 (← f p.2)) d = .ok r := by
  induction texts generalizing d with
  | nil => exact ⟨d, rfl⟩
  | cons p texts ih =>
    obtain ⟨t, ht⟩ := h p (by simp)
    rw [List.foldlM_cons, ht]
    exact ih (fun q hq => h q (by simp [hq])) _

theorem preprocess_loop_error {f : PyText → Except PyErr (List Char)} {texts : Dict α PyText} {e : PyErr} {d : Dict α (List Char)}
    (hr : texts.foldlM (fun d p => do return dset d p.1 (← f p.2)) d = .error e) : ∃ p ∈ texts, f p.2 = .error e := by
  induction texts generalizing d with
  | nil => cases hr
  | cons p texts ih =>
    rw [List.foldlM_cons] at hr
    cases hf : f p.2 with
    | error e' => rw [hf] at hr; cases hr; exact ⟨p, by simp, hf⟩
    | ok t =>
      rw [hf] at hr
      obtain ⟨q, hq, e⟩ := ih (by simpa only [bind, Except.bind, pure, Except.pure] using hr)
      exact ⟨q, by simp [hq], e⟩

theorem preprocess_ok {env : TextEnv V} {o : PreOptions} {texts : Dict α PyText} (hn : (dkeys texts).Nodup)
    {r : Dict α (List Char)} (hr : preprocess env o texts = .ok r) :
    env.installed o.model = true ∧
      List.Forall₂ (fun (p : α × PyText) q => q.1 = p.1 ∧ preprocessText env o p.2 = .ok q.2) texts r := by
  unfold preprocess at hr
  cases hi : env.installed o.model with
  | false => simp [hi, throw, throwThe, MonadExceptOf.throw, bind, Except.bind] at hr
  | true =>
    simp only [hi, Bool.true_eq_false, if_false] at hr
    obtain ⟨r', rfl, h⟩ := preprocess_loop (d := []) (by simpa [dkeys] using hn)
      (by simpa only [bind, Except.bind, pure, Except.pure] using hr)
    exact ⟨rfl, by simpa using h⟩

/-- The words of a preprocessed text. -/
theorem preprocessText_ok {env : TextEnv V} {o : PreOptions} {text : PyText} {t : List Char}
    (ht : preprocessText env o text = .ok t) :
    ∃ s s' tokens, text = .str s ∧ Cleaned (env.lower s) s' ∧ env.nlp o.model s' = .ok tokens ∧
      ∃ j, Joined ((tokens.filter (keepToken o)).map fun k => env.strip (if o.lemmatization = true then k.lemma_ else k.text)) j ∧
        t = (env.nfkd j).filter fun c => !env.combining c := by
  cases text with
  | other _ => cases ht
  | str s =>
    unfold preprocessText at ht
    simp only at ht
    cases hn : env.nlp o.model (translate (env.lower s)) with
    | error e => rw [hn] at ht; cases ht
    | ok tokens =>
      rw [hn] at ht
      refine ⟨s, _, tokens, rfl, translate_cleaned _, hn, joinSpace _, joinSpace_joined _, ?_⟩
      cases hl : o.lemmatization with
      | true => rw [hl] at ht; cases ht; rfl
      | false => rw [hl] at ht; cases ht; rfl

omit [DecidableEq α] in
theorem words_filter (env : TextEnv V) (o : PreOptions) (tokens : List Token) :
    Words env o tokens ((tokens.filter (keepToken o)).map fun k => env.strip (if o.lemmatization = true then k.lemma_ else k.text)) := by
  induction tokens with
  | nil => exact .nil
  | cons t tokens ih =>
    rw [List.filter_cons]
    by_cases h : keepToken o t = true
    · rw [if_pos h]
      exact .keep _ _ _ ((keepToken_iff o t).1 h) ih
    · rw [if_neg h]
      exact .drop _ _ _ (fun hk => h ((keepToken_iff o t).2 hk)) ih

/-- `preprocess` keeps the keys and their order. -/
theorem C52_preprocess_keys {env : TextEnv V} {o : PreOptions} {texts : Dict α PyText} (hn : (dkeys texts).Nodup)
    {r : Dict α (List Char)} (hr : preprocess env o texts = .ok r) : dkeys r = dkeys texts := by
  have h := (preprocess_ok hn hr).2
  have key : ∀ {t : Dict α PyText} {r : Dict α (List Char)},
      List.Forall₂ (fun (p : α × PyText) q => q.1 = p.1 ∧ preprocessText env o p.2 = .ok q.2) t r → dkeys r = dkeys t := by
    intro t r h
    induction h with
    | nil => rfl
    | cons h _ ih => simp only [dkeys, List.map_cons] at ih ⊢; rw [h.1, ih]
  exact key h

/-- When `preprocess` fails: an uninstalled language model is a `ValueError` (even without texts); otherwise a text that
is not a string is an `AttributeError`, and the other failures are those of the language model. -/
theorem C52_preprocess_success {env : TextEnv V} {o : PreOptions} {texts : Dict α PyText} (hn : (dkeys texts).Nodup) :
    (env.installed o.model = false → preprocess env o texts = .error (.valueError "spacy_language_model")) ∧
    (env.installed o.model = true →
      ((∃ r, preprocess env o texts = .ok r) ↔ ∀ p ∈ texts, ∃ s, p.2 = .str s ∧ ∃ s' tokens, Cleaned (env.lower s) s' ∧
        env.nlp o.model s' = .ok tokens) ∧
      ∀ e, preprocess env o texts = .error e → ∃ p ∈ texts, (∃ x, p.2 = .other x) ∧ e = .attributeError ∨
        ∃ s s', p.2 = .str s ∧ Cleaned (env.lower s) s' ∧ env.nlp o.model s' = .error e) := by
  refine ⟨fun hi => by simp [preprocess, hi, throw, throwThe, MonadExceptOf.throw, bind, Except.bind], fun hi => ⟨⟨?_, ?_⟩, ?_⟩⟩
  · rintro ⟨r, hr⟩ p hp
    obtain ⟨q, -, -, hq⟩ := forall₂_mem_left (preprocess_ok hn hr).2 hp
    obtain ⟨s, s', tokens, e, hc, hnlp, -⟩ := preprocessText_ok hq
    exact ⟨s, e, s', tokens, hc, hnlp⟩
  · intro h
    have ht : ∀ p ∈ texts, ∃ t, preprocessText env o p.2 = .ok t := by
      intro p hp
      obtain ⟨s, e, s', tokens, hc, hnlp⟩ := h p hp
      rw [e, preprocessText]
      simp only
      rw [cleaned_unique (translate_cleaned _) hc, hnlp]
      exact ⟨_, rfl⟩
    obtain ⟨r, hr⟩ := preprocess_loop_total ht []
    refine ⟨r, ?_⟩
    unfold preprocess
    simp only [hi, Bool.true_eq_false, if_false]
    simpa only [bind, Except.bind, pure, Except.pure] using hr
  · intro e he
    unfold preprocess at he
    simp only [hi, Bool.true_eq_false, if_false] at he
    obtain ⟨p, hp, hf⟩ := preprocess_loop_error (f := preprocessText env o)
      (by simpa only [bind, Except.bind, pure, Except.pure] using he)
    refine ⟨p, hp, ?_⟩
    cases h2 : p.2 with
    | other x => rw [h2] at hf; cases hf; exact .inl ⟨⟨x, rfl⟩, rfl⟩
    | str s =>
      rw [h2, preprocessText] at hf
      simp only at hf
      cases hnlp : env.nlp o.model (translate (env.lower s)) with
      | error e' =>
        rw [hnlp] at hf; cases hf
        exact .inr ⟨s, _, rfl, translate_cleaned _, hnlp⟩
      | ok tokens => rw [hnlp] at hf; cases hf

/-- No listed punctuation character reaches the tokenizer: `preprocess` does not depend on what the language model does on
texts that contain such a character. -/
theorem C52_no_punctuation {env env' : TextEnv V} (h1 : env.lower = env'.lower) (h2 : env.strip = env'.strip)
    (h3 : env.nfkd = env'.nfkd) (h4 : env.combining = env'.combining) (h5 : env.installed = env'.installed)
    (hnlp : ∀ model s, PunctFree s → env.nlp model s = env'.nlp model s) (o : PreOptions) (texts : Dict α PyText) :
    preprocess env o texts = preprocess env' o texts := by
  have : preprocessText env o = preprocessText env' o := by
    funext t
    cases t with
    | other _ => rfl
    | str s =>
      unfold preprocessText
      simp only [h1, h2, h3, h4, hnlp o.model _ (cleaned_punctFree (translate_cleaned (env'.lower s)))]
  unfold preprocess
  rw [this, h5]

/-- The value of a key: the lowercased text, with every listed punctuation character replaced by a space, is given to
the language model; the stripped texts (or lemmas) of the kept tokens are joined by single spaces; the combining
characters are removed after the decomposition. -/
theorem C52_preprocess_value {env : TextEnv V} {o : PreOptions} {texts : Dict α PyText} (hn : (dkeys texts).Nodup)
    {r : Dict α (List Char)} (hr : preprocess env o texts = .ok r) {x : α} {t : List Char} (ht : dget? r x = some t) :
    ∃ s s' tokens words j, dget? texts x = some (.str s) ∧ Cleaned (env.lower s) s' ∧ env.nlp o.model s' = .ok tokens ∧
      Words env o tokens words ∧ Joined words j ∧ t = (env.nfkd j).filter fun c => !env.combining c := by
  obtain ⟨p, hp, e1, hq⟩ := forall₂_mem_right (preprocess_ok hn hr).2 (mem_of_dget? ht)
  simp only at e1 hq
  obtain ⟨s, s', tokens, e, hc, hnlp, j, hj, hjt⟩ := preprocessText_ok hq
  refine ⟨s, s', tokens, _, j, ?_, hc, hnlp, words_filter env o tokens, hj, hjt⟩
  · rw [e1]
    exact dget?_of_mem hn (by rw [← e]; exact hp)

/-- The filters only remove words: with more filters, the words of every text are a sublist of the words without. -/
theorem C52_filters_remove {env : TextEnv V} {o o' : PreOptions} (ho : Stricter o o') {tokens : List Token}
    {words words' : List (List Char)} (h : Words env o tokens words) (h' : Words env o' tokens words') :
    words'.Sublist words := by
  have hk : ∀ t, Kept o' t → Kept o t := fun t ht =>
    ⟨ht.noSpace, ht.noPunct, ht.noQuote, fun h => ht.noStop (ho.1 h), fun h => ht.shallow (ho.2.1 h)⟩
  induction h generalizing words' with
  | nil => cases h'; exact .slnil
  | keep t tokens words _ _ ih =>
    cases h' with
    | keep _ _ w' _ hw => rw [ho.2.2.1]; exact (ih hw).cons_cons _
    | drop _ _ _ _ hw => exact (ih hw).cons _
  | drop t tokens words hno _ ih =>
    cases h' with
    | keep _ _ w' hkk hw => exact absurd (hk _ hkk) hno
    | drop _ _ _ _ hw => exact ih hw

/-- No combining character is left. -/
theorem C52_no_combining {env : TextEnv V} {o : PreOptions} {texts : Dict α PyText} (hn : (dkeys texts).Nodup)
    {r : Dict α (List Char)} (hr : preprocess env o texts = .ok r) {x : α} {t : List Char} (ht : dget? r x = some t) :
    ∀ c ∈ t, env.combining c = false := by
  obtain ⟨_, _, _, _, _, -, -, -, -, -, rfl⟩ := C52_preprocess_value hn hr ht
  intro c hc
  simpa using (List.mem_filter.1 hc).2

/-- The result contains no listed punctuation character, if the words of the language model contain none and the
decomposition brings none. -/
theorem C52_result_punctFree {env : TextEnv V} {o : PreOptions}
    (hw : ∀ model s tokens, PunctFree s → env.nlp model s = .ok tokens → ∀ t ∈ tokens,
      PunctFree (env.strip (if o.lemmatization = true then t.lemma_ else t.text)))
    (hd : ∀ s, PunctFree s → PunctFree (env.nfkd s)) {texts : Dict α PyText} (hn : (dkeys texts).Nodup)
    {r : Dict α (List Char)} (hr : preprocess env o texts = .ok r) {x : α} {t : List Char} (ht : dget? r x = some t) :
    PunctFree t := by
  obtain ⟨s, s', tokens, words, j, -, hc, hnlp, hwords, hj, rfl⟩ := C52_preprocess_value hn hr ht
  have hpf : ∀ w ∈ words, PunctFree w := by
    have h := hw o.model s' tokens (cleaned_punctFree hc) hnlp
    clear hnlp hj
    induction hwords with
    | nil => simp
    | keep t tokens words _ _ ih =>
      intro w hw'
      rcases List.mem_cons.1 hw' with rfl | hw'
      · exact h t (by simp)
      · exact ih (fun t' ht' => h t' (by simp [ht'])) w hw'
    | drop t tokens words _ _ ih => exact ih fun t' ht' => h t' (by simp [ht'])
  have hjf : PunctFree j := by
    intro c hcj
    rcases joined_mem hj hcj with rfl | ⟨w, hwm, hcw⟩
    · unfold Listed; decide +kernel
    · exact hpf w hwm c hcw
  intro c hcm
  exact hd j hjf c (List.mem_filter.1 hcm).1

/-- Without an assumption on the decomposition this fails: a decomposition may bring back a listed character after the
removal (as NFKD does, U+FF03 to `#`). -/
theorem C52_decomposition_may_restore : ∃ (env : TextEnv Nat) (r : Dict Nat (List Char)),
    (∀ model s tokens, PunctFree s → env.nlp model s = .ok tokens → ∀ t ∈ tokens, PunctFree (env.strip t.text)) ∧
    preprocess env {} [(1, PyText.str ['a', '＃'])] = .ok r ∧ dget? r 1 = some ['a', '#'] := by
  refine ⟨⟨id, id, fun s => s.map fun c => if c = '＃' then '#' else c, fun _ => false, fun _ => true,
    fun _ s => .ok [⟨s, s, false, false, false, false, 0⟩], fun _ _ => .ok 0, fun _ => .ok []⟩, [(1, ['a', '#'])], ?_, ?_, rfl⟩
  · intro model s tokens hs h t ht
    cases h
    simp only [List.mem_singleton] at ht
    subst ht
    exact hs
  · decide +kernel

/-- The value of a key depends on its own text only. -/
theorem C52_preprocess_local {env : TextEnv V} {o : PreOptions} {texts texts' : Dict α PyText} (hn : (dkeys texts).Nodup)
    (hn' : (dkeys texts').Nodup) {r r' : Dict α (List Char)} (hr : preprocess env o texts = .ok r)
    (hr' : preprocess env o texts' = .ok r') {x : α} (hx : dget? texts x = dget? texts' x) : dget? r x = dget? r' x := by
  have key : ∀ {texts : Dict α PyText} {r : Dict α (List Char)}, (dkeys texts).Nodup → preprocess env o texts = .ok r → ∀ {x : α},
      dget? r x = (dget? texts x).bind fun t => (preprocessText env o t).toOption := by
    intro texts r hn hr x
    have h := (preprocess_ok hn hr).2
    clear hr hn
    induction h with
    | nil => rfl
    | @cons p q texts r hpq _ ih =>
      obtain ⟨k, t⟩ := p
      obtain ⟨k', t'⟩ := q
      obtain ⟨e1, e2⟩ := hpq
      simp only at e1 e2
      subst e1
      by_cases hk : k' = x
      · simp [dget?, hk, e2, Except.toOption]
      · simp [dget?, hk, ih]
  rw [key hn hr, key hn' hr', hx]

/-! ### Vectors -/

theorem texts_ok {texts : Dict α PyText} (hn : (dkeys texts).Nodup) :
    ((dkeys texts).mapM fun x => do return (← dget texts x).toStr : Except PyErr (List (List Char))) =
      .ok (texts.map fun p => p.2.toStr) := by
  have key : ∀ l : Dict α PyText, (∀ p ∈ l, dget texts p.1 = .ok p.2) →
      ((dkeys l).mapM fun x => do return (← dget texts x).toStr : Except PyErr (List (List Char))) = .ok (l.map fun p => p.2.toStr) := by
    intro l
    induction l with
    | nil => intro _; rfl
    | cons p l ih =>
      intro h
      have ih' := ih fun q hq => h q (by simp [hq])
      simp only [dkeys] at ih' ⊢
      rw [List.map_cons, List.mapM_cons, h p (by simp), ih']
      rfl
  exact key texts fun p hp => dget_of_dget? (dget?_of_mem hn hp)

theorem vectorize_tfidf {env : TextEnv V} {texts : Dict α PyText} (hn : (dkeys texts).Nodup) {model : String}
    {rows : List V} (ht : env.tfidf (texts.map fun p => p.2.toStr) = .ok rows) :
    (texts.length ≤ rows.length → vectorize env texts "tfidf" model = .ok ((dkeys texts).zip rows)) ∧
    (rows.length < texts.length → vectorize env texts "tfidf" model = .error .indexError) := by
  have h1 := texts_ok hn
  have h2 : ∀ (l : List α) (k : Nat),
      (l.length + k ≤ rows.length → (l.zipIdx k).mapM (rowOf rows) = .ok (l.zip (rows.drop k))) ∧
      (k ≤ rows.length → rows.length < l.length + k → (l.zipIdx k).mapM (rowOf rows) = .error .indexError) := by
    intro l
    induction l with
    | nil => intro k; exact ⟨fun _ => rfl, fun h1 h2 => by simp at h2; omega⟩
    | cons a l ih =>
      intro k
      obtain ⟨i1, i2⟩ := ih (k + 1)
      constructor
      · intro h
        simp only [List.length_cons] at h
        have hk : k < rows.length := by omega
        rw [List.zipIdx_cons, List.mapM_cons, i1 (by omega)]
        simp [rowOf, List.getElem?_eq_getElem hk, bind, Except.bind, pure, Except.pure]
        rw [List.drop_eq_getElem_cons hk, List.zip_cons_cons]
      · intro h0 h
        simp only [List.length_cons] at h
        rw [List.zipIdx_cons, List.mapM_cons]
        by_cases hk : k < rows.length
        · rw [i2 (by omega) (by omega)]
          simp [rowOf, List.getElem?_eq_getElem hk, bind, Except.bind]
        · have : rows[k]? = none := by simp; omega
          simp [rowOf, this, bind, Except.bind]
  obtain ⟨h3, h4⟩ := h2 (dkeys texts) 0
  have hl : (dkeys texts).length = texts.length := by simp [dkeys]
  unfold vectorize
  simp only [if_true]
  simp only [bind, Except.bind, pure, Except.pure] at h1 ⊢
  rw [h1]
  simp only [ht]
  constructor
  · intro h
    rw [h3 (by omega)]
    simp only [List.drop_zero]
    rw [dofList_of_nodup]
    rw [List.map_fst_zip (by omega)]
    exact hn
  · intro h
    rw [h4 (by omega) (by omega)]

theorem dget?_zip_gen {ν : Type} {l : List α} {r : List ν} (hn : l.Nodup) {i : Nat} {x : α} (hx : l[i]? = some x) :
    dget? (l.zip r) x = r[i]? := by
  induction l generalizing r i with
  | nil => simp at hx
  | cons a l ih =>
    cases r with
    | nil => simp [dget?]
    | cons b r =>
      obtain ⟨ha, hn'⟩ := List.nodup_cons.1 hn
      cases i with
      | zero => simp at hx; simp [dget?, hx]
      | succ i =>
        simp only [List.getElem?_cons_succ] at hx ⊢
        have : a ≠ x := fun e => ha (e ▸ List.mem_of_getElem? hx)
        simp [dget?, this, ih hn' hx]

/-- `vectorizer_type="tfidf"`: the matrix is computed from the texts in the order of the keys, and its `i`-th row is
the vector of the `i`-th key. The call fails exactly when scikit-learn fails, or returns fewer rows than texts. -/
theorem C52_vectorize_tfidf {env : TextEnv V} {texts : Dict α PyText} (hn : (dkeys texts).Nodup) (model : String) :
    (∀ e, env.tfidf (texts.map fun p => p.2.toStr) = .error e → vectorize env texts "tfidf" model = .error e) ∧
    ∀ rows, env.tfidf (texts.map fun p => p.2.toStr) = .ok rows →
      (rows.length < texts.length → vectorize env texts "tfidf" model = .error .indexError) ∧
      (texts.length ≤ rows.length → ∃ r, vectorize env texts "tfidf" model = .ok r ∧ dkeys r = dkeys texts ∧
        ∀ (i : Nat) (x : α), (dkeys texts)[i]? = some x → dget? r x = rows[i]?) := by
  have h1 : ((dkeys texts).mapM fun x => do return (← dget texts x).toStr : Except PyErr (List (List Char))) =
      .ok (texts.map fun p => p.2.toStr) := texts_ok hn
  refine ⟨fun e he => ?_, fun rows ht => ?_⟩
  · unfold vectorize
    simp only [if_true]
    simp only [bind, Except.bind, pure, Except.pure] at h1 ⊢
    rw [h1]
    simp only [he]
  · obtain ⟨h3, h4⟩ := vectorize_tfidf hn (model := model) ht
    refine ⟨h4, fun hl => ⟨_, h3 hl, ?_, fun i x hx => dget?_zip_gen hn hx⟩⟩
    unfold dkeys at hl ⊢
    exact List.map_fst_zip (by simpa using hl)

/-- `vectorizer_type="spacy"`: the vector of a key is that of its own text. -/
theorem C52_vectorize_spacy {env : TextEnv V} {texts : Dict α PyText} (hn : (dkeys texts).Nodup) (model : String) :
    (env.installed model = false → vectorize env texts "spacy" model = .error (.valueError "spacy_language_model")) ∧
    (env.installed model = true →
      ((∃ r, vectorize env texts "spacy" model = .ok r) ↔ ∀ p ∈ texts, ∃ v, env.vector model p.2.toStr = .ok v) ∧
      ∀ r, vectorize env texts "spacy" model = .ok r → dkeys r = dkeys texts ∧
        ∀ x t, dget? texts x = some t → ∃ v, dget? r x = some v ∧ env.vector model t.toStr = .ok v) := by
  have hne : ¬ "spacy" = "tfidf" := by decide
  refine ⟨fun hi => by simp [vectorize, hi, throw, throwThe, MonadExceptOf.throw, bind, Except.bind], fun hi => ?_⟩
  have hv : vectorize env texts "spacy" model =
      (do return dofList (← texts.mapM fun p => do return (p.1, ← env.vector model p.2.toStr)) : Except PyErr (Dict α V)) := by
    simp [vectorize, hi]
  rw [hv]
  constructor
  · constructor
    · rintro ⟨r, hr⟩ p hp
      cases hm : (texts.mapM fun p => do return (p.1, ← env.vector model p.2.toStr) : Except PyErr (List (α × V))) with
      | error e => rw [hm] at hr; cases hr
      | ok items =>
        obtain ⟨q, -, hq⟩ := forall₂_mem_left (mapM_ok_iff.1 hm) hp
        cases he : env.vector model p.2.toStr with
        | error e => rw [he] at hq; cases hq
        | ok v => exact ⟨v, rfl⟩
    · intro h
      obtain ⟨items, hm⟩ := mapM_total (f := fun p : α × PyText => (do return (p.1, ← env.vector model p.2.toStr) : Except PyErr (α × V)))
        (l := texts) (fun p hp => by
          obtain ⟨v, hv⟩ := h p hp
          exact ⟨(p.1, v), by rw [hv]; rfl⟩)
      exact ⟨dofList items, by rw [hm]; rfl⟩
  · intro r hr
    cases hm : (texts.mapM fun p => do return (p.1, ← env.vector model p.2.toStr) : Except PyErr (List (α × V))) with
    | error e => rw [hm] at hr; cases hr
    | ok items =>
      rw [hm] at hr
      cases hr
      have hf := mapM_ok_iff.1 hm
      have hf' : List.Forall₂ (fun (p : α × PyText) (q : α × V) => q.1 = p.1 ∧ env.vector model p.2.toStr = .ok q.2) texts items := by
        refine hf.imp fun p q h => ?_
        cases he : env.vector model p.2.toStr with
        | error e => rw [he] at h; cases h
        | ok v => rw [he] at h; cases h; exact ⟨rfl, rfl⟩
      have hk : items.map Prod.fst = dkeys texts := by
        clear hm hf hv
        induction hf' with
        | nil => rfl
        | cons h _ ih =>
          simp only [dkeys, List.map_cons, List.nodup_cons] at hn ih ⊢
          rw [h.1, ih hn.2]
      have hnd : (items.map Prod.fst).Nodup := hk ▸ hn
      rw [dofList_of_nodup hnd]
      refine ⟨hk, fun x t hx => ?_⟩
      obtain ⟨q, hq, e1, e2⟩ := forall₂_mem_left hf' (mem_of_dget? hx)
      obtain ⟨k, v⟩ := q
      simp only at e1 e2
      subst e1
      exact ⟨v, dget?_of_mem hnd hq, e2⟩

/-- Any other type is a `ValueError`. -/
theorem C52_vectorize_unknown (env : TextEnv V) (texts : Dict α PyText) {type : String} (model : String) (h1 : type ≠ "tfidf")
    (h2 : type ≠ "spacy") : vectorize env texts type model = .error (.valueError "vectorizer_type") := by
  simp [vectorize, h1, h2, throw, throwThe, MonadExceptOf.throw]

/-- `vectorize` keeps the keys and their order. -/
theorem C52_vectorize_keys {env : TextEnv V} {texts : Dict α PyText} (hn : (dkeys texts).Nodup) {type model : String}
    {r : Dict α V} (hr : vectorize env texts type model = .ok r) : dkeys r = dkeys texts := by
  by_cases h1 : type = "tfidf"
  · subst h1
    obtain ⟨h2, h3⟩ := C52_vectorize_tfidf (env := env) hn model
    cases ht : env.tfidf (texts.map fun p => p.2.toStr) with
    | error e => rw [h2 e ht] at hr; cases hr
    | ok rows =>
      obtain ⟨h4, h5⟩ := h3 rows ht
      by_cases hl : rows.length < texts.length
      · rw [h4 hl] at hr; cases hr
      · obtain ⟨r', e, hk, -⟩ := h5 (by omega)
        rw [hr] at e; cases e; exact hk
  · by_cases h2 : type = "spacy"
    · subst h2
      obtain ⟨h3, h4⟩ := C52_vectorize_spacy (env := env) hn model
      cases hi : env.installed model with
      | false => rw [h3 hi] at hr; cases hr
      | true => exact ((h4 hi).2 r hr).1
    · rw [C52_vectorize_unknown env texts model h1 h2] at hr; cases hr

/-- `preprocess`, then `vectorize`: every ID of a constraints manager whose IDs are keys of the texts has a vector. -/
theorem C52_pipeline {α : Type} [LinearOrder α] {env : TextEnv V} {o : PreOptions} {texts : Dict α PyText} (hn : (dkeys texts).Nodup)
    {r : Dict α (List Char)} (hr : preprocess env o texts = .ok r) {type model : String} {vectors : Dict α V}
    (hv : vectorize env (r.map fun p => (p.1, PyText.str p.2)) type model = .ok vectors) :
    dkeys vectors = dkeys texts ∧ ∀ m : Manager α, (∀ x ∈ m.managed, x ∈ dkeys texts) → HasVectors m vectors := by
  have hk := C52_preprocess_keys hn hr
  have hk' : dkeys (r.map fun p => (p.1, PyText.str p.2)) = dkeys texts := by
    rw [← hk]; simp [dkeys, List.map_map, Function.comp_def]
  have h1 : dkeys vectors = dkeys texts := (C52_vectorize_keys (hk' ▸ hn) hv).trans hk'
  exact ⟨h1, fun m hm x hx => dget?_isSome_of_mem (h1 ▸ hm x hx)⟩

/-! ### A small language model, for the examples -/

/-- Every character is a token; `e` is a stop word, `z` is deep in the tree, a space is a space. -/
def textDemo : TextEnv Nat where
  lower s := s.map Char.toLower
  strip s := s.filter fun c => c ≠ ' '
  nfkd s := s.flatMap fun c => if c = 'é' then ['e', '\u0301'] else [c]
  combining c := decide (c = '\u0301')
  installed m := decide (m = "fr_core_news_md")
  nlp _ s := .ok (s.map fun c => ⟨[c], [c, 'L'], decide (c = ' '), false, false, decide (c = 'e'), if c = 'z' then 2 else 1⟩)
  vector _ s := .ok s.length
  tfidf l := if l.length < 2 then .error (.valueError "min_df") else .ok (l.map List.length)

def textDemoTexts : Dict Nat PyText := [(3, .str ['é', '-', 'Z', 'e']), (1, .str ['B', '.'])]

example : (dkeys textDemoTexts).Nodup := by decide
example : preprocess textDemo {} textDemoTexts = .ok [(3, ['e', ' ', 'z', ' ', 'e']), (1, ['b'])] := by decide +kernel
example : preprocess textDemo { stopwords := true, parsing := true } textDemoTexts = .ok [(3, ['e']), (1, ['b'])] := by decide +kernel
example : preprocess textDemo { lemmatization := true } textDemoTexts =
    .ok [(3, ['e', 'L', ' ', 'z', 'L', ' ', 'e', 'L']), (1, ['b', 'L'])] := by decide +kernel
example : preprocess textDemo { model := "en" } ([] : Dict Nat PyText) = .error (.valueError "spacy_language_model") := by decide +kernel
example : preprocess textDemo {} [(1, PyText.other ['7'])] = .error .attributeError := by decide +kernel
example : vectorize textDemo [(1, PyText.other ['7']), (0, .str ['a', 'b'])] "tfidf" "" = .ok [(1, 1), (0, 2)] := by decide +kernel
example : vectorize textDemo textDemoTexts "spacy" "fr_core_news_md" = .ok [(3, 4), (1, 2)] := by decide +kernel
example : Stricter {} { stopwords := true } := ⟨by decide, by decide, rfl, rfl⟩

/-- The hypotheses of `C52_result_punctFree` hold for a language model whose tokens are the characters of the text. -/
example : (∀ model s tokens, PunctFree s → textDemo.nlp model s = .ok tokens → ∀ t ∈ tokens, PunctFree (textDemo.strip t.text)) ∧
    ∀ s, PunctFree s → PunctFree (textDemo.nfkd s) := by
  refine ⟨?_, ?_⟩
  · intro model s tokens hs h t ht
    simp only [textDemo, Except.ok.injEq] at h
    subst h
    obtain ⟨c, hc, rfl⟩ := List.mem_map.1 ht
    intro c' hc'
    simp only [textDemo, List.mem_filter, List.mem_singleton] at hc'
    rw [hc'.1]
    exact hs c hc
  · intro s hs c hc
    simp only [textDemo, List.mem_flatMap] at hc
    obtain ⟨c0, h0, hc⟩ := hc
    split at hc
    · have : ∀ c ∈ ['e', '\u0301'], ¬ Listed c := by unfold Listed; decide +kernel
      exact this c hc
    · simp only [List.mem_singleton] at hc
      rw [hc]
      exact hs c0 h0

end

end Verif
