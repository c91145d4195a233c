import Verif.Proofs.Json

/-
The JSON decoder on values: fuel, extension of the input, round trip.
-/

namespace Verif

theorem stripWord_nil (s : PyStr) : stripWord [] s = some s := by
  unfold stripWord
  rw [if_pos (by simp)]
  rfl

theorem stripWord_cons (a c : Nat) (w s : PyStr) :
    stripWord (a :: w) (c :: s) = if a = c then stripWord w s else none := by
  unfold stripWord
  simp only [List.length_cons, List.take_succ_cons, List.cons.injEq, List.drop_succ_cons]
  by_cases h : a = c
  · rw [if_pos h]; simp only [h, true_and]
  · rw [if_neg h, if_neg (fun hh => h hh.1.symm)]

theorem stripWord_ext {w s r : PyStr} (h : stripWord w s = some r) (q : PyStr) :
    stripWord w (s ++ q) = some (r ++ q) := by
  induction w generalizing s with
  | nil => rw [stripWord_nil] at h ⊢; simp only [Option.some.injEq] at h; rw [h]
  | cons a w ih =>
    cases s with
    | nil => simp [stripWord] at h
    | cons c s =>
      rw [List.cons_append]
      rw [stripWord_cons] at h ⊢
      split
      · rename_i hc; rw [if_pos hc] at h; exact ih h
      · rename_i hc; rw [if_neg hc] at h; simp at h

theorem stripWord_length {w s r : PyStr} (h : stripWord w s = some r) (hw : w ≠ []) : r.length < s.length := by
  cases w with
  | nil => exact absurd rfl hw
  | cons a w =>
    unfold stripWord at h
    split at h
    · rename_i ht
      simp only [Option.some.injEq] at h
      subst h
      have : s.length ≠ 0 := by
        intro h0
        rw [List.length_eq_zero_iff.1 h0] at ht
        simp at ht
      simp only [List.length_drop, List.length_cons]
      omega
    · simp at h

/-- `pAtom` by first character. -/
theorem pAtom_cons (c : Nat) (s : PyStr) : pAtom (c :: s) =
    if c = 110 then (stripWord (lit "ull") s).map fun r => (.null, r)
    else if c = 116 then (stripWord (lit "rue") s).map fun r => (.bool true, r)
    else if c = 102 then (stripWord (lit "alse") s).map fun r => (.bool false, r)
    else if c = 78 then (stripWord (lit "aN") s).map fun r => (.num (lit "NaN"), r)
    else if c = 73 then (stripWord (lit "nfinity") s).map fun r => (.num (lit "Infinity"), r)
    else match pNum (c :: s) with
      | some p => some (.num p.1, p.2)
      | none => if c = 45 then (stripWord (lit "Infinity") s).map fun r => (.num (lit "-Infinity"), r) else none := by
  have e1 : lit "null" = 110 :: lit "ull" := rfl
  have e2 : lit "true" = 116 :: lit "rue" := rfl
  have e3 : lit "false" = 102 :: lit "alse" := rfl
  have e4 : lit "NaN" = 78 :: lit "aN" := rfl
  have e5 : lit "Infinity" = 73 :: lit "nfinity" := rfl
  have e6 : lit "-Infinity" = 45 :: lit "Infinity" := rfl
  have hnum : c ≠ 45 → isDigit c = false → pNum (c :: s) = none := by
    intro h1 h2
    cases h : pNum (c :: s) with
    | none => rfl
    | some p =>
      rcases pNum_head h with h3 | h3
      · exact absurd h3 h1
      · rw [h2] at h3; cases h3
  unfold pAtom
  rw [e6, e1, e2, e3, e4, stripWord_cons, stripWord_cons, stripWord_cons, stripWord_cons, stripWord_cons, e5,
    stripWord_cons]
  by_cases c1 : c = 110
  · subst c1
    rw [hnum (by decide) (by decide)]
    simp only [if_true, (by decide : ¬ (116 : Nat) = 110), (by decide : ¬ (102 : Nat) = 110), (by decide : ¬ (78 : Nat) = 110),
      (by decide : ¬ (73 : Nat) = 110), (by decide : ¬ (45 : Nat) = 110), if_false]
    cases stripWord (lit "ull") s <;> rfl
  by_cases c2 : c = 116
  · subst c2
    rw [hnum (by decide) (by decide)]
    simp only [if_true, (by decide : ¬ (110 : Nat) = 116), (by decide : ¬ (116 : Nat) = 110), (by decide : ¬ (102 : Nat) = 116), (by decide : ¬ (78 : Nat) = 116),
      (by decide : ¬ (73 : Nat) = 116), (by decide : ¬ (45 : Nat) = 116), if_false]
    cases stripWord (lit "rue") s <;> rfl
  by_cases c3 : c = 102
  · subst c3
    rw [hnum (by decide) (by decide)]
    simp only [if_true, (by decide : ¬ (110 : Nat) = 102), (by decide : ¬ (102 : Nat) = 110), (by decide : ¬ (116 : Nat) = 102), (by decide : ¬ (102 : Nat) = 116), (by decide : ¬ (78 : Nat) = 102),
      (by decide : ¬ (73 : Nat) = 102), (by decide : ¬ (45 : Nat) = 102), if_false]
    cases stripWord (lit "alse") s <;> rfl
  have n1 : ¬ (110 : Nat) = c := fun h => c1 h.symm
  have n2 : ¬ (116 : Nat) = c := fun h => c2 h.symm
  have n3 : ¬ (102 : Nat) = c := fun h => c3 h.symm
  simp only [if_neg n1, if_neg n2, if_neg n3, if_neg c1, if_neg c2, if_neg c3]
  by_cases c4 : c = 78
  · subst c4
    rw [hnum (by decide) (by decide)]
    simp only [if_true, (by decide : ¬ (73 : Nat) = 78), (by decide : ¬ (45 : Nat) = 78), if_false]
    cases stripWord (lit "aN") s <;> rfl
  by_cases c5 : c = 73
  · subst c5
    rw [hnum (by decide) (by decide)]
    simp only [if_true, (by decide : ¬ (78 : Nat) = 73), (by decide : ¬ (73 : Nat) = 78), (by decide : ¬ (45 : Nat) = 73), if_false]
    cases stripWord (lit "nfinity") s <;> rfl
  have n4 : ¬ (78 : Nat) = c := fun h => c4 h.symm
  have n5 : ¬ (73 : Nat) = c := fun h => c5 h.symm
  simp only [if_neg n4, if_neg n5, if_neg c4, if_neg c5]
  cases pNum (c :: s) with
  | some p => rfl
  | none =>
    by_cases c6 : c = 45
    · subst c6
      simp only [if_true]
      cases stripWord (73 :: lit "nfinity") s <;> rfl
    · simp only [if_neg c6, if_neg (fun h => c6 (Eq.symm h) : ¬ 45 = c)]

/-- The value is a number. -/
def JVal.IsNum : JVal → Prop
  | .num _ => True
  | _ => False

theorem pAtom_ext {s : PyStr} {v : JVal} {r : PyStr} (h : pAtom s = some (v, r)) (q : PyStr)
    (hq : v.IsNum → NumEnd (r ++ q)) : pAtom (s ++ q) = some (v, r ++ q) := by
  cases s with
  | nil => simp [pAtom, stripWord, lit, pNum, pInt] at h
  | cons c s =>
    rw [List.cons_append]
    rw [pAtom_cons] at h ⊢
    have word : ∀ {w : PyStr} {a : JVal}, (stripWord w s).map (fun r => (a, r)) = some (v, r) →
        (stripWord w (s ++ q)).map (fun r => (a, r)) = some (v, r ++ q) := by
      intro w a hw
      simp only [Option.map_eq_some_iff, Prod.mk.injEq] at hw ⊢
      obtain ⟨r', h1, h2, h3⟩ := hw
      subst h3
      exact ⟨r' ++ q, stripWord_ext h1 q, h2, rfl⟩
    split
    · rename_i hc; rw [if_pos hc] at h; exact word h
    rename_i hc; rw [if_neg hc] at h
    split
    · rename_i hc; rw [if_pos hc] at h; exact word h
    rename_i hc; rw [if_neg hc] at h
    split
    · rename_i hc; rw [if_pos hc] at h; exact word h
    rename_i hc; rw [if_neg hc] at h
    split
    · rename_i hc; rw [if_pos hc] at h; exact word h
    rename_i hc; rw [if_neg hc] at h
    split
    · rename_i hc; rw [if_pos hc] at h; exact word h
    rename_i hc; rw [if_neg hc] at h
    cases hn : pNum (c :: s) with
    | some p =>
      rw [hn] at h
      simp only [Option.some.injEq, Prod.mk.injEq] at h
      obtain ⟨rfl, h2⟩ := h
      subst h2
      have := pNum_ext hn q (hq trivial)
      rw [List.cons_append] at this
      rw [this]
    | none =>
      rw [hn] at h
      simp only at h
      split at h
      · rename_i hc
        subst hc
        -- "-Infinity"
        have hw := h
        simp only [Option.map_eq_some_iff, Prod.mk.injEq] at hw
        obtain ⟨r', h1, -, -⟩ := hw
        have e5 : lit "Infinity" = 73 :: lit "nfinity" := rfl
        have hn' : pNum (45 :: (s ++ q)) = none := by
          cases s with
          | nil => rw [e5] at h1; simp [stripWord] at h1
          | cons d s =>
            rw [e5, stripWord_cons] at h1
            split at h1
            · rename_i hd
              subst hd
              rfl
            · simp at h1
        rw [hn']
        simp only [if_true]
        exact word h
      · simp at h

theorem pAtom_length {s : PyStr} {v : JVal} {r : PyStr} (h : pAtom s = some (v, r)) : r.length < s.length := by
  cases s with
  | nil => simp [pAtom, stripWord, lit, pNum, pInt] at h
  | cons c s =>
    rw [pAtom_cons] at h
    have word : ∀ {w : PyStr} {a : JVal}, (stripWord w s).map (fun r => (a, r)) = some (v, r) → w ≠ [] →
        r.length < (c :: s).length := by
      intro w a hw hne
      simp only [Option.map_eq_some_iff, Prod.mk.injEq] at hw
      obtain ⟨r', h1, h2, h3⟩ := hw
      subst h3
      have := stripWord_length h1 hne
      rw [List.length_cons]
      omega
    repeat' split at h
    · exact word h (by decide)
    · exact word h (by decide)
    · exact word h (by decide)
    · exact word h (by decide)
    · exact word h (by decide)
    · rename_i hn
      simp only [Option.some.injEq, Prod.mk.injEq] at h
      obtain ⟨rfl, rfl⟩ := h
      exact pNum_length hn
    · exact word h (by decide)
    · simp at h

/-- Case analysis of a successful `pVal`. -/
theorem pVal_cases {f c : Nat} {s r : PyStr} {v : JVal} :
    pVal (f + 1) (c :: s) = some (v, r) ↔
    (c = 34 ∧ ∃ t, pStr f s = some (t, r) ∧ v = .str t) ∨
    (c = 123 ∧ ((skipWs s = 125 :: r ∧ v = .obj []) ∨
      ∃ r1 l, skipWs s = 34 :: r1 ∧ pPairs f r1 = some (l, r) ∧ v = .obj (dofList l))) ∨
    (c = 91 ∧ ((skipWs s = 93 :: r ∧ v = .arr []) ∨
      ∃ d r1 l, skipWs s = d :: r1 ∧ d ≠ 93 ∧ pItems f (d :: r1) = some (l, r) ∧ v = .arr l)) ∨
    (c ≠ 34 ∧ c ≠ 123 ∧ c ≠ 91 ∧ pAtom (c :: s) = some (v, r)) := by
  rw [pVal]
  by_cases h1 : c = 34
  · subst h1
    simp only [if_true, Option.bind_eq_bind, Option.bind_eq_some_iff, Prod.exists, pure, Option.some.injEq, Prod.mk.injEq, true_and,
      (by decide : ¬ (34 : Nat) = 123), (by decide : ¬ (34 : Nat) = 91), false_and, or_false, not_true, ne_eq]
    constructor
    · rintro ⟨t, r', h, h2, h3⟩; subst h3; exact ⟨t, h, h2.symm⟩
    · rintro ⟨t, h, h2⟩; exact ⟨t, r, h, h2.symm, rfl⟩
  by_cases h2 : c = 123
  · subst h2
    simp only [(by decide : ¬ (123 : Nat) = 34), if_false, if_true, (by decide : ¬ (123 : Nat) = 91), false_and,
      true_and, false_or, or_false, not_true, ne_eq, and_false]
    cases hs : skipWs s with
    | nil => simp
    | cons d r1 =>
      simp only
      by_cases hd : d = 125
      · subst hd
        simp only [if_true, Option.some.injEq, Prod.mk.injEq, List.cons.injEq, true_and]
        constructor
        · rintro ⟨h1, h2⟩; exact .inl ⟨h2, h1.symm⟩
        · rintro (⟨h1, h2⟩ | ⟨r2, l, ⟨h1, -⟩, -⟩)
          · exact ⟨h2.symm, h1⟩
          · cases h1
      · rw [if_neg hd]
        by_cases hd2 : d = 34
        · subst hd2
          simp only [if_true, Option.bind_eq_bind, Option.bind_eq_some_iff, Prod.exists, pure, Option.some.injEq, Prod.mk.injEq, List.cons.injEq, true_and]
          constructor
          · rintro ⟨l, r', h, h2, h3⟩; subst h3; exact .inr ⟨r1, l, rfl, h, h2.symm⟩
          · rintro (⟨⟨h1, -⟩, -⟩ | ⟨r2, l, h1, h2, h3⟩)
            · cases h1
            · subst h1; exact ⟨l, r, h2, h3.symm, rfl⟩
        · rw [if_neg hd2]
          simp [hd, hd2]
  by_cases h3 : c = 91
  · subst h3
    simp only [(by decide : ¬ (91 : Nat) = 34), if_false, if_true, (by decide : ¬ (91 : Nat) = 123), false_and,
      true_and, false_or, or_false, not_true, ne_eq, and_false]
    cases hs : skipWs s with
    | nil => simp
    | cons d r1 =>
      simp only
      by_cases hd : d = 93
      · subst hd
        simp only [if_true, Option.some.injEq, Prod.mk.injEq, List.cons.injEq, true_and]
        constructor
        · rintro ⟨h1, h2⟩; exact .inl ⟨h2, h1.symm⟩
        · rintro (⟨h1, h2⟩ | ⟨d, r2, l, ⟨h1, -⟩, h2, -⟩)
          · exact ⟨h2.symm, h1⟩
          · exact absurd h1.symm h2
      · rw [if_neg hd]
        simp only [Option.bind_eq_bind, Option.bind_eq_some_iff, Prod.exists, pure, Option.some.injEq, Prod.mk.injEq, List.cons.injEq]
        constructor
        · rintro ⟨l, r', h, h2, h3⟩; subst h3; exact .inr ⟨d, r1, l, ⟨rfl, rfl⟩, hd, h, h2.symm⟩
        · rintro (⟨⟨h1, -⟩, -⟩ | ⟨d', r2, l, ⟨h1, h2⟩, -, h3, h4⟩)
          · exact absurd h1 hd
          · subst h1; subst h2; exact ⟨l, r, h3, h4.symm, rfl⟩
  · rw [if_neg h1, if_neg h2, if_neg h3]
    simp only [h1, h2, h3, false_and, false_or, ne_eq, not_false_eq_true, true_and]

theorem pItems_cases {f : Nat} {s r : PyStr} {l : List JVal} :
    pItems (f + 1) s = some (l, r) ↔ ∃ v r0, pVal f s = some (v, r0) ∧
      ((skipWs r0 = 93 :: r ∧ l = [v]) ∨
       ∃ r1 l', skipWs r0 = 44 :: r1 ∧ pItems f (skipWs r1) = some (l', r) ∧ l = v :: l') := by
  rw [pItems]
  simp only [Option.bind_eq_bind, Option.bind_eq_some_iff, Prod.exists]
  refine exists_congr fun v => exists_congr fun r0 => and_congr_right fun _ => ?_
  cases hs : skipWs r0 with
  | nil => simp
  | cons d r1 =>
    simp only
    by_cases hd : d = 93
    · subst hd
      simp only [if_true, pure, Option.some.injEq, Prod.mk.injEq, List.cons.injEq, true_and]
      constructor
      · rintro ⟨h1, h2⟩; exact .inl ⟨h2, h1.symm⟩
      · rintro (⟨h1, h2⟩ | ⟨r2, l', ⟨h1, -⟩, -⟩)
        · exact ⟨h2.symm, h1⟩
        · cases h1
    · rw [if_neg hd]
      by_cases hd2 : d = 44
      · subst hd2
        simp only [if_true, Option.bind_eq_some_iff, Prod.exists, pure, Option.some.injEq, Prod.mk.injEq, List.cons.injEq, true_and]
        constructor
        · rintro ⟨l', r', h, h2, h3⟩; subst h3; exact .inr ⟨r1, l', rfl, h, h2.symm⟩
        · rintro (⟨⟨h1, -⟩, -⟩ | ⟨r2, l', h1, h2, h3⟩)
          · cases h1
          · subst h1; exact ⟨l', r, h2, h3.symm, rfl⟩
      · rw [if_neg hd2]
        simp [hd, hd2]

theorem pPairs_cases {f : Nat} {s r : PyStr} {l : List (PyStr × JVal)} :
    pPairs (f + 1) s = some (l, r) ↔ ∃ k r0 r1 v r2, pStr f s = some (k, r0) ∧ skipWs r0 = 58 :: r1 ∧
      pVal f (skipWs r1) = some (v, r2) ∧
      ((skipWs r2 = 125 :: r ∧ l = [(k, v)]) ∨
       ∃ r3 r4 l', skipWs r2 = 44 :: r3 ∧ skipWs r3 = 34 :: r4 ∧ pPairs f r4 = some (l', r) ∧ l = (k, v) :: l') := by
  rw [pPairs]
  simp only [Option.bind_eq_bind, Option.bind_eq_some_iff, Prod.exists]
  refine exists_congr fun k => exists_congr fun r0 => ?_
  cases hs : skipWs r0 with
  | nil => simp
  | cons d r1 =>
    simp only
    by_cases hd : d = 58
    · subst hd
      simp only [if_true, Option.bind_eq_some_iff, Prod.exists, List.cons.injEq, true_and]
      constructor
      · rintro ⟨h0, v, r2, h1, h2⟩
        refine ⟨r1, v, r2, h0, rfl, h1, ?_⟩
        cases hs2 : skipWs r2 with
        | nil => rw [hs2] at h2; simp at h2
        | cons e r3 =>
          rw [hs2] at h2
          simp only at h2
          split at h2
          · rename_i he
            subst he
            simp only [pure, Option.some.injEq, Prod.mk.injEq] at h2
            exact .inl ⟨by rw [h2.2], h2.1.symm⟩
          · split at h2
            · rename_i he
              subst he
              split at h2
              · simp at h2
              · rename_i g r4 hg
                split at h2
                · rename_i hg34
                  subst hg34
                  simp only [Option.bind_eq_some_iff, Prod.exists, pure, Option.some.injEq, Prod.mk.injEq] at h2
                  obtain ⟨l', r', h3, h4, h5⟩ := h2
                  subst h5
                  exact .inr ⟨r3, r4, l', rfl, hg, h3, h4.symm⟩
                · simp at h2
            · simp at h2
      · rintro ⟨r1', v, r2, h0, rfl, h1, h2⟩
        refine ⟨h0, v, r2, h1, ?_⟩
        rcases h2 with ⟨h2, h3⟩ | ⟨r3, r4, l', h2, h3, h4, h5⟩
        · rw [h2]
          simp only [if_true, pure, h3]
        · rw [h2]
          simp only [(by decide : ¬ (44 : Nat) = 125), if_false, if_true, h3, Option.bind_eq_some_iff, Prod.exists, pure]
          exact ⟨l', r, h4, by rw [h5]⟩
    · rw [if_neg hd]
      simp [hd]

theorem notNumCont {d : Nat} (h : d = 93 ∨ d = 44 ∨ d = 125) : ¬ numCont d := by
  rcases h with rfl | rfl | rfl <;> unfold numCont <;> decide

/-- A successful parse is unchanged by more input (for a number: input that does not continue
it) and more fuel. -/
theorem parse_ext (f : Nat) :
    (∀ s v r, pVal f s = some (v, r) → ∀ q f', f ≤ f' → (q ≠ [] → v.IsNum → NumEnd (r ++ q)) →
      pVal f' (s ++ q) = some (v, r ++ q)) ∧
    (∀ s l r, pItems f s = some (l, r) → ∀ q f', f ≤ f' → pItems f' (s ++ q) = some (l, r ++ q)) ∧
    (∀ s l r, pPairs f s = some (l, r) → ∀ q f', f ≤ f' → pPairs f' (s ++ q) = some (l, r ++ q)) := by
  induction f with
  | zero => exact ⟨fun s v r h => by simp [pVal] at h, fun s v r h => by simp [pItems] at h, fun s v r h => by simp [pPairs] at h⟩
  | succ f ih =>
    obtain ⟨ihv, ihi, ihp⟩ := ih
    refine ⟨?_, ?_, ?_⟩
    · intro s v r h q f' hf hq
      obtain ⟨f', rfl⟩ : ∃ k, f' = k + 1 := ⟨f' - 1, by omega⟩
      have hf' : f ≤ f' := by omega
      cases s with
      | nil => simp [pVal] at h
      | cons c s =>
        rw [List.cons_append]
        rw [pVal_cases] at h ⊢
        rcases h with ⟨hc, t, h1, h2⟩ | ⟨hc, h⟩ | ⟨hc, h⟩ | ⟨hc1, hc2, hc3, h⟩
        · exact .inl ⟨hc, t, pStr_ext h1 q hf', h2⟩
        · refine .inr (.inl ⟨hc, ?_⟩)
          rcases h with ⟨h1, h2⟩ | ⟨r1, l, h1, h2, h3⟩
          · exact .inl ⟨skipWs_cons h1 q, h2⟩
          · exact .inr ⟨r1 ++ q, l, skipWs_cons h1 q, ihp _ _ _ h2 q f' hf', h3⟩
        · refine .inr (.inr (.inl ⟨hc, ?_⟩))
          rcases h with ⟨h1, h2⟩ | ⟨d, r1, l, h1, h2, h3, h4⟩
          · exact .inl ⟨skipWs_cons h1 q, h2⟩
          · exact .inr ⟨d, r1 ++ q, l, skipWs_cons h1 q, h2, ihi _ _ _ h3 q f' hf', h4⟩
        · refine .inr (.inr (.inr ⟨hc1, hc2, hc3, ?_⟩))
          by_cases hq0 : q = []
          · subst hq0; simpa using h
          · exact pAtom_ext h q (hq hq0)
    · intro s l r h q f' hf
      obtain ⟨f', rfl⟩ : ∃ k, f' = k + 1 := ⟨f' - 1, by omega⟩
      have hf' : f ≤ f' := by omega
      rw [pItems_cases] at h ⊢
      obtain ⟨v, r0, h0, h⟩ := h
      rcases h with ⟨h1, h2⟩ | ⟨r1, l', h1, h2, h3⟩
      · exact ⟨v, r0 ++ q, ihv _ _ _ h0 q f' hf' (fun _ _ => numEnd_skip h1 (notNumCont (by simp)) q),
          .inl ⟨skipWs_cons h1 q, h2⟩⟩
      · refine ⟨v, r0 ++ q, ihv _ _ _ h0 q f' hf' (fun _ _ => numEnd_skip h1 (notNumCont (by simp)) q),
          .inr ⟨r1 ++ q, l', skipWs_cons h1 q, ?_, h3⟩⟩
        cases hs : skipWs r1 with
        | nil =>
          rw [hs] at h2
          exfalso
          cases f with
          | zero => simp [pItems] at h2
          | succ f =>
            rw [pItems_cases] at h2
            obtain ⟨v, r0, h, -⟩ := h2
            cases f <;> simp [pVal] at h
        | cons d r2 =>
          rw [skipWs_cons hs q]
          rw [hs] at h2
          exact ihi _ _ _ h2 q f' hf'
    · intro s l r h q f' hf
      obtain ⟨f', rfl⟩ : ∃ k, f' = k + 1 := ⟨f' - 1, by omega⟩
      have hf' : f ≤ f' := by omega
      rw [pPairs_cases] at h ⊢
      obtain ⟨k, r0, r1, v, r2, h0, h1, h2, h⟩ := h
      have hv : (q ≠ [] → v.IsNum → NumEnd (r2 ++ q)) → pVal f' (skipWs (r1 ++ q)) = some (v, r2 ++ q) := by
        intro hn
        cases hs : skipWs r1 with
        | nil =>
          rw [hs] at h2
          exfalso
          cases f <;> simp [pVal] at h2
        | cons d r3 =>
          rw [skipWs_cons hs q]
          rw [hs] at h2
          exact ihv _ _ _ h2 q f' hf' hn
      refine ⟨k, r0 ++ q, r1 ++ q, v, r2 ++ q, pStr_ext h0 q hf', skipWs_cons h1 q, ?_, ?_⟩
      · apply hv
        rcases h with ⟨h3, -⟩ | ⟨r3, r4, l', h3, -⟩
        · exact fun _ _ => numEnd_skip h3 (notNumCont (by simp)) q
        · exact fun _ _ => numEnd_skip h3 (notNumCont (by simp)) q
      · rcases h with ⟨h3, h4⟩ | ⟨r3, r4, l', h3, h4, h5, h6⟩
        · exact .inl ⟨skipWs_cons h3 q, h4⟩
        · exact .inr ⟨r3 ++ q, r4 ++ q, l', skipWs_cons h3 q, skipWs_cons h4 q, ihp _ _ _ h5 q f' hf', h6⟩

theorem pVal_mono {f f' : Nat} {s r : PyStr} {v : JVal} (h : pVal f s = some (v, r)) (hf : f ≤ f') :
    pVal f' s = some (v, r) := by
  simpa using (parse_ext f).1 s v r h [] f' hf (fun h => absurd rfl h)

theorem pItems_mono {f f' : Nat} {s r : PyStr} {v : List JVal} (h : pItems f s = some (v, r)) (hf : f ≤ f') :
    pItems f' s = some (v, r) := by
  simpa using (parse_ext f).2.1 s v r h [] f' hf

theorem pPairs_mono {f f' : Nat} {s r : PyStr} {v : List (PyStr × JVal)} (h : pPairs f s = some (v, r))
    (hf : f ≤ f') : pPairs f' s = some (v, r) := by
  simpa using (parse_ext f).2.2 s v r h [] f' hf

theorem pStr_mono {f f' : Nat} {s r : PyStr} {v : PyStr} (h : pStr f s = some (v, r)) (hf : f ≤ f') :
    pStr f' s = some (v, r) := by
  simpa using pStr_ext h [] hf

/-! ### Fuel -/

theorem parse_length (f : Nat) :
    (∀ s v r, pVal f s = some (v, r) → r.length < s.length) ∧
    (∀ s l r, pItems f s = some (l, r) → r.length < s.length) ∧
    (∀ s l r, pPairs f s = some (l, r) → r.length < s.length) := by
  induction f with
  | zero => exact ⟨fun s v r h => by simp [pVal] at h, fun s v r h => by simp [pItems] at h, fun s v r h => by simp [pPairs] at h⟩
  | succ f ih =>
    obtain ⟨ihv, ihi, ihp⟩ := ih
    have ws : ∀ {s : PyStr} {d r}, skipWs s = d :: r → r.length < s.length := by
      intro s d r h
      have := skipWs_length s
      rw [h, List.length_cons] at this
      omega
    refine ⟨?_, ?_, ?_⟩
    · intro s v r h
      cases s with
      | nil => simp [pVal] at h
      | cons c s =>
        rw [List.length_cons]
        rw [pVal_cases] at h
        rcases h with ⟨hc, t, h1, h2⟩ | ⟨hc, h⟩ | ⟨hc, h⟩ | ⟨hc1, hc2, hc3, h⟩
        · have := pStr_length h1; omega
        · rcases h with ⟨h1, h2⟩ | ⟨r1, l, h1, h2, h3⟩
          · have := ws h1; omega
          · have := ws h1; have := ihp _ _ _ h2; omega
        · rcases h with ⟨h1, h2⟩ | ⟨d, r1, l, h1, h2, h3, h4⟩
          · have := ws h1; omega
          · have := ws h1; have := ihi _ _ _ h3; rw [List.length_cons] at this; omega
        · have := pAtom_length h
          rw [List.length_cons] at this
          exact this
    · intro s l r h
      rw [pItems_cases] at h
      obtain ⟨v, r0, h0, h⟩ := h
      have := ihv _ _ _ h0
      rcases h with ⟨h1, h2⟩ | ⟨r1, l', h1, h2, h3⟩
      · have := ws h1; omega
      · have := ws h1; have := ihi _ _ _ h2; have := skipWs_length r1; omega
    · intro s l r h
      rw [pPairs_cases] at h
      obtain ⟨k, r0, r1, v, r2, h0, h1, h2, h⟩ := h
      have := pStr_length h0
      have := ws h1
      have := ihv _ _ _ h2
      have := skipWs_length r1
      rcases h with ⟨h3, h4⟩ | ⟨r3, r4, l', h3, h4, h5, h6⟩
      · have := ws h3; omega
      · have := ws h3; have := ws h4; have := ihp _ _ _ h5; omega

/-- A parse that succeeds with some fuel succeeds with fuel linear in the length of the text. -/
theorem parse_enough (f : Nat) :
    (∀ s v r, pVal f s = some (v, r) → pVal (2 * s.length + 1) s = some (v, r)) ∧
    (∀ s l r, pItems f s = some (l, r) → pItems (2 * s.length + 2) s = some (l, r)) ∧
    (∀ s l r, pPairs f s = some (l, r) → pPairs (2 * s.length + 2) s = some (l, r)) := by
  induction f with
  | zero => exact ⟨fun s v r h => by simp [pVal] at h, fun s v r h => by simp [pItems] at h, fun s v r h => by simp [pPairs] at h⟩
  | succ f ih =>
    obtain ⟨ihv, ihi, ihp⟩ := ih
    have ws : ∀ {s : PyStr} {d r}, skipWs s = d :: r → r.length < s.length := by
      intro s d r h
      have := skipWs_length s
      rw [h, List.length_cons] at this
      omega
    have strs : ∀ {s t r : PyStr} {g}, pStr f s = some (t, r) → s.length < g → pStr g s = some (t, r) := by
      intro s t r g h hg
      have h1 := pStr_mono h (Nat.le_max_left f g)
      rw [← h1]
      exact pStr_fuel hg (lt_of_lt_of_le hg (Nat.le_max_right f g))
    refine ⟨?_, ?_, ?_⟩
    · intro s v r h
      cases s with
      | nil => simp [pVal] at h
      | cons c s =>
        rw [List.length_cons]
        rw [show 2 * (s.length + 1) + 1 = (2 * s.length + 2) + 1 by omega]
        rw [pVal_cases] at h ⊢
        rcases h with ⟨hc, t, h1, h2⟩ | ⟨hc, h⟩ | ⟨hc, h⟩ | h
        · exact .inl ⟨hc, t, strs h1 (by omega), h2⟩
        · refine .inr (.inl ⟨hc, ?_⟩)
          rcases h with ⟨h1, h2⟩ | ⟨r1, l, h1, h2, h3⟩
          · exact .inl ⟨h1, h2⟩
          · have := ws h1
            exact .inr ⟨r1, l, h1, pPairs_mono (ihp _ _ _ h2) (by omega), h3⟩
        · refine .inr (.inr (.inl ⟨hc, ?_⟩))
          rcases h with ⟨h1, h2⟩ | ⟨d, r1, l, h1, h2, h3, h4⟩
          · exact .inl ⟨h1, h2⟩
          · have := ws h1
            refine .inr ⟨d, r1, l, h1, h2, pItems_mono (ihi _ _ _ h3) ?_, h4⟩
            rw [List.length_cons]; omega
        · exact .inr (.inr (.inr h))
    · intro s l r h
      rw [pItems_cases] at h ⊢
      obtain ⟨v, r0, h0, h⟩ := h
      have h0' := ihv _ _ _ h0
      have hlen := (parse_length f).1 _ _ _ h0
      refine ⟨v, r0, h0', ?_⟩
      rcases h with h | ⟨r1, l', h1, h2, h3⟩
      · exact .inl h
      · have := ws h1
        have := skipWs_length r1
        exact .inr ⟨r1, l', h1, pItems_mono (ihi _ _ _ h2) (by omega), h3⟩
    · intro s l r h
      rw [pPairs_cases] at h ⊢
      obtain ⟨k, r0, r1, v, r2, h0, h1, h2, h⟩ := h
      have := pStr_length h0
      have := ws h1
      have := (parse_length f).1 _ _ _ h2
      have := skipWs_length r1
      refine ⟨k, r0, r1, v, r2, strs h0 (by omega), h1, pVal_mono (ihv _ _ _ h2) (by omega), ?_⟩
      rcases h with h | ⟨r3, r4, l', h3, h4, h5, h6⟩
      · exact .inl h
      · have := ws h3; have := ws h4
        exact .inr ⟨r3, r4, l', h3, h4, pPairs_mono (ihp _ _ _ h5) (by omega), h6⟩

/-- The fuel of `decode` is sufficient: more fuel gives the same result. -/
theorem pVal_fuel {s : PyStr} {f : Nat} (h : 2 * s.length + 1 ≤ f) : pVal f s = pVal (2 * s.length + 1) s := by
  cases hv : pVal f s with
  | some p => exact ((parse_enough f).1 s p.1 p.2 hv).symm
  | none =>
    cases hv' : pVal (2 * s.length + 1) s with
    | none => rfl
    | some p =>
      have := pVal_mono (v := p.1) (r := p.2) hv' h
      rw [hv] at this
      cases this

/-- `decode` in terms of any sufficient fuel. -/
theorem decode_iff {s : PyStr} {v : JVal} :
    decode s = some v ↔ ∃ f r, pVal f (skipWs s) = some (v, r) ∧ skipWs r = [] := by
  unfold decode
  simp only [Option.bind_eq_bind, Option.bind_eq_some_iff, Prod.exists]
  constructor
  · rintro ⟨v', r, h1, h2⟩
    split at h2
    · rename_i hr
      simp only [pure, Option.some.injEq] at h2
      subst h2
      exact ⟨_, r, h1, hr⟩
    · simp at h2
  · rintro ⟨f, r, h1, h2⟩
    refine ⟨v, r, ?_, by rw [if_pos h2]; rfl⟩
    have := skipWs_length s
    exact pVal_mono ((parse_enough f).1 _ _ _ h1) (by omega)

/-- A text whose value is not a number at top level cannot be cut: no strict prefix decodes. -/
theorem decode_prefix {p q : PyStr} {v : JVal} {c : Nat} {t : PyStr} (h : pVal (2 * (p ++ q).length + 2) (p ++ q) = some (v, []))
    (hc : p ++ q = c :: t) (hws : isWs c = false) (hnum : c = 34 ∨ c = 123 ∨ c = 91) (hq : q ≠ []) : decode p = none := by
  cases hd : decode p with
  | none => rfl
  | some v' =>
    exfalso
    obtain ⟨f, r, h1, -⟩ := decode_iff.1 hd
    cases p with
    | nil => simp [skipWs] at h1; cases f <;> simp [pVal] at h1
    | cons c' p =>
      simp only [List.cons_append, List.cons.injEq] at hc
      obtain ⟨rfl, -⟩ := hc
      rw [skipWs_of_head hws] at h1
      have hn : ¬ v'.IsNum := by
        cases f with
        | zero => simp [pVal] at h1
        | succ f =>
          rw [pVal_cases] at h1
          rcases h1 with ⟨-, _, -, rfl⟩ | ⟨-, ⟨-, rfl⟩ | ⟨_, _, -, -, rfl⟩⟩ | ⟨-, ⟨-, rfl⟩ | ⟨_, _, _, -, -, -, rfl⟩⟩ | ⟨h1, h2, h3, -⟩
          · exact id
          · exact id
          · exact id
          · exact id
          · exact id
          · rcases hnum with h | h | h
            · exact absurd h h1
            · exact absurd h h2
            · exact absurd h h3
      have h2 := (parse_ext f).1 _ _ _ h1 q (max f (2 * (c' :: p ++ q).length + 2)) (Nat.le_max_left _ _) (fun _ hh => absurd hh hn)
      have h3 := pVal_mono h (Nat.le_max_right f _)
      rw [h2] at h3
      simp only [Option.some.injEq, Prod.mk.injEq, List.append_eq_nil_iff] at h3
      exact hq h3.2.2

/-! ### Round trip -/

mutual
/-- Values that python's encoder can produce and decoder gives back unchanged. -/
def JVal.WF : JVal → Prop
  | .null => True
  | .bool _ => True
  | .num t => pNum t = some (t, [])
  | .str s => Unicode s
  | .arr l => JVal.WFItems l
  | .obj l => JVal.WFPairs l ∧ (dkeys l).Nodup
def JVal.WFItems : List JVal → Prop
  | [] => True
  | v :: l => v.WF ∧ JVal.WFItems l
def JVal.WFPairs : List (PyStr × JVal) → Prop
  | [] => True
  | (k, v) :: l => Unicode k ∧ v.WF ∧ JVal.WFPairs l
end

/-- First character of an encoded value. -/
theorem enc_head {v : JVal} (h : v.WF) (lvl : Nat) (t : PyStr) :
    ∃ c r, v.enc lvl ++ t = c :: r ∧ isWs c = false ∧ c ≠ 93 := by
  match v, h with
  | .null, _ => exact ⟨110, _, rfl, by decide, by decide⟩
  | .bool true, _ => exact ⟨116, _, rfl, by decide, by decide⟩
  | .bool false, _ => exact ⟨102, _, rfl, by decide, by decide⟩
  | .num s, h =>
    simp only [JVal.WF] at h
    simp only [JVal.enc]
    cases s with
    | nil => simp [pNum, pInt] at h
    | cons c s =>
      refine ⟨c, s ++ t, rfl, ?_⟩
      rcases pNum_head h with h | h
      · subst h; decide
      · simp only [isDigit, Bool.and_eq_true, decide_eq_true_eq] at h
        constructor
        · simp only [isWs, Bool.or_eq_false_iff, beq_eq_false_iff_ne]; omega
        · omega
  | .str s, _ => exact ⟨34, _, rfl, by decide, by decide⟩
  | .arr [], _ => exact ⟨91, _, rfl, by decide, by decide⟩
  | .arr (v :: l), _ => exact ⟨91, _, by rw [JVal.enc]; rfl, by decide, by decide⟩
  | .obj [], _ => exact ⟨123, _, rfl, by decide, by decide⟩
  | .obj ((k, v) :: l), _ => exact ⟨123, _, by rw [JVal.enc]; rfl, by decide, by decide⟩

theorem skipWs_enc {v : JVal} (h : v.WF) (lvl : Nat) (t : PyStr) : skipWs (v.enc lvl ++ t) = v.enc lvl ++ t := by
  obtain ⟨c, r, h1, h2, -⟩ := enc_head h lvl t
  rw [h1, skipWs_of_head h2]

theorem skipWs_space (t : PyStr) : skipWs (lit ": " ++ t) = 58 :: 32 :: t := rfl

theorem skipWs_32 (t : PyStr) : skipWs (32 :: t) = skipWs t := rfl

theorem pStr_encStr {k : PyStr} (hk : Unicode k) (t : PyStr) :
    ∃ f, ∀ f' ≥ f, pStr f' (k.flatMap escape ++ 34 :: t) = some (k, t) :=
  ⟨k.length + 1, fun _ hf => pStr_mono (pStr_enc hk t) hf⟩

mutual
theorem enc_parses : ∀ (v : JVal) (lvl : Nat) (t : PyStr), v.WF → (v.IsNum → NumEnd t) →
    ∃ f, ∀ f' ≥ f, pVal f' (v.enc lvl ++ t) = some (v, t)
  | .null, lvl, t, _, _ => ⟨1, fun f hf => pVal_mono (f := 1) (by simp [JVal.enc, lit, pVal, pAtom_cons, stripWord_cons, stripWord_nil]) hf⟩
  | .bool true, lvl, t, _, _ => ⟨1, fun f hf => pVal_mono (f := 1) (by simp [JVal.enc, lit, pVal, pAtom_cons, stripWord_cons, stripWord_nil]) hf⟩
  | .bool false, lvl, t, _, _ => ⟨1, fun f hf => pVal_mono (f := 1) (by simp [JVal.enc, lit, pVal, pAtom_cons, stripWord_cons, stripWord_nil]) hf⟩
  | .num s, lvl, t, h, hn => by
    refine ⟨1, fun f hf => pVal_mono (f := 1) ?_ hf⟩
    simp only [JVal.WF] at h
    simp only [JVal.enc]
    cases s with
    | nil => simp [pNum, pInt] at h
    | cons c s =>
      have hc := pNum_head h
      have hx := pNum_ext h t (by simpa using hn trivial)
      simp only [List.nil_append] at hx
      rw [List.cons_append] at hx ⊢
      have hb : ∀ n, n ≠ 45 → isDigit n = false → c ≠ n := by
        rintro n h1 h2 rfl
        rcases hc with hc | hc
        · exact h1 hc
        · rw [h2] at hc; cases hc
      rw [pVal_cases]
      refine .inr (.inr (.inr ⟨hb _ (by decide) (by decide), hb _ (by decide) (by decide), hb _ (by decide) (by decide), ?_⟩))
      rw [pAtom_cons, if_neg (hb _ (by decide) (by decide)), if_neg (hb _ (by decide) (by decide)),
        if_neg (hb _ (by decide) (by decide)), if_neg (hb _ (by decide) (by decide)), if_neg (hb _ (by decide) (by decide)), hx]
  | .str s, lvl, t, h, _ => by
    obtain ⟨f, hf⟩ := pStr_encStr (k := s) h t
    refine ⟨f + 1, fun f' hf' => ?_⟩
    obtain ⟨f', rfl⟩ : ∃ k, f' = k + 1 := ⟨f' - 1, by omega⟩
    have e : (JVal.str s).enc lvl ++ t = 34 :: (s.flatMap escape ++ 34 :: t) := by simp [JVal.enc, encStr]
    rw [e, pVal_cases]
    exact .inl ⟨rfl, s, hf f' (by omega), rfl⟩
  | .arr [], lvl, t, _, _ => ⟨1, fun f hf => pVal_mono (f := 1) (by
      have e : (JVal.arr []).enc lvl ++ t = 91 :: 93 :: t := rfl
      rw [e, pVal_cases]
      exact .inr (.inr (.inl ⟨rfl, .inl ⟨skipWs_of_head (by decide), rfl⟩⟩))) hf⟩
  | .arr (v :: l), lvl, t, h, _ => by
    simp only [JVal.WF, JVal.WFItems] at h
    obtain ⟨f, hf⟩ := encItems_parses l v (lvl + 1) lvl t h.1
      (fun t ht => enc_parses v (lvl + 1) t h.1 ht) h.2
    refine ⟨f + 1, fun f' hf' => ?_⟩
    obtain ⟨f', rfl⟩ : ∃ k, f' = k + 1 := ⟨f' - 1, by omega⟩
    have e : (JVal.arr (v :: l)).enc lvl ++ t = 91 :: (newline (lvl + 1) ++ (v.enc (lvl + 1) ++ (JVal.encItems (lvl + 1) l ++ (newline lvl ++ 93 :: t)))) := by
      rw [JVal.enc]; simp
    rw [e, pVal_cases]
    obtain ⟨c, r, h1, h2, h3⟩ := enc_head h.1 (lvl + 1) (JVal.encItems (lvl + 1) l ++ (newline lvl ++ 93 :: t))
    refine .inr (.inr (.inl ⟨rfl, .inr ⟨c, r, v :: l, ?_, h3, ?_, rfl⟩⟩))
    · rw [skipWs_newline, h1, skipWs_of_head h2]
    · rw [← h1]
      exact hf f' (by omega)
  | .obj [], lvl, t, _, _ => ⟨1, fun f hf => pVal_mono (f := 1) (by
      have e : (JVal.obj []).enc lvl ++ t = 123 :: 125 :: t := rfl
      rw [e, pVal_cases]
      exact .inr (.inl ⟨rfl, .inl ⟨skipWs_of_head (by decide), rfl⟩⟩)) hf⟩
  | .obj ((k, v) :: l), lvl, t, h, _ => by
    simp only [JVal.WF, JVal.WFPairs] at h
    obtain ⟨f, hf⟩ := encPairs_parses l k v (lvl + 1) lvl t h.1.1 h.1.2.1
      (fun t ht => enc_parses v (lvl + 1) t h.1.2.1 ht) h.1.2.2
    refine ⟨f + 1, fun f' hf' => ?_⟩
    obtain ⟨f', rfl⟩ : ∃ k, f' = k + 1 := ⟨f' - 1, by omega⟩
    have e : (JVal.obj ((k, v) :: l)).enc lvl ++ t = 123 :: (newline (lvl + 1) ++ (34 :: (k.flatMap escape ++ 34 :: (lit ": " ++ (v.enc (lvl + 1) ++ (JVal.encPairs (lvl + 1) l ++ (newline lvl ++ 125 :: t))))))) := by
      rw [JVal.enc]; simp [encStr]
    rw [e, pVal_cases]
    refine .inr (.inl ⟨rfl, .inr ⟨_, (k, v) :: l, ?_, hf f' (by omega), by rw [dofList_of_nodup h.2]⟩⟩)
    rw [skipWs_newline, skipWs_of_head (by decide)]
theorem encItems_parses : ∀ (l : List JVal) (v : JVal) (lvl lvl' : Nat) (t : PyStr), v.WF →
    (∀ t, (v.IsNum → NumEnd t) → ∃ f, ∀ f' ≥ f, pVal f' (v.enc lvl ++ t) = some (v, t)) → JVal.WFItems l →
    ∃ f, ∀ f' ≥ f, pItems f' (v.enc lvl ++ (JVal.encItems lvl l ++ (newline lvl' ++ 93 :: t))) = some (v :: l, t)
  | [], v, lvl, lvl', t, hv, hp, _ => by
    have hend : skipWs (JVal.encItems lvl [] ++ (newline lvl' ++ 93 :: t)) = 93 :: t := by
      simp only [JVal.encItems, List.nil_append]
      rw [skipWs_newline, skipWs_of_head (by decide)]
    obtain ⟨f, hf⟩ := hp (JVal.encItems lvl [] ++ (newline lvl' ++ 93 :: t))
      (fun _ => by simpa using numEnd_skip hend (notNumCont (by simp)) [])
    refine ⟨f + 1, fun f' hf' => ?_⟩
    obtain ⟨f', rfl⟩ : ∃ k, f' = k + 1 := ⟨f' - 1, by omega⟩
    rw [pItems_cases]
    exact ⟨v, _, hf f' (by omega), .inl ⟨hend, rfl⟩⟩
  | w :: l, v, lvl, lvl', t, hv, hp, hl => by
    simp only [JVal.WFItems] at hl
    have e : JVal.encItems lvl (w :: l) ++ (newline lvl' ++ 93 :: t) =
        44 :: (newline lvl ++ (w.enc lvl ++ (JVal.encItems lvl l ++ (newline lvl' ++ 93 :: t)))) := by
      rw [JVal.encItems]; simp
    have hend : skipWs (JVal.encItems lvl (w :: l) ++ (newline lvl' ++ 93 :: t)) =
        44 :: (newline lvl ++ (w.enc lvl ++ (JVal.encItems lvl l ++ (newline lvl' ++ 93 :: t)))) := by
      rw [e, skipWs_of_head (by decide)]
    obtain ⟨f1, hf1⟩ := hp (JVal.encItems lvl (w :: l) ++ (newline lvl' ++ 93 :: t))
      (fun _ => by simpa using numEnd_skip hend (notNumCont (by simp)) [])
    obtain ⟨f2, hf2⟩ := encItems_parses l w lvl lvl' t hl.1 (fun t ht => enc_parses w lvl t hl.1 ht) hl.2
    refine ⟨f1 + f2 + 1, fun f' hf' => ?_⟩
    obtain ⟨f', rfl⟩ : ∃ k, f' = k + 1 := ⟨f' - 1, by omega⟩
    rw [pItems_cases]
    refine ⟨v, _, hf1 f' (by omega), .inr ⟨_, w :: l, hend, ?_, rfl⟩⟩
    rw [skipWs_newline, skipWs_enc hl.1]
    exact hf2 f' (by omega)
theorem encPairs_parses : ∀ (l : List (PyStr × JVal)) (k : PyStr) (v : JVal) (lvl lvl' : Nat) (t : PyStr), Unicode k → v.WF →
    (∀ t, (v.IsNum → NumEnd t) → ∃ f, ∀ f' ≥ f, pVal f' (v.enc lvl ++ t) = some (v, t)) → JVal.WFPairs l →
    ∃ f, ∀ f' ≥ f, pPairs f' (k.flatMap escape ++ 34 :: (lit ": " ++ (v.enc lvl ++ (JVal.encPairs lvl l ++ (newline lvl' ++ 125 :: t))))) =
      some ((k, v) :: l, t)
  | [], k, v, lvl, lvl', t, hk, hv, hp, _ => by
    have hend : skipWs (JVal.encPairs lvl [] ++ (newline lvl' ++ 125 :: t)) = 125 :: t := by
      simp only [JVal.encPairs, List.nil_append]
      rw [skipWs_newline, skipWs_of_head (by decide)]
    obtain ⟨f, hf⟩ := hp (JVal.encPairs lvl [] ++ (newline lvl' ++ 125 :: t))
      (fun _ => by simpa using numEnd_skip hend (notNumCont (by simp)) [])
    obtain ⟨f2, hf2⟩ := pStr_encStr hk (lit ": " ++ (v.enc lvl ++ (JVal.encPairs lvl [] ++ (newline lvl' ++ 125 :: t))))
    refine ⟨f + f2 + 1, fun f' hf' => ?_⟩
    obtain ⟨f', rfl⟩ : ∃ k, f' = k + 1 := ⟨f' - 1, by omega⟩
    rw [pPairs_cases]
    refine ⟨k, _, _, v, _, hf2 f' (by omega), skipWs_space _, ?_, .inl ⟨hend, rfl⟩⟩
    rw [skipWs_32, skipWs_enc hv]
    exact hf f' (by omega)
  | (k', w) :: l, k, v, lvl, lvl', t, hk, hv, hp, hl => by
    simp only [JVal.WFPairs] at hl
    have e : JVal.encPairs lvl ((k', w) :: l) ++ (newline lvl' ++ 125 :: t) =
        44 :: (newline lvl ++ (34 :: (k'.flatMap escape ++ 34 :: (lit ": " ++ (w.enc lvl ++ (JVal.encPairs lvl l ++ (newline lvl' ++ 125 :: t))))))) := by
      rw [JVal.encPairs]; simp [encStr]
    have hend : skipWs (JVal.encPairs lvl ((k', w) :: l) ++ (newline lvl' ++ 125 :: t)) =
        44 :: (newline lvl ++ (34 :: (k'.flatMap escape ++ 34 :: (lit ": " ++ (w.enc lvl ++ (JVal.encPairs lvl l ++ (newline lvl' ++ 125 :: t))))))) := by
      rw [e, skipWs_of_head (by decide)]
    obtain ⟨f1, hf1⟩ := hp (JVal.encPairs lvl ((k', w) :: l) ++ (newline lvl' ++ 125 :: t))
      (fun _ => by simpa using numEnd_skip hend (notNumCont (by simp)) [])
    obtain ⟨f2, hf2⟩ := encPairs_parses l k' w lvl lvl' t hl.1 hl.2.1 (fun t ht => enc_parses w lvl t hl.2.1 ht) hl.2.2
    obtain ⟨f3, hf3⟩ := pStr_encStr hk (lit ": " ++ (v.enc lvl ++ (JVal.encPairs lvl ((k', w) :: l) ++ (newline lvl' ++ 125 :: t))))
    refine ⟨f1 + f2 + f3 + 1, fun f' hf' => ?_⟩
    obtain ⟨f', rfl⟩ : ∃ k, f' = k + 1 := ⟨f' - 1, by omega⟩
    rw [pPairs_cases]
    refine ⟨k, _, _, v, _, hf3 f' (by omega), skipWs_space _, ?_, .inr ⟨_, _, (k', w) :: l, hend, ?_, hf2 f' (by omega), rfl⟩⟩
    · rw [skipWs_32, skipWs_enc hv]
      exact hf1 f' (by omega)
    · rw [skipWs_newline, skipWs_of_head (by decide)]
end

/-- Decoding an encoded value gives it back. -/
theorem decode_enc {v : JVal} (h : v.WF) (lvl : Nat) : decode (v.enc lvl) = some v := by
  obtain ⟨f, hf⟩ := enc_parses v lvl [] h (fun _ => fun c r he => by cases he)
  rw [decode_iff]
  refine ⟨f, [], ?_, rfl⟩
  have := skipWs_enc h lvl []
  rw [List.append_nil] at this
  rw [this]
  simpa using hf f (Nat.le_refl _)

end Verif
