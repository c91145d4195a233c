import Verif.Proofs.DBScan

/-
From the clusters of C-DBScan to the labels.
-/

set_option linter.unusedSectionVars false

namespace Verif

variable {α V δ : Type} [LinearOrder α] [LinearOrder δ] {env : DbEnv α V δ} {p : DbParams δ} {m : Manager α}

theorem dbRemove_perm {l r r' : List α} (h : l.foldlM dbRemove r = .ok r') : (l ++ r').Perm r := by
  induction l generalizing r with
  | nil => cases h; exact .refl _
  | cons a l ih =>
    rw [List.foldlM_cons] at h
    unfold dbRemove at h
    by_cases ha : a ∈ r
    · rw [if_pos ha] at h
      exact ((ih h).cons a).trans (List.perm_cons_erase ha).symm
    · rw [if_neg ha] at h
      cases h

theorem dbRemove_mem {l r' : List α} {q : α → Bool} (h : (l.filter q).foldlM dbRemove l = .ok r') :
    ∀ x, x ∈ r' ↔ x ∈ l ∧ q x = false := by
  have h1 := dbRemove_perm h
  have h2 : (l.filter q ++ l.filter (fun x => !q x)).Perm l := List.filter_append_perm q l
  have h3 : r'.Perm (l.filter fun x => !q x) := (List.perm_append_left_iff _).1 (h1.trans h2.symm)
  intro x
  rw [h3.mem_iff, List.mem_filter]
  simp

/-- Each predicted label below the next label is the label of one cluster. -/
structure Named (s : Dict α Int × Int) (own : α → α ⊕ α → Prop) (name : Int → Option (α ⊕ α)) : Prop where
  inj : ∀ i j, 0 ≤ i → i < s.2 → 0 ≤ j → j < s.2 → name i = name j → i = j
  nonneg : 0 ≤ s.2
  of_label : ∀ x c, dget? s.1 x = some c → 0 ≤ c ∧ c < s.2 ∧ ∃ o, name c = some o ∧ own x o
  of_own : ∀ x o, own x o → ∃ c, dget? s.1 x = some c ∧ name c = some o

theorem Named.predict {s : Dict α Int × Int} {own own' : α → α ⊕ α → Prop} {name : Int → Option (α ⊕ α)} (h : Named s own name)
    {pts : List α} {o : α ⊕ α} (hfresh : ∀ i, 0 ≤ i → i < s.2 → name i ≠ some o)
    (hin : ∀ x ∈ pts, ∀ o', own' x o' ↔ o' = o) (hout : ∀ x, x ∉ pts → ∀ o', own' x o' ↔ own x o') :
    ∃ name', Named (dbPredict pts s.2 s.1, s.2 + 1) own' name' ∧ name' s.2 = some o ∧ ∀ i, i < s.2 → name' i = name i := by
  have h0 := h.nonneg
  refine ⟨fun i => if i = s.2 then some o else name i, ⟨?_, ?_, ?_, ?_⟩, by simp, fun i hi => by
    show (if i = s.2 then some o else name i) = name i
    rw [if_neg (by omega)]⟩
  · intro i j hi hi' hj hj' he
    replace hi' : i < s.2 + 1 := hi'
    replace hj' : j < s.2 + 1 := hj'
    replace he : (if i = s.2 then some o else name i) = if j = s.2 then some o else name j := he
    by_cases h1 : i = s.2 <;> by_cases h2 : j = s.2
    · omega
    · rw [if_pos h1, if_neg h2] at he
      exact absurd he.symm (hfresh j hj (by omega))
    · rw [if_neg h1, if_pos h2] at he
      exact absurd he (hfresh i hi (by omega))
    · rw [if_neg h1, if_neg h2] at he
      exact h.inj i j hi (by omega) hj (by omega) he
  · show 0 ≤ s.2 + 1; omega
  · intro x c hx
    simp only [dget?_dbPredict] at hx
    split at hx
    · rename_i hxp
      cases hx
      exact ⟨h0, by show s.2 < s.2 + 1; omega, o, if_pos rfl, (hin x hxp o).2 rfl⟩
    · rename_i hxp
      obtain ⟨h1, h2, o', h3, h4⟩ := h.of_label x c hx
      exact ⟨h1, by show c < s.2 + 1; omega, o', (if_neg (by omega)).trans h3, (hout x hxp _).2 h4⟩
  · intro x o' hx
    simp only [dget?_dbPredict]
    by_cases hxp : x ∈ pts
    · rw [if_pos hxp]
      refine ⟨s.2, rfl, ?_⟩
      rw [if_pos rfl, (hin x hxp o').1 hx]
    · rw [if_neg hxp]
      obtain ⟨c, h1, h2⟩ := h.of_own x o' ((hout x hxp o').1 hx)
      refine ⟨c, h1, ?_⟩
      have := (h.of_label x c h1).2.1
      rw [if_neg (by omega)]
      exact h2

theorem Named.congr {s : Dict α Int × Int} {own own' : α → α ⊕ α → Prop} {name : Int → Option (α ⊕ α)} (h : Named s own name)
    (he : ∀ x o, own' x o ↔ own x o) : Named s own' name :=
  ⟨h.inj, h.nonneg, fun x c hx => by
    obtain ⟨h1, h2, o, h3, h4⟩ := h.of_label x c hx
    exact ⟨h1, h2, o, h3, (he x o).2 h4⟩, fun x o hx => h.of_own x o ((he x o).1 hx)⟩

theorem lastCore_append {P : Dict α (List α)} {c x : α} {pts : List α} (c' : α) :
    LastCore (P ++ [(c, pts)]) x c' ↔ (x ∈ pts ∧ c' = c) ∨ (x ∉ pts ∧ LastCore P x c') := by
  constructor
  · rintro ⟨A, pts', B, e, hx, hB⟩
    rcases List.eq_nil_or_concat B with rfl | ⟨B, b, rfl⟩
    · obtain ⟨rfl, e2⟩ := List.append_inj' e rfl
      cases e2
      exact .inl ⟨hx, rfl⟩
    · have e' : P ++ [(c, pts)] = (A ++ (c', pts') :: B) ++ [b] := by rw [e]; simp
      obtain ⟨rfl, e2⟩ := List.append_inj' e' rfl
      cases e2
      exact .inr ⟨hB (c, pts) (by simp), A, pts', B, rfl, hx, fun q hq => hB q (by simp [hq])⟩
  · rintro (⟨hx, rfl⟩ | ⟨hx, A, pts', B, rfl, hx', hB⟩)
    · exact ⟨P, pts, [], rfl, hx, by simp⟩
    · refine ⟨A, pts', B ++ [(c, pts)], by simp, hx', fun q hq => ?_⟩
      rcases List.mem_append.1 hq with hq | hq
      · exact hB q hq
      · rw [List.mem_singleton] at hq; subst hq; exact hx

theorem lastCore_exists {cores : Dict α (List α)} {x : α} {q : α × List α} (hq : q ∈ cores) (hx : x ∈ q.2) :
    ∃ c, LastCore cores x c := by
  induction cores using List.reverseRecOn with
  | nil => cases hq
  | append_singleton P b ih =>
    obtain ⟨c, pts⟩ := b
    by_cases hb : x ∈ pts
    · exact ⟨c, (lastCore_append c).2 (.inl ⟨hb, rfl⟩)⟩
    · rcases List.mem_append.1 hq with hq | hq
      · obtain ⟨c', hc'⟩ := ih hq
        exact ⟨c', (lastCore_append c').2 (.inr ⟨hb, hc'⟩)⟩
      · rw [List.mem_singleton] at hq; subst hq; exact absurd hx hb

theorem lastCore_mem {cores : Dict α (List α)} {x c : α} (h : LastCore cores x c) : ∃ pts, (c, pts) ∈ cores ∧ x ∈ pts := by
  obtain ⟨A, pts, B, rfl, hx, -⟩ := h
  exact ⟨pts, by simp, hx⟩

theorem named_cores {cores : Dict α (List α)} (hc : (dkeys cores).Nodup) :
    ∃ name, Named ((dvals cores).foldl dbFinalCore ([], 0)) (fun x o => ∃ c, o = .inl c ∧ LastCore cores x c) name ∧
      ∀ i, 0 ≤ i → i < ((dvals cores).foldl dbFinalCore (([], 0) : Dict α Int × Int)).2 →
        ∃ c ∈ dkeys cores, name i = some (.inl c) := by
  induction cores using List.reverseRecOn with
  | nil =>
    refine ⟨fun _ => none, ⟨fun i j hi hi' => ?_, Int.le_refl 0, fun x c hx => ?_, fun x o ho => ?_⟩, fun i hi hi' => ?_⟩
    · exact absurd hi' (by simp [dvals]; omega)
    · simp [dvals, dget?] at hx
    · obtain ⟨c, -, hc⟩ := ho
      obtain ⟨pts, hq, -⟩ := lastCore_mem hc
      cases hq
    · exact absurd hi' (by simp [dvals]; omega)
  | append_singleton P b ih =>
    obtain ⟨c, pts⟩ := b
    have hc' : (dkeys P).Nodup ∧ c ∉ dkeys P := by
      simp only [dkeys, List.map_append, List.map_cons, List.map_nil] at hc
      rw [List.nodup_append] at hc
      exact ⟨hc.1, fun hm => hc.2.2 c hm c (by simp) rfl⟩
    obtain ⟨name, hN, hk⟩ := ih hc'.1
    have hv : dvals (P ++ [(c, pts)]) = dvals P ++ [pts] := by simp [dvals]
    rw [hv, List.foldl_append, List.foldl_cons, List.foldl_nil]
    generalize ht : (dvals P).foldl dbFinalCore (([], 0) : Dict α Int × Int) = t at hN hk
    obtain ⟨name', hN', h1, h2⟩ := hN.predict (pts := pts) (o := .inl c)
      (own' := fun x o => ∃ c', o = .inl c' ∧ LastCore (P ++ [(c, pts)]) x c') (fun i hi hi' he => by
        obtain ⟨c', hc1, hc2⟩ := hk i hi hi'
        rw [hc2] at he
        cases he
        exact hc'.2 hc1)
      (fun x hx o' => by
        constructor
        · rintro ⟨c', rfl, hL⟩
          rcases (lastCore_append c').1 hL with ⟨-, rfl⟩ | ⟨hx', -⟩
          · rfl
          · exact absurd hx hx'
        · rintro rfl
          exact ⟨c, rfl, (lastCore_append c).2 (.inl ⟨hx, rfl⟩)⟩)
      (fun x hx o' => by
        refine exists_congr fun c' => and_congr_right fun _ => ?_
        rw [lastCore_append]
        constructor
        · rintro (⟨hx', -⟩ | ⟨-, hL⟩)
          · exact absurd hx' hx
          · exact hL
        · exact fun hL => .inr ⟨hx, hL⟩)
    refine ⟨name', hN', fun i hi hi' => ?_⟩
    replace hi' : i < t.2 + 1 := hi'
    by_cases he : i = t.2
    · subst he
      exact ⟨c, by simp [dkeys], h1⟩
    · obtain ⟨c', hc1, hc2⟩ := hk i hi (by omega)
      refine ⟨c', ?_, by rw [h2 i (by omega)]; exact hc2⟩
      simp only [dkeys, List.map_append, List.mem_append]
      exact .inl hc1

/-- The owners when the local clusters of `P` are done. -/
def OwnerIn (p : DbParams δ) (cores locals : Dict α (List α)) (P : List α) (x : α) : α ⊕ α → Prop
  | .inl c => LastCore cores x c
  | .inr c => c ∈ P ∧ (∀ q ∈ cores, x ∉ q.2) ∧ ∃ pts, dget? locals c = some pts ∧ x ∈ pts ∧ p.enough pts.length = true

theorem dbFinish_named {labels : Dict α DLabel} {cores locals : Dict α (List α)}
    (hc : (dkeys cores).Nodup) (hl : (dkeys locals).Nodup) {ids : List α} {o : DbObject α}
    (hr : dbFinish p ids labels cores locals = .ok o) :
    ∃ s r name, renameClusters s.1 = .ok r ∧ (dkeys s.1).Nodup ∧ o.predicted = some (ids.foldl dbIgnore (r, -1)).1 ∧
      Named s (Owner p o.cores o.locals) name := by
  obtain ⟨name0, hN0, hk0⟩ := named_cores hc
  have hnd : (dkeys ((dvals cores).foldl dbFinalCore (([], 0) : Dict α Int × Int)).1).Nodup := by
    have key : ∀ (l : List (List α)) (s : Dict α Int × Int), (dkeys s.1).Nodup → (dkeys (l.foldl dbFinalCore s).1).Nodup := by
      intro l
      induction l with
      | nil => intro s hs; exact hs
      | cons a l ih => intro s hs; exact ih _ (nodup_dbPredict hs)
    exact key _ _ (by simp)
  generalize ht0 : (dvals cores).foldl dbFinalCore (([], 0) : Dict α Int × Int) = t0 at hN0 hk0 hnd
  obtain ⟨t, e, hk, hnd', name, hN, -⟩ := foldlM_inv (f := dbFinalLocal p)
    (I := fun P (s : Dict α (List α) × Dict α Int × Int) => dkeys s.1 = dkeys locals ∧ (dkeys s.2.1).Nodup ∧
      ∃ name, Named s.2 (OwnerIn p cores s.1 P) name ∧
        ∀ i, 0 ≤ i → i < s.2.2 → (∃ c, name i = some (.inl c)) ∨ ∃ c ∈ P, name i = some (.inr c))
    (L := dkeys locals) (s := (locals, t0)) (fun P a s hP hI => by
      obtain ⟨Q, e⟩ := hP
      obtain ⟨ha, haP⟩ := mem_mid hl e
      obtain ⟨hk, hnd, name, hN, hnames⟩ := hI
      obtain ⟨pts, hpts⟩ := dget?_isSome_of_mem (d := s.1) (k := a) (by rw [hk]; exact ha)
      obtain ⟨rest, er, -⟩ := dbRemove_fold (l := pts.filter fun y => decide (y ∈ dkeys s.2.1)) (r := pts)
        List.filter_sublist.subperm
      have hrest := dbRemove_mem er
      have hk' : dkeys (dset s.1 a rest) = dkeys locals := by
        rw [dkeys_dset_of_mem _ (by rw [hk]; exact ha)]; exact hk
      have hother : ∀ c ∈ P, dget? (dset s.1 a rest) c = dget? s.1 c := fun c hc => by
        rw [dget?_dset, if_neg]
        rintro rfl
        exact haP hc
      have hself : dget? (dset s.1 a rest) a = some rest := by rw [dget?_dset, if_pos rfl]
      unfold dbFinalLocal
      rw [dget_of_dget? hpts]
      simp only [bind, Except.bind]
      rw [er]
      simp only
      by_cases hen : p.enough rest.length = true
      · rw [if_pos hen]
        obtain ⟨name', hN', h1, h2⟩ := hN.predict (pts := rest) (o := .inr a) (own' := OwnerIn p cores (dset s.1 a rest) (P ++ [a]))
          (fun i hi hi' he => by
            rcases hnames i hi hi' with ⟨c, hc⟩ | ⟨c, hcP, hc⟩
            · rw [hc] at he; cases he
            · rw [hc] at he; cases he; exact haP hcP)
          (fun x hx o' => by
            have hx' := (hrest x).1 hx
            have hno : ∀ o'', ¬ OwnerIn p cores s.1 P x o'' := fun o'' ho => by
              obtain ⟨c, hc, -⟩ := hN.of_own x o'' ho
              have := mem_dkeys_of_dget? hc
              simp [this] at hx'
            constructor
            · intro ho
              cases o' with
              | inl c => exact absurd ho (hno (.inl c))
              | inr c =>
                obtain ⟨hcP, hcore, pts', hd, hxp, hen'⟩ := ho
                rcases List.mem_append.1 hcP with hcP | hcP
                · rw [hother c hcP] at hd
                  exact absurd ⟨hcP, hcore, pts', hd, hxp, hen'⟩ (hno (.inr c))
                · rw [List.mem_singleton] at hcP; rw [hcP]
            · rintro rfl
              refine ⟨by simp, fun q hq hxq => ?_, rest, hself, hx, hen⟩
              obtain ⟨c, hL⟩ := lastCore_exists hq hxq
              exact hno (.inl c) hL)
          (fun x hx o' => by
            cases o' with
            | inl c => exact Iff.rfl
            | inr c =>
              constructor
              · rintro ⟨hcP, hcore, pts', hd, hxp, hen'⟩
                rcases List.mem_append.1 hcP with hcP | hcP
                · rw [hother c hcP] at hd
                  exact ⟨hcP, hcore, pts', hd, hxp, hen'⟩
                · rw [List.mem_singleton] at hcP
                  subst hcP
                  rw [hself] at hd
                  cases hd
                  exact absurd hxp hx
              · rintro ⟨hcP, hcore, pts', hd, hxp, hen'⟩
                exact ⟨by simp [hcP], hcore, pts', by rw [hother c hcP]; exact hd, hxp, hen'⟩)
        refine ⟨_, rfl, hk', nodup_dbPredict hnd, name', hN', fun i hi hi' => ?_⟩
        replace hi' : i < s.2.2 + 1 := hi'
        by_cases he : i = s.2.2
        · subst he
          exact .inr ⟨a, by simp, h1⟩
        · rw [h2 i (by omega)]
          rcases hnames i hi (by omega) with h3 | ⟨c, hcP, h3⟩
          · exact .inl h3
          · exact .inr ⟨c, by simp [hcP], h3⟩
      · rw [if_neg hen]
        refine ⟨_, rfl, hk', hnd, name, hN.congr fun x o' => ?_, fun i hi hi' => ?_⟩
        · cases o' with
          | inl c => exact Iff.rfl
          | inr c =>
            constructor
            · rintro ⟨hcP, hcore, pts', hd, hxp, hen'⟩
              rcases List.mem_append.1 hcP with hcP | hcP
              · rw [hother c hcP] at hd
                exact ⟨hcP, hcore, pts', hd, hxp, hen'⟩
              · rw [List.mem_singleton] at hcP
                subst hcP
                rw [hself] at hd
                cases hd
                exact absurd hen' hen
            · rintro ⟨hcP, hcore, pts', hd, hxp, hen'⟩
              exact ⟨by simp [hcP], hcore, pts', by rw [hother c hcP]; exact hd, hxp, hen'⟩
        · rcases hnames i hi hi' with h3 | ⟨c, hcP, h3⟩
          · exact .inl h3
          · exact .inr ⟨c, by simp [hcP], h3⟩)
    ⟨rfl, hnd, name0, hN0.congr fun x o' => by
        cases o' with
        | inl c => exact ⟨fun h => ⟨c, rfl, h⟩, fun ⟨c', e, h⟩ => by cases e; exact h⟩
        | inr c => exact ⟨fun h => absurd h.1 List.not_mem_nil, fun ⟨c', e, _⟩ => by cases e⟩,
      fun i hi hi' => by
        obtain ⟨c, -, h⟩ := hk0 i hi hi'
        exact .inl ⟨c, h⟩⟩
  unfold dbFinish at hr
  simp only [bind, Except.bind] at hr
  rw [ht0, e] at hr
  simp only at hr
  cases er : renameClusters t.2.1 with
  | error _ => rw [er] at hr; cases hr
  | ok r =>
    rw [er] at hr
    cases hr
    refine ⟨t.2, r, name, er, hnd', rfl, hN.congr fun x o' => ?_⟩
    cases o' with
    | inl c => exact Iff.rfl
    | inr c =>
      constructor
      · rintro ⟨hcore, pts', hd, hxp, hen'⟩
        exact ⟨by rw [← hk]; exact mem_dkeys_of_dget? hd, hcore, pts', hd, hxp, hen'⟩
      · rintro ⟨-, hcore, pts', hd, hxp, hen'⟩
        exact ⟨hcore, pts', hd, hxp, hen'⟩

end Verif
