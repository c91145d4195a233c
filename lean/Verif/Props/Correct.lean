import Mathlib.Tactic.Ring
import Verif.Props.Mistakes
import Verif.Spec.Correct

/-! C116: how many mistakes a list of annotations notices and corrects. -/

namespace Verif

variable {α : Type} [LinearOrder α]

omit [LinearOrder α] in
theorem agrees_misfit {f : α → Nat} {a : α × α × CType} : Agrees f a.1 a.2.1 a.2.2 ↔ (f a.1 = f a.2.1 ↔ a.2.2 = .mustLink) := by
  obtain ⟨x, y, t⟩ := a
  cases t <;> simp [Agrees]

omit [LinearOrder α] in
theorem misfits_nil (f : α → Nat) : misfits f [] = 0 := rfl

omit [LinearOrder α] in
theorem misfits_cons (f : α → Nat) (a : α × α × CType) (l : List (α × α × CType)) :
    misfits f (a :: l) = misfits f l + if (f a.1 = f a.2.1 ↔ a.2.2 = .mustLink) then 0 else 1 := by
  unfold misfits
  rw [List.countP_cons]
  by_cases h : (f a.1 = f a.2.1 ↔ a.2.2 = CType.mustLink) <;> simp [h]

omit [LinearOrder α] in
theorem misfits_append (f : α → Nat) (l l' : List (α × α × CType)) : misfits f (l ++ l') = misfits f l + misfits f l' :=
  List.countP_append

omit [LinearOrder α] in
theorem misfits_mistake (f : α → Nat) (a : α × α × CType) (l : List (α × α × CType)) :
    misfits f (mistake a :: l) = misfits f l + if (f a.1 = f a.2.1 ↔ a.2.2 = .mustLink) then 1 else 0 := by
  rw [misfits_cons]
  obtain ⟨x, y, t⟩ := a
  cases t <;> by_cases h : f x = f y <;> simp [mistake, h]

omit [LinearOrder α] in
theorem misfits_zero {f : α → Nat} {l : List (α × α × CType)} : misfits f l = 0 ↔ AgreesAll f l := by
  unfold misfits AgreesAll
  rw [List.countP_eq_zero]
  simp only [agrees_misfit, decide_eq_true_eq, not_not]

theorem mistakes_le {n : Nat} {l l' : List (α × α × CType)} (h : WithMistakes n l l') (f : α → Nat) :
    misfits f l ≤ misfits f l' + n ∧ misfits f l' ≤ misfits f l + n := by
  induction h with
  | nil => exact ⟨le_refl _, le_refl _⟩
  | right a _ ih => rw [misfits_cons, misfits_cons]; split <;> omega
  | wrong a _ ih => rw [misfits_cons, misfits_mistake]; split <;> omega

theorem mistakes_truth {n : Nat} {l l' : List (α × α × CType)} (h : WithMistakes n l l') {f : α → Nat} (hf : AgreesAll f l) :
    misfits f l' = n := by
  induction h with
  | nil => rfl
  | right a _ ih =>
    rw [misfits_cons, ih fun b hb => hf b (by simp [hb]), if_pos (agrees_misfit.1 (hf a (by simp))), Nat.add_zero]
  | wrong a _ ih =>
    rw [misfits_mistake, ih fun b hb => hf b (by simp [hb]), if_pos (agrees_misfit.1 (hf a (by simp)))]

theorem mistakes_about {n : Nat} {l l' : List (α × α × CType)} (h : WithMistakes n l l') {m : Manager α} (hl : AboutManaged m l) :
    AboutManaged m l' := by
  induction h with
  | nil => exact hl
  | right a _ ih =>
    have := ih fun b hb => hl b (by simp [hb])
    intro b hb
    rcases List.mem_cons.1 hb with rfl | hb
    · exact hl _ (by simp)
    · exact this b hb
  | wrong a _ ih =>
    have := ih fun b hb => hl b (by simp [hb])
    intro b hb
    rcases List.mem_cons.1 hb with rfl | hb
    · have hb := hl a (List.mem_cons_self ..)
      obtain ⟨x, y, t⟩ := a
      cases t <;> exact hb
    · exact this b hb

/-- Some of the annotations that a labelling contradicts are changed. -/
theorem mistakes_towards (f : α → Nat) (l : List (α × α × CType)) (k : Nat) (hk : k ≤ misfits f l) :
    ∃ l', WithMistakes k l l' ∧ misfits f l' + k = misfits f l := by
  induction l generalizing k with
  | nil =>
    rw [misfits_nil] at hk
    obtain rfl : k = 0 := by omega
    exact ⟨[], .nil, rfl⟩
  | cons a l ih =>
    rw [misfits_cons] at hk ⊢
    by_cases h : (f a.1 = f a.2.1 ↔ a.2.2 = CType.mustLink)
    · rw [if_pos h] at hk ⊢
      obtain ⟨l', h1, h2⟩ := ih k hk
      exact ⟨a :: l', .right a h1, by rw [misfits_cons, if_pos h, ← h2]; omega⟩
    · rw [if_neg h] at hk ⊢
      cases k with
      | zero =>
        obtain ⟨l', h1, h2⟩ := ih 0 (Nat.zero_le _)
        exact ⟨a :: l', .right a h1, by rw [misfits_cons, if_neg h, ← h2]⟩
      | succ k =>
        obtain ⟨l', h1, h2⟩ := ih k (by omega)
        exact ⟨mistake a :: l', .wrong a h1, by rw [misfits_mistake, if_neg h, ← h2]; omega⟩

omit [LinearOrder α] in
theorem misfits_same {ids : List α} {f g : α → Nat} (h : SameClasses ids f g) {l : List (α × α × CType)}
    (hl : ∀ a ∈ l, a.1 ∈ ids ∧ a.2.1 ∈ ids) : misfits f l = misfits g l := by
  unfold misfits
  apply List.countP_congr
  intro a ha
  obtain ⟨h1, h2⟩ := hl a ha
  have := h _ h1 _ h2
  simp only [decide_eq_true_eq, this]

theorem mem_init {ids : List α} {x : α} : x ∈ (Manager.init ids).managed ↔ x ∈ ids := by
  rw [← List.mem_toFinset, init_toFinset, List.mem_toFinset]

/-- If each pair of labellings of a manager has the same classes, its constraints are complete. -/
theorem complete_of_unique {m : Manager α} (hm : Reachable m) {truth : α → Nat}
    (h : ∀ f, Satisfies m f → ∀ x ∈ m.managed, ∀ y ∈ m.managed, (f x = f y ↔ truth x = truth y)) : m.complete = true := by
  rw [complete_iff hm.inv]
  intro x hx y hy
  by_cases ht : truth x = truth y
  · exact .inl ((inferred_ml_iff hm.inv hx hy).1 ((inferred_iff_forced hm hx hy .mustLink).2 fun f hf => (h f hf x hx y hy).2 ht))
  · exact .inr ((inferred_cl_iff hm.inv hx hy).1 ((inferred_iff_forced hm hx hy .cannotLink).2 fun f hf he =>
      ht ((h f hf x hx y hy).1 he)))

/-- C116: a correct list completes the constraints and notices up to `e` mistakes exactly if labellings with other classes contradict more
than `e` of its annotations. -/
theorem C116_distance {ids : List α} {truth : α → Nat} {l : List (α × α × CType)} (hl : ∀ a ∈ l, a.1 ∈ ids ∧ a.2.1 ∈ ids)
    (hag : AgreesAll truth l) (e : Nat) : Detects ids e l ↔ ∀ f, misfits f l ≤ e → SameClasses ids f truth := by
  have hm : Reachable (Manager.init ids) := .init ids
  have hab : AboutManaged (Manager.init ids) l := fun a ha => ⟨mem_init.2 (hl a ha).1, mem_init.2 (hl a ha).2⟩
  constructor
  · rintro ⟨⟨m', hc, hcomp⟩, hn⟩ f hf
    rcases Nat.eq_zero_or_pos (misfits f l) with h0 | h0
    · rcases giveAll_cases hm hab with ⟨m0, e1, e2, e3, e4⟩ | ⟨h1, -⟩
      · rw [hc] at e1
        cases e1
        have ht := (e4 truth).2 ⟨init_satisfies ids truth, hag⟩
        have hf := (e4 f).2 ⟨init_satisfies ids f, misfits_zero.1 h0⟩
        intro x hx y hy
        rcases (complete_iff e2.inv).1 hcomp x (by rw [e3]; exact mem_init.2 hx) y (by rw [e3]; exact mem_init.2 hy) with h | h
        · exact iff_of_true (satisfies_chain hf h) (satisfies_chain ht h)
        · exact iff_of_false (satisfies_sep hf h) (satisfies_sep ht h)
      · rw [hc] at h1; cases h1
    · obtain ⟨l', h1, h2⟩ := mistakes_towards f l _ (le_refl _)
      have h3 := hn _ l' h0 hf h1
      exact absurd ⟨f, init_satisfies ids f, misfits_zero.1 (by omega)⟩ ((C108_refused_iff hm (mistakes_about h1 hab)).1 h3)
  · intro h
    constructor
    · rcases giveAll_cases hm hab with ⟨m0, e1, e2, e3, e4⟩ | ⟨-, h1⟩
      · refine ⟨m0, e1, complete_of_unique e2 (truth := truth) fun f hf x hx y hy => ?_⟩
        rw [e3] at hx hy
        exact h f (by rw [misfits_zero.2 ((e4 f).1 hf).2]; exact Nat.zero_le _) x (mem_init.1 hx) y (mem_init.1 hy)
      · exact absurd ⟨truth, init_satisfies ids truth, hag⟩ h1
    · intro n l' hn0 hne hw
      rw [C108_refused_iff hm (mistakes_about hw hab)]
      rintro ⟨f, -, hf⟩
      have h1 := (mistakes_le hw f).1
      rw [misfits_zero.2 hf] at h1
      have h2 := h f (by omega)
      have h3 := mistakes_truth hw hag
      have h4 : ∀ a ∈ l', a.1 ∈ ids ∧ a.2.1 ∈ ids := fun a ha => by
        obtain ⟨k1, k2⟩ := mistakes_about hw hab a ha
        exact ⟨mem_init.1 k1, mem_init.1 k2⟩
      rw [← misfits_same h2 h4, misfits_zero.2 hf] at h3
      omega

/-- C116: a correct list corrects `j` mistakes exactly if it notices `2 j` mistakes. -/
theorem C116_corrects {ids : List α} {truth : α → Nat} {l : List (α × α × CType)} (hl : ∀ a ∈ l, a.1 ∈ ids ∧ a.2.1 ∈ ids)
    (hag : AgreesAll truth l) (j : Nat) : Corrects ids truth j l ↔ Detects ids (2 * j) l := by
  rw [C116_distance hl hag]
  constructor
  · intro h f hf
    obtain ⟨l', h1, h2⟩ := mistakes_towards f l (min j (misfits f l)) (min_le_right _ _)
    exact (h _ l' (min_le_left _ _) h1).2 f (by omega)
  · intro h n l' hn hw
    refine ⟨by rw [mistakes_truth hw hag]; exact hn, fun f hf => h f ?_⟩
    have := (mistakes_le hw f).1
    omega

/-- C116: a correct list from scratch that completes the constraints and notices up to `e` mistakes. -/
theorem C116_cost {ids : List α} {truth : α → Nat} {l : List (α × α × CType)} (hag : AgreesAll truth l) {e : Nat} (hd : Detects ids e l) :
    (e + 1) * ((inCompany truth ids).card + classes truth ids * (classes truth ids - 1)) ≤ 2 * l.length := by
  obtain ⟨m', hc, -⟩ := hd.1
  have hab := giveAll_about (.init ids) hc
  have hl : ∀ a ∈ l, a.1 ∈ ids ∧ a.2.1 ∈ ids := fun a ha => ⟨mem_init.1 (hab a ha).1, mem_init.1 (hab a ha).2⟩
  have hdist := (C116_distance hl hag e).1 hd
  -- a labelling that fits all but the annotations of a kind
  have main : ∀ (p : α × α × CType → Bool) (g : α → Nat),
      (∀ a ∈ l, p a = false → Agrees g a.1 a.2.1 a.2.2) → ¬ SameClasses ids g truth → e + 1 ≤ l.countP p := by
    intro p g h1 h3
    by_contra hlt
    refine h3 (hdist g (le_trans ?_ (show l.countP p ≤ e by omega)))
    unfold misfits
    apply List.countP_mono_left
    intro a ha hp
    by_contra hpa
    exact absurd (agrees_misfit.1 (h1 a ha (by simpa using hpa))) (by simpa using hp)
  have hml : ∀ x ∈ inCompany truth ids, e + 1 ≤ l.countP (mlAt x) := by
    intro x hx
    obtain ⟨hx, y, hy, hyx, hxy⟩ := Finset.mem_filter.1 hx
    refine main _ (fun z => if z = x then 0 else truth z + 1) ?_ ?_
    · rintro ⟨u, w, t⟩ ha hp
      have hau := hag _ ha
      have hne : ¬ (t = .mustLink ∧ u ≠ w ∧ (x = u ∨ x = w)) := by
        simpa only [mlAt, decide_eq_false_iff_not] using hp
      cases t with
      | mustLink =>
        have hau : truth u = truth w := hau
        show (if u = x then 0 else truth u + 1) = (if w = x then 0 else truth w + 1)
        by_cases huw : u = w
        · rw [huw]
        · have h1 : x ≠ u := fun h => hne ⟨rfl, huw, .inl h⟩
          have h2 : x ≠ w := fun h => hne ⟨rfl, huw, .inr h⟩
          rw [if_neg (Ne.symm h1), if_neg (Ne.symm h2), hau]
      | cannotLink =>
        have hau : truth u ≠ truth w := hau
        show (if u = x then 0 else truth u + 1) ≠ (if w = x then 0 else truth w + 1)
        by_cases hu : u = x
        · have : w ≠ x := fun h => hau (by rw [hu, h])
          rw [if_pos hu, if_neg this]; omega
        · by_cases hw : w = x
          · rw [if_neg hu, if_pos hw]; omega
          · rw [if_neg hu, if_neg hw]; omega
    · intro hg
      have := (hg x (List.mem_toFinset.1 hx) y (List.mem_toFinset.1 hy)).2 hxy.symm
      simp only [if_true, if_neg hyx] at this
      omega
  set K := ids.toFinset.image truth with hK
  set P := (K ×ˢ K).filter fun p => p.1 < p.2 with hP
  have hcl : ∀ p ∈ P, e + 1 ≤ l.countP (clAt truth p) := by
    rintro ⟨i, j⟩ hp
    obtain ⟨hp, hij⟩ := Finset.mem_filter.1 hp
    obtain ⟨hi, hj⟩ := Finset.mem_product.1 hp
    obtain ⟨x, hx, rfl⟩ := Finset.mem_image.1 hi
    obtain ⟨y, hy, hyj⟩ := Finset.mem_image.1 hj
    have hyj : truth y = j := hyj
    subst hyj
    have hij : truth x < truth y := hij
    refine main _ (fun z => if truth z = truth y then truth x else truth z) ?_ ?_
    · rintro ⟨u, w, t⟩ ha hp
      have hau := hag _ ha
      cases t with
      | mustLink =>
        have hau : truth u = truth w := hau
        show (if truth u = truth y then truth x else truth u) = (if truth w = truth y then truth x else truth w)
        rw [hau]
      | cannotLink =>
        have hau : truth u ≠ truth w := hau
        have hne : ¬ (truth x = min (truth u) (truth w) ∧ truth y = max (truth u) (truth w)) := by
          simpa [clAt] using hp
        show (if truth u = truth y then truth x else truth u) ≠ (if truth w = truth y then truth x else truth w)
        split <;> split <;> omega
    · intro hg
      have := (hg x (List.mem_toFinset.1 hx) y (List.mem_toFinset.1 hy)).1 (by
        simp only [if_true]
        rw [if_neg (by omega)])
      omega
  have h1 := sum_mlAt (inCompany truth ids) l
  have h2 := sum_clAt truth P l
  have h3 : (inCompany truth ids).card * (e + 1) ≤ _ := Finset.card_nsmul_le_sum _ _ (e + 1) hml
  have h4 : P.card * (e + 1) ≤ _ := Finset.card_nsmul_le_sum _ _ (e + 1) hcl
  have h5 := List.length_eq_countP_add_countP (l := l) fun a => decide (a.2.2 = .mustLink)
  have h6 : 2 * P.card = K.card * (K.card - 1) := ordered_pairs_card K
  have h8 : classes truth ids = K.card := rfl
  rw [h8, ← h6]
  have h9 : (l.countP fun a => decide ¬ (decide (a.2.2 = CType.mustLink) = true)) = l.countP fun a => !decide (a.2.2 = .mustLink) := by
    apply List.countP_congr; intro a _; simp
  rw [h9] at h5
  have h10 : (e + 1) * ((inCompany truth ids).card + 2 * P.card) = (inCompany truth ids).card * (e + 1) + 2 * (P.card * (e + 1)) := by ring
  rw [h10]
  omega

omit [LinearOrder α] in
theorem misfits_repeat (f : α → Nat) (l : List (α × α × CType)) (n : Nat) : misfits f (List.replicate n l).flatten = n * misfits f l := by
  induction n with
  | zero => simp [misfits]
  | succ n ih => rw [List.replicate_succ, List.flatten_cons, misfits_append, ih]; ring

theorem detects_one {ids : List α} {l : List (α × α × CType)} {m' : Manager α} (hc : giveAll (Manager.init ids) l = .ok m')
    (hcomp : m'.complete = true) (hn : NoticesMistakes (Manager.init ids) l) : Detects ids 1 l := by
  refine ⟨⟨m', hc, hcomp⟩, fun n l' h0 h1 hw => ?_⟩
  obtain rfl : n = 1 := by omega
  have split : ∃ l₁ a l₂, l = l₁ ++ a :: l₂ ∧ l' = l₁ ++ mistake a :: l₂ := by
    clear hc hcomp hn
    generalize hk : 1 = k at hw
    induction hw with
    | nil => omega
    | right a _ ih =>
      obtain ⟨l₁, b, l₂, rfl, rfl⟩ := ih hk
      exact ⟨a :: l₁, b, l₂, rfl, rfl⟩
    | @wrong n l l' a hw ih =>
      obtain rfl : n = 0 := by omega
      have : l' = l := by
        clear ih h0 h1 hk
        generalize hz : 0 = z at hw
        induction hw with
        | nil => rfl
        | right a _ ih => rw [ih hz]
        | wrong a _ _ => omega
      exact ⟨[], a, l, rfl, by rw [this]; rfl⟩
  obtain ⟨l₁, a, l₂, h2, rfl⟩ := split
  exact hn l₁ a l₂ h2

/-- C116: the bound is attained for every odd number of mistakes; such a list also corrects `j` of them. -/
theorem C116_attained (ids : List α) (truth : α → Nat) (j : Nat) : ∃ l, AgreesAll truth l ∧ Detects ids (2 * j + 1) l ∧
    Corrects ids truth j l ∧ 2 * l.length = (2 * j + 1 + 1) * ((inCompany truth ids).card + classes truth ids * (classes truth ids - 1)) := by
  obtain ⟨l, m', hag, hc, hcomp, hn, hlen⟩ := C108_cost_attained ids truth
  have hab := giveAll_about (.init ids) hc
  have hl : ∀ a ∈ l, a.1 ∈ ids ∧ a.2.1 ∈ ids := fun a ha => ⟨mem_init.1 (hab a ha).1, mem_init.1 (hab a ha).2⟩
  have hd := (C116_distance hl hag 1).1 (detects_one hc hcomp hn)
  have hmem : ∀ a ∈ (List.replicate (j + 1) l).flatten, a ∈ l := fun a ha => by
    obtain ⟨l', h1, h2⟩ := List.mem_flatten.1 ha
    rwa [List.eq_of_mem_replicate h1] at h2
  have hl' : ∀ a ∈ (List.replicate (j + 1) l).flatten, a.1 ∈ ids ∧ a.2.1 ∈ ids := fun a ha => hl a (hmem a ha)
  have hag' : AgreesAll truth (List.replicate (j + 1) l).flatten := fun a ha => hag a (hmem a ha)
  have key : ∀ f, misfits f (List.replicate (j + 1) l).flatten ≤ 2 * j + 1 → SameClasses ids f truth := by
    intro f hf
    rw [misfits_repeat] at hf
    apply hd f
    by_contra h
    have : (j + 1) * 2 ≤ (j + 1) * misfits f l := Nat.mul_le_mul_left _ (by omega)
    omega
  refine ⟨_, hag', (C116_distance hl' hag' _).2 key, (C116_corrects hl' hag' j).2 ((C116_distance hl' hag' _).2 fun f hf => key f (by omega)), ?_⟩
  rw [List.length_flatten, List.map_replicate, List.sum_replicate, hlen]
  show 2 * ((j + 1) * _) = _
  ring

/-- A pair asked three times, rightly: two wrong answers are noticed, one is corrected. -/
def threeTimes : List (Nat × Nat × CType) := List.replicate 3 (1, 2, .mustLink)

theorem threeTimes_about : ∀ a ∈ threeTimes, a.1 ∈ [1, 2] ∧ a.2.1 ∈ [1, 2] := by unfold threeTimes; decide

theorem threeTimes_agrees : AgreesAll (fun _ => 0) threeTimes := fun a ha => by
  rw [List.eq_of_mem_replicate ha]; rfl

theorem threeTimes_detects : Detects [1, 2] 2 threeTimes := by
  rw [C116_distance threeTimes_about threeTimes_agrees]
  intro f hf
  have h : f 1 = f 2 := by
    by_contra h
    have : misfits f threeTimes = 3 := by
      simp [misfits, threeTimes, List.replicate, h]
    omega
  intro x hx y hy
  simp only [List.mem_cons, List.not_mem_nil, or_false] at hx hy
  rcases hx with rfl | rfl <;> rcases hy with rfl | rfl <;> simp [h]

example : Corrects [1, 2] (fun _ => 0) 1 threeTimes := (C116_corrects threeTimes_about threeTimes_agrees 1).2 threeTimes_detects

/-- Asked twice, one mistake is noticed, but it is open which answer is the wrong one. -/
example : ¬ Corrects [1, 2] (fun _ => 0) 1 (threeTimes.take 2) := by
  intro h
  have := (h 1 [(1, 2, .cannotLink), (1, 2, .mustLink)] (le_refl _) (.wrong (1, 2, .mustLink) (.right _ .nil))).2 id (by decide)
  have := (this 1 (by decide) 2 (by decide)).2 rfl
  exact absurd this (by decide)

example := C116_cost threeTimes_agrees threeTimes_detects

end Verif
