import Verif.Spec.KMSeparated
import Verif.Proofs.HierSeparated
import Verif.Proofs.Inertia

/-
Lemmas on COP-KMeans of separated classes.
-/

set_option linter.unusedSectionVars false

namespace Verif

variable {α V δ : Type} [LinearOrder α] [LinearOrder δ]

/-- There is exactly one centroid for each class, and it is a center of the class. -/
structure OnePerClass (env : KMeansEnv α V δ) (m : Manager α) (vectors : Dict α V) (f : α → Nat) (centroids : Dict Int V)
    (σ : Int → Nat) : Prop where
  inj : ∀ c ∈ dkeys centroids, ∀ c' ∈ dkeys centroids, σ c = σ c' → c = c'
  cover : ∀ x ∈ m.managed, ∃ c ∈ dkeys centroids, σ c = f x
  center : ∀ c u, dget? centroids c = some u → CenterOf env vectors m.managed f (σ c) u

theorem kmAssignAll_classes {env : KMeansEnv α V δ} {m : Manager α} (h : Inv m) {f : α → Nat} (hf : Satisfies m f)
    {vectors : Dict α V} (hs : CentersSeparate env vectors m.managed f)
    {nb : Nat} {centroids : Dict Int V} {dist : Dict α (Dict Int δ)} (hv : HasVectors m vectors) (hc : CentroidsInv centroids)
    {σ : Int → Nat} (ho : OnePerClass env m vectors f centroids σ)
    (ht : TableOk env m vectors centroids dist) {fuel : Nat} {s : List α × Dict α Int} (hp : PassInv m s)
    (hN : ∀ x ∈ m.managed, x ∉ s.1 → ∃ c ∈ dkeys centroids, dget? s.2 x = some c ∧ σ c = f x)
    {new : Dict α Int} (he : kmAssignAll m m.managed nb centroids dist fuel s = .ok new) :
    ∀ x ∈ m.managed, ∃ c ∈ dkeys centroids, dget? new x = some c ∧ σ c = f x := by
  induction fuel generalizing s with
  | zero =>
    unfold kmAssignAll at he
    split at he
    · rename_i h0
      cases he
      exact fun x hx => hN x hx (by rw [h0]; simp)
    · cases he
  | succ fuel ih =>
    obtain ⟨todo, lab⟩ := s
    rw [kmAssignAll.eq_def] at he
    simp only at he
    cases hl : todo.getLast? with
    | none =>
      rw [hl] at he
      cases he
      have h0 : todo = [] := List.getLast?_eq_none_iff.1 hl
      subst h0
      exact fun x hx => hN x hx (by simp)
    | some x =>
      rw [hl] at he
      simp only at he
      have hxt := List.mem_of_getLast? hl
      have hxm : x ∈ m.managed := hp.sub x hxt
      obtain ⟨v, hxv⟩ := hv x hxm
      obtain ⟨row, hr1, hr2, hr3⟩ := ht x hxm v hxv
      have hrow : ∀ c ∈ dkeys centroids, c ∈ dkeys row := fun c hc => by rw [hr2]; exact hc
      have hcen' : -1 ∉ dkeys centroids := fun hc' => by have := hc.nonneg _ hc'; omega
      obtain ⟨s', e1, e2, -⟩ := hp.step (nb := nb) h hl hc.nonneg hr1 hrow
      obtain ⟨c, s'', f1, f2, -, -, f3, f4, f5⟩ := kmAssign_ok (nb := nb) h (s := (todo.dropLast, lab)) hp.keys
        (hp.nodup.sublist (List.dropLast_sublist _)) hxm hc.nonneg hr1 hrow
      rw [e1] at f1
      cases f1
      rw [e1] at he
      obtain ⟨c', g1, g2, -⟩ := kmChoose_ok (nb := nb) h hp.keys hxm hcen' hr1 hrow
      have f2 : kmChoose m m.managed nb centroids dist lab x = .ok c := f2
      rw [f2] at g1
      cases g1
      -- the centroid of the class is possible
      obtain ⟨k, hk, hkx⟩ := ho.cover x hxm
      have adm : Admissible m centroids lab x k := by
        refine (admissible_iff h hxm).mpr ⟨hk, fun y hy hyk hcl => ?_⟩
        have hyt : y ∉ todo := by
          intro hyt
          have := (hp.todo y hy).2 hyt
          have hyk : dget? lab y = some k := hyk
          rw [hyk] at this
          cases this
          exact hcen' hk
        obtain ⟨c', -, h1, h2⟩ := hN y hy hyt
        have hyk : dget? lab y = some k := hyk
        rw [hyk] at h1
        cases h1
        exact satisfies_sep hf hcl (hkx.symm.trans h2)
      obtain ⟨a1, d, a2, a3⟩ := g2 ⟨k, adm⟩
      have hcx : σ c = f x := by
        by_contra hne
        obtain ⟨w, hw⟩ := dget?_isSome_of_mem a1.1
        obtain ⟨w', hw'⟩ := dget?_isSome_of_mem hk
        have b1 := hr3 c w hw
        rw [a2] at b1
        cases b1
        have b2 := a3 k adm _ (hr3 k w' hw')
        have b3 := hs x hxm v hxv (σ c) hne w' w (hkx ▸ ho.center k w' hw') (ho.center c w hw)
        exact absurd b3 (not_lt.2 b2)
      refine ih e2 ?_ he
      intro y hy hys
      by_cases hyx : MustLinked m x y
      · exact ⟨c, a1.1, f4 y hy hyx, by rw [hcx]; exact satisfies_chain hf hyx⟩
      · have hyt : y ∉ todo := by
          intro hyt
          refine hys ((f3 y).mpr ⟨?_, fun k => hyx k.2⟩)
          have hsplit := List.dropLast_append_getLast? x hl
          rw [← hsplit] at hyt
          rcases List.mem_append.mp hyt with k | k
          · exact k
          · simp at k
            exact absurd (k ▸ MustLinked.refl m y) hyx
        obtain ⟨k, b0, b1, b2⟩ := hN y hy hyt
        exact ⟨k, b0, by rw [f5 y hyx]; exact b1, b2⟩

/-- A pass gives the classes, and again one center for each class. -/
theorem kmPass_classes {env : KMeansEnv α V δ} (henv : env.Ok) {m : Manager α} (h : Inv m) {f : α → Nat} (hf : Satisfies m f)
    {vectors : Dict α V} (hs : CentersSeparate env vectors m.managed f) (hv : HasVectors m vectors) (hne : m.managed ≠ [])
    {nb : Nat} {c c' : Dict Int V} (hc : CentroidsInv c) {σ : Int → Nat} (ho : OnePerClass env m vectors f c σ)
    {l' : Dict α Int} (e : kmPass env m vectors nb c = .ok (l', c')) :
    (∀ x ∈ m.managed, ∃ k, dget? l' x = some k ∧ σ k = f x) ∧
    (∀ x ∈ m.managed, ∀ y ∈ m.managed, (dget? l' x = dget? l' y ↔ f x = f y)) ∧ OnePerClass env m vectors f c' σ := by
  obtain ⟨dist, e1, ht⟩ := kmDistances_ok (env := env) h hv hne hc
  obtain ⟨new, e2, hp⟩ := kmAssignAll_ok (nb := nb) h hv hc ht (passInv_start h) (fuel := m.managed.length) (le_refl _)
  have hcls := kmAssignAll_classes h hf hs hv hc ho ht (passInv_start h) (fun x hx hnx => absurd hx hnx) e2
  unfold kmPass at e
  rw [e1] at e
  simp only [bind, Except.bind, pure, Except.pure] at e
  rw [e2] at e
  simp only at e
  have hk : dkeys new = m.managed := hp.keys
  have hn : (dkeys new).Nodup := by rw [hk]; exact h.d.nodup
  obtain ⟨cs, e3, -, e4⟩ := kmCentroids_ok henv h hv hk
  rw [e3] at e
  obtain ⟨e5, e6⟩ := Prod.mk.inj (Except.ok.inj e)
  subst e5 e6
  have hval : ∀ k ∈ dvals new, ∃ y ∈ m.managed, dget? new y = some k ∧ σ k = f y ∧ k ∈ dkeys c := by
    intro k hk'
    obtain ⟨y, hy⟩ := (mem_dvals hn).1 hk'
    have hym : y ∈ m.managed := by rw [← hk]; exact mem_dkeys_of_dget? hy
    obtain ⟨k', a1, a2, a3⟩ := hcls y hym
    rw [hy] at a2
    cases a2
    exact ⟨y, hym, hy, a3, a1⟩
  refine ⟨fun x hx => ?_, fun x hx y hy => ?_, ?_⟩
  · obtain ⟨k, -, a2, a3⟩ := hcls x hx
    exact ⟨k, a2, a3⟩
  · obtain ⟨k, a1, a2, a3⟩ := hcls x hx
    obtain ⟨k', b1, b2, b3⟩ := hcls y hy
    rw [a2, b2, ← a3, ← b3, Option.some.injEq]
    exact ⟨fun h => by rw [h], fun h => ho.inj k a1 k' b1 h⟩
  · refine ⟨fun k hk' k' hk'' he => ?_, fun x hx => ?_, fun k u hu => ?_⟩
    · obtain ⟨-, -, -, -, a1⟩ := hval k ((e4 k).1 hk')
      obtain ⟨-, -, -, -, a2⟩ := hval k' ((e4 k').1 hk'')
      exact ho.inj k a1 k' a2 he
    · obtain ⟨k, a1, a2, a3⟩ := hcls x hx
      exact ⟨k, (e4 k).2 ((mem_dvals hn).2 ⟨x, a2⟩), a3⟩
    · have hkv := (e4 k).1 (mem_dkeys_of_dget? hu)
      obtain ⟨v0, hv0⟩ : ∃ v0 : V, True := by
        obtain ⟨x, hx⟩ := List.exists_mem_of_ne_nil _ hne
        obtain ⟨v, -⟩ := hv x hx
        exact ⟨v, trivial⟩
      let vec : α → V := fun x => (dget? vectors x).getD v0
      have hvec : ∀ x ∈ m.managed, dget? vectors x = some (vec x) := by
        intro x hx
        obtain ⟨v, hv⟩ := hv x hx
        simp only [vec, hv]; rfl
      have hlab : ∀ x ∈ m.managed, dget? new x = some (labelFn new x) := fun x hx => labelFn_spec (by rw [hk]; exact hx)
      have := kmCentroids_eq henv hn hk hvec hlab e3 hkv
      rw [hu] at this
      cases this
      refine .inr ⟨m.managed.filter fun x => decide (labelFn new x = k), _, ?_, ?_, ?_, rfl⟩
      · obtain ⟨y, hym, hy, -⟩ := hval k hkv
        refine List.ne_nil_of_mem (a := y) (List.mem_filter.2 ⟨hym, ?_⟩)
        have := hlab y hym
        rw [hy] at this
        cases this
        simp
      · intro y hy
        simp only [List.mem_filter, decide_eq_true_eq] at hy
        obtain ⟨k', -, a2, a3⟩ := hcls y hy.1
        rw [hlab y hy.1, hy.2] at a2
        cases a2
        exact ⟨hy.1, a3.symm⟩
      · rw [List.forall₂_map_right_iff, List.forall₂_same]
        exact fun x hx => hvec x (List.mem_of_mem_filter hx)

theorem kmLoop_classes {env : KMeansEnv α V δ} (henv : env.Ok) {m : Manager α} (h : Inv m) {f : α → Nat} (hf : Satisfies m f)
    {vectors : Dict α V} (hs : CentersSeparate env vectors m.managed f) (hv : HasVectors m vectors) (hne : m.managed ≠ [])
    {nb : Nat} {left : Nat} {clusters : Dict α Int} {c : Dict Int V} (hc : CentroidsInv c) {σ : Int → Nat}
    (ho : OnePerClass env m vectors f c σ) {l' : Dict α Int} {c' : Dict Int V}
    (e : kmLoop env m vectors nb (left + 1) clusters c = .ok (l', c')) :
    dkeys l' = m.managed ∧ ∀ x ∈ m.managed, ∀ y ∈ m.managed, (dget? l' x = dget? l' y ↔ f x = f y) := by
  induction left generalizing clusters c with
  | zero =>
    obtain ⟨new, cs, e1, hd⟩ := kmPass_ok henv h hv hne nb hc
    obtain ⟨-, g2, -⟩ := kmPass_classes henv h hf hs hv hne hc ho e1
    rw [kmLoop.eq_def] at e
    simp only [bind, Except.bind, e1] at e
    cases hb : kmConverged env clusters new c cs with
    | error _ => rw [hb] at e; cases e
    | ok b =>
      rw [hb] at e
      cases b <;> cases e <;> exact ⟨hd.pass.keys, g2⟩
  | succ left ih =>
    obtain ⟨new, cs, e1, hd⟩ := kmPass_ok henv h hv hne nb hc
    obtain ⟨-, g2, g3⟩ := kmPass_classes henv h hf hs hv hne hc ho e1
    rw [kmLoop.eq_def] at e
    simp only [bind, Except.bind, e1] at e
    cases hb : kmConverged env clusters new c cs with
    | error _ => rw [hb] at e; cases e
    | ok b =>
      rw [hb] at e
      cases b with
      | true => cases e; exact ⟨hd.pass.keys, g2⟩
      | false => exact ih hd.cent g3 e

/-- Initial centroids in different classes. -/
theorem kmInitialize_classes {env : KMeansEnv α V δ} (henv : env.Ok) {m : Manager α} {f : α → Nat}
    {vectors : Dict α V} (hi : ((initialIds env m.managed (classes f m.managed)).map f).Nodup)
    (hle : classes f m.managed ≤ m.managed.length)
    {c : Dict Int V} (e : kmInitialize env m.managed vectors (classes f m.managed) = .ok c) :
    ∃ σ, OnePerClass env m vectors f c σ := by
  set ini := initialIds env m.managed (classes f m.managed) with hini
  have hlen : ini.length = classes f m.managed := by
    rw [hini]; unfold initialIds
    rw [List.length_take, (henv.shuffle m.managed).length_eq]; omega
  have hsub : ∀ x ∈ ini, x ∈ m.managed := fun x hx => (henv.shuffle m.managed).mem_iff.1 (List.mem_of_mem_take hx)
  unfold kmInitialize at e
  simp only [bind, Except.bind] at e
  rw [show (env.shuffle m.managed).take (classes f m.managed) = ini from rfl] at e
  cases e1 : (List.range (classes f m.managed)).mapM (kmInitEntry vectors ini) with
  | error _ => rw [e1] at e; cases e
  | ok items =>
    rw [e1] at e
    cases e
    have hentry : ∀ i b, kmInitEntry vectors ini i = .ok b → ∃ hi : i < ini.length, b.1 = (i : Int) ∧
        dget? vectors ini[i] = some b.2 := by
      intro i b hb
      unfold kmInitEntry at hb
      split at hb
      · rename_i x hx
        obtain ⟨hi, rfl⟩ := List.getElem?_eq_some_iff.1 hx
        simp only [bind, Except.bind] at hb
        split at hb
        · cases hb
        · rename_i v hv
          cases hb
          exact ⟨hi, rfl, dget_eq_ok.1 hv⟩
      · cases hb
    have hget : ∀ k u, dget? (dofList items) k = some u → ∃ i, ∃ hi : i < ini.length, k = (i : Int) ∧
        dget? vectors ini[i] = some u := by
      intro k u hu
      obtain ⟨i, -, hb⟩ := forall₂_mem_right (mapM_ok_iff.1 e1) (mem_of_dget?_dofList hu)
      obtain ⟨hi, a1, a2⟩ := hentry i _ hb
      exact ⟨i, hi, a1, a2⟩
    refine ⟨fun k => (ini[k.toNat]?.map f).getD 0, ?_, ?_, ?_⟩
    · intro k hk k' hk' he
      obtain ⟨u, hu⟩ := dget?_isSome_of_mem hk
      obtain ⟨u', hu'⟩ := dget?_isSome_of_mem hk'
      obtain ⟨i, hi1, rfl, -⟩ := hget k u hu
      obtain ⟨j, hj1, rfl, -⟩ := hget k' u' hu'
      simp only [Int.toNat_natCast, List.getElem?_eq_getElem hi1, List.getElem?_eq_getElem hj1, Option.map_some,
        Option.getD_some] at he
      have : i = j := by
        have := (List.Nodup.getElem_inj_iff hi (i := i) (j := j) (hi := by simpa using hi1) (hj := by simpa using hj1)).1
          (by simpa using he)
        exact this
      rw [this]
    · intro x hx
      have himg : (ini.map f).toFinset = m.managed.toFinset.image f := by
        refine Finset.eq_of_subset_of_card_le ?_ ?_
        · intro p hp
          simp only [List.mem_toFinset, List.mem_map] at hp
          obtain ⟨y, hy, rfl⟩ := hp
          exact Finset.mem_image_of_mem f (by simpa using hsub y hy)
        · rw [List.toFinset_card_of_nodup hi, List.length_map, hlen]
          exact le_refl _
      have hfx : f x ∈ ini.map f := by
        rw [← List.mem_toFinset, himg]
        exact Finset.mem_image_of_mem f (by simpa using hx)
      obtain ⟨i, hi1, hi2⟩ := List.getElem_of_mem hfx
      have hi1' : i < ini.length := by simpa using hi1
      refine ⟨(i : Int), ?_, ?_⟩
      · obtain ⟨b, hb, hib⟩ := forall₂_mem_left (mapM_ok_iff.1 e1) (a := i) (List.mem_range.2 (by omega))
        obtain ⟨-, a1, -⟩ := hentry i b hib
        rw [← a1]
        rw [dkeys_dofList, mem_ounion]
        exact .inr (List.mem_map_of_mem hb)
      · simp only [Int.toNat_natCast, List.getElem?_eq_getElem hi1', Option.map_some, Option.getD_some]
        simpa using hi2
    · intro k u hu
      obtain ⟨i, hi1, rfl, hv⟩ := hget k u hu
      refine .inl ⟨ini[i], hsub _ (List.getElem_mem hi1), ?_, hv⟩
      simp only [Int.toNat_natCast, List.getElem?_eq_getElem hi1, Option.map_some, Option.getD_some]

/-- Exact arithmetic: classes whose distance is more than twice the distances inside. -/
theorem centers_separate {E : Type} [NormedAddCommGroup E] [NormedSpace ℝ E] {tolerance : ℝ} {enum : List Int → List Int}
    {shuffle : List α → List α} {vectors : Dict α E} {ids : List α} {f : α → Nat} {w b : ℝ} (h0 : 0 ≤ w)
    (hg : ClassGap vectors ids f w b) (hwb : 2 * w < b) :
    CentersSeparate (realKMeans tolerance enum shuffle) vectors ids f := by
  have hin : ∀ x ∈ ids, ∀ y ∈ ids, f x = f y → ∀ u v, dget? vectors x = some u → dget? vectors y = some v → dist u v ≤ w := by
    intro x hx y hy he u v e1 e2
    by_cases hxy : x = y
    · subst hxy
      rw [e1] at e2
      cases e2
      rw [dist_self]; exact h0
    · exact (hg x hx y hy hxy u v e1 e2).1 he
  have hne : ∀ {l : List α} {l' : List E}, List.Forall₂ (fun x v => dget? vectors x = some v) l l' → l ≠ [] → l' ≠ [] := by
    rintro l l' h hl rfl
    cases h; exact hl rfl
  -- a center is near every ID of its class
  have hcen : ∀ p u, CenterOf (realKMeans tolerance enum shuffle) vectors ids f p u → ∀ x ∈ ids, f x = p → ∀ v,
      dget? vectors x = some v → dist u v ≤ w := by
    rintro p u (⟨y, hy, rfl, hu⟩ | ⟨ys, vs, h1, h2, h3, rfl⟩) x hx hxp v hv
    · exact hin y hy x hx hxp.symm u v hu hv
    · refine dist_realMean_le (hne h3 h1) fun u hu => ?_
      obtain ⟨y, hy, e⟩ := forall₂_mem_right h3 hu
      exact hin y (h2 y hy).1 x hx (by rw [(h2 y hy).2, hxp]) u v e hv
  intro x hx v hv p hp u u' h1 h2
  have a1 := hcen _ u h1 x hx rfl v hv
  obtain ⟨y, hy, hyp, vy, hvy⟩ : ∃ y ∈ ids, f y = p ∧ ∃ vy, dget? vectors y = some vy := by
    rcases h2 with ⟨y, hy, hyp, hu⟩ | ⟨ys, vs, k1, k2, k3, -⟩
    · exact ⟨y, hy, hyp, u', hu⟩
    · obtain ⟨y, hy⟩ := List.exists_mem_of_ne_nil _ k1
      obtain ⟨vy, -, e⟩ := forall₂_mem_left k3 hy
      exact ⟨y, (k2 y hy).1, (k2 y hy).2, vy, e⟩
  have a2 := hcen p u' h2 y hy hyp vy hvy
  have hxy : f x ≠ f y := by rw [hyp]; exact hp.symm
  have a3 := (hg x hx y hy (fun e => hxy (by rw [e])) v vy hv hvy).2 hxy
  have a4 := dist_triangle v u' vy
  show dist v u < dist v u'
  rw [dist_comm u v] at a1
  linarith

end Verif
