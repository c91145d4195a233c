import Mathlib.Data.List.Rotate
import Mathlib.Data.Finset.Prod
import Verif.Proofs.Mistakes

/-
Property C108: which mistakes of the annotator are noticed, and how many annotations it takes to
notice every one. Specification vocabulary: `Verif/Spec/Mistakes.lean`.
-/

namespace Verif

variable {α V δ : Type} [LinearOrder α] [LinearOrder δ]

/-- Giving a list of annotations about managed IDs is refused iff no labelling fits the constraints
already there and the whole list. -/
theorem C108_refused_iff {m : Manager α} (hm : Reachable m) {l : List (α × α × CType)} (hl : AboutManaged m l) :
    giveAll m l = .error (.valueError "conflict") ↔ ¬ ∃ f, Satisfies m f ∧ AgreesAll f l :=
  giveAll_conflict_iff hm hl

/-- So it does not depend on the order, and if it is not refused neither does what is known in the
end. -/
theorem C108_any_order {m : Manager α} (hm : Reachable m) {l l' : List (α × α × CType)} (hp : l.Perm l')
    (hl : AboutManaged m l) :
    (giveAll m l = .error (.valueError "conflict") ∧ giveAll m l' = .error (.valueError "conflict")) ∨
    ∃ m₁ m₂, giveAll m l = .ok m₁ ∧ giveAll m l' = .ok m₂ ∧
      ∀ x y, m₁.getInferred x y = m₂.getInferred x y := by
  have hl' : AboutManaged m l' := fun a ha => hl a (hp.mem_iff.2 ha)
  have hag : ∀ f, AgreesAll f l ↔ AgreesAll f l' := fun f =>
    ⟨fun h a ha => h a (hp.mem_iff.2 ha), fun h a ha => h a (hp.mem_iff.1 ha)⟩
  rcases giveAll_cases hm hl with ⟨m₁, a1, a2, a3, a4⟩ | ⟨h1, h2⟩
  · rcases giveAll_cases hm hl' with ⟨m₂, b1, b2, b3, b4⟩ | ⟨-, h2⟩
    · refine .inr ⟨m₁, m₂, a1, b1, ?_⟩
      intro x y
      have k1 : ∀ z, z ∈ dkeys m₁.dict ↔ z ∈ m.managed := fun z => by
        change z ∈ m₁.managed ↔ _; rw [a3]
      have k2 : ∀ z, z ∈ dkeys m₂.dict ↔ z ∈ m.managed := fun z => by
        change z ∈ m₂.managed ↔ _; rw [b3]
      by_cases hx : x ∈ m.managed
      · by_cases hy : y ∈ m.managed
        · have hx1 := a3 ▸ hx; have hy1 := a3 ▸ hy
          have hx2 := b3 ▸ hx; have hy2 := b3 ▸ hy
          have key : ∀ t, m₁.getInferred x y = .ok (some t) ↔ m₂.getInferred x y = .ok (some t) := by
            intro t
            rw [inferred_iff_forced a2 hx1 hy1, inferred_iff_forced b2 hx2 hy2]
            simp only [a4, b4, hag]
          obtain ⟨r, hr, -, -⟩ := getInferred_eq a2.inv.t hx1 hy1 1
          obtain ⟨r', hr', -, -⟩ := getInferred_eq b2.inv.t hx2 hy2 1
          have hr : m₁.getInferred x y = .ok r := hr
          have hr' : m₂.getInferred x y = .ok r' := hr'
          cases r with
          | some t => rw [hr, (key t).1 hr]
          | none =>
            cases r' with
            | none => rw [hr, hr']
            | some t => rw [(key t).2 hr', hr']
        · rw [getInferred_err2 (by rw [a2.inv.t.keys]; exact (k1 x).2 hx) (by rw [a2.inv.t.keys]; exact fun h => hy ((k1 y).1 h)),
            getInferred_err2 (by rw [b2.inv.t.keys]; exact (k2 x).2 hx) (by rw [b2.inv.t.keys]; exact fun h => hy ((k2 y).1 h))]
      · rw [getInferred_err1 (by rw [a2.inv.t.keys]; exact fun h => hx ((k1 x).1 h)),
          getInferred_err1 (by rw [b2.inv.t.keys]; exact fun h => hx ((k2 x).1 h))]
    · obtain ⟨f, hf⟩ := (C03_never_contradictory a2).1
      obtain ⟨h3, h4⟩ := (a4 f).1 hf
      exact absurd ⟨f, h3, (hag f).1 h4⟩ h2
  · refine .inl ⟨h1, (giveAll_conflict_iff hm hl').2 ?_⟩
    simpa only [hag] using h2

/-- One mistake in an otherwise correct list. The mistake is noticed, somewhere in the list, iff the
right answer is already inferred from the other annotations, wherever in the list it is. -/
theorem C108_one_mistake {m : Manager α} (hm : Reachable m) {l₁ l₂ : List (α × α × CType)} {a : α × α × CType}
    (hl : AboutManaged m (l₁ ++ a :: l₂)) {truth : α → Nat} (hs : Satisfies m truth)
    (hag : AgreesAll truth (l₁ ++ a :: l₂)) :
    ∃ m', giveAll m (l₁ ++ l₂) = .ok m' ∧
      (giveAll m (l₁ ++ mistake a :: l₂) = .error (.valueError "conflict") ↔
        m'.getInferred a.1 a.2.1 = .ok (some a.2.2)) := by
  have hl' : AboutManaged m (l₁ ++ l₂) := fun b hb => hl b (by simp only [List.mem_append, List.mem_cons] at hb ⊢; tauto)
  obtain ⟨hx, hy⟩ := hl a (by simp)
  rcases giveAll_cases hm hl' with ⟨m', h1, h2, h3, h4⟩ | ⟨-, h2⟩
  · refine ⟨m', h1, ?_⟩
    rw [mistake_noticed_iff hm hl, inferred_iff_forced h2 (h3 ▸ hx) (h3 ▸ hy)]
    exact ⟨fun h f hf => h f ((h4 f).1 hf).1 ((h4 f).1 hf).2, fun h f h5 h6 => h f ((h4 f).2 ⟨h5, h6⟩)⟩
  · exact absurd ⟨truth, hs, (agreesAll_middle.1 hag).2⟩ h2

/-- Asking one question at a time, only about pairs not yet inferred: whatever is answered, nothing
is ever refused and all that was answered stays inferred; without restriction to clusters, the constraints
become complete after as many rounds as there were unknown pairs. -/
theorem C108_one_at_a_time {m : Manager α} (hm : Reachable m) (answer : Manager α → α → α → CType)
    {rounds : List (Round α V δ)}
    (hr : ∀ r ∈ rounds, r.nb = 1 ∧ RandomSample r.pick ∧ r.sampler.withoutInferred = true ∧
      InputsGiven r.sampler m r.clustering r.vectors) :
    ∃ m', sessionAny answer m rounds = .ok m' ∧ Reachable m' ∧ KnowsMore m m' ∧
      ((∀ r ∈ rounds, r.sampler.clusters = none) →
        m'.complete = true ∨ (unknownPairs m').length + rounds.length ≤ (unknownPairs m).length) := by
  induction rounds generalizing m with
  | nil => exact ⟨m, rfl, hm, .refl m, fun _ => .inr (by simp)⟩
  | cons r rounds ih =>
    obtain ⟨r1, r2, r3, r4⟩ := hr r (by simp)
    obtain ⟨batch, hb⟩ := sample_total (n := 1) hm.inv r4 r.metric r.pick
    have hb : r.sampler.sample m (some r.nb) r.clustering r.vectors r.metric r.pick = .ok batch := by rw [r1]; exact hb
    obtain ⟨n', hn', b1, b2, b3⟩ := sample_facts hm.inv r2 hb
    have hlen : batch.length ≤ 1 := by
      classical
      have hfin := b3 ((allPairs m).filter fun p => decide (Eligible r.sampler m r.clustering p))
        ((allPairs_nodup hm.inv).filter _) (fun p => by
          rw [List.mem_filter, mem_allPairs, decide_eq_true_iff]
          exact ⟨And.right, fun h => ⟨⟨h.left, h.right⟩, h⟩⟩)
      rw [r1] at hn'
      have : n' = 1 := by
        have := Option.some.inj hn'
        omega
      omega
    have hstep : ∃ m1, annotateAny answer m batch = .ok m1 ∧ Reachable m1 ∧ KnowsMore m m1 ∧
        (batch ≠ [] → (unknownPairs m1).length < (unknownPairs m).length) := by
      match batch, hlen, b2 with
      | [], _, _ => exact ⟨m, rfl, hm, .refl m, fun h => absurd rfl h⟩
      | [p], _, b2 =>
        have he := b2 p (by simp)
        have hun := he.notInferred r3
        have hI := hm.inv
        have key : ∃ m1, Manager.addConstraint p.1 p.2 (answer m p.1 p.2).toStr 1 m = .ok true m1 := by
          rcases addConstraint_cases (v := 1) hI he.left he.right (parse_eq_some (t := answer m p.1 p.2).2 rfl) with
            ⟨-, h2⟩ | ⟨t', -, h2, -⟩
          · rcases h2 with ⟨s, -, h2⟩ | ⟨-, m1, h2, -⟩
            · exact ⟨_, h2⟩
            · exact ⟨_, h2⟩
          · rw [hun] at h2; cases h2
        obtain ⟨m1, hc⟩ := key
        have hm1 : Reachable m1 := by
          have := hm.call (.addConstraint p.1 p.2 (answer m p.1 p.2).toStr 1)
          simpa only [Op.call, hc, resState] using this
        obtain ⟨-, -, hman, -, -⟩ := C06_add_constraint_frame hm hc
        have hk : KnowsMore m m1 := ⟨hman, (C20_monotone hm (a := p.1) (b := p.2)).1 _ _ _ hc⟩
        refine ⟨m1, ?_, hm1, hk, fun _ => ?_⟩
        · unfold annotateAny
          rw [List.foldlM_cons, hc]
          rfl
        · refine unknown_lt hI hm1.inv hk (mem_unknownPairs.2 ⟨he.left, he.right, he.ordered, hun⟩)
            (t := answer m p.1 p.2) ?_
          rw [inferred_iff_forced hm1 (hman ▸ he.left) (hman ▸ he.right)]
          exact fun f hf => ((add_satisfies hm hc f).1 hf).2
    obtain ⟨m1, a1, a2, a3, a4⟩ := hstep
    obtain ⟨m2, t1, t2, t3, t4⟩ := ih a2 (fun q hq => by
      obtain ⟨q1, q2, q3, q4⟩ := hr q (by simp [hq])
      exact ⟨q1, q2, q3, q4.congr a3.1⟩)
    refine ⟨m2, ?_, t2, a3.trans t3, ?_⟩
    · show (do
        let batch ← r.sampler.sample m (some r.nb) r.clustering r.vectors r.metric r.pick
        sessionAny answer (← annotateAny answer m batch) rounds) = _
      rw [hb]
      show (do sessionAny answer (← annotateAny answer m batch) rounds) = _
      rw [a1]
      exact t1
    · intro hall
      have c2 := hall r (by simp)
      rcases t4 (fun q hq => hall q (by simp [hq])) with h | h
      · exact .inl h
      · by_cases hbn : batch = []
        · left
          have hcomp := (sample_nil_iff hm c2 r3 (by rw [r1]) r2 hb).1 hbn
          rw [complete_iff_unknown hm] at hcomp
          rw [complete_iff_unknown t2, ← List.length_eq_zero_iff]
          have := unknown_le hm.inv t2.inv (a3.trans t3)
          rw [hcomp] at this
          simpa using this
        · right
          have := a4 hbn
          rw [List.length_cons]
          omega

/-- With two questions per round a mistake can be noticed: the second answer may contradict what the first
one made known. -/
theorem C108_two_at_a_time : ∃ (m : Manager Nat) (answer : Manager Nat → Nat → Nat → CType) (r : Round Nat Nat Nat),
    Reachable m ∧ r.nb = 2 ∧ RandomSample r.pick ∧ r.sampler = defaultSampler ∧
    InputsGiven r.sampler m r.clustering r.vectors ∧
    sessionAny answer m [r] = .error (.valueError "conflict") := by
  refine ⟨runOps (Manager.init [1, 2, 3]) [.addConstraint 1 2 "MUST_LINK" 1],
    fun _ x y => if x = 1 then .mustLink else .cannotLink,
    ⟨defaultSampler, 2, none, none, fun _ _ => 0, fun l k => l.take k⟩,
    ⟨_, _, rfl⟩, rfl, take_randomSample, rfl, ⟨fun h => absurd rfl h, fun h => absurd rfl h⟩, ?_⟩
  decide +kernel

/-- A list that completes the constraints with as few annotations as possible notices no mistake at
all. -/
theorem C108_least_notices_none {ids : List α} {truth : α → Nat} {l₁ l₂ : List (α × α × CType)} {a : α × α × CType}
    (hag : AgreesAll truth (l₁ ++ a :: l₂)) {m' : Manager α}
    (hc : giveAll (Manager.init ids) (l₁ ++ a :: l₂) = .ok m') (hcomp : m'.complete = true)
    (hlen : (l₁ ++ a :: l₂).length + classes truth ids =
      ids.toFinset.card + classes truth ids * (classes truth ids - 1) / 2) :
    ∃ m'', giveAll (Manager.init ids) (l₁ ++ mistake a :: l₂) = .ok m'' := by
  have hm : Reachable (Manager.init ids) := .init ids
  have hl := giveAll_about hm hc
  rcases giveAll_cases hm (about_mistake.2 hl) with ⟨m'', h, -⟩ | ⟨h, -⟩
  · exact ⟨m'', h⟩
  · exfalso
    have hforce := (mistake_noticed_iff hm hl).1 h
    have hl' : AboutManaged (Manager.init ids) (l₁ ++ l₂) := fun b hb => hl b (by
      simp only [List.mem_append, List.mem_cons] at hb ⊢; tauto)
    have hs := init_satisfies ids truth
    rcases giveAll_cases hm hl' with ⟨m1, g1, g2, g3, g4⟩ | ⟨-, h2⟩
    · rcases giveAll_cases hm hl with ⟨m0, e1, e2, e3, e4⟩ | ⟨h1, -⟩
      swap
      · rw [hc] at h1; cases h1
      rw [hc] at e1; cases e1
      have hsame : ∀ f, Satisfies m1 f → Satisfies m' f := by
        intro f hf
        rw [g4] at hf
        rw [e4, agreesAll_middle]
        exact ⟨hf.1, hforce f hf.1 hf.2, hf.2⟩
      have hcomp1 : m1.complete = true := by
        rw [complete_iff g2.inv]
        intro x hx y hy
        have hx' : x ∈ m'.managed := by rw [e3, ← g3]; exact hx
        have hy' : y ∈ m'.managed := by rw [e3, ← g3]; exact hy
        rcases (complete_iff e2.inv).1 hcomp x hx' y hy' with hml | hcl
        · left
          rw [← inferred_ml_iff g2.inv hx hy, inferred_iff_forced g2 hx hy]
          exact fun f hf => satisfies_chain (hsame f hf) hml
        · right
          rw [← inferred_cl_iff g2.inv hx hy, inferred_iff_forced g2 hx hy]
          exact fun f hf => satisfies_sep (hsame f hf) hcl
      have hs1 : Satisfies m1 truth := (g4 truth).2 ⟨hs, (agreesAll_middle.1 hag).2⟩
      have hcost := C68_cost g2 hcomp1 hs1
      have hadded := giveAll_added hm g1
      rw [init_added, init_added, List.length_append] at hadded
      have hn : m1.managed.length = ids.toFinset.card := by
        rw [← managed_card g2.inv, g3, init_toFinset]
      have hk : (m1.managed.toFinset.image truth).card = classes truth ids := by
        rw [g3, init_toFinset]; rfl
      have hle : classes truth ids ≤ ids.toFinset.card := Finset.card_image_le
      rw [hn, hk] at hcost
      simp only [List.length_append, List.length_cons, List.append_nil, List.length_nil] at hlen hadded
      omega
    · exact h2 ⟨truth, hs, (agreesAll_middle.1 hag).2⟩

/-- To notice every single mistake, each ID that is not alone in its class needs must-links to other
IDs twice, and each two classes need two cannot-links between them: twice as many cannot-links as for
completeness alone, and one more must-link per class of two or more. -/
theorem C108_cost {ids : List α} {truth : α → Nat} {l : List (α × α × CType)} (hag : AgreesAll truth l) {m' : Manager α}
    (hc : giveAll (Manager.init ids) l = .ok m') (hcomp : m'.complete = true) (hn : NoticesMistakes (Manager.init ids) l) :
    (inCompany truth ids).card + classes truth ids * (classes truth ids - 1) ≤ l.length := by
  have hm : Reachable (Manager.init ids) := .init ids
  have hl := giveAll_about hm hc
  obtain ⟨hm', hman, hsat⟩ : Reachable m' ∧ m'.managed = (Manager.init ids).managed ∧
      ∀ f, Satisfies m' f ↔ Satisfies (Manager.init ids) f ∧ AgreesAll f l := by
    rcases giveAll_cases hm hl with ⟨m0, e1, e2, e3, e4⟩ | ⟨h1, -⟩
    · rw [hc] at e1; cases e1; exact ⟨e2, e3, e4⟩
    · rw [hc] at h1; cases h1
  have hmem : ∀ x, x ∈ ids.toFinset ↔ x ∈ m'.managed := fun x => by
    rw [hman, ← init_toFinset, List.mem_toFinset]
  have hsat' : ∀ f, AgreesAll f l → Satisfies m' f := fun f hf => (hsat f).2 ⟨init_satisfies ids f, hf⟩
  have htruth := hsat' truth hag
  -- a labelling that fits all but the annotations of a kind, and none of those
  have main : ∀ (p : α × α × CType → Bool) (g : α → Nat),
      (∀ a ∈ l, p a = false → Agrees g a.1 a.2.1 a.2.2) → (∀ a ∈ l, p a = true → ¬ Agrees g a.1 a.2.1 a.2.2) →
      ¬ Satisfies m' g → 2 ≤ l.countP p := by
    intro p g h1 h2 h3
    by_contra hlt
    rcases countP_lt_two p l (by omega) with h | ⟨l₁, a, l₂, rfl, ha, hb⟩
    · exact h3 (hsat' g fun a ha => h1 a ha (h a ha))
    · refine h2 a (by simp) ha ((mistake_noticed_iff hm hl).1 (hn l₁ a l₂ rfl) g (init_satisfies ids g) ?_)
      intro b hb'
      exact h1 b (by simp only [List.mem_append, List.mem_cons] at hb' ⊢; tauto) (hb b hb')
  have hml : ∀ x ∈ inCompany truth ids, 2 ≤ l.countP (mlAt x) := by
    intro x hx
    obtain ⟨hx, y, hy, hyx, hxy⟩ := Finset.mem_filter.1 hx
    refine main _ (fun z => if z = x then 0 else truth z + 1) ?_ ?_ ?_
    · rintro ⟨u, w, t⟩ ha hp
      have hau := hag _ ha
      have hne : ¬ (t = .mustLink ∧ u ≠ w ∧ (x = u ∨ x = w)) := by
        simpa only [mlAt, decide_eq_false_iff_not] using hp
      cases t with
      | mustLink =>
        have hau : truth u = truth w := hau
        show (if u = x then 0 else truth u + 1) = (if w = x then 0 else truth w + 1)
        by_cases huw : u = w
        · rw [huw]
        · have h1 : x ≠ u := fun h => hne ⟨rfl, huw, .inl h⟩
          have h2 : x ≠ w := fun h => hne ⟨rfl, huw, .inr h⟩
          rw [if_neg (Ne.symm h1), if_neg (Ne.symm h2), hau]
      | cannotLink =>
        have hau : truth u ≠ truth w := hau
        show (if u = x then 0 else truth u + 1) ≠ (if w = x then 0 else truth w + 1)
        by_cases hu : u = x
        · have : w ≠ x := fun h => hau (by rw [hu, h])
          rw [if_pos hu, if_neg this]; omega
        · by_cases hw : w = x
          · rw [if_neg hu, if_pos hw]; omega
          · rw [if_neg hu, if_neg hw]; omega
    · rintro ⟨u, w, t⟩ ha hp
      have hne : t = .mustLink ∧ u ≠ w ∧ (x = u ∨ x = w) := by
        simpa only [mlAt, decide_eq_true_iff] using hp
      obtain ⟨rfl, huw, h⟩ := hne
      show ¬ (if u = x then 0 else truth u + 1) = (if w = x then 0 else truth w + 1)
      rcases h with rfl | rfl
      · rw [if_pos rfl, if_neg (Ne.symm huw)]; omega
      · rw [if_pos rfl, if_neg huw]; omega
    · intro hg
      rcases (complete_iff hm'.inv).1 hcomp x ((hmem x).1 hx) y ((hmem y).1 hy) with h | h
      · have := satisfies_chain hg h
        simp only [if_true, if_neg hyx] at this
        omega
      · exact satisfies_sep htruth h hxy.symm
  set K := ids.toFinset.image truth with hK
  set P := (K ×ˢ K).filter fun p => p.1 < p.2 with hP
  have hcl : ∀ p ∈ P, 2 ≤ l.countP (clAt truth p) := by
    rintro ⟨i, j⟩ hp
    obtain ⟨hp, hij⟩ := Finset.mem_filter.1 hp
    obtain ⟨hi, hj⟩ := Finset.mem_product.1 hp
    obtain ⟨x, hx, rfl⟩ := Finset.mem_image.1 hi
    obtain ⟨y, hy, hyj⟩ := Finset.mem_image.1 hj
    have hyj : truth y = j := hyj
    subst hyj
    have hij : truth x < truth y := hij
    refine main _ (fun z => if truth z = truth y then truth x else truth z) ?_ ?_ ?_
    · rintro ⟨u, w, t⟩ ha hp
      have hau := hag _ ha
      cases t with
      | mustLink =>
        have hau : truth u = truth w := hau
        show (if truth u = truth y then truth x else truth u) = (if truth w = truth y then truth x else truth w)
        rw [hau]
      | cannotLink =>
        have hau : truth u ≠ truth w := hau
        have hne : ¬ (truth x = min (truth u) (truth w) ∧ truth y = max (truth u) (truth w)) := by
          simpa [clAt] using hp
        show (if truth u = truth y then truth x else truth u) ≠ (if truth w = truth y then truth x else truth w)
        split <;> split <;> omega
    · rintro ⟨u, w, t⟩ ha hp
      have hne : t = .cannotLink ∧ truth x = min (truth u) (truth w) ∧ truth y = max (truth u) (truth w) := by
        simpa only [clAt, decide_eq_true_iff] using hp
      obtain ⟨rfl, h1, h2⟩ := hne
      show ¬ (if truth u = truth y then truth x else truth u) ≠ (if truth w = truth y then truth x else truth w)
      rw [not_not]
      split <;> split <;> omega
    · intro hg
      rcases (complete_iff hm'.inv).1 hcomp x ((hmem x).1 hx) y ((hmem y).1 hy) with h | h
      · have := satisfies_chain htruth h
        omega
      · have := satisfies_sep hg h
        simp only [if_true] at this
        rw [if_neg (by omega)] at this
        exact this rfl
  have h1 := sum_mlAt (inCompany truth ids) l
  have h2 := sum_clAt truth P l
  have h3 : (inCompany truth ids).card * 2 ≤ _ := Finset.card_nsmul_le_sum _ _ 2 hml
  have h4 : P.card * 2 ≤ _ := Finset.card_nsmul_le_sum _ _ 2 hcl
  have h5 := List.length_eq_countP_add_countP (l := l) fun a => decide (a.2.2 = .mustLink)
  have h6 : 2 * P.card = K.card * (K.card - 1) := ordered_pairs_card K
  have h8 : classes truth ids = K.card := rfl
  rw [h8]
  have h9 : (l.countP fun a => decide ¬ (decide (a.2.2 = CType.mustLink) = true)) = l.countP fun a => !decide (a.2.2 = .mustLink) := by
    apply List.countP_congr; intro a _; simp
  rw [h9] at h5
  omega

/-! ### The bound is attained -/

/-- The must-links around a class: each member with the next one, the last with the first. -/
def ring (c : List α) : List (α × α × CType) :=
  if c.length < 2 then [] else (c.zip (c.rotate 1)).map fun p => (p.1, p.2, .mustLink)

omit [LinearOrder α] in
theorem ring_length (c : List α) : (ring c).length = if c.length < 2 then 0 else c.length := by
  unfold ring
  split
  · rfl
  · rw [List.length_map, List.length_zip, List.length_rotate, Nat.min_self]

omit [LinearOrder α] in
theorem mem_ring {c : List α} {a : α × α × CType} : a ∈ ring c ↔
    2 ≤ c.length ∧ ∃ i, ∃ h : i < c.length, a = (c[i], c[(i + 1) % c.length]'(Nat.mod_lt _ (by omega)), .mustLink) := by
  unfold ring
  split
  · simp; omega
  · rw [List.mem_map]
    constructor
    · rintro ⟨p, hp, rfl⟩
      refine ⟨by omega, ?_⟩
      obtain ⟨i, hi, rfl⟩ := List.getElem_of_mem hp
      have hi' : i < c.length := by
        rw [List.length_zip, List.length_rotate, Nat.min_self] at hi; exact hi
      refine ⟨i, hi', ?_⟩
      rw [List.getElem_zip, List.getElem_rotate]
    · rintro ⟨-, i, hi, rfl⟩
      have hi' : i < (c.zip (c.rotate 1)).length := by
        rw [List.length_zip, List.length_rotate, Nat.min_self]; exact hi
      refine ⟨(c.zip (c.rotate 1))[i], List.getElem_mem _, ?_⟩
      rw [List.getElem_zip, List.getElem_rotate]

omit [LinearOrder α] in
/-- Going round the ring the other way. -/
theorem ring_around {c : List α} (h2 : 2 ≤ c.length) (g : α → Nat) {i : Nat} (hi : i < c.length)
    (h : ∀ j, ∀ hj : j < c.length, j ≠ i → g c[j] = g (c[(j + 1) % c.length]'(Nat.mod_lt _ (by omega)))) :
    ∀ k, k < c.length → g (c[(i + 1 + k) % c.length]'(Nat.mod_lt _ (by omega))) =
      g (c[(i + 1) % c.length]'(Nat.mod_lt _ (by omega))) := by
  intro k
  induction k with
  | zero => intro _; rfl
  | succ k ih =>
    intro hk
    rw [← ih (by omega)]
    have hlt : (i + 1 + k) % c.length < c.length := Nat.mod_lt _ (by omega)
    have hne : (i + 1 + k) % c.length ≠ i := by
      intro he
      rcases Nat.lt_or_ge (i + 1 + k) c.length with hl | hl
      · rw [Nat.mod_eq_of_lt hl] at he; omega
      · rw [Nat.mod_eq_sub_mod hl, Nat.mod_eq_of_lt (by omega)] at he; omega
    rw [h _ hlt hne]
    congr 2
    rw [Nat.mod_add_mod]
    rfl

omit [LinearOrder α] in
theorem ring_skip {c : List α} (h2 : 2 ≤ c.length) (g : α → Nat) {i : Nat} (hi : i < c.length)
    (h : ∀ j, ∀ hj : j < c.length, j ≠ i → g c[j] = g (c[(j + 1) % c.length]'(Nat.mod_lt _ (by omega)))) :
    ∀ j, ∀ hj : j < c.length, g c[j] = g (c[(i + 1) % c.length]'(Nat.mod_lt _ (by omega))) := by
  intro j hj
  have h1 := ring_around h2 g hi h
  rcases Nat.lt_or_ge i j with hlt | hge
  · rw [← h1 (j - i - 1) (by omega)]
    congr 2
    rw [Nat.mod_eq_of_lt (by omega)]
    omega
  · rw [← h1 (j + c.length - i - 1) (by omega)]
    congr 2
    rw [show i + 1 + (j + c.length - i - 1) = j + c.length by omega, Nat.add_mod_right, Nat.mod_eq_of_lt hj]

omit [LinearOrder α] in
/-- A labelling that fits all of the ring but one annotation fits it too, and is constant on the class. -/
theorem ring_forces {c : List α} (hnd : c.Nodup) {g : α → Nat} {a : α × α × CType} (ha : a ∈ ring c)
    (h : ∀ b ∈ ring c, b ≠ a → g b.1 = g b.2.1) : ∀ x ∈ c, ∀ y ∈ c, g x = g y := by
  obtain ⟨h2, i, hi, rfl⟩ := mem_ring.1 ha
  have h3 := ring_skip h2 g hi (fun j hj hne => by
    refine h (c[j], c[(j + 1) % c.length]'(Nat.mod_lt _ (by omega)), .mustLink) (mem_ring.2 ⟨h2, j, hj, rfl⟩) ?_
    intro he
    exact hne ((List.Nodup.getElem_inj_iff hnd).1 (congrArg Prod.fst he)))
  intro x hx y hy
  obtain ⟨j, hj, rfl⟩ := List.getElem_of_mem hx
  obtain ⟨k, hk, rfl⟩ := List.getElem_of_mem hy
  rw [h3 j hj, h3 k hk]

/-- Such a list exists for any IDs and any classes: the bound is attained. -/
theorem C108_cost_attained (ids : List α) (truth : α → Nat) :
    ∃ l m', AgreesAll truth l ∧ giveAll (Manager.init ids) l = .ok m' ∧ m'.complete = true ∧
      NoticesMistakes (Manager.init ids) l ∧
      l.length = (inCompany truth ids).card + classes truth ids * (classes truth ids - 1) := by
  classical
  have hm : Reachable (Manager.init ids) := .init ids
  have hmem : ∀ x, x ∈ (Manager.init ids).managed ↔ x ∈ ids := fun x => by
    rw [← List.mem_toFinset, init_toFinset, List.mem_toFinset]
  -- one ID of each class
  obtain ⟨rep, hrep⟩ : ∃ rep : Nat → Option α, ∀ x ∈ ids, ∃ y ∈ ids, rep (truth x) = some y ∧ truth y = truth x := by
    refine ⟨fun c => ids.find? fun x => decide (truth x = c), fun x hx => ?_⟩
    cases h : ids.find? fun y => decide (truth y = truth x) with
    | none => exact absurd (List.find?_eq_none.1 h x hx) (by simp)
    | some y =>
      refine ⟨y, List.mem_of_find?_eq_some h, h, ?_⟩
      have := List.find?_some h
      simpa using this
  set K := ids.toFinset.image truth with hK
  set C : Nat → List α := fun c => ids.dedup.filter fun x => decide (truth x = c) with hC
  have hCmem : ∀ c x, x ∈ C c ↔ x ∈ ids ∧ truth x = c := fun c x => by simp [hC]
  have hCnd : ∀ c, (C c).Nodup := fun c => (List.nodup_dedup ids).filter _
  set L1 := K.toList.flatMap fun c => ring (C c) with hL1
  set L2 : List (α × α × CType) := K.offDiag.toList.filterMap fun p =>
    (rep p.1).bind fun x => (rep p.2).map fun y => (x, y, .cannotLink) with hL2
  have m1 : ∀ a, a ∈ L1 ↔ ∃ c, a ∈ ring (C c) := by
    intro a
    rw [hL1, List.mem_flatMap]
    constructor
    · rintro ⟨c, -, h⟩; exact ⟨c, h⟩
    · rintro ⟨c, h⟩
      refine ⟨c, ?_, h⟩
      obtain ⟨h2, i, hi, -⟩ := mem_ring.1 h
      rw [Finset.mem_toList, hK, Finset.mem_image]
      obtain ⟨h3, h4⟩ := (hCmem c _).1 (List.getElem_mem hi)
      exact ⟨_, List.mem_toFinset.2 h3, h4⟩
  have m2 : ∀ a, a ∈ L2 ↔ ∃ p ∈ K.offDiag, rep p.1 = some a.1 ∧ rep p.2 = some a.2.1 ∧ a.2.2 = .cannotLink := by
    rintro ⟨u, w, t⟩
    rw [hL2, List.mem_filterMap]
    constructor
    · rintro ⟨p, hp, h⟩
      obtain ⟨x, h1, h2⟩ := Option.bind_eq_some_iff.1 h
      obtain ⟨y, h3, h4⟩ := Option.map_eq_some_iff.1 h2
      cases h4
      exact ⟨p, Finset.mem_toList.1 hp, h1, h3, rfl⟩
    · rintro ⟨p, hp, h1, h2, h3⟩
      have h3 : t = .cannotLink := h3
      subst h3
      exact ⟨p, Finset.mem_toList.2 hp, by rw [h1, h2]; rfl⟩
  have hrepK : ∀ c ∈ K, ∃ y ∈ ids, rep c = some y ∧ truth y = c := by
    intro c hc
    obtain ⟨x, hx, rfl⟩ := Finset.mem_image.1 hc
    exact hrep x (List.mem_toFinset.1 hx)
  have a1 : ∀ a ∈ L1, a.1 ∈ ids ∧ a.2.1 ∈ ids ∧ a.2.2 = .mustLink ∧ truth a.1 = truth a.2.1 := by
    intro a ha
    obtain ⟨c, hc⟩ := (m1 a).1 ha
    obtain ⟨h2, i, hi, rfl⟩ := mem_ring.1 hc
    obtain ⟨h3, h4⟩ := (hCmem c _).1 (List.getElem_mem hi)
    obtain ⟨h5, h6⟩ := (hCmem c _).1 (List.getElem_mem (l := C c) (Nat.mod_lt (i + 1) (by omega)))
    exact ⟨h3, h5, rfl, h4.trans h6.symm⟩
  have a2 : ∀ a ∈ L2, a.1 ∈ ids ∧ a.2.1 ∈ ids ∧ a.2.2 = .cannotLink ∧ truth a.1 ≠ truth a.2.1 := by
    intro a ha
    obtain ⟨p, hp, h1, h2, h3⟩ := (m2 a).1 ha
    obtain ⟨hp1, hp2, hp3⟩ := Finset.mem_offDiag.1 hp
    obtain ⟨y, hy, e1, e2⟩ := hrepK _ hp1
    obtain ⟨z, hz, e3, e4⟩ := hrepK _ hp2
    rw [h1] at e1; cases e1
    rw [h2] at e3; cases e3
    exact ⟨hy, hz, h3, by rw [e2, e4]; exact hp3⟩
  have hab : AboutManaged (Manager.init ids) (L1 ++ L2) := by
    intro a ha
    rcases List.mem_append.1 ha with h | h
    · exact ⟨(hmem _).2 (a1 a h).1, (hmem _).2 (a1 a h).2.1⟩
    · exact ⟨(hmem _).2 (a2 a h).1, (hmem _).2 (a2 a h).2.1⟩
  have hag : AgreesAll truth (L1 ++ L2) := by
    rintro ⟨u, w, t⟩ ha
    rcases List.mem_append.1 ha with h | h
    · obtain ⟨-, -, h1, h2⟩ := a1 _ h
      have h1 : t = .mustLink := h1
      subst h1
      exact h2
    · obtain ⟨-, -, h1, h2⟩ := a2 _ h
      have h1 : t = .cannotLink := h1
      subst h1
      exact h2
  -- all but one annotation force that one
  have hforce : ∀ (g : α → Nat) (a : α × α × CType), a ∈ L1 ++ L2 →
      (∀ b ∈ L1 ++ L2, b ≠ a → Agrees g b.1 b.2.1 b.2.2) → Agrees g a.1 a.2.1 a.2.2 := by
    intro g a ha h
    rcases List.mem_append.1 ha with ha | ha
    · obtain ⟨c, hc⟩ := (m1 a).1 ha
      have h3 := ring_forces (hCnd c) hc (g := g) (fun b hb hne => by
        have hb' := (m1 b).2 ⟨c, hb⟩
        have h4 := h b (List.mem_append_left _ hb') hne
        rw [(a1 b hb').2.2.1] at h4
        exact h4)
      obtain ⟨h2, i, hi, rfl⟩ := mem_ring.1 hc
      exact h3 _ (List.getElem_mem _) _ (List.getElem_mem _)
    · obtain ⟨p, hp, h1, h2, h3⟩ := (m2 a).1 ha
      have hba : (a.2.1, a.1, CType.cannotLink) ∈ L2 :=
        (m2 _).2 ⟨(p.2, p.1), by
          rw [Finset.mem_offDiag] at hp ⊢
          exact ⟨hp.2.1, hp.1, Ne.symm hp.2.2⟩, h2, h1, rfl⟩
      have hne : (a.2.1, a.1, CType.cannotLink) ≠ a := by
        intro he
        exact (a2 a ha).2.2.2 (congrArg (fun b => truth b.1) he).symm
      have h4 := h _ (List.mem_append_right _ hba) hne
      rw [h3]
      exact Ne.symm h4
  rcases giveAll_cases hm hab with ⟨m', c1, c2, c3, c4⟩ | ⟨-, h2⟩
  swap
  · exact absurd ⟨truth, init_satisfies ids truth, hag⟩ h2
  refine ⟨L1 ++ L2, m', hag, c1, ?_, ?_, ?_⟩
  · have same : ∀ g, Satisfies m' g → ∀ x ∈ ids, ∀ y ∈ ids, truth x = truth y → g x = g y := by
      intro g hg x hx y hy hxy
      by_cases he : x = y
      · rw [he]
      have hx' := (hCmem (truth x) x).2 ⟨hx, rfl⟩
      have hy' := (hCmem (truth x) y).2 ⟨hy, hxy.symm⟩
      have h2 : 2 ≤ (C (truth x)).length := by
        have h3 : ({x, y} : Finset α) ⊆ (C (truth x)).toFinset := by
          intro z hz
          rw [Finset.mem_insert, Finset.mem_singleton] at hz
          rcases hz with rfl | rfl
          · exact List.mem_toFinset.2 hx'
          · exact List.mem_toFinset.2 hy'
        have h4 := Finset.card_le_card h3
        rw [Finset.card_pair he] at h4
        exact h4.trans (List.toFinset_card_le _)
      have h3 := mem_ring.2 ⟨h2, 0, by omega, rfl⟩
      refine ring_forces (hCnd _) h3 (fun b hb _ => ?_) x hx' y hy'
      have hb' := (m1 b).2 ⟨_, hb⟩
      have h4 := ((c4 g).1 hg).2 b (List.mem_append_left _ hb')
      rw [(a1 b hb').2.2.1] at h4
      exact h4
    rw [complete_iff c2.inv]
    intro x hx y hy
    have hx' := (hmem x).1 (c3 ▸ hx)
    have hy' := (hmem y).1 (c3 ▸ hy)
    by_cases hxy : truth x = truth y
    · left
      rw [← inferred_ml_iff c2.inv hx hy, inferred_iff_forced c2 hx hy]
      exact fun g hg => same g hg x hx' y hy' hxy
    · right
      rw [← inferred_cl_iff c2.inv hx hy, inferred_iff_forced c2 hx hy]
      intro g hg
      obtain ⟨u, hu, u1, u2⟩ := hrep x hx'
      obtain ⟨w, hw, w1, w2⟩ := hrep y hy'
      have h3 : (u, w, CType.cannotLink) ∈ L2 := (m2 _).2 ⟨(truth x, truth y), by
        rw [Finset.mem_offDiag]
        exact ⟨Finset.mem_image_of_mem _ (List.mem_toFinset.2 hx'), Finset.mem_image_of_mem _ (List.mem_toFinset.2 hy'), hxy⟩,
        u1, w1, rfl⟩
      have h4 : g u ≠ g w := ((c4 g).1 hg).2 _ (List.mem_append_right _ h3)
      show g x ≠ g y
      rw [same g hg x hx' u hu u2.symm, same g hg y hy' w hw w2.symm]
      exact h4
  · intro l₁ a l₂ he
    rw [he] at hab
    rw [mistake_noticed_iff hm hab]
    intro g _ hg
    refine hforce g a (by rw [he]; simp) ?_
    intro b hb hne
    rw [he] at hb
    refine hg b ?_
    simp only [List.mem_append, List.mem_cons] at hb ⊢
    tauto
  · rw [List.length_append]
    congr 1
    · rw [hL1, List.length_flatMap]
      have h1 : (inCompany truth ids).card = ∑ c ∈ K, ((inCompany truth ids).filter fun x => truth x = c).card :=
        Finset.card_eq_sum_card_fiberwise (fun x hx => by
          have := (Finset.mem_filter.1 hx).1
          exact Finset.mem_image_of_mem _ this)
      rw [h1, ← Finset.sum_map_toList]
      congr 1
      apply List.map_congr_left
      intro c hc
      rw [ring_length]
      have hcard : (C c).toFinset.card = (C c).length := List.toFinset_card_of_nodup (hCnd c)
      split
      · rename_i hlt
        symm
        rw [Finset.card_eq_zero, Finset.filter_eq_empty_iff]
        intro x hx hxc
        obtain ⟨hx1, y, hy, hyx, hxy⟩ := Finset.mem_filter.1 hx
        have h3 : ({x, y} : Finset α) ⊆ (C c).toFinset := by
          intro z hz
          rw [Finset.mem_insert, Finset.mem_singleton] at hz
          rw [List.mem_toFinset, hCmem]
          rcases hz with rfl | rfl
          · exact ⟨List.mem_toFinset.1 hx1, hxc⟩
          · exact ⟨List.mem_toFinset.1 hy, hxy.trans hxc⟩
        have h4 := Finset.card_le_card h3
        rw [Finset.card_pair (Ne.symm hyx)] at h4
        omega
      · rename_i hge
        rw [← hcard]
        congr 1
        ext x
        rw [List.mem_toFinset, hCmem, Finset.mem_filter]
        constructor
        · rintro ⟨hx, hxc⟩
          refine ⟨Finset.mem_filter.2 ⟨List.mem_toFinset.2 hx, ?_⟩, hxc⟩
          obtain ⟨y, hy, hyx⟩ := Finset.exists_mem_ne (s := (C c).toFinset) (by omega) x
          rw [List.mem_toFinset, hCmem] at hy
          exact ⟨y, List.mem_toFinset.2 hy.1, hyx, hy.2.trans hxc.symm⟩
        · rintro ⟨hx, hxc⟩
          exact ⟨List.mem_toFinset.1 (Finset.mem_filter.1 hx).1, hxc⟩
    · have h1 : L2.length = K.offDiag.toList.length := by
        rw [hL2, List.length_filterMap_eq_countP, List.countP_eq_length]
        intro p hp
        obtain ⟨hp1, hp2, -⟩ := Finset.mem_offDiag.1 (Finset.mem_toList.1 hp)
        obtain ⟨y, -, e1, -⟩ := hrepK _ hp1
        obtain ⟨z, -, e2, -⟩ := hrepK _ hp2
        rw [e1, e2]; rfl
      rw [h1, Finset.length_toList, Finset.offDiag_card, ← Nat.mul_sub_one]
      rfl

/-! ### The hypotheses are met -/

example : Reachable demo ∧ AboutManaged demo [(1, 9, .mustLink), (9, 3, .mustLink)] ∧
    giveAll demo [(1, 9, .mustLink), (9, 3, .mustLink)] = .error (.valueError "conflict") :=
  ⟨demo_reachable, by unfold AboutManaged; decide +kernel, by decide +kernel⟩

/-- A triangle of must-links: a mistake anywhere in it is noticed. -/
example : AgreesAll (fun _ => 0) ([(1, 2, .mustLink)] ++ (2, 3, .mustLink) :: [((1 : Nat), 3, .mustLink)]) ∧
    giveAll (Manager.init [1, 2, 3]) ([(1, 2, .mustLink)] ++ mistake (2, 3, .mustLink) :: [((1 : Nat), 3, .mustLink)]) =
      .error (.valueError "conflict") :=
  ⟨by
    intro a ha
    simp only [List.cons_append, List.nil_append, List.mem_cons, List.not_mem_nil, or_false] at ha
    rcases ha with rfl | rfl | rfl <;> rfl, by decide +kernel⟩

/-- Without the third one it is not. -/
example : ∃ m', giveAll (Manager.init [1, 2, 3]) ([(1, 2, .mustLink)] ++ mistake (2, 3, .mustLink) :: ([] : List (Nat × Nat × CType))) =
    .ok m' ∧ m'.complete = true := by
  refine ⟨runOps (Manager.init [1, 2, 3]) [.addConstraint 1 2 "MUST_LINK" 1, .addConstraint 2 3 "CANNOT_LINK" 1], ?_, ?_⟩
  · decide +kernel
  · decide +kernel

/-- Three rounds of one question, answered at random. -/
example : ∀ r ∈ List.replicate 3 (⟨defaultSampler, 1, none, none, fun _ _ => 0, fun l k => l.take k⟩ : Round Nat Nat Nat),
    r.nb = 1 ∧ RandomSample r.pick ∧ r.sampler.withoutInferred = true ∧
      InputsGiven r.sampler demo r.clustering r.vectors := by
  intro r hr
  obtain rfl := List.eq_of_mem_replicate hr
  exact ⟨rfl, take_randomSample, rfl, ⟨fun h => absurd rfl h, fun h => absurd rfl h⟩⟩

/-- The least list for the classes {1, 2} and {3}. -/
example : AgreesAll (fun x => if x = 3 then 1 else 0) ([(1, 2, .mustLink)] ++ (2, 3, .cannotLink) :: ([] : List (Nat × Nat × CType))) ∧
    (∃ m', giveAll (Manager.init [1, 2, 3]) ([(1, 2, .mustLink)] ++ (2, 3, .cannotLink) :: []) = .ok m' ∧ m'.complete = true) ∧
    ([(1, 2, CType.mustLink)] ++ (2, 3, CType.cannotLink) :: ([] : List (Nat × Nat × CType))).length +
      classes (fun x : Nat => if x = 3 then 1 else 0) [1, 2, 3] =
      [1, 2, 3].toFinset.card + classes (fun x : Nat => if x = 3 then 1 else 0) [1, 2, 3] *
        (classes (fun x : Nat => if x = 3 then 1 else 0) [1, 2, 3] - 1) / 2 := by
  refine ⟨?_, ⟨runOps (Manager.init [1, 2, 3]) [.addConstraint 1 2 "MUST_LINK" 1, .addConstraint 2 3 "CANNOT_LINK" 1], ?_, ?_⟩, ?_⟩
  · intro a ha
    simp only [List.cons_append, List.nil_append, List.mem_cons, List.not_mem_nil, or_false] at ha
    rcases ha with rfl | rfl
    · exact (rfl : (0 : Nat) = 0)
    · exact (by decide : (0 : Nat) ≠ 1)
  · decide +kernel
  · decide +kernel
  · decide +kernel

/-- The costs for four IDs in the classes {1, 2, 3} and {4}: three annotations complete the constraints, five
are needed to notice every mistake. -/
example : [1, 2, 3, 4].toFinset.card + classes (fun x : Nat => if x = 4 then 1 else 0) [1, 2, 3, 4] *
      (classes (fun x : Nat => if x = 4 then 1 else 0) [1, 2, 3, 4] - 1) / 2 =
      3 + classes (fun x : Nat => if x = 4 then 1 else 0) [1, 2, 3, 4] ∧
    (inCompany (fun x : Nat => if x = 4 then 1 else 0) [1, 2, 3, 4]).card +
      classes (fun x : Nat => if x = 4 then 1 else 0) [1, 2, 3, 4] *
        (classes (fun x : Nat => if x = 4 then 1 else 0) [1, 2, 3, 4] - 1) = 5 := by
  constructor <;> decide +kernel

end Verif
