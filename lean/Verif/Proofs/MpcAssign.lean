import Mathlib.Data.List.Count
import Verif.Proofs.MpcPre

/-
MPC-KMeans: the assignment of the points and the repair of empty clusters.
-/

namespace Verif

/-! ### Counting -/

/-- `counts` are the sizes of the clusters, as far as it goes, and goes beyond all labels. -/
structure CountsOf (labels : List Int) (counts : List Nat) : Prop where
  count : ∀ (c k : Nat), counts[c]? = some k → k = labels.count (c : Int)
  bound : ∀ l ∈ labels, l.toNat < counts.length

theorem bincount_ok {labels : List Int} (h0 : ∀ l ∈ labels, 0 ≤ l) (minlength : Nat) :
    ∃ counts, bincount labels minlength = .ok counts ∧ CountsOf labels counts ∧ minlength ≤ counts.length ∧
      ∀ nb : Nat, LabelsBelow nb labels → counts.length ≤ max minlength nb := by
  have hneg : ¬ (labels.any fun l => decide (l < 0)) = true := by
    rw [List.any_eq_true]
    rintro ⟨l, hl, hd⟩
    have := h0 l hl
    simp at hd
    omega
  have hge : ∀ (l : List Int) (s : Nat), s ≤ l.foldl (fun s l => max s (l.toNat + 1)) s ∧
      (∀ x ∈ l, x.toNat + 1 ≤ l.foldl (fun s l => max s (l.toNat + 1)) s) ∧
      ∀ nb : Nat, s ≤ nb → LabelsBelow nb l → l.foldl (fun s l => max s (l.toNat + 1)) s ≤ nb := by
    intro l
    induction l with
    | nil => exact fun s => ⟨Nat.le_refl _, by simp, fun nb h _ => h⟩
    | cons y l ih =>
      intro s
      rw [List.foldl_cons]
      obtain ⟨i1, i2, i3⟩ := ih (max s (y.toNat + 1))
      refine ⟨by omega, fun x hx => ?_, fun nb hs hb => ?_⟩
      · rcases List.mem_cons.1 hx with rfl | hx
        · omega
        · exact i2 x hx
      · refine i3 nb ?_ fun x hx => hb x (by simp [hx])
        have := hb y (by simp)
        omega
  unfold bincount
  rw [if_neg hneg]
  obtain ⟨g1, g2, g3⟩ := hge labels 0
  refine ⟨_, rfl, ⟨fun c k hk => ?_, fun l hl => ?_⟩, ?_, fun nb hb => ?_⟩
  · rw [List.getElem?_map] at hk
    cases hr : (List.range (max minlength (labels.foldl (fun s l => max s (l.toNat + 1)) 0)))[c]? with
    | none => rw [hr] at hk; cases hk
    | some c' =>
      obtain ⟨h1, h2⟩ := List.getElem?_eq_some_iff.1 hr
      rw [List.getElem_range] at h2
      subst h2
      rw [hr] at hk
      cases hk
      rw [List.count_eq_countP]
      congr 1
  · have := g2 l hl
    simp only [List.length_map, List.length_range]
    omega
  · simp
  · have := g3 nb (by omega) hb
    simp only [List.length_map, List.length_range]
    omega

theorem mem_emptyClusters {labels : List Int} {counts : List Nat} (h : CountsOf labels counts) {c : Nat} :
    c ∈ emptyClusters counts ↔ c < counts.length ∧ (c : Int) ∉ labels := by
  unfold emptyClusters
  rw [List.mem_filter, List.mem_range, decide_eq_true_eq]
  refine and_congr_right fun hc => ?_
  have hk := List.getElem?_eq_getElem hc
  rw [hk, h.count c _ hk, ← List.count_eq_zero]
  simp

/-! ### Filling an empty cluster -/

section
variable {κ : Type} [LinearOrder κ]

/-- The distance is defined for all points and clusters. -/
def DistOn (dist : Nat → Nat → Except PyErr κ) (n nb : Nat) : Prop := ∀ p < n, ∀ c < nb, ∃ d, dist p c = .ok d

omit [LinearOrder κ] in
theorem mpcDonors_ok {dist : Nat → Nat → Except PyErr κ} {nb : Nat} {labels : List Int} (hd : DistOn dist labels.length nb)
    (hb : LabelsBelow nb labels) {counts : List Nat} (hc : CountsOf labels counts) :
    ∃ donors, mpcDonors dist labels counts = .ok donors ∧
      ∀ p, p ∈ dkeys donors ↔ ∃ c : Nat, labels[p]? = some (c : Int) ∧ 1 < labels.count (c : Int) := by
  unfold mpcDonors
  simp only
  have hpairs : ∀ q : Nat × Nat, q ∈ (((List.range counts.length).filter fun c => decide (1 < (counts[c]?).getD 0)).flatMap
      fun (c : Nat) => ((List.range labels.length).filter fun p => decide (labels[p]? = some (c : Int))).map fun p => (p, c)) ↔
      labels[q.1]? = some (q.2 : Int) ∧ 1 < labels.count (q.2 : Int) := by
    rintro ⟨p, c⟩
    simp only [List.mem_flatMap, List.mem_filter, List.mem_range, decide_eq_true_eq, List.mem_map, Prod.mk.injEq]
    constructor
    · rintro ⟨c', ⟨h1, h2⟩, p', ⟨h3, h4⟩, rfl, rfl⟩
      have hk := List.getElem?_eq_getElem h1
      rw [hk, Option.getD_some, hc.count _ _ hk] at h2
      exact ⟨h4, h2⟩
    · rintro ⟨h1, h2⟩
      have hlt : c < counts.length := by
        have := hc.bound _ (List.mem_of_getElem? h1)
        simpa using this
      have hk := List.getElem?_eq_getElem hlt
      refine ⟨c, ⟨hlt, ?_⟩, p, ⟨(List.getElem?_eq_some_iff.1 h1).1, h1⟩, rfl, rfl⟩
      rw [hk, Option.getD_some, hc.count _ _ hk]
      exact h2
  obtain ⟨items, e⟩ := mapM_total (f := fun q => do return (q.1, ← dist q.1 q.2))
    (l := ((List.range counts.length).filter fun c => decide (1 < (counts[c]?).getD 0)).flatMap
      fun (c : Nat) => ((List.range labels.length).filter fun p => decide (labels[p]? = some (c : Int))).map fun p => (p, c))
    (by
      intro q hq
      obtain ⟨h1, -⟩ := (hpairs q).1 hq
      obtain ⟨d, hd'⟩ := hd q.1 (List.getElem?_eq_some_iff.1 h1).1 q.2 (by
        have := (hb _ (List.mem_of_getElem? h1)).2
        omega)
      exact ⟨(q.1, d), by rw [hd']; rfl⟩)
  have hf := (mapM_ok_iff).1 e
  refine ⟨dofList items, ?_, fun p => ?_⟩
  · simp only [bind, Except.bind] at e ⊢
    rw [e]; rfl
  · rw [dkeys_dofList, mem_ounion]
    simp only [List.not_mem_nil, false_or, List.mem_map]
    have hone : ∀ (q : Nat × Nat) (it : Nat × κ), (do return (q.1, ← dist q.1 q.2) : Except PyErr (Nat × κ)) = .ok it → it.1 = q.1 := by
      intro q it hit
      cases hdq : dist q.1 q.2 with
      | error er => rw [hdq] at hit; cases hit
      | ok d => rw [hdq] at hit; cases hit; rfl
    constructor
    · rintro ⟨it, hit, rfl⟩
      obtain ⟨q, hq, hqi⟩ := forall₂_mem_right hf hit
      rw [hone q it hqi]
      exact ⟨q.2, (hpairs q).1 hq⟩
    · rintro ⟨c, h1, h2⟩
      obtain ⟨it, hit, hqi⟩ := forall₂_mem_left hf ((hpairs (p, c)).2 ⟨h1, h2⟩)
      exact ⟨it, hit, hone (p, c) it hqi⟩

/-- One empty cluster. -/
theorem mpcFillStep_ok {dist : Nat → Nat → Except PyErr κ} {nb : Nat} {labels : List Int} (hd : DistOn dist labels.length nb)
    (hb : LabelsBelow nb labels) {counts : List Nat} (hc : CountsOf labels counts) {e : Nat} (he : e < nb)
    (hempty : (e : Int) ∉ labels) :
    (mpcFillStep dist (labels, counts) e = .error (.valueError "max") ∧ ∀ c : Int, labels.count c ≤ 1) ∨
    ∃ labels' counts', mpcFillStep dist (labels, counts) e = .ok (labels', counts') ∧ labels'.length = labels.length ∧
      LabelsBelow nb labels' ∧ CountsOf labels' counts' ∧ 10 ≤ counts'.length ∧ counts'.length ≤ max 10 nb ∧
      ∀ c : Nat, c < nb → ((c : Int) ∈ labels' ↔ (c : Int) ∈ labels ∨ c = e) := by
  obtain ⟨donors, ed, hdon⟩ := mpcDonors_ok hd hb hc
  unfold mpcFillStep
  simp only [bind, Except.bind, ed]
  cases hmax : pyMaxBy Prod.snd donors with
  | none =>
    left
    refine ⟨rfl, fun c => ?_⟩
    by_contra hcon
    have hmem : c ∈ labels := List.count_pos_iff.1 (by omega)
    obtain ⟨p, hp⟩ := List.mem_iff_getElem?.1 hmem
    have hc0 := (hb c hmem).1
    have : p ∈ dkeys donors := (hdon p).2 ⟨c.toNat, by rw [Int.toNat_of_nonneg hc0]; exact hp, by rw [Int.toNat_of_nonneg hc0]; omega⟩
    obtain ⟨q, hq⟩ := pyMaxBy_isSome (key := Prod.snd) (l := donors) (by
      rintro rfl
      cases this)
    rw [hmax] at hq
    cases hq
  | some d =>
    right
    have hdm : d.1 ∈ dkeys donors := mem_dkeys_of_mem (v := d.2) (pyMaxBy_spec hmax).1
    obtain ⟨c, h1, h2⟩ := (hdon d.1).1 hdm
    obtain ⟨hlt, hget⟩ := List.getElem?_eq_some_iff.1 h1
    have hset : lset labels d.1 (e : Int) = .ok (labels.set d.1 (e : Int)) := lset_lt hlt _
    have hb' : LabelsBelow nb (labels.set d.1 (e : Int)) := by
      intro l hl
      rcases List.mem_or_eq_of_mem_set hl with h | h
      · exact hb l h
      · rw [h]; omega
    obtain ⟨counts', ec, hc', hmin, hle⟩ := bincount_ok (fun l hl => (hb' l hl).1) 10
    simp only [hset, ec]
    refine ⟨_, _, rfl, by rw [List.length_set], hb', hc', hmin, hle nb hb', fun a ha => ?_⟩
    constructor
    · intro hm
      rcases List.mem_or_eq_of_mem_set hm with h | h
      · exact .inl h
      · exact .inr (Int.natCast_inj.1 h)
    · rintro (h | rfl)
      · by_cases hac : (a : Int) = (c : Int)
        · -- the donor cluster had at least two points
          rw [hac]
          rw [← List.count_pos_iff]
          have := List.count_set (a := (e : Int)) (b := (c : Int)) (l := labels) (i := d.1) hlt
          rw [this, hget]
          have : (c : Int) ≠ e := by rintro h'; rw [← h'] at hempty; exact hempty (by rw [← hac]; exact h)
          simp [Ne.symm this]
          omega
        · obtain ⟨i, hi⟩ := List.mem_iff_getElem?.1 h
          have hid : d.1 ≠ i := by
            rintro rfl
            rw [h1] at hi
            cases hi
            exact hac rfl
          apply List.mem_of_getElem? (i := i)
          rw [List.getElem?_set_ne hid]
          exact hi
      · exact List.mem_set hlt _

/-- With at least as many points as clusters, an empty cluster leaves two points in another one. -/
theorem exists_filled {nb : Nat} {labels : List Int} (hb : LabelsBelow nb labels) (hn : nb ≤ labels.length) {e : Nat}
    (he : e < nb) (hempty : (e : Int) ∉ labels) : ¬ ∀ c : Int, labels.count c ≤ 1 := by
  intro h
  have hnd : labels.Nodup := List.nodup_iff_count_le_one.2 h
  have hsub : labels ⊆ ((List.range nb).filter fun c => decide (c ≠ e)).map fun (c : Nat) => (c : Int) := by
    intro l hl
    have := hb l hl
    rw [List.mem_map]
    refine ⟨l.toNat, ?_, by omega⟩
    rw [List.mem_filter, List.mem_range, decide_eq_true_eq]
    refine ⟨by omega, ?_⟩
    rintro rfl
    rw [Int.toNat_of_nonneg this.1] at hempty
    exact hempty hl
  have h1 := (List.subperm_of_subset hnd hsub).length_le
  have h2 : ((List.range nb).filter fun c => decide (c ≠ e)).length < nb := by
    have := List.length_filter_lt_length_iff_exists (p := fun c => decide (c ≠ e)) (l := List.range nb)
    rw [List.length_range] at this
    exact this.2 ⟨e, List.mem_range.2 he, by simp⟩
  rw [List.length_map] at h1
  omega

/-- The loop over the empty clusters. -/
theorem mpcFill_ok {dist : Nat → Nat → Except PyErr κ} {nb : Nat} {E : List Nat} (hE : E.Nodup) (hEb : ∀ e ∈ E, e < nb)
    {labels : List Int} (hd : DistOn dist labels.length nb) (hb : LabelsBelow nb labels) {counts : List Nat}
    (hc : CountsOf labels counts) (hempty : ∀ c : Nat, c < nb → ((c : Int) ∉ labels ↔ c ∈ E)) :
    (E ≠ [] ∧ E.foldlM (mpcFillStep dist) (labels, counts) = .error (.valueError "max") ∧ labels.length < nb) ∨
    ∃ labels' counts', E.foldlM (mpcFillStep dist) (labels, counts) = .ok (labels', counts') ∧
      labels'.length = labels.length ∧ LabelsBelow nb labels' ∧ CountsOf labels' counts' ∧ AllUsed nb labels' ∧
      (E = [] → labels' = labels ∧ counts' = counts) ∧ (E ≠ [] → 10 ≤ counts'.length ∧ counts'.length ≤ max 10 nb) := by
  induction E generalizing labels counts with
  | nil =>
    right
    refine ⟨labels, counts, rfl, rfl, hb, hc, fun c hcn => ?_, fun _ => ⟨rfl, rfl⟩, fun h => absurd rfl h⟩
    have := hempty c hcn
    simpa using this
  | cons e E ih =>
    have he : e < nb := hEb e (by simp)
    have hel : (e : Int) ∉ labels := (hempty e he).2 (by simp)
    rcases mpcFillStep_ok hd hb hc he hel with ⟨h1, h2⟩ | ⟨l', c', h1, h2, h3, h4, h5, h6, h7⟩
    · left
      refine ⟨by simp, by rw [List.foldlM_cons, h1]; rfl, ?_⟩
      by_contra hcon
      exact exists_filled hb (by omega) he hel h2
    · have hE' : E.Nodup := (List.nodup_cons.1 hE).2
      have heE : e ∉ E := (List.nodup_cons.1 hE).1
      have ih' := ih hE' (fun a ha => hEb a (by simp [ha])) (labels := l') (by rw [h2]; exact hd) h3 h4 (by
        intro c hcn
        rw [h7 c hcn, not_or, hempty c hcn, List.mem_cons]
        constructor
        · rintro ⟨a | a, b⟩
          · exact absurd a b
          · exact a
        · intro a
          exact ⟨.inr a, fun b => heE (b ▸ a)⟩)
      rcases ih' with ⟨i1, i2, i3⟩ | ⟨l2, c2, i1, i2, i3, i4, i5, i6, i7⟩
      · left
        refine ⟨by simp, by rw [List.foldlM_cons, h1]; exact i2, by omega⟩
      · right
        refine ⟨l2, c2, by rw [List.foldlM_cons, h1]; exact i1, by omega, i3, i4, i5, (fun h => by simp at h), fun _ => ?_⟩
        by_cases hEn : E = []
        · obtain ⟨-, rfl⟩ := i6 hEn
          exact ⟨h5, h6⟩
        · exact i7 hEn

/-- The repair of empty clusters. -/
theorem mpcRepair_ok {dist : Nat → Nat → Except PyErr κ} {nb : Nat} {labels : List Int} (hd : DistOn dist labels.length nb)
    (hb : LabelsBelow nb labels) :
    (AllUsed nb labels → mpcRepair dist nb labels = .ok labels) ∧
    (¬ AllUsed nb labels → nb < 10 → ∃ w, mpcRepair dist nb labels = .error (.valueError w)) ∧
    (¬ AllUsed nb labels → 10 ≤ nb →
      (∃ w, mpcRepair dist nb labels = .error (.valueError w) ∧ labels.length < nb) ∨
      ∃ r, mpcRepair dist nb labels = .ok r ∧ r.length = labels.length ∧ LabelsBelow nb r ∧ AllUsed nb r) := by
  obtain ⟨counts, ec, hc, hmin, hle⟩ := bincount_ok (fun l hl => (hb l hl).1) nb
  have hlen : counts.length = nb := by
    have := hle nb hb
    omega
  have hE : ∀ c : Nat, c < nb → ((c : Int) ∉ labels ↔ c ∈ emptyClusters counts) := by
    intro c hcn
    rw [mem_emptyClusters hc, hlen]
    simp [hcn]
  have hEnd : (emptyClusters counts).Nodup := List.nodup_range.filter _
  have hEb : ∀ e ∈ emptyClusters counts, e < nb := by
    intro e he
    rw [mem_emptyClusters hc, hlen] at he
    exact he.1
  have hused : AllUsed nb labels ↔ emptyClusters counts = [] := by
    rw [List.eq_nil_iff_forall_not_mem]
    constructor
    · intro h e he
      exact (hE e (hEb e he)).2 he (h e (hEb e he))
    · intro h c hcn
      by_contra hno
      exact h c ((hE c hcn).1 hno)
  have hfill := mpcFill_ok (E := emptyClusters counts) hEnd hEb hd hb hc hE
  unfold mpcRepair
  simp only [bind, Except.bind, ec]
  rw [hused]
  refine ⟨fun h => ?_, fun hne hnb => ?_, fun hne hnb => ?_⟩
  · rw [h]
    simp only [List.foldlM_nil, pure, Except.pure, h]
    simp
  · rcases hfill with ⟨-, h2, -⟩ | ⟨l', c', h1, h2, h3, h4, h5, -, h7⟩
    · rw [h2]; exact ⟨_, rfl⟩
    · rw [h1]
      have hin : nb ∈ emptyClusters c' := by
        rw [mem_emptyClusters h4]
        refine ⟨by have := (h7 hne).1; omega, fun hm => ?_⟩
        have := (h3 _ hm).2
        omega
      have : emptyClusters c' ≠ [] := List.ne_nil_of_mem hin
      simp only [this, ne_eq, not_false_eq_true, if_true]
      exact ⟨_, rfl⟩
  · rcases hfill with ⟨-, h2, h3⟩ | ⟨l', c', h1, h2, h3, h4, h5, -, h7⟩
    · left
      rw [h2]; exact ⟨_, rfl, h3⟩
    · right
      rw [h1]
      have : emptyClusters c' = [] := by
        rw [List.eq_nil_iff_forall_not_mem]
        intro e he
        rw [mem_emptyClusters h4] at he
        have := (h7 hne).2
        exact he.2 (h5 e (by omega))
      refine ⟨l', ?_, h2, h3, h5⟩
      simp [this, pure, Except.pure]

end

end Verif
