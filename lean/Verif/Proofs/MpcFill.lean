import Verif.Proofs.MpcScore

/-
MPC-KMeans: the repair of empty clusters, in detail: which points move, and what it costs in exact
arithmetic.
-/

namespace Verif

section
variable {δ : Type}

/-- The pairs of the donors: points of clusters with several members. -/
def donorPairs (labels : List Int) (counts : List Nat) : List (Nat × Nat) :=
  ((List.range counts.length).filter fun c => decide (1 < (counts[c]?).getD 0)).flatMap fun (c : Nat) =>
    ((List.range labels.length).filter fun p => decide (labels[p]? = some (c : Int))).map fun p => (p, c)

theorem mem_donorPairs {labels : List Int} {counts : List Nat} (hc : CountsOf labels counts) (q : Nat × Nat) :
    q ∈ donorPairs labels counts ↔ labels[q.1]? = some (q.2 : Int) ∧ 1 < labels.count (q.2 : Int) := by
  obtain ⟨p, c⟩ := q
  unfold donorPairs
  simp only [List.mem_flatMap, List.mem_filter, List.mem_range, decide_eq_true_eq, List.mem_map, Prod.mk.injEq]
  constructor
  · rintro ⟨c', ⟨h1, h2⟩, p', ⟨h3, h4⟩, rfl, rfl⟩
    have hk := List.getElem?_eq_getElem h1
    rw [hk, Option.getD_some, hc.count _ _ hk] at h2
    exact ⟨h4, h2⟩
  · rintro ⟨h1, h2⟩
    have hlt : c < counts.length := by
      have := hc.bound _ (List.mem_of_getElem? h1)
      simpa using this
    have hk := List.getElem?_eq_getElem hlt
    refine ⟨c, ⟨hlt, ?_⟩, p, ⟨(List.getElem?_eq_some_iff.1 h1).1, h1⟩, rfl, rfl⟩
    rw [hk, Option.getD_some, hc.count _ _ hk]
    exact h2

theorem mpcDonors_eq (dist : Nat → Nat → Except PyErr δ) (labels : List Int) (counts : List Nat) :
    mpcDonors dist labels counts = ((donorPairs labels counts).mapM fun q => do return (q.1, ← dist q.1 q.2)) >>= fun items => .ok (dofList items) := rfl

theorem mpcDonors_congr {dist dist' : Nat → Nat → Except PyErr δ} {labels : List Int} {counts : List Nat} (hc : CountsOf labels counts)
    (h : ∀ p c : Nat, labels[p]? = some (c : Int) → 1 < labels.count (c : Int) → dist p c = dist' p c) :
    mpcDonors dist labels counts = mpcDonors dist' labels counts := by
  rw [mpcDonors_eq, mpcDonors_eq]
  congr 1
  have key : ∀ l : List (Nat × Nat), (∀ q ∈ l, dist q.1 q.2 = dist' q.1 q.2) →
      (l.mapM fun q => do return (q.1, ← dist q.1 q.2) : Except PyErr (List (Nat × δ))) = l.mapM fun q => do return (q.1, ← dist' q.1 q.2) := by
    intro l
    induction l with
    | nil => intro _; rfl
    | cons q l ih =>
      intro hq
      rw [List.mapM_cons, List.mapM_cons, ih fun q' hq' => hq q' (List.mem_cons_of_mem _ hq'), hq q (by simp)]
  exact key _ fun q hq => h q.1 q.2 ((mem_donorPairs hc q).1 hq).1 ((mem_donorPairs hc q).1 hq).2

variable [LinearOrder δ]

/-- One empty cluster: the point that moves is the one farthest from its centre, among the clusters with several members. -/
theorem mpcFillStep_far {dist : Nat → Nat → Except PyErr δ} {s s' : List Int × List Nat} {e : Nat} (hc : CountsOf s.1 s.2)
    (h0 : ∀ l ∈ s.1, 0 ≤ l) (h : mpcFillStep dist s e = .ok s') :
    ∃ (p c : Nat) (v : δ), s.1[p]? = some (c : Int) ∧ 1 < s.1.count (c : Int) ∧ dist p c = .ok v ∧ s'.1 = s.1.set p (e : Int) ∧
      CountsOf s'.1 s'.2 ∧
      ∀ q b : Nat, s.1[q]? = some (b : Int) → 1 < s.1.count (b : Int) → ∃ v', dist q b = .ok v' ∧ v' ≤ v := by
  unfold mpcFillStep at h
  simp only [bind, Except.bind] at h
  cases h1 : mpcDonors dist s.1 s.2 with
  | error x => rw [h1] at h; cases h
  | ok donors =>
    simp only [h1] at h
    cases h2 : pyMaxBy Prod.snd donors with
    | none => rw [h2] at h; cases h
    | some d =>
      simp only [h2] at h
      cases h3 : lset s.1 d.1 (e : Int) with
      | error x => rw [h3] at h; cases h
      | ok l =>
        simp only [h3] at h
        have hl : l = s.1.set d.1 (e : Int) := by
          unfold lset at h3
          split at h3
          · cases h3; rfl
          · cases h3
        have h0' : ∀ a ∈ l, 0 ≤ a := by
          intro a ha
          rw [hl] at ha
          rcases List.mem_or_eq_of_mem_set ha with h | h
          · exact h0 a h
          · omega
        obtain ⟨counts, ec, hcs, -, -⟩ := bincount_ok h0' 10
        rw [ec] at h
        cases h
        rw [mpcDonors_eq] at h1
        cases h4 : (donorPairs s.1 s.2).mapM fun q => (do return (q.1, ← dist q.1 q.2) : Except PyErr (Nat × δ)) with
        | error x => rw [h4] at h1; cases h1
        | ok items =>
          rw [h4] at h1
          cases h1
          have hf := (mapM_ok_iff).1 h4
          have hone : ∀ (q : Nat × Nat) (it : Nat × δ), (do return (q.1, ← dist q.1 q.2) : Except PyErr (Nat × δ)) = .ok it →
              it.1 = q.1 ∧ dist q.1 q.2 = .ok it.2 := by
            intro q it hit
            cases hdq : dist q.1 q.2 with
            | error er => rw [hdq] at hit; cases hit
            | ok d => rw [hdq] at hit; cases hit; exact ⟨rfl, rfl⟩
          have hitem : ∀ it ∈ dofList items, ∃ c : Nat, s.1[it.1]? = some (c : Int) ∧ 1 < s.1.count (c : Int) ∧ dist it.1 c = .ok it.2 := by
            intro it hit
            have hget : dget? (dofList items) it.1 = some it.2 := (mem_iff_dget? (nodup_dkeys_dofList items)).1 hit
            obtain ⟨q, hq, hqi⟩ := forall₂_mem_right hf (mem_of_dget?_dofList hget)
            obtain ⟨e1, e2⟩ := hone q _ hqi
            simp only at e1
            obtain ⟨m1, m2⟩ := (mem_donorPairs hc q).1 hq
            rw [e1]
            exact ⟨q.2, m1, m2, e2⟩
          obtain ⟨hmem, hmax⟩ := pyMaxBy_spec h2
          obtain ⟨c, c1, c2, c3⟩ := hitem d hmem
          refine ⟨d.1, c, d.2, c1, c2, c3, hl, hcs, fun q b hq hb => ?_⟩
          obtain ⟨it, hit, hqi⟩ := forall₂_mem_left hf ((mem_donorPairs hc (q, b)).2 ⟨hq, hb⟩)
          have hk : q ∈ dkeys (dofList items) := by
            rw [dkeys_dofList, mem_ounion]
            right
            exact List.mem_map.2 ⟨it, hit, (hone _ _ hqi).1⟩
          obtain ⟨it', hit', hq'⟩ := List.mem_map.1 hk
          obtain ⟨c', c1', -, c3'⟩ := hitem it' hit'
          have hmx := hmax it' hit'
          rw [hq', hq] at c1'
          have : b = c' := by
            have := Option.some.inj c1'
            omega
          subst this
          rw [hq'] at c3'
          exact ⟨_, c3', hmx⟩

/-! ### The points that do not move -/

/-- Compared with `t`: members of a common cluster have not moved; nobody moved into a cluster of `t`. -/
structure Filled (t labels : List Int) : Prop where
  len : labels.length = t.length
  same : ∀ (i j : Nat) (c : Int), i ≠ j → labels[i]? = some c → labels[j]? = some c → t[i]? = some c
  kept : ∀ (i : Nat) (c : Int), labels[i]? = some c → t[i]? = some c ∨ c ∉ t

theorem Filled.refl (t : List Int) : Filled t t := ⟨rfl, fun _ _ _ _ h _ => h, fun _ _ h => .inl h⟩

theorem Filled.set {t labels : List Int} (h : Filled t labels) {e : Nat} (he : (e : Int) ∉ labels) (het : (e : Int) ∉ t) (p : Nat) :
    Filled t (labels.set p (e : Int)) := by
  have hget : ∀ (i : Nat) (c : Int), (labels.set p (e : Int))[i]? = some c → (i = p ∧ c = e) ∨ (i ≠ p ∧ labels[i]? = some c) := by
    intro i c hi
    by_cases hip : p = i
    · subst hip
      left
      have hlt := (List.getElem?_eq_some_iff.1 hi).1
      rw [List.getElem?_set_self (by simpa using hlt)] at hi
      exact ⟨rfl, (Option.some.inj hi).symm⟩
    · right
      rw [List.getElem?_set_ne hip] at hi
      exact ⟨fun h => hip h.symm, hi⟩
  refine ⟨by rw [List.length_set]; exact h.len, fun i j c hij hi hj => ?_, fun i c hi => ?_⟩
  · rcases hget i c hi with ⟨h1, h2⟩ | ⟨h1, h2⟩ <;> rcases hget j c hj with ⟨h3, h4⟩ | ⟨h3, h4⟩
    · exact absurd (h1.trans h3.symm) hij
    · subst h2; exact absurd (List.mem_of_getElem? h4) he
    · subst h4; exact absurd (List.mem_of_getElem? h2) he
    · exact h.same i j c hij h2 h4
  · rcases hget i c hi with ⟨h1, h2⟩ | ⟨h1, h2⟩
    · subst h2; exact .inr het
    · exact h.kept i c h2

/-- A member of a cluster with several members has not moved. -/
theorem Filled.of_count {t labels : List Int} (h : Filled t labels) {p : Nat} {c : Int} (hp : labels[p]? = some c) (hc : 1 < labels.count c) :
    t[p]? = some c := by
  by_contra hcon
  have : labels.count c ≤ 1 := by
    have hone : ∀ (i : Nat), labels[i]? = some c → i = p := by
      intro i hi
      by_contra hip
      exact hcon (h.same p i c (fun h => hip h.symm) hp hi)
    have key : ∀ (l : List Int), (∀ i j : Nat, l[i]? = some c → l[j]? = some c → i = j) → l.count c ≤ 1 := by
      intro l
      induction l with
      | nil => intro _; simp
      | cons a l ih =>
        intro hl
        by_cases hac : a = c
        · have : c ∉ l := by
            intro hm
            obtain ⟨j, hj⟩ := List.mem_iff_getElem?.1 hm
            have := hl 0 (j + 1) (by simp [hac]) (by simpa using hj)
            omega
          rw [List.count_cons, List.count_eq_zero_of_not_mem this]
          simp [hac]
        · rw [List.count_cons, if_neg (by simpa using hac)]
          exact ih fun i j hi hj => by have := hl (i + 1) (j + 1) (by simpa using hi) (by simpa using hj); omega
    exact key labels fun i j hi hj => (hone i hi).trans (hone j hj).symm
  omega

theorem fill_filled {dist : Nat → Nat → Except PyErr δ} {t : List Int} {E : List Nat} (hE : E.Nodup) {s s' : List Int × List Nat}
    (hs : Filled t s.1) (he : ∀ e ∈ E, (e : Int) ∉ s.1 ∧ (e : Int) ∉ t) (h : E.foldlM (mpcFillStep dist) s = .ok s') : Filled t s'.1 := by
  induction E generalizing s with
  | nil => cases h; exact hs
  | cons e E ih =>
    rw [List.foldlM_cons] at h
    cases h1 : mpcFillStep dist s e with
    | error x => rw [h1] at h; cases h
    | ok s1 =>
      rw [h1] at h
      obtain ⟨p, hp⟩ := mpcFillStep_set h1
      obtain ⟨hn1, hn2⟩ := List.nodup_cons.1 hE
      refine ih hn2 (s := s1) (by rw [hp]; exact hs.set (he e (by simp)).1 (he e (by simp)).2 p) (fun a ha => ⟨fun hm => ?_, (he a (by simp [ha])).2⟩) h
      rw [hp] at hm
      rcases List.mem_or_eq_of_mem_set hm with h' | h'
      · exact (he a (by simp [ha])).1 h'
      · exact hn1 (by rw [← Int.natCast_inj.1 h']; exact ha)

/-- The repair depends on the distances of the points to the centres of their own clusters only, in clusters with several members. -/
theorem fill_congr {dist dist' : Nat → Nat → Except PyErr δ} {t : List Int}
    (hd : ∀ p c : Nat, t[p]? = some (c : Int) → 1 < t.count (c : Int) → dist p c = dist' p c) {E : List Nat} (hE : E.Nodup)
    {s : List Int × List Nat} (hs : Filled t s.1) (h0 : ∀ l ∈ s.1, 0 ≤ l) (hc : CountsOf s.1 s.2) (hcnt : ∀ c ∈ t, s.1.count c ≤ t.count c)
    (he : ∀ e ∈ E, (e : Int) ∉ s.1 ∧ (e : Int) ∉ t) :
    E.foldlM (mpcFillStep dist) s = E.foldlM (mpcFillStep dist') s := by
  induction E generalizing s with
  | nil => rfl
  | cons e E ih =>
    have hstep : mpcFillStep dist s e = mpcFillStep dist' s e := by
      unfold mpcFillStep
      rw [mpcDonors_congr hc fun p c h1 h2 => hd p c (hs.of_count h1 h2)
        (lt_of_lt_of_le h2 (hcnt _ (List.mem_of_getElem? (hs.of_count h1 h2))))]
    rw [List.foldlM_cons, List.foldlM_cons, ← hstep]
    cases h1 : mpcFillStep dist s e with
    | error x => rfl
    | ok s1 =>
      obtain ⟨p, c, v, -, -, -, hp, hc1, -⟩ := mpcFillStep_far hc h0 h1
      obtain ⟨hn1, hn2⟩ := List.nodup_cons.1 hE
      have hmem : ∀ l ∈ s1.1, l ∈ s.1 ∨ l = e := by
        intro l hl
        rw [hp] at hl
        exact List.mem_or_eq_of_mem_set hl
      refine ih hn2 (s := s1) (by rw [hp]; exact hs.set (he e (by simp)).1 (he e (by simp)).2 p)
        (fun l hl => (hmem l hl).elim (h0 l) (fun h => by omega)) hc1 (fun b hb => ?_) (fun a ha => ⟨fun hm => ?_, (he a (by simp [ha])).2⟩)
      · refine le_trans ?_ (hcnt b hb)
        rw [hp]
        have hne : (e : Int) ≠ b := fun h => (he e (by simp)).2 (h ▸ hb)
        by_cases hlt : p < s.1.length
        · rw [List.count_set hlt, if_neg (c := ((e : Int) == b) = true) (by simpa using hne), Nat.add_zero]
          exact Nat.sub_le _ _
        · rw [List.set_eq_of_length_le (by omega)]
      · rcases hmem _ hm with h' | h'
        · exact (he a (by simp [ha])).1 h'
        · exact hn1 (by rw [← Int.natCast_inj.1 h']; exact ha)

theorem repair_congr {dist dist' : Nat → Nat → Except PyErr δ} {t : List Int} {nb : Nat} (h0 : ∀ l ∈ t, 0 ≤ l)
    (hd : ∀ p c : Nat, t[p]? = some (c : Int) → 1 < t.count (c : Int) → dist p c = dist' p c) :
    mpcRepair dist nb t = mpcRepair dist' nb t := by
  obtain ⟨counts, ec, hc, -, -⟩ := bincount_ok h0 nb
  unfold mpcRepair
  simp only [bind, Except.bind, ec]
  have := fill_congr hd (E := emptyClusters counts) (List.nodup_range.filter _) (s := (t, counts)) (Filled.refl t) h0 hc (fun _ _ => le_rfl)
    (fun e he => ⟨((mem_emptyClusters hc).1 he).2, ((mem_emptyClusters hc).1 he).2⟩)
  rw [this]

theorem repair_filled {dist : Nat → Nat → Except PyErr δ} {t r : List Int} {nb : Nat} (h0 : ∀ l ∈ t, 0 ≤ l) (h : mpcRepair dist nb t = .ok r) :
    Filled t r := by
  obtain ⟨counts, ec, hc, -, -⟩ := bincount_ok h0 nb
  unfold mpcRepair at h
  simp only [bind, Except.bind, ec] at h
  cases h1 : (emptyClusters counts).foldlM (mpcFillStep dist) (t, counts) with
  | error x => rw [h1] at h; cases h
  | ok s =>
    simp only [h1] at h
    split at h
    · cases h
    · cases h
      exact fill_filled (List.nodup_range.filter _) (s := (t, counts)) (Filled.refl t)
        (fun e he => ⟨((mem_emptyClusters hc).1 he).2, ((mem_emptyClusters hc).1 he).2⟩) h1

end

section
variable {κ : Type} [Field κ] [LinearOrder κ] [IsStrictOrderedRing κ] {D : Nat}

omit [LinearOrder κ] [IsStrictOrderedRing κ] in
/-- Moving a point into an empty cluster and its centre to this point saves its distance. -/
theorem cost_move_lt {X : List (Fin D → κ)} {A : Fin D → κ} {labels : List Int} (hl : labels.length = X.length)
    (h0 : ∀ l ∈ labels, 0 ≤ l) {e : Nat} (he : (e : Int) ∉ labels) {p k : Nat} (hp : labels[p]? = some (k : Int)) (c : Nat → Fin D → κ) :
    costOf X (labels.set p (e : Int)) (fun k => if k = e then coord X p else c k) A + mpcDist A (coord X p) (c k) = costOf X labels c A := by
  have hpl := (List.getElem?_eq_some_iff.1 hp).1
  have hpm : p ∈ Finset.range X.length := Finset.mem_range.2 (by omega)
  unfold costOf
  rw [← Finset.add_sum_erase _ _ hpm, ← Finset.add_sum_erase (Finset.range X.length) (fun i => ∑ d, A d * (coord X i d - c (labelAt labels i).toNat d) ^ 2) hpm]
  have e1 : (∑ d, A d * (coord X p d - (fun k => if k = e then coord X p else c k) (labelAt (labels.set p (e : Int)) p).toNat d) ^ 2) = 0 := by
    rw [labelAt_get (List.getElem?_set_self hpl), Int.toNat_natCast]
    simp
  have e2 : ∑ d, A d * (coord X p d - c (labelAt labels p).toNat d) ^ 2 = mpcDist A (coord X p) (c k) := by
    rw [labelAt_get hp, Int.toNat_natCast]
    rfl
  have e3 : (∑ i ∈ (Finset.range X.length).erase p, ∑ d, A d * (coord X i d - (fun k => if k = e then coord X p else c k)
      (labelAt (labels.set p (e : Int)) i).toNat d) ^ 2) =
      ∑ i ∈ (Finset.range X.length).erase p, ∑ d, A d * (coord X i d - c (labelAt labels i).toNat d) ^ 2 := by
    refine Finset.sum_congr rfl fun i hi => ?_
    obtain ⟨hip, hi⟩ := Finset.mem_erase.1 hi
    have hi : i < labels.length := by rw [hl]; exact Finset.mem_range.1 hi
    have hli := List.getElem?_eq_getElem hi
    have : (labels.set p (e : Int))[i]? = some labels[i] := by rw [List.getElem?_set_ne (fun h => hip h.symm)]; exact hli
    rw [labelAt_get this, labelAt_get hli]
    simp only
    rw [if_neg]
    intro h
    apply he
    rw [← h, Int.toNat_of_nonneg (h0 _ (List.getElem_mem hi))]
    exact List.getElem_mem hi
  rw [e1, e2, e3]
  ring

/-- If a cluster was empty, the repair saves the distance of a point that is farthest from its centre. -/
theorem cost_repair_lt {X : List (Fin D → κ)} {A : Fin D → κ} (hA : ∀ d, 0 < A d) {nb : Nat} {t r : List Int} {c : Nat → Fin D → κ}
    {dist : Nat → Nat → Except PyErr κ} (hval : ∀ (q b : Nat) (v : κ), dist q b = .ok v → v = mpcDist A (coord X q) (c b))
    (hl : t.length = X.length) (h0 : ∀ l ∈ t, 0 ≤ l) (hu : ¬ AllUsed nb t) (h : mpcRepair dist nb t = .ok r) :
    ∃ (c' : Nat → Fin D → κ) (v : κ), 0 ≤ v ∧ costOf X r c' A + v ≤ costOf X t c A ∧
      ∀ q b : Nat, t[q]? = some (b : Int) → 1 < t.count (b : Int) → mpcDist A (coord X q) (c b) ≤ v := by
  obtain ⟨counts, ec, hcs, hmin, -⟩ := bincount_ok h0 nb
  unfold mpcRepair at h
  simp only [bind, Except.bind, ec] at h
  cases h1 : (emptyClusters counts).foldlM (mpcFillStep dist) (t, counts) with
  | error x => rw [h1] at h; cases h
  | ok s =>
    simp only [h1] at h
    split at h
    · cases h
    · cases h
      have hne : emptyClusters counts ≠ [] := by
        intro hnil
        apply hu
        intro c hcn
        by_contra hm
        have : c ∈ emptyClusters counts := (mem_emptyClusters hcs).2 ⟨by omega, hm⟩
        rw [hnil] at this
        cases this
      have hEn : (emptyClusters counts).Nodup := List.nodup_range.filter _
      have hEe : ∀ e ∈ emptyClusters counts, (e : Int) ∉ t := fun e he => ((mem_emptyClusters hcs).1 he).2
      revert h1 hne hEn hEe
      generalize emptyClusters counts = E
      intro h1 hne hEn hEe
      cases E with
      | nil => exact absurd rfl hne
      | cons e E =>
        rw [List.foldlM_cons] at h1
        cases h2 : mpcFillStep dist (t, counts) e with
        | error x => rw [h2] at h1; cases h1
        | ok s1 =>
          rw [h2] at h1
          obtain ⟨p, k, v, p1, p2, p3, p4, p5, p6⟩ := mpcFillStep_far hcs h0 h2
          have hv := hval p k v p3
          obtain ⟨hn1, hn2⟩ := List.nodup_cons.1 hEn
          have hmem : ∀ l ∈ s1.1, l ∈ t ∨ l = e := by
            intro l hl
            rw [p4] at hl
            exact List.mem_or_eq_of_mem_set hl
          obtain ⟨c', hc'⟩ := cost_fill hA hn2 (s := s1) (X := X) (by rw [p4, List.length_set]; exact hl)
            (fun l hl => (hmem l hl).elim (h0 l) (fun h => by omega))
            (fun a ha hm => (hmem _ hm).elim (hEe a (by simp [ha])) (fun h => hn1 (by rw [← Int.natCast_inj.1 h]; exact ha)))
            (fun k => if k = e then coord X p else c k) h1
          refine ⟨c', v, by rw [hv]; exact mpcDist_nonneg hA _ _, ?_, fun q b hq hb => ?_⟩
          · have := cost_move_lt (A := A) hl h0 (hEe e (by simp)) p1 c
            rw [p4] at hc'
            rw [hv]
            linarith
          · obtain ⟨v', hv', hle⟩ := p6 q b hq hb
            rw [← hval q b v' hv']
            exact hle

end

end Verif
