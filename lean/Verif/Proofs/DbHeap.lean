import Verif.Model.DbHeap
import Verif.Proofs.InferredHier

/-
Lemmas for C106: lists as objects and lists as values give the same C-DBScan.
-/

set_option linter.unusedSectionVars false

namespace Verif

variable {α V δ : Type} [LinearOrder α] [LinearOrder δ]

/-! ### Dictionaries of addresses -/

/-- The dictionary `v` of lists is what the dictionary `d` of addresses contains. -/
def ReadsAs (h : Lists α) (d : Dict α Nat) (v : Dict α (List α)) : Prop :=
  List.Forall₂ (fun p q => q.1 = p.1 ∧ h[p.2]? = some q.2) d v

/-- The objects `h0` are still there, and the addresses of `d` are different new objects. -/
structure OwnLists (h0 h : Lists α) (d : Dict α Nat) : Prop where
  kept : h0 <+: h
  nodup : (dvals d).Nodup
  fresh : ∀ a ∈ dvals d, h0.length ≤ a

theorem getElem?_append_of {h l : Lists α} {a : Nat} {x : List α} (e : h[a]? = some x) : (h ++ l)[a]? = some x := by
  have := (List.getElem?_eq_some_iff.1 e).1
  rw [List.getElem?_append_left this, e]

theorem ReadsAs.append {h : Lists α} {d : Dict α Nat} {v : Dict α (List α)} (r : ReadsAs h d v) (l : Lists α) :
    ReadsAs (h ++ l) d v :=
  List.Forall₂.imp (fun _ _ e => ⟨e.1, getElem?_append_of e.2⟩) r

theorem ReadsAs.prefix {h h' : Lists α} {d : Dict α Nat} {v : Dict α (List α)} (r : ReadsAs h d v) (hp : h <+: h') :
    ReadsAs h' d v := by
  obtain ⟨l, rfl⟩ := hp
  exact r.append l

theorem ReadsAs.keys {h : Lists α} {d : Dict α Nat} {v : Dict α (List α)} (r : ReadsAs h d v) : dkeys v = dkeys d := by
  induction r with
  | nil => rfl
  | cons e _ ih => rw [dkeys_cons, dkeys_cons, ih, e.1]

theorem ReadsAs.length {h : Lists α} {d : Dict α Nat} {v : Dict α (List α)} (r : ReadsAs h d v) : v.length = d.length :=
  (List.Forall₂.length_eq r).symm

theorem ReadsAs.lt {h : Lists α} {d : Dict α Nat} {v : Dict α (List α)} (r : ReadsAs h d v) : ∀ a ∈ dvals d, a < h.length := by
  induction r with
  | nil => intro a ha; cases ha
  | cons e _ ih =>
    intro a ha
    rcases List.mem_cons.1 ha with rfl | ha
    · exact (List.getElem?_eq_some_iff.1 e.2).1
    · exact ih a ha

theorem ReadsAs.dset {h : Lists α} {d : Dict α Nat} {v : Dict α (List α)} (r : ReadsAs h d v) {a : Nat} {l : List α}
    (e : h[a]? = some l) (k : α) : ReadsAs h (dset d k a) (dset v k l) := by
  induction r with
  | nil => exact .cons ⟨rfl, e⟩ .nil
  | @cons p q _ _ e1 r ih =>
    obtain ⟨k1, a1⟩ := p
    obtain ⟨k2, l2⟩ := q
    obtain ⟨rfl, e2⟩ := e1
    unfold Verif.dset
    by_cases hk : k2 = k
    · simp only [hk, if_true]
      exact .cons ⟨rfl, e⟩ r
    · simp only [hk, if_false]
      exact .cons ⟨rfl, e2⟩ ih

theorem ReadsAs.dpop {h : Lists α} {d : Dict α Nat} {v : Dict α (List α)} (r : ReadsAs h d v) (k : α) :
    ReadsAs h (dpop d k) (dpop v k) := by
  induction r with
  | nil => exact .nil
  | @cons p q _ _ e1 r ih =>
    obtain ⟨k1, a1⟩ := p
    obtain ⟨k2, l2⟩ := q
    obtain ⟨rfl, e2⟩ := e1
    unfold Verif.dpop
    by_cases hk : k2 = k
    · simp only [hk, List.filter_cons, ne_eq, not_true, decide_false, Bool.false_eq_true, if_false]
      exact ih
    · simp only [hk, List.filter_cons, ne_eq, not_false_eq_true, decide_true, if_true]
      exact .cons ⟨rfl, e2⟩ ih

theorem ReadsAs.get {h : Lists α} {d : Dict α Nat} {v : Dict α (List α)} (r : ReadsAs h d v) (k : α) :
    SameOutcome (fun a l => dget? d k = some a ∧ h[a]? = some l) (dget d k) (dget v k) := by
  induction r with
  | nil => exact rfl
  | @cons p q _ _ e1 r ih =>
    obtain ⟨k1, a1⟩ := p
    obtain ⟨k2, l2⟩ := q
    obtain ⟨rfl, e2⟩ := e1
    unfold Verif.dget at ih ⊢
    by_cases hk : k2 = k
    · simp only [Verif.dget?, hk, if_true]
      exact ⟨rfl, e2⟩
    · simp only [Verif.dget?, hk, if_false]
      exact ih

/-- `self.…[k]` as a value. -/
theorem ReadsAs.content {h : Lists α} {d : Dict α Nat} {v : Dict α (List α)} (r : ReadsAs h d v) (k : α) :
    SameOutcome (fun l l' => l' = l) (do listAt h (← dget d k)) (dget v k) := by
  have := r.get k
  revert this
  cases dget d k with
  | error e => cases dget v k with
    | error e' => exact fun h => h
    | ok l => exact fun h => h.elim
  | ok a => cases dget v k with
    | error e' => exact fun h => h.elim
    | ok l =>
      intro e
      show SameOutcome _ (listAt h a) _
      unfold listAt
      rw [e.2]
      exact rfl

theorem listAt_of {h : Lists α} {a : Nat} {l : List α} (e : h[a]? = some l) : listAt h a = .ok l := by
  unfold listAt; rw [e]

theorem ReadsAs.listsAt {h : Lists α} {d : Dict α Nat} {v : Dict α (List α)} (r : ReadsAs h d v) : listsAt h d = .ok v := by
  unfold Verif.listsAt
  induction r with
  | nil => rfl
  | @cons p q _ _ e1 r ih =>
    rw [List.mapM_cons, ih, listAt_of e1.2, ← e1.1]
    rfl

theorem ReadsAs.set_of_notMem {h : Lists α} {d : Dict α Nat} {v : Dict α (List α)} (r : ReadsAs h d v) {a : Nat}
    (ha : a ∉ dvals d) (l : List α) : ReadsAs (h.set a l) d v := by
  induction r with
  | nil => exact .nil
  | @cons p q d v e _ ih =>
    refine .cons ⟨e.1, ?_⟩ (ih fun h => ha (List.mem_cons_of_mem _ h))
    have : a ≠ p.2 := fun h => ha (by rw [h]; exact List.mem_cons_self)
    rw [List.getElem?_set_ne this]
    exact e.2

theorem ReadsAs.set {h : Lists α} {d : Dict α Nat} {v : Dict α (List α)} (r : ReadsAs h d v) (hn : (dvals d).Nodup) {a : Nat}
    {k : α} (e : dget? d k = some a) (l : List α) : ReadsAs (h.set a l) d (Verif.dset v k l) := by
  induction r with
  | nil => cases e
  | @cons p q d v e1 r ih =>
    obtain ⟨k1, a1⟩ := p
    obtain ⟨k2, l2⟩ := q
    obtain ⟨rfl, e2⟩ := e1
    obtain ⟨hn1, hn2⟩ := List.nodup_cons.1 (show (a1 :: dvals d).Nodup from hn)
    unfold Verif.dset
    unfold Verif.dget? at e
    by_cases hk : k2 = k
    · simp only [hk, if_true] at e ⊢
      cases e
      refine .cons ⟨rfl, ?_⟩ (ReadsAs.set_of_notMem r hn1 l)
      show (h.set a l)[a]? = some l
      rw [List.getElem?_set_self (List.getElem?_eq_some_iff.1 e2).1]
    · simp only [hk, if_false] at e ⊢
      refine .cons ⟨rfl, ?_⟩ (ih hn2 e)
      have : a ∈ dvals d := List.mem_map.2 ⟨(k, a), mem_of_dget? e, rfl⟩
      have : a ≠ a1 := fun h => hn1 (by rw [← h]; exact this)
      show (h.set a l)[a1]? = some l2
      rw [List.getElem?_set_ne this]
      exact e2

theorem mem_dvals_dset {d : Dict α Nat} {k : α} {a b : Nat} (h : b ∈ dvals (dset d k a)) : b ∈ dvals d ∨ b = a := by
  induction d with
  | nil => exact .inr (by simpa [dset, dvals] using h)
  | cons p d ih =>
    obtain ⟨k1, a1⟩ := p
    unfold dset at h
    by_cases hk : k1 = k
    · simp only [hk, if_true] at h
      rcases List.mem_cons.1 h with rfl | h
      · exact .inr rfl
      · exact .inl (List.mem_cons_of_mem _ h)
    · simp only [hk, if_false] at h
      rcases List.mem_cons.1 h with rfl | h
      · exact .inl List.mem_cons_self
      · exact (ih h).imp (List.mem_cons_of_mem _) id

theorem nodup_dvals_dset {d : Dict α Nat} (hn : (dvals d).Nodup) {a : Nat} (ha : a ∉ dvals d) (k : α) :
    (dvals (dset d k a)).Nodup := by
  induction d with
  | nil => exact List.nodup_singleton _
  | cons p d ih =>
    obtain ⟨k1, a1⟩ := p
    obtain ⟨hn1, hn2⟩ := List.nodup_cons.1 (show (a1 :: dvals d).Nodup from hn)
    have ha1 : a ≠ a1 := fun h => ha (h ▸ List.mem_cons_self)
    have ha2 : a ∉ dvals d := fun h => ha (List.mem_cons_of_mem _ h)
    unfold dset
    by_cases hk : k1 = k
    · simp only [hk, if_true]
      exact List.nodup_cons.2 ⟨ha2, hn2⟩
    · simp only [hk, if_false]
      refine List.nodup_cons.2 ⟨fun h => ?_, ih hn2 ha2⟩
      rcases mem_dvals_dset h with h | h
      · exact hn1 h
      · exact ha1 h.symm

theorem dvals_dpop_sublist (d : Dict α Nat) (k : α) : (dvals (dpop d k)).Sublist (dvals d) :=
  List.Sublist.map _ List.filter_sublist

theorem dset_dset_same {ν : Type} (d : Dict α ν) (k : α) (a b : ν) : dset (dset d k a) k b = dset d k b := by
  induction d with
  | nil => simp [dset]
  | cons p d ih =>
    unfold dset
    by_cases hk : p.1 = k
    · simp [hk, dset]
    · simp [hk, dset, ih]

theorem dset_get_same {ν : Type} {d : Dict α ν} {k : α} {a : ν} (h : dget? d k = some a) : dset d k a = d := by
  induction d with
  | nil => cases h
  | cons p d ih =>
    obtain ⟨k1, a1⟩ := p
    unfold dget? at h
    unfold dset
    by_cases hk : k1 = k
    · simp only [hk, if_true] at h ⊢
      cases h; rfl
    · simp only [hk, if_false] at h ⊢
      rw [ih h]

/-- A new list object under key `k`. -/
theorem ReadsAs.add {h : Lists α} {d : Dict α Nat} {v : Dict α (List α)} (r : ReadsAs h d v) (k : α) (l : List α) :
    ReadsAs (h ++ [l]) (Verif.dset d k h.length) (Verif.dset v k l) :=
  (r.append [l]).dset (by simp) k

theorem OwnLists.add {h0 h : Lists α} {d : Dict α Nat} {v : Dict α (List α)} (o : OwnLists h0 h d) (r : ReadsAs h d v) (k : α)
    (l : List α) : OwnLists h0 (h ++ [l]) (dset d k h.length) where
  kept := o.kept.trans (List.prefix_append _ _)
  nodup := nodup_dvals_dset o.nodup (fun hm => Nat.lt_irrefl _ (r.lt _ hm)) k
  fresh a ha := by
    rcases mem_dvals_dset ha with h | rfl
    · exact o.fresh a h
    · exact o.kept.length_le

theorem OwnLists.append {h0 h : Lists α} {d : Dict α Nat} (o : OwnLists h0 h d) (l : Lists α) : OwnLists h0 (h ++ l) d :=
  ⟨o.kept.trans (List.prefix_append _ _), o.nodup, o.fresh⟩

theorem OwnLists.prefix {h0 h h' : Lists α} {d : Dict α Nat} (o : OwnLists h0 h d) (hp : h <+: h') : OwnLists h0 h' d :=
  ⟨o.kept.trans hp, o.nodup, o.fresh⟩

theorem OwnLists.dpop {h0 h : Lists α} {d : Dict α Nat} (o : OwnLists h0 h d) (k : α) : OwnLists h0 h (dpop d k) :=
  ⟨o.kept, o.nodup.sublist (dvals_dpop_sublist d k), fun a ha => o.fresh a ((dvals_dpop_sublist d k).subset ha)⟩

/-! ### Local clusters -/

/-- Labels, local clusters and objects, against labels and local clusters. -/
structure LocalsAs (h0 : Lists α) (s : Dict α DLabel × Dict α Nat × Lists α) (s' : Dict α DLabel × Dict α (List α)) : Prop where
  labels : s'.1 = s.1
  reads : ReadsAs s.2.2 s.2.1 s'.2
  own : OwnLists h0 s.2.2 s.2.1

theorem dbLocalStepH_same (p : DbParams δ) (m : Manager α) (table : Dict α (Dict α δ)) (ids : List α) {h0 : Lists α}
    {s : Dict α DLabel × Dict α Nat × Lists α} {s' : Dict α DLabel × Dict α (List α)} (r : LocalsAs h0 s s') (x : α) :
    SameOutcome (LocalsAs h0) (dbLocalStepH p m table ids s x) (dbLocalStep p m table ids s' x) := by
  obtain ⟨labels, locals, h⟩ := s
  obtain ⟨labels', locals'⟩ := s'
  obtain ⟨e, r1, o⟩ := r
  simp only at e r1 o
  subst e
  unfold dbLocalStepH dbLocalStep
  refine (SameOutcome.of_eq rfl).bind ?_
  rintro _ lab rfl
  by_cases hl : lab ≠ .singleCore
  · simp only [if_pos hl]
    refine (SameOutcome.of_eq rfl).bind ?_
    rintro _ ns rfl
    refine (SameOutcome.of_eq rfl).bind ?_
    rintro _ conflict rfl
    by_cases h1 : ns.length < p.minSamples
    · simp only [if_pos h1]
      exact ⟨rfl, r1, o⟩
    · simp only [if_neg h1]
      by_cases h2 : conflict = true
      · simp only [if_pos h2]
        show LocalsAs h0 _ _
        clear h1
        generalize hs : (labels', locals, h) = s
        have hr : LocalsAs h0 s (labels', locals') := by subst hs; exact ⟨rfl, r1, o⟩
        generalize (labels', locals') = s' at hr
        clear hs
        induction ns generalizing s s' with
        | nil => exact hr
        | cons y ns ih =>
          rw [List.foldl_cons, List.foldl_cons]
          refine ih _ _ ?_
          exact ⟨by show dset s'.1 y DLabel.singleCore = dset s.1 y DLabel.singleCore; rw [hr.labels], hr.reads.add y _, hr.own.add hr.reads y _⟩
      · simp only [if_neg h2]
        exact ⟨rfl, r1.add x _, o.add r1 x _⟩
  · simp only [if_neg hl]
    exact ⟨rfl, r1, o⟩

theorem dbLocalsH_same (p : DbParams δ) (m : Manager α) (table : Dict α (Dict α δ)) (ids : List α) (h0 : Lists α) :
    SameOutcome (LocalsAs h0) (dbLocalsH p m table ids h0) (dbLocals p m table ids) :=
  SameOutcome.foldlM_same ⟨rfl, .nil, ⟨List.prefix_refl _, List.nodup_nil, fun _ h => (List.not_mem_nil h).elim⟩⟩
    fun _ _ x hs => dbLocalStepH_same p m table ids hs x

/-! ### Core clusters -/

section
variable {h1 : Lists α} {locals : Dict α Nat} {vlocals : Dict α (List α)} (rl : ReadsAs h1 locals vlocals)
include rl

theorem dbOwnH_same (labels : Dict α DLabel) (clustersOf : Dict α (List α)) {h : Lists α} (hp : h1 <+: h) (x : α) :
    SameOutcome (fun t t' => t'.1 = t.1 ∧ t.2.2[t.2.1]? = some t'.2 ∧ h <+: t.2.2)
      (dbOwnH labels locals clustersOf h x) (dbOwn labels vlocals clustersOf x) := by
  unfold dbOwnH dbOwn
  refine (SameOutcome.of_eq rfl).bind ?_
  rintro _ lab rfl
  by_cases hl : lab = .noise
  · simp only [if_pos hl]
    exact ⟨rfl, by simp, List.prefix_append _ _⟩
  · simp only [if_neg hl]
    rw [rl.keys]
    by_cases hx : x ∈ dkeys locals
    · simp only [if_pos hx]
      exact ((rl.prefix hp).get x).bind fun a l e => ⟨rfl, e.2, List.prefix_refl _⟩
    · simp only [if_neg hx]
      refine (SameOutcome.of_eq rfl).bind ?_
      rintro _ c rfl
      exact ((rl.prefix hp).get c).bind fun a l e => ⟨rfl, e.2, List.prefix_refl _⟩

theorem dbPartnerH_same (labels : Dict α DLabel) (clustersOf : Dict α (List α)) {h : Lists α} (hp : h1 <+: h) (y : α) :
    SameOutcome (fun t o => optListAt t.2 t.1 = .ok o ∧ h <+: t.2)
      (dbPartnerH labels locals clustersOf h y) (dbPartner labels vlocals clustersOf y) := by
  unfold dbPartnerH dbPartner
  refine (SameOutcome.of_eq rfl).bind ?_
  rintro _ lab rfl
  by_cases hl : lab = .noise
  · simp only [if_pos hl]
    exact ⟨rfl, List.prefix_refl _⟩
  · simp only [if_neg hl]
    rw [rl.keys]
    by_cases hx : y ∈ dkeys locals
    · simp only [if_pos hx]
      refine ⟨?_, List.prefix_append _ _⟩
      show (do return some (← listAt (h ++ [[y]]) h.length) : Except PyErr _) = _
      rw [listAt_of (l := [y]) (by simp)]
      rfl
    · simp only [if_neg hx]
      refine (SameOutcome.of_eq rfl).bind ?_
      rintro _ c rfl
      refine ((rl.prefix hp).get c).bind fun a l e => ⟨?_, List.prefix_refl _⟩
      show (do return some (← listAt h a) : Except PyErr _) = _
      rw [listAt_of e.2]
      rfl

/-- Assignments, core clusters and objects, against assignments and core clusters. -/
structure CoresAs (h1 : Lists α) (s : Dict α α × Dict α Nat × Lists α) (s' : Dict α α × Dict α (List α)) : Prop where
  assigned : s'.1 = s.1
  reads : ReadsAs s.2.2 s.2.1 s'.2
  own : OwnLists h1 s.2.2 s.2.1

theorem dbLinkStepH_same (env : DbEnv α V δ) (labels : Dict α DLabel) (clustersOf : Dict α (List α)) (x c : α) {a : Nat}
    {points : List α} {s : Dict α α × Dict α Nat × Lists α} {s' : Dict α α × Dict α (List α)} (r : CoresAs h1 s s')
    (ha : s.2.2[a]? = some points) (y : α) :
    SameOutcome (fun t t' => CoresAs h1 t t' ∧ t.2.2[a]? = some points)
      (dbLinkStepH env labels locals clustersOf x c a s y) (dbLinkStep env labels vlocals clustersOf x c points s' y) := by
  obtain ⟨assigned, cores, h⟩ := s
  obtain ⟨assigned', cores'⟩ := s'
  obtain ⟨e, r1, o⟩ := r
  simp only at e r1 o ha
  subst e
  unfold dbLinkStepH dbLinkStep
  refine (dbPartnerH_same rl labels clustersOf o.kept y).bind ?_
  rintro ⟨partner, h'⟩ others ⟨e1, hp⟩
  simp only at e1 hp ⊢
  rw [e1]
  have ha' : h'[a]? = some points := by obtain ⟨l, rfl⟩ := hp; exact getElem?_append_of ha
  rw [listAt_of ha']
  simp only [bind, Except.bind]
  cases (dbAll env points others).foldlM (dbTake env c) (assigned', []) with
  | error e => exact rfl
  | ok t =>
    simp only
    have hr := (r1.prefix hp).content c
    revert hr
    simp only [bind, Except.bind]
    cases dget cores c with
    | error e => cases dget cores' c with
      | error e' => exact fun h => h
      | ok l => exact fun h => h.elim
    | ok b =>
      simp only
      cases listAt h' b with
      | error e => cases dget cores' c with
        | error e' => exact fun h => h
        | ok l => exact fun h => h.elim
      | ok old => cases dget cores' c with
        | error e' => exact fun h => h.elim
        | ok l =>
          intro e
          cases e
          exact ⟨⟨rfl, (r1.prefix hp).add c _, (o.prefix hp).add (r1.prefix hp) c _⟩, getElem?_append_of ha'⟩

theorem dbMergeStepH_same (env : DbEnv α V δ) (labels : Dict α DLabel) (clustersOf compatible : Dict α (List α))
    {s : List α × Dict α α × Dict α Nat × Lists α} {s' : List α × Dict α α × Dict α (List α)} (e : s'.1 = s.1)
    (r : CoresAs h1 s.2 s'.2) (x : α) :
    SameOutcome (fun t t' => t'.1 = t.1 ∧ CoresAs h1 t.2 t'.2)
      (dbMergeStepH env labels locals clustersOf compatible s x) (dbMergeStep env labels vlocals clustersOf compatible s' x) := by
  unfold dbMergeStepH dbMergeStep
  rw [e]
  by_cases hx : x ∉ s.1
  · simp only [if_pos hx]
    refine (SameOutcome.of_eq rfl).bind ?_
    rintro _ ys rfl
    by_cases hy : ys = []
    · simp only [if_pos hy]
      exact ⟨rfl, r⟩
    · simp only [if_neg hy]
      refine (dbOwnH_same rl labels clustersOf r.own.kept x).bind ?_
      rintro ⟨c, a, h⟩ ⟨c', points⟩ ⟨e1, e2, hp⟩
      simp only at e1 e2 hp ⊢
      subst e1
      refine SameOutcome.bind (R := fun t t' => CoresAs h1 t t' ∧ t.2.2[a]? = some points)
        (SameOutcome.foldlM_same ⟨⟨r.assigned, r.reads.prefix hp, r.own.prefix hp⟩, e2⟩ fun t t' y ht =>
          dbLinkStepH_same rl env labels clustersOf x c' ht.1 ht.2 y) ?_
      intro t t' ht
      exact ⟨rfl, ht.1⟩
  · simp only [if_neg hx]
    exact ⟨e, r⟩

omit rl in
theorem dbEmptyH_same (h1 : Lists α) (ids : List α) :
    ReadsAs (ids.foldl dbEmptyH ([], h1)).2 (ids.foldl dbEmptyH ([], h1)).1 (dofList (ids.map fun x => (x, []))) ∧
    OwnLists h1 (ids.foldl dbEmptyH ([], h1)).2 (ids.foldl dbEmptyH ([], h1)).1 := by
  unfold dofList
  rw [List.foldl_map]
  have key : ∀ (s : Dict α Nat × Lists α) (v : Dict α (List α)), ReadsAs s.2 s.1 v → OwnLists h1 s.2 s.1 →
      ReadsAs (ids.foldl dbEmptyH s).2 (ids.foldl dbEmptyH s).1 (ids.foldl (fun d x => dset d x []) v) ∧
      OwnLists h1 (ids.foldl dbEmptyH s).2 (ids.foldl dbEmptyH s).1 := by
    induction ids with
    | nil => exact fun s v r o => ⟨r, o⟩
    | cons x ids ih =>
      intro s v r o
      rw [List.foldl_cons, List.foldl_cons]
      exact ih _ _ (r.add x _) (o.add r x _)
  exact key ([], h1) [] .nil ⟨List.prefix_refl _, List.nodup_nil, fun _ h => (List.not_mem_nil h).elim⟩

omit rl in
theorem dbCleanH_same (assigned : Dict α α) {h : Lists α} {core : Dict α Nat} {vcore : Dict α (List α)} (r : ReadsAs h core vcore)
    (o : OwnLists h1 h core) (x : α) :
    SameOutcome (fun t t' => ReadsAs h t t' ∧ OwnLists h1 h t) (dbCleanH assigned h core x) (dbClean assigned vcore x) := by
  have e : dbCleanH assigned h core x = (do listAt h (← dget core x)) >>= fun c =>
      if c = [] then return dpop core x else do if (← dget assigned x) ≠ x then return dpop core x else return core := by
    unfold dbCleanH
    cases dget core x <;> rfl
  rw [e]
  unfold dbClean
  refine (r.content x).bind ?_
  rintro _ c rfl
  by_cases hc : c = []
  · simp only [if_pos hc]
    exact ⟨r.dpop x, o.dpop x⟩
  · simp only [if_neg hc]
    refine (SameOutcome.of_eq rfl).bind ?_
    rintro _ z rfl
    by_cases hz : z ≠ x
    · simp only [if_pos hz]
      exact ⟨r.dpop x, o.dpop x⟩
    · simp only [if_neg hz]
      exact ⟨r, o⟩

omit rl in
theorem dbCleanSingleH_same {h : Lists α} {core : Dict α Nat} {vcore : Dict α (List α)} (r : ReadsAs h core vcore)
    (o : OwnLists h1 h core) (x : α) :
    SameOutcome (fun t t' => ReadsAs h t t' ∧ OwnLists h1 h t) (dbCleanSingleH h core x) (dbCleanSingle vcore x) := by
  unfold dbCleanSingleH dbCleanSingle
  rw [r.keys]
  by_cases hx : x ∈ dkeys core
  · simp only [if_pos hx]
    have e : (do if (← listAt h (← dget core x)).length < 2 then return dpop core x else return core : Except PyErr (Dict α Nat)) =
        (do listAt h (← dget core x)) >>= fun c => if c.length < 2 then return dpop core x else return core := by
      cases dget core x <;> rfl
    rw [e]
    refine (r.content x).bind ?_
    rintro _ c rfl
    by_cases hc : c.length < 2
    · simp only [if_pos hc]
      exact ⟨r.dpop x, o.dpop x⟩
    · simp only [if_neg hc]
      exact ⟨r, o⟩
  · simp only [if_neg hx]
    exact ⟨r, o⟩

theorem dbCoresH_same (env : DbEnv α V δ) (m : Manager α) (ids : List α) (labels : Dict α DLabel) :
    SameOutcome (fun t t' => ReadsAs t.2 t.1 t' ∧ OwnLists h1 t.2 t.1)
      (dbCoresH env m ids labels locals h1) (dbCores env m ids labels vlocals) := by
  unfold dbCoresH dbCores
  refine (SameOutcome.of_eq rfl).bind ?_
  rintro _ compatible rfl
  rw [rl.listsAt]
  refine SameOutcome.bind (R := fun v v' => v = vlocals ∧ v' = vlocals) (a' := .ok vlocals)
    (k' := fun _ => _) ⟨rfl, rfl⟩ ?_
  rintro _ _ ⟨rfl, rfl⟩
  obtain ⟨r0, o0⟩ := dbEmptyH_same h1 ids
  refine SameOutcome.bind (R := fun t t' => t'.1 = t.1 ∧ CoresAs h1 t.2 t'.2)
    (SameOutcome.foldlM_same ⟨rfl, ⟨rfl, r0, o0⟩⟩ fun t t' x ht => dbMergeStepH_same rl env labels _ _ ht.1 ht.2 x) ?_
  rintro ⟨seen, assigned, core, h⟩ ⟨seen', assigned', vcore⟩ ⟨-, e, r, o⟩
  simp only at e r o ⊢
  subst e
  refine SameOutcome.bind (R := fun t t' => ReadsAs h t t' ∧ OwnLists h1 h t)
    (SameOutcome.foldlM_same ⟨r, o⟩ fun t t' x ht => dbCleanH_same assigned' ht.1 ht.2 x) ?_
  intro t t' ht
  have := SameOutcome.foldlM_same (S := fun t t' => ReadsAs h t t' ∧ OwnLists h1 h t) (l := ids) ht
    fun t t' x ht => dbCleanSingleH_same ht.1 ht.2 x
  revert this
  cases ids.foldlM (dbCleanSingleH h) t with
  | error e => cases ids.foldlM dbCleanSingle t' with
    | error e' => exact fun h => h
    | ok t1' => exact fun h => h.elim
  | ok t1 => cases ids.foldlM dbCleanSingle t' with
    | error e' => exact fun h => h.elim
    | ok t1' => exact fun h => h

end

/-! ### Growing core clusters -/

/-- Core clusters, local clusters and objects, against core clusters and local clusters. -/
structure GrowAs (h0 h1 : Lists α) (s : Dict α Nat × Dict α Nat × Lists α) (s' : Dict α (List α) × Dict α (List α)) : Prop where
  cores : ReadsAs s.2.2 s.1 s'.1
  locals : ReadsAs s.2.2 s.2.1 s'.2
  ownCores : OwnLists h1 s.2.2 s.1
  ownLocals : OwnLists h0 s.2.2 s.2.1
  below : ∀ a ∈ dvals s.2.1, a < h1.length

theorem dbGrowH_same (env : DbEnv α V δ) (p : DbParams δ) (m : Manager α) (table : Dict α (Dict α δ)) {h0 h1 : Lists α} (x : α)
    (vcores : Dict α (List α)) (fuel : Nat) {s : Dict α Nat × Dict α Nat × Lists α} {c : List α} {vlocals : Dict α (List α)}
    (r : GrowAs h0 h1 s (dset vcores x c, vlocals)) :
    SameOutcome (fun t t' => GrowAs h0 h1 t (dset vcores x t'.1, t'.2))
      (dbGrowH env p m table x fuel s) (dbGrow env p m table fuel (c, vlocals)) := by
  induction fuel generalizing s c vlocals with
  | zero =>
    unfold dbGrowH dbGrow
    have hl := r.locals.length
    by_cases hs : s.2.1 = []
    · have : vlocals = [] := List.length_eq_zero_iff.1 (by rw [hl, hs]; rfl)
      subst this
      simp only [hs, ne_eq, not_true, if_false]
      exact r
    · have : vlocals ≠ [] := fun e => hs (List.length_eq_zero_iff.1 (by rw [← hl]; simp only [e, List.length_nil]))
      simp only [hs, this, ne_eq, not_false_eq_true, if_true]
      exact rfl
  | succ fuel ih =>
    unfold dbGrowH dbGrow
    have hl := r.locals.length
    by_cases hs : s.2.1 = []
    · have : vlocals = [] := List.length_eq_zero_iff.1 (by rw [hl, hs]; rfl)
      subst this
      simp only [hs, ne_eq, not_true, if_false]
      exact r
    · have hv : vlocals ≠ [] := fun e => hs (List.length_eq_zero_iff.1 (by rw [← hl]; simp only [e, List.length_nil]))
      rw [if_pos hs, if_pos (show (c, vlocals).2 ≠ [] from hv)]
      have hc := r.cores.content x
      rw [show dget (dset vcores x c) x = .ok c from dget_of_dget? (by rw [dget?_dset, if_pos rfl])] at hc
      simp only [bind, Except.bind] at hc ⊢
      cases ea : dget s.1 x with
      | error e => rw [ea] at hc; exact hc.elim
      | ok a =>
        rw [ea] at hc
        simp only at hc ⊢
        cases el : listAt s.2.2 a with
        | error e => rw [el] at hc; exact hc.elim
        | ok core =>
          rw [el] at hc
          have hc : c = core := hc
          subst hc
          simp only
          rw [r.locals.listsAt]
          simp only
          cases dbDistances table c vlocals with
          | error e => exact rfl
          | ok distances =>
            simp only
            cases dbClosest distances with
            | error e => exact rfl
            | ok closest =>
              simp only
              cases dget distances closest with
              | error e => exact rfl
              | ok d =>
                simp only
                by_cases hd : p.eps < d
                · rw [if_pos hd, if_pos hd]
                  exact r
                · rw [if_neg hd, if_neg hd]
                  have hp := r.locals.content closest
                  simp only [bind, Except.bind] at hp
                  revert hp
                  cases dget s.2.1 closest with
                  | error e => cases dget vlocals closest with
                    | error e' => exact fun h => h
                    | ok l => exact fun h => h.elim
                  | ok b =>
                    simp only
                    cases listAt s.2.2 b with
                    | error e => cases dget vlocals closest with
                      | error e' => exact fun h => h
                      | ok l => exact fun h => h.elim
                    | ok points => cases dget vlocals closest with
                      | error e' => exact fun h => h.elim
                      | ok l =>
                        intro e
                        have e : l = points := e
                        subst e
                        simp only
                        cases dbConflict m c l with
                        | error e => exact rfl
                        | ok b =>
                          cases b with
                          | true => exact r
                          | false =>
                            simp only [Bool.false_eq_true, if_false]
                            refine ih ?_
                            have rc := r.cores.add x (env.enum (c ++ l))
                            rw [dset_dset_same] at rc
                            exact ⟨rc, (r.locals.dpop closest).append _, r.ownCores.add r.cores x _,
                              (r.ownLocals.dpop closest).append _,
                              fun a ha => r.below a ((dvals_dpop_sublist _ _).subset ha)⟩

theorem dbMergeAllH_same (env : DbEnv α V δ) (p : DbParams δ) (m : Manager α) (table : Dict α (Dict α δ)) {h0 h1 : Lists α}
    {cores locals : Dict α Nat} {h : Lists α} {vcores vlocals : Dict α (List α)}
    (r : GrowAs h0 h1 (cores, locals, h) (vcores, vlocals)) :
    SameOutcome (GrowAs h0 h1) (dbMergeAllH env p m table cores locals h) (dbMergeAll env p m table vcores vlocals) := by
  unfold dbMergeAllH dbMergeAll
  rw [r.cores.keys]
  suffices hk : ∀ l : List α, (∀ x ∈ l, x ∈ dkeys cores) → ∀ s s', dkeys s'.1 = dkeys cores → GrowAs h0 h1 s s' →
      SameOutcome (GrowAs h0 h1) (l.foldlM (fun s x => dbGrowH env p m table x s.2.1.length s) s) (l.foldlM (dbGrowStep env p m table) s') from
    hk _ (fun _ h => h) _ _ r.cores.keys r
  intro l
  induction l with
  | nil => exact fun _ s s' _ hs => hs
  | cons x l ih =>
    intro hl s s' hs' hs
    rw [List.foldlM_cons, List.foldlM_cons]
    have hx : x ∈ dkeys s'.1 := hs' ▸ hl x List.mem_cons_self
    obtain ⟨c, hc⟩ := dget?_isSome_of_mem hx
    refine SameOutcome.bind (R := fun t t' => dkeys t'.1 = dkeys cores ∧ GrowAs h0 h1 t t') ?_ fun t t' ht =>
      ih (fun y hy => hl y (List.mem_cons_of_mem _ hy)) t t' ht.1 ht.2
    unfold dbGrowStep
    rw [dget_of_dget? hc]
    have hr : GrowAs h0 h1 s (dset s'.1 x c, s'.2) := by rw [dset_get_same hc]; exact hs
    have := dbGrowH_same env p m table x s'.1 s'.2.length hr
    rw [hs.locals.length] at this ⊢
    revert this
    simp only [bind, Except.bind]
    cases dbGrowH env p m table x s.2.1.length s with
    | error e => cases dbGrow env p m table s.2.1.length (c, s'.2) with
      | error e' => exact fun h => h
      | ok t' => exact fun h => h.elim
    | ok t => cases dbGrow env p m table s.2.1.length (c, s'.2) with
      | error e' => exact fun h => h.elim
      | ok t' =>
        intro h
        refine ⟨?_, h⟩
        show dkeys (dset s'.1 x t'.1) = _
        rw [dkeys_dset_of_mem _ hx, hs']

/-! ### Final clusters -/

theorem dbRemoveH_fold {locals : Dict α Nat} {x : α} {a : Nat} (e : dget? locals x = some a) (l : List α) {h : Lists α} {r : List α}
    (hr : h[a]? = some r) :
    SameOutcome (fun h' r' => h' = h.set a r') (l.foldlM (dbRemoveH locals x) h) (l.foldlM dbRemove r) := by
  induction l generalizing h r with
  | nil =>
    show h = h.set a r
    obtain ⟨h1, rfl⟩ := List.getElem?_eq_some_iff.1 hr
    exact (List.set_getElem_self h1).symm
  | cons y l ih =>
    rw [List.foldlM_cons, List.foldlM_cons]
    have : dbRemoveH locals x h y = (do return h.set a (← dbRemove r y)) := by
      unfold dbRemoveH
      rw [dget_of_dget? e]
      show (do return h.set a (← dbRemove (← listAt h a) y)) = _
      rw [listAt_of hr]
      rfl
    rw [this]
    cases dbRemove r y with
    | error e => exact rfl
    | ok r1 =>
      have h1 : (h.set a r1)[a]? = some r1 := List.getElem?_set_self (List.getElem?_eq_some_iff.1 hr).1
      refine (ih h1).mono fun h' r' e' => ?_
      rw [e', List.set_set]

theorem prefix_set {h0 h : Lists α} (hp : h0 <+: h) {a : Nat} (ha : h0.length ≤ a) (l : List α) : h0 <+: h.set a l := by
  obtain ⟨t, rfl⟩ := hp
  rw [List.set_append_right _ _ ha]
  exact List.prefix_append _ _

/-- Objects against local clusters, the core clusters being read as before. -/
structure FinalAs (h0 : Lists α) (cores locals : Dict α Nat) (vcores : Dict α (List α)) (h : Lists α) (vlocals : Dict α (List α)) :
    Prop where
  readsCores : ReadsAs h cores vcores
  readsLocals : ReadsAs h locals vlocals
  own : OwnLists h0 h locals

theorem dbFinalLocalH_same (p : DbParams δ) {h0 : Lists α} {cores locals : Dict α Nat} {vcores : Dict α (List α)}
    (hd : ∀ a ∈ dvals locals, a ∉ dvals cores) {s : Lists α × Dict α Int × Int} {s' : Dict α (List α) × Dict α Int × Int}
    (e : s'.2 = s.2) (r : FinalAs h0 cores locals vcores s.1 s'.1) (x : α) :
    SameOutcome (fun t t' => t'.2 = t.2 ∧ FinalAs h0 cores locals vcores t.1 t'.1)
      (dbFinalLocalH p locals s x) (dbFinalLocal p s' x) := by
  obtain ⟨h, s2⟩ := s
  obtain ⟨v, s2'⟩ := s'
  simp only at e r
  subst e
  unfold dbFinalLocalH dbFinalLocal
  have hg := r.readsLocals.get x
  simp only [bind, Except.bind]
  revert hg
  cases dget locals x with
  | error e => cases dget v x with
    | error e' => exact fun h => h
    | ok l => exact fun h => h.elim
  | ok a => cases hv : dget v x with
    | error e' => exact fun h => h.elim
    | ok points =>
      rintro ⟨ha, hpts⟩
      simp only
      rw [listAt_of hpts]
      simp only
      have hf := dbRemoveH_fold ha (points.filter fun y => decide (y ∈ dkeys s2'.1)) hpts
      revert hf
      cases (points.filter fun y => decide (y ∈ dkeys s2'.1)).foldlM (dbRemoveH locals x) h with
      | error e => cases (points.filter fun y => decide (y ∈ dkeys s2'.1)).foldlM dbRemove points with
        | error e' => exact fun h => h
        | ok l => exact fun h => h.elim
      | ok h' => cases (points.filter fun y => decide (y ∈ dkeys s2'.1)).foldlM dbRemove points with
        | error e' => exact fun h => h.elim
        | ok rest =>
          intro e
          have e : h' = h.set a rest := e
          subst e
          have hm : a ∈ dvals locals := List.mem_map.2 ⟨(x, a), mem_of_dget? ha, rfl⟩
          simp only
          rw [listAt_of (l := rest) (List.getElem?_set_self (List.getElem?_eq_some_iff.1 hpts).1)]
          simp only
          have hr : FinalAs h0 cores locals vcores (h.set a rest) (dset v x rest) :=
            ⟨r.readsCores.set_of_notMem (hd a hm) rest, r.readsLocals.set r.own.nodup ha rest,
              ⟨prefix_set r.own.kept (r.own.fresh a hm) rest, r.own.nodup, r.own.fresh⟩⟩
          by_cases hb : p.enough rest.length = true
          · rw [if_pos hb, if_pos hb]
            exact ⟨rfl, hr⟩
          · rw [if_neg hb, if_neg hb]
            exact ⟨rfl, hr⟩

/-- The object with values that an object with addresses stands for. -/
structure ObjectAs (h0 : Lists α) (o : DbHeapObject α) (o' : DbObject α) : Prop where
  predicted : o'.predicted = o.predicted
  labels : o'.labels = o.labels
  regular : o'.regular = o.regular
  single : o'.single = o.single
  total : o'.total = o.total
  locals : ReadsAs o.lists o.locals o'.locals
  cores : ReadsAs o.lists o.cores o'.cores
  nodup : (dvals o.locals ++ dvals o.cores).Nodup
  fresh : ∀ a ∈ dvals o.locals ++ dvals o.cores, h0.length ≤ a
  kept : h0 <+: o.lists

theorem dbFinishH_same (p : DbParams δ) (ids : List α) (labels : Dict α DLabel) {h0 h1 : Lists α} (h01 : h0 <+: h1)
    {cores locals : Dict α Nat} {h : Lists α} {vcores vlocals : Dict α (List α)}
    (r : GrowAs h0 h1 (cores, locals, h) (vcores, vlocals)) :
    SameOutcome (ObjectAs h0) (dbFinishH p ids labels cores locals h) (dbFinish p ids labels vcores vlocals) := by
  unfold dbFinishH dbFinish
  rw [r.cores.listsAt]
  rw [r.locals.keys]
  refine SameOutcome.bind (R := fun v v' => v = vcores ∧ v' = vcores) (a' := .ok vcores)
    (k' := fun _ => _) ⟨rfl, rfl⟩ ?_
  rintro v v' ⟨e1, -⟩
  rw [e1]
  have hd : ∀ a ∈ dvals locals, a ∉ dvals cores := fun a ha hc => absurd (r.ownCores.fresh a hc) (not_le.2 (r.below a ha))
  refine SameOutcome.bind (R := fun t t' => t'.2 = t.2 ∧ FinalAs h0 cores locals vcores t.1 t'.1)
    (SameOutcome.foldlM_same ⟨rfl, ⟨r.cores, r.locals, r.ownLocals⟩⟩ fun t t' x ht => dbFinalLocalH_same p hd ht.1 ht.2 x) ?_
  rintro ⟨h', s⟩ ⟨v', s'⟩ ⟨e, hr⟩
  simp only at e hr
  subst e
  refine (SameOutcome.of_eq rfl).bind ?_
  rintro _ renamed rfl
  refine ⟨rfl, rfl, rfl, rfl, rfl, hr.readsLocals, hr.readsCores, ?_, ?_, hr.own.kept⟩
  · exact List.Nodup.append r.ownLocals.nodup r.ownCores.nodup fun a ha hc => hd a ha hc
  · intro a ha
    rcases List.mem_append.1 ha with ha | ha
    · exact r.ownLocals.fresh a ha
    · exact h01.length_le.trans (r.ownCores.fresh a ha)

theorem dbClusterH_same (env : DbEnv α V δ) (p : DbParams δ) (m : Manager α) (vectors : Option (Dict α V)) (nb : Option Int)
    (h0 : Lists α) : SameOutcome (ObjectAs h0) (dbClusterH env p m vectors nb h0) (dbCluster env p m vectors nb) := by
  unfold dbClusterH dbCluster
  cases vectors with
  | none => exact rfl
  | some vs =>
    cases nb with
    | some k => exact rfl
    | none =>
      refine (SameOutcome.of_eq rfl).bind ?_
      rintro _ table rfl
      refine (dbLocalsH_same p m table m.managed h0).bind ?_
      rintro ⟨labels, locals, h1⟩ ⟨labels', vlocals⟩ ⟨e, rl, ol⟩
      simp only at e rl ol ⊢
      subst e
      refine (dbCoresH_same rl env m m.managed labels').bind ?_
      rintro ⟨core, h2⟩ vcore ⟨rc, oc⟩
      simp only at rc oc ⊢
      have hg : GrowAs h0 h1 (core, locals, h2) (vcore, vlocals) :=
        ⟨rc, rl.prefix oc.kept, oc, ol.prefix oc.kept, rl.lt⟩
      refine (dbMergeAllH_same env p m table hg).bind ?_
      rintro ⟨cores, rest, h3⟩ ⟨vcores, vrest⟩ hr
      exact dbFinishH_same p m.managed labels' ol.kept hr

end Verif
