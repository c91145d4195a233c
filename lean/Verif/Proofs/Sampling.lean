import Mathlib.Data.List.Sort
import Verif.Spec.Sampling
import Verif.Proofs.Calls

/-
Lemmas on sampling.
-/

set_option linter.unusedSectionVars false

namespace Verif

section Generic
variable {ε ι κ : Type}

theorem filterAuxM_ok (f : ι → Except ε Bool) (l acc r : List ι) (h : List.filterAuxM f l acc = .ok r) :
    (∀ a ∈ l, ∃ b, f a = .ok b) ∧ r = (l.filter fun a => match f a with | .ok b => b | _ => false).reverse ++ acc := by
  induction l generalizing acc with
  | nil => simp only [List.filterAuxM, pure, Except.pure, Except.ok.injEq] at h; subst h; exact ⟨by simp, by simp⟩
  | cons a l ih =>
    rw [List.filterAuxM] at h
    cases hf : f a with
    | error e => rw [hf] at h; cases h
    | ok b =>
      rw [hf] at h
      have h' : List.filterAuxM f l (bif b then a :: acc else acc) = .ok r := h
      obtain ⟨h1, h2⟩ := ih _ h'
      refine ⟨?_, ?_⟩
      · intro x hx
        rcases List.mem_cons.1 hx with rfl | hx
        · exact ⟨b, hf⟩
        · exact h1 x hx
      · rw [h2, List.filter_cons, hf]
        cases b <;> simp

theorem filterM_ok {f : ι → Except ε Bool} {l r : List ι} (h : l.filterM f = .ok r) :
    (∀ a ∈ l, ∃ b, f a = .ok b) ∧ r = l.filter fun a => match f a with | .ok b => b | _ => false := by
  unfold List.filterM at h
  cases h2 : List.filterAuxM f l [] with
  | error e => rw [h2] at h; cases h
  | ok r' =>
    rw [h2] at h
    simp only [bind, Except.bind, pure, Except.pure, Except.ok.injEq] at h
    obtain ⟨h3, h4⟩ := filterAuxM_ok f l [] r' h2
    refine ⟨h3, ?_⟩
    rw [← h, h4]; simp

theorem filterM_total {f : ι → Except ε Bool} {l : List ι} (h : ∀ a ∈ l, ∃ b, f a = .ok b) :
    ∃ r, l.filterM f = .ok r := by
  have key : ∀ acc, ∃ r, List.filterAuxM f l acc = .ok r := by
    induction l with
    | nil => exact fun acc => ⟨acc, rfl⟩
    | cons a l ih =>
      intro acc
      obtain ⟨b, hb⟩ := h a (by simp)
      obtain ⟨r, hr⟩ := ih (fun x hx => h x (by simp [hx])) (bif b then a :: acc else acc)
      refine ⟨r, ?_⟩
      rw [List.filterAuxM, hb]
      exact hr
  obtain ⟨r, hr⟩ := key []
  refine ⟨r.reverse, ?_⟩
  unfold List.filterM
  rw [hr]; rfl

theorem mapM_ok_iff {f : ι → Except ε κ} {l : List ι} {r : List κ} :
    l.mapM f = .ok r ↔ List.Forall₂ (fun a b => f a = .ok b) l r := by
  induction l generalizing r with
  | nil =>
    rw [List.mapM_nil]
    simp only [pure, Except.pure, Except.ok.injEq, List.forall₂_nil_left_iff]
    exact eq_comm
  | cons a l ih =>
    rw [List.mapM_cons, List.forall₂_cons_left_iff]
    cases hf : f a with
    | error e =>
      constructor
      · intro h; cases h
      · rintro ⟨b, u, h, -⟩; cases h
    | ok b =>
      cases hl : l.mapM f with
      | error e =>
        constructor
        · intro h; cases h
        · rintro ⟨b', u, -, h2, -⟩
          rw [← ih, hl] at h2; cases h2
      | ok r' =>
        simp only [bind, Except.bind, pure, Except.pure, Except.ok.injEq]
        constructor
        · rintro rfl; exact ⟨b, r', rfl, ih.1 hl, rfl⟩
        · rintro ⟨b', u, h1, h2, rfl⟩
          rw [← ih, hl] at h2
          cases h1; cases h2; rfl

theorem mapM_total {f : ι → Except ε κ} {l : List ι} (h : ∀ a ∈ l, ∃ b, f a = .ok b) : ∃ r, l.mapM f = .ok r := by
  induction l with
  | nil => exact ⟨[], rfl⟩
  | cons a l ih =>
    obtain ⟨b, hb⟩ := h a (by simp)
    obtain ⟨r, hr⟩ := ih (fun x hx => h x (by simp [hx]))
    exact ⟨b :: r, by rw [List.mapM_cons, hb, hr]; rfl⟩

end Generic

variable {α V δ : Type} [LinearOrder α] [LinearOrder δ]

theorem getAdded_total {m : Manager α} (h : Inv m) {x y : α} (hx : x ∈ m.managed) (hy : y ∈ m.managed) :
    ∃ o, m.getAdded x y = .ok o := ⟨_, getAdded_eq h.d hx hy⟩

theorem getInferred_total {m : Manager α} (h : Inv m) {x y : α} (hx : x ∈ m.managed) (hy : y ∈ m.managed) :
    ∃ o, m.getInferred x y = .ok o := by
  by_cases h1 : m.getInferred x y = .ok none
  · exact ⟨_, h1⟩
  · by_contra hno
    push Not at hno
    apply h1
    rw [inferred_none_iff h hx hy]
    constructor
    · intro hl; exact hno _ ((inferred_ml_iff h hx hy).2 hl)
    · intro hl; exact hno _ ((inferred_cl_iff h hx hy).2 hl)

/-- `clusters_restriction` test. -/
theorem clustersSkip_false {cfg : Sampler} {cl : Option (Dict α Int)} {p : α × α}
    (hcl : cfg.clusters.isSome = true → cl.isSome = true) :
    cfg.clustersSkip (cl.getD []) p.1 p.2 = .ok false ↔
      (cfg.clusters = some .sameCluster →
        ∃ d a b, cl = some d ∧ dget? d p.1 = some a ∧ dget? d p.2 = some b ∧ a = b) ∧
      (cfg.clusters = some .differentClusters →
        ∃ d a b, cl = some d ∧ dget? d p.1 = some a ∧ dget? d p.2 = some b ∧ a ≠ b) := by
  unfold Sampler.clustersSkip
  cases hc : cfg.clusters with
  | none => simp
  | some r =>
    obtain ⟨d, rfl⟩ := Option.isSome_iff_exists.1 (hcl (by rw [hc]; rfl))
    cases r with
    | sameCluster =>
      simp only [Option.getD_some, bind, Except.bind, dget, pure, Except.pure, true_implies, Option.some.injEq,
        reduceCtorEq, false_implies, and_true]
      cases h1 : dget? d p.1 with
      | none => simp [h1]
      | some a =>
        cases h2 : dget? d p.2 with
        | none => simp [h2]
        | some b =>
          constructor
          · intro h
            simp only [Except.ok.injEq, decide_eq_false_iff_not, not_not] at h
            exact ⟨d, a, b, rfl, h1, h2, h⟩
          · rintro ⟨d', a', b', rfl, h3, h4, h5⟩
            rw [h1] at h3; rw [h2] at h4
            cases h3; cases h4
            simp [h5]
    | differentClusters =>
      simp only [Option.getD_some, bind, Except.bind, dget, pure, Except.pure, true_implies, Option.some.injEq,
        reduceCtorEq, false_implies, true_and]
      cases h1 : dget? d p.1 with
      | none => simp [h1]
      | some a =>
        cases h2 : dget? d p.2 with
        | none => simp [h2]
        | some b => simp [h1, h2]

theorem knownSkip_eq {cfg : Sampler} {m : Manager α} (h : Inv m) {x y : α} (hx : x ∈ m.managed) (hy : y ∈ m.managed) :
    ∃ b, cfg.knownSkip m x y = .ok b ∧
      (b = false ↔ (cfg.withoutAdded = true → m.getAdded x y = .ok none) ∧
        (cfg.withoutInferred = true → m.getInferred x y = .ok none)) := by
  obtain ⟨o1, h1⟩ := getAdded_total h hx hy
  obtain ⟨o2, h2⟩ := getInferred_total h hx hy
  unfold Sampler.knownSkip
  simp only [h1, h2, bind, Except.bind, pure, Except.pure, Except.ok.injEq]
  cases ha : cfg.withoutAdded <;> cases hi : cfg.withoutInferred <;> cases o1 <;> cases o2 <;> simp

theorem keeps_true {cfg : Sampler} {m : Manager α} (h : Inv m) {cl : Option (Dict α Int)}
    (hcl : cfg.clusters.isSome = true → cl.isSome = true) {p : α × α} (hx : p.1 ∈ m.managed) (hy : p.2 ∈ m.managed) :
    cfg.keeps m (cl.getD []) p = .ok true ↔ Eligible cfg m cl p := by
  unfold Sampler.keeps
  by_cases hlt : p.1 ≥ p.2
  · simp only [if_pos hlt, pure, Except.pure]
    constructor
    · intro h; simp at h
    · intro he; exact absurd he.ordered (not_lt.2 hlt)
  · rw [if_neg hlt]
    have hsk := clustersSkip_false (p := p) hcl
    obtain ⟨b, hb, hb'⟩ := knownSkip_eq (cfg := cfg) h hx hy
    cases hc : cfg.clustersSkip (cl.getD []) p.1 p.2 with
    | error e =>
      rw [hc] at hsk
      constructor
      · intro h; cases h
      · intro he
        have := hsk.2 ⟨he.same, he.different⟩
        cases this
    | ok c =>
      rw [hc] at hsk
      rw [hb]
      cases c with
      | true =>
        constructor
        · intro h; simp [bind, Except.bind, pure, Except.pure] at h
        · intro he
          have := hsk.2 ⟨he.same, he.different⟩
          simp at this
      | false =>
        cases b with
        | true =>
          constructor
          · intro h; simp [bind, Except.bind, pure, Except.pure] at h
          · intro he
            have := hb'.2 ⟨he.notAdded, he.notInferred⟩
            cases this
        | false =>
          constructor
          · intro _
            obtain ⟨s1, s2⟩ := hsk.1 rfl
            obtain ⟨k1, k2⟩ := hb'.1 rfl
            exact ⟨hx, hy, not_le.1 hlt, s1, s2, k1, k2⟩
          · intro _; rfl

/-- All pairs of managed IDs in the order of the double loop. -/
def allPairs (m : Manager α) : List (α × α) := m.managed.flatMap fun x => m.managed.map fun y => (x, y)

theorem mem_allPairs {m : Manager α} {p : α × α} : p ∈ allPairs m ↔ p.1 ∈ m.managed ∧ p.2 ∈ m.managed := by
  obtain ⟨x, y⟩ := p
  simp only [allPairs, List.mem_flatMap, List.mem_map, Prod.mk.injEq]
  constructor
  · rintro ⟨a, ha, b, hb, rfl, rfl⟩; exact ⟨ha, hb⟩
  · rintro ⟨ha, hb⟩; exact ⟨x, ha, y, hb, rfl, rfl⟩

theorem allPairs_nodup {m : Manager α} (h : Inv m) : (allPairs m).Nodup := by
  have hn : m.managed.Nodup := h.d.nodup
  unfold allPairs
  rw [List.nodup_flatMap]
  refine ⟨fun x _ => hn.map (fun a b hab => by simpa using hab), ?_⟩
  refine hn.imp ?_
  intro a b hab
  simp only [List.disjoint_left, List.mem_map]
  rintro p ⟨y, -, rfl⟩ ⟨z, -, h2⟩
  simp only [Prod.mk.injEq] at h2
  exact hab h2.1.symm

theorem possiblePairs_ok {cfg : Sampler} {m : Manager α} (h : Inv m) {cl : Option (Dict α Int)}
    (hcl : cfg.clusters.isSome = true → cl.isSome = true) {L : List (α × α)}
    (hL : cfg.possiblePairs m (cl.getD []) = .ok L) :
    L.Nodup ∧ (∀ p, p ∈ L ↔ Eligible cfg m cl p) ∧ ∃ f : α × α → Bool, L = (allPairs m).filter f := by
  obtain ⟨h1, h2⟩ := filterM_ok hL
  change L = (allPairs m).filter _ at h2
  have hsub : L.Sublist (allPairs m) := by rw [h2]; exact List.filter_sublist
  refine ⟨(allPairs_nodup h).sublist hsub, ?_, _, h2⟩
  intro p
  rw [h2, List.mem_filter]
  constructor
  · rintro ⟨hp, hk⟩
    obtain ⟨hx, hy⟩ := mem_allPairs.1 hp
    rw [← keeps_true h hcl hx hy]
    split at hk
    · rename_i b hb; rw [hb, hk]
    · cases hk
  · intro he
    refine ⟨mem_allPairs.2 ⟨he.left, he.right⟩, ?_⟩
    rw [(keeps_true h hcl he.left he.right).2 he]

theorem possiblePairs_total {cfg : Sampler} {m : Manager α} (h : Inv m) {cl : Option (Dict α Int)} {vs : Option (Dict α V)}
    (hin : InputsGiven cfg m cl vs) : ∃ L, cfg.possiblePairs m (cl.getD []) = .ok L := by
  apply filterM_total
  intro p hp
  obtain ⟨hx, hy⟩ := mem_allPairs.1 (show p ∈ allPairs m from hp)
  unfold Sampler.keeps
  by_cases hlt : p.1 ≥ p.2
  · exact ⟨false, by rw [if_pos hlt]; rfl⟩
  · rw [if_neg hlt]
    obtain ⟨b, hb, -⟩ := knownSkip_eq (cfg := cfg) h hx hy
    have : ∃ c, cfg.clustersSkip (cl.getD []) p.1 p.2 = .ok c := by
      unfold Sampler.clustersSkip
      cases hc : cfg.clusters with
      | none => exact ⟨false, rfl⟩
      | some r =>
        obtain ⟨d, rfl, hd⟩ := hin.labels (by rw [hc]; simp)
        obtain ⟨a, ha⟩ := hd _ hx
        obtain ⟨b, hb⟩ := hd _ hy
        cases r <;> exact ⟨_, by simp only [Option.getD_some, bind, Except.bind, dget, ha, hb]; rfl⟩
    obtain ⟨c, hc⟩ := this
    rw [hc, hb]
    cases c <;> cases b <;> exact ⟨_, rfl⟩

/-! ### Distances -/

theorem rows_ok {vs : Dict α V} {l : List α} {rows : List (α × V)}
    (h : (l.mapM fun x => do return (x, ← dget vs x) : Except PyErr (List (α × V))) = .ok rows) :
    dkeys rows = l ∧ ∀ q ∈ rows, dget? vs q.1 = some q.2 := by
  have hf := mapM_ok_iff.1 h
  clear h
  induction hf with
  | nil => exact ⟨rfl, by simp⟩
  | @cons a b l rows h1 _ ih =>
    have hb : b.1 = a ∧ dget? vs a = some b.2 := by
      obtain ⟨b1, b2⟩ := b
      unfold dget at h1
      cases hv : dget? vs a with
      | none => rw [hv] at h1; cases h1
      | some v => rw [hv] at h1; cases h1; exact ⟨rfl, rfl⟩
    obtain ⟨i1, i2⟩ := ih
    refine ⟨by rw [dkeys_cons, i1, hb.1], ?_⟩
    intro q hq
    rcases List.mem_cons.1 hq with rfl | hq
    · rw [hb.1]; exact hb.2
    · exact i2 q hq

theorem rows_get {vs : Dict α V} {l : List α} {rows : List (α × V)}
    (h : (l.mapM fun x => do return (x, ← dget vs x) : Except PyErr (List (α × V))) = .ok rows)
    {x : α} (hx : x ∈ l) : ∃ v, dget? rows x = some v ∧ dget? vs x = some v := by
  obtain ⟨h1, h2⟩ := rows_ok h
  rw [← h1] at hx
  obtain ⟨v, hv⟩ := dget?_isSome_of_mem hx
  exact ⟨v, hv, h2 _ (mem_of_dget? hv)⟩

theorem dget?_map_pair {ν ν' : Type} (d : Dict α ν) (f : α × ν → ν') (k : α) :
    dget? (d.map fun q => (q.1, f q)) k = (dget? d k).map fun v => f (k, v) := by
  induction d with
  | nil => rfl
  | cons p d ih =>
    rw [List.map_cons]
    by_cases h : p.1 = k
    · subst h; simp [dget?]
    · simpa [dget?, List.find?_cons, h] using ih

theorem distanceTable_ok {m : Manager α} {vs : Dict α V} {metric : V → V → δ} {T : Dict α (Dict α δ)}
    (hT : distanceTable m vs metric = .ok T) {p : α × α} (hx : p.1 ∈ m.managed) (hy : p.2 ∈ m.managed) :
    ∃ d, pairDistance T p = .ok d ∧ DistanceIs (some vs) metric p d := by
  unfold distanceTable at hT
  cases hr : (m.managed.mapM fun x => do return (x, ← dget vs x) : Except PyErr (List (α × V))) with
  | error e => rw [hr] at hT; cases hT
  | ok rows =>
    rw [hr] at hT
    simp only [bind, Except.bind] at hT
    split at hT
    · cases hT
    · simp only [pure, Except.pure, Except.ok.injEq] at hT
      obtain ⟨v, hv1, hv2⟩ := rows_get hr hx
      obtain ⟨w, hw1, hw2⟩ := rows_get hr hy
      refine ⟨metric v w, ?_, vs, v, w, rfl, hv2, hw2, rfl⟩
      unfold pairDistance
      have h1 : dget? T p.1 = some (rows.map fun q => (q.1, metric v q.2)) := by
        rw [← hT, dget?_map_pair rows (fun q => rows.map fun q' => (q'.1, metric q.2 q'.2)), hv1]; rfl
      have h2 : dget? (rows.map fun q => (q.1, metric v q.2)) p.2 = some (metric v w) := by
        rw [dget?_map_pair rows (fun q => metric v q.2), hw1]; rfl
      rw [dget_of_dget? h1]
      exact dget_of_dget? h2

theorem distanceTable_total {m : Manager α} {vs : Dict α V} {metric : V → V → δ} (hne : m.managed ≠ [])
    (h : ∀ x ∈ m.managed, ∃ v, dget? vs x = some v) : ∃ T, distanceTable m vs metric = .ok T := by
  have : ∃ rows, (m.managed.mapM fun x => do return (x, ← dget vs x) : Except PyErr (List (α × V))) = .ok rows := by
    apply mapM_total
    intro x hx
    obtain ⟨v, hv⟩ := h x hx
    exact ⟨(x, v), by rw [dget_of_dget? hv]; rfl⟩
  obtain ⟨rows, hr⟩ := this
  have hk := (rows_ok hr).1
  have hr' : rows.isEmpty = false := by
    cases rows with
    | nil => exact absurd hk.symm hne
    | cons => rfl
  refine ⟨rows.map fun p => (p.1, rows.map fun q => (q.1, metric p.2 q.2)), ?_⟩
  unfold distanceTable
  rw [hr]
  simp only [bind, Except.bind, hr']
  rfl

theorem keyed_ok {T : Dict α (Dict α δ)} {L : List (α × α)} {K : List (δ × (α × α))}
    (h : (L.mapM fun p => do return (← pairDistance T p, p) : Except PyErr (List (δ × (α × α)))) = .ok K) :
    K.map Prod.snd = L ∧ ∀ q ∈ K, pairDistance T q.2 = .ok q.1 := by
  have hf := mapM_ok_iff.1 h
  clear h
  induction hf with
  | nil => exact ⟨rfl, by simp⟩
  | @cons a b l rows h1 _ ih =>
    have hb : b.2 = a ∧ pairDistance T a = .ok b.1 := by
      cases hv : pairDistance T a with
      | error e => rw [hv] at h1; cases h1
      | ok v => rw [hv] at h1; cases h1; exact ⟨rfl, rfl⟩
    obtain ⟨i1, i2⟩ := ih
    refine ⟨by rw [List.map_cons, i1, hb.1], ?_⟩
    intro q hq
    rcases List.mem_cons.1 hq with rfl | hq
    · rw [hb.1]; exact hb.2
    · exact i2 q hq

/-! ### Sorting -/

theorem pair_sublist_left {ι : Type} {a b : ι} {l1 l2 : List ι} (hn : (l1 ++ l2).Nodup) (h : [a, b].Sublist (l1 ++ l2))
    (hb : b ∈ l1) : [a, b].Sublist l1 := by
  rw [List.sublist_append_iff] at h
  obtain ⟨c1, c2, h1, h2, h3⟩ := h
  rcases List.eq_nil_or_concat c2 with rfl | ⟨c, x, rfl⟩
  · rw [h1]; simpa using h2
  · exfalso
    have hx : b = x := by
      have := congrArg List.getLast? h1
      simpa using this
    subst hx
    have : b ∈ l2 := h3.subset (by simp)
    exact (List.nodup_append.1 hn).2.2 b hb b this rfl

/-- The order in which the pairs are ranked. -/
def ranked (rev : Bool) (a b : δ) : Prop := if rev then b ≤ a else a ≤ b

theorem sorted_take {ι : Type} {rev : Bool} {K : List (δ × ι)} {n : Nat} (hn : (K.map Prod.snd).Nodup) :
    let r := (sortedByKey rev K).take n
    r.Pairwise (fun p q => ∀ d e, (d, p) ∈ K → (e, q) ∈ K → ranked rev d e) ∧
    (∀ p ∈ r, ∀ q, q ∉ r → ∀ d e, (d, p) ∈ K → (e, q) ∈ K → ranked rev d e) ∧
    (∀ d p q, [(d, p), (d, q)].Sublist K → q ∈ r → [p, q].Sublist r) ∧
    r.Subperm (K.map Prod.snd) ∧ r.length = min n K.length := by
  intro r
  let rel : δ × ι → δ × ι → Prop := fun a b => if rev then b.1 ≤ a.1 else a.1 ≤ b.1
  have hrel : ∀ a b, rel a b ↔ ranked rev a.1 b.1 := fun a b => Iff.rfl
  have : DecidableRel rel := fun a b => by unfold rel; infer_instance
  have : Std.Total rel := ⟨fun a b => by unfold rel; cases rev <;> simp [le_total]⟩
  have : IsTrans _ rel := ⟨fun a b c => by
    unfold rel; cases rev
    · simpa using le_trans
    · simpa using fun h1 h2 => le_trans h2 h1⟩
  obtain ⟨S, hS⟩ : ∃ S, S = K.insertionSort rel := ⟨_, rfl⟩
  have hperm : S.Perm K := by rw [hS]; exact List.perm_insertionSort rel K
  have hpw : S.Pairwise rel := by rw [hS]; exact List.pairwise_insertionSort rel K
  have hr : r = (S.take n).map Prod.snd := by
    rw [hS, List.map_take]
    show (sortedByKey rev K).take n = _
    unfold sortedByKey
    congr 3
  have hKn : K.Nodup := List.Nodup.of_map _ hn
  have hSn : S.Nodup := hperm.nodup_iff.2 hKn
  have hSn2 : (S.map Prod.snd).Nodup := (hperm.map _).nodup_iff.2 hn
  have huniq : ∀ x ∈ K, ∀ d, (d, x.2) ∈ K → d = x.1 := by
    intro x hx d hd
    have := List.inj_on_of_nodup_map hn hx hd rfl
    rw [this]
  have hmem : ∀ x, x ∈ S.take n → x ∈ K := fun x hx => hperm.subset (List.mem_of_mem_take hx)
  have hsplit : S.take n ++ S.drop n = S := List.take_append_drop n S
  refine ⟨?_, ?_, ?_, ?_, ?_⟩
  · rw [hr, List.pairwise_map]
    have h1 : (S.take n).Pairwise rel := hpw.sublist (List.take_sublist n S)
    refine h1.imp_of_mem ?_
    intro a b ha hb hab d e hd he
    rw [huniq a (hmem a ha) d hd, huniq b (hmem b hb) e he]
    exact hab
  · intro p hp q hq d e hd he
    rw [hr] at hp hq
    obtain ⟨x, hx, rfl⟩ := List.mem_map.1 hp
    have hq2 : (e, q) ∈ S.drop n := by
      have : (e, q) ∈ S := hperm.symm.subset he
      rw [← hsplit, List.mem_append] at this
      rcases this with h | h
      · exact absurd (List.mem_map_of_mem (f := Prod.snd) h) hq
      · exact h
    rw [← hsplit, List.pairwise_append] at hpw
    rw [huniq x (hmem x hx) d hd]
    exact hpw.2.2 x hx _ hq2
  · intro d p q hsub hq
    have h1 : [(d, p), (d, q)].Sublist S := by
      rw [hS]
      refine List.pair_sublist_insertionSort ?_ hsub
      show rel _ _
      unfold rel
      cases rev <;> simp
    rw [hr] at hq ⊢
    obtain ⟨x, hx, hxq⟩ := List.mem_map.1 hq
    have hdq : (d, q) ∈ K := hsub.subset (by simp)
    have : x = (d, q) := by
      rw [← hxq] at hdq
      have := huniq x (hmem x hx) d hdq
      rw [this, ← hxq]
    rw [this] at hx
    rw [← hsplit] at h1 hSn
    exact (pair_sublist_left hSn h1 hx).map Prod.snd
  · rw [hr]
    exact (((List.take_sublist n S).map Prod.snd).subperm).trans (hperm.map Prod.snd).subperm
  · rw [hr, List.length_map, List.length_take, hperm.length_eq]

/-- What a successful call returns. -/
theorem sample_ok {cfg : Sampler} {m : Manager α} (h : Inv m) {nb : Option Int} {cl : Option (Dict α Int)}
    {vs : Option (Dict α V)} {metric : V → V → δ} {pick : List (α × α) → Nat → List (α × α)} {r : List (α × α)}
    (hr : cfg.sample m nb cl vs metric pick = .ok r) :
    ∃ n : Nat, nb = some (n : Int) ∧ (n = 0 → r = []) ∧ (0 < n →
      ∃ L : List (α × α), L.Nodup ∧ (∀ p, p ∈ L ↔ Eligible cfg m cl p) ∧ (∃ f : α × α → Bool, L = (allPairs m).filter f) ∧
        (cfg.distance = none → r = pick L (min n L.length)) ∧
        (∀ d, cfg.distance = some d → ∃ K : List (δ × (α × α)), K.map Prod.snd = L ∧
          (∀ q ∈ K, DistanceIs vs metric q.2 q.1) ∧
          r = (sortedByKey (decide (d = .farthestNeighbors)) K).take n)) := by
  unfold Sampler.sample at hr
  cases nb with
  | none => cases hr
  | some n =>
    by_cases hneg : n < 0
    · simp only [if_pos hneg, reduceCtorEq] at hr
    simp only [if_neg hneg] at hr
    obtain ⟨n, rfl⟩ := Int.eq_ofNat_of_zero_le (not_lt.1 hneg)
    refine ⟨n, rfl, ?_, ?_⟩
    · rintro rfl
      exact (Except.ok.inj hr).symm
    intro hpos
    rw [if_neg (by omega)] at hr
    by_cases hc : cfg.clusters.isSome = true ∧ cl.isNone = true
    · rw [if_pos hc] at hr; cases hr
    rw [if_neg hc] at hr
    by_cases hv : cfg.distance.isSome = true ∧ vs.isNone = true
    · rw [if_pos hv] at hr; cases hr
    rw [if_neg hv] at hr
    have hcl : cfg.clusters.isSome = true → cl.isSome = true := by
      intro h1; by_contra h2; exact hc ⟨h1, by simpa using h2⟩
    have hvs : cfg.distance.isSome = true → vs.isSome = true := by
      intro h1; by_contra h2; exact hv ⟨h1, by simpa using h2⟩
    unfold Sampler.select at hr
    cases hL : cfg.possiblePairs m (cl.getD []) with
    | error e => rw [hL] at hr; cases hr
    | ok L =>
      rw [hL] at hr
      obtain ⟨l1, l2, l3⟩ := possiblePairs_ok h hcl hL
      refine ⟨L, l1, l2, l3, ?_, ?_⟩
      · intro hd
        simp only [hd, bind, Except.bind, pure, Except.pure, Except.ok.injEq] at hr
        exact hr.symm
      · intro d hd
        obtain ⟨w, rfl⟩ := Option.isSome_iff_exists.1 (hvs (by rw [hd]; rfl))
        simp only [hd, Option.getD_some] at hr
        cases hT : distanceTable m w metric with
        | error e => rw [hT] at hr; cases hr
        | ok T =>
          rw [hT] at hr
          cases hK : (L.mapM fun p => do return (← pairDistance T p, p) : Except PyErr (List (δ × (α × α)))) with
          | error e => 
            have hr' : (L.mapM (fun p => do return (← pairDistance T p, p)) >>= fun keyed =>
              .ok ((sortedByKey (decide (d = .farthestNeighbors)) keyed).take n) : Except PyErr (List (α × α))) = .ok r := hr
            rw [hK] at hr'; cases hr'
          | ok K =>
            have hr' : (L.mapM (fun p => do return (← pairDistance T p, p)) >>= fun keyed =>
              .ok ((sortedByKey (decide (d = .farthestNeighbors)) keyed).take n) : Except PyErr (List (α × α))) = .ok r := hr
            rw [hK] at hr'
            obtain ⟨k1, k2⟩ := keyed_ok hK
            refine ⟨K, k1, ?_, ?_⟩
            · intro q hq
              have hqL : q.2 ∈ L := by rw [← k1]; exact List.mem_map_of_mem hq
              have he := (l2 _).1 hqL
              obtain ⟨d', hd1, hd2⟩ := distanceTable_ok hT he.left he.right
              rw [k2 q hq] at hd1
              cases hd1
              exact hd2
            · exact (Except.ok.inj hr').symm

/-- With its inputs given, a call with `nb ≥ 0` does not raise. -/
theorem sample_total {cfg : Sampler} {m : Manager α} (h : Inv m) {n : Nat} {cl : Option (Dict α Int)}
    {vs : Option (Dict α V)} (hin : InputsGiven cfg m cl vs) (metric : V → V → δ)
    (pick : List (α × α) → Nat → List (α × α)) :
    ∃ r, cfg.sample m (some (n : Int)) cl vs metric pick = .ok r := by
  unfold Sampler.sample
  simp only [show ¬ ((n : Int) < 0) by omega, if_false]
  by_cases h0 : (n : Int) = 0
  · exact ⟨[], by rw [if_pos h0]⟩
  rw [if_neg h0]
  have hc : ¬ (cfg.clusters.isSome = true ∧ cl.isNone = true) := by
    rintro ⟨h1, h2⟩
    obtain ⟨d, rfl, -⟩ := hin.labels (by intro h3; rw [h3] at h1; cases h1)
    cases h2
  have hv : ¬ (cfg.distance.isSome = true ∧ vs.isNone = true) := by
    rintro ⟨h1, h2⟩
    obtain ⟨-, d, rfl, -⟩ := hin.vectors (by intro h3; rw [h3] at h1; cases h1)
    cases h2
  rw [if_neg hc, if_neg hv]
  have hcl : cfg.clusters.isSome = true → cl.isSome = true := by
    intro h1; by_contra h2; exact hc ⟨h1, by simpa using h2⟩
  unfold Sampler.select
  obtain ⟨L, hL⟩ := possiblePairs_total h hin
  obtain ⟨-, l2, -⟩ := possiblePairs_ok h hcl hL
  rw [hL]
  cases hd : cfg.distance with
  | none => exact ⟨_, rfl⟩
  | some d =>
    obtain ⟨hne, w, rfl, hw⟩ := hin.vectors (by rw [hd]; simp)
    obtain ⟨T, hT⟩ := distanceTable_total (metric := metric) hne hw
    have : ∃ K, (L.mapM fun p => do return (← pairDistance T p, p) : Except PyErr (List (δ × (α × α)))) = .ok K := by
      apply mapM_total
      intro p hp
      have he := (l2 _).1 hp
      obtain ⟨d', hd1, -⟩ := distanceTable_ok hT he.left he.right
      exact ⟨(d', p), by rw [hd1]; rfl⟩
    obtain ⟨K, hK⟩ := this
    refine ⟨(sortedByKey (decide (d = .farthestNeighbors)) K).take n, ?_⟩
    show (distanceTable m w metric >>= fun T => L.mapM (fun p => do return (← pairDistance T p, p)) >>= fun keyed =>
              .ok ((sortedByKey (decide (d = .farthestNeighbors)) keyed).take n) : Except PyErr (List (α × α))) = _
    rw [hT]
    show (L.mapM (fun p => do return (← pairDistance T p, p)) >>= fun keyed =>
              .ok ((sortedByKey (decide (d = .farthestNeighbors)) keyed).take n) : Except PyErr (List (α × α))) = _
    rw [hK]; rfl

end Verif
