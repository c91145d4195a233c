import Verif.Proofs.Hierarchical
import Verif.Proofs.Sampling

/-
Lemmas on the hierarchical clustering: distances and the merging loop.
-/

set_option linter.unusedSectionVars false

namespace Verif

variable {α V δ : Type} [LinearOrder α] [LinearOrder δ]

theorem anyM_ok {ι ε : Type} {f : ι → Except ε Bool} {l : List ι} (h : ∀ a ∈ l, ∃ b, f a = .ok b) :
    ∃ b, l.anyM f = .ok b ∧ (b = true ↔ ∃ a ∈ l, f a = .ok true) := by
  induction l with
  | nil => exact ⟨false, rfl, by simp⟩
  | cons a l ih =>
    obtain ⟨b, hb⟩ := h a (by simp)
    obtain ⟨b', hb', hiff⟩ := ih (fun x hx => h x (by simp [hx]))
    cases b with
    | true =>
      refine ⟨true, ?_, by simp [hb]⟩
      rw [List.anyM]
      simp only [hb, bind, Except.bind]; rfl
    | false =>
      refine ⟨b', ?_, ?_⟩
      · rw [List.anyM]
        simp only [hb, bind, Except.bind]; exact hb'
      · rw [hiff]
        constructor
        · rintro ⟨x, hx, hfx⟩; exact ⟨x, by simp [hx], hfx⟩
        · rintro ⟨x, hx, hfx⟩
          rcases List.mem_cons.1 hx with rfl | hx
          · rw [hb] at hfx; cases hfx
          · exact ⟨x, hx, hfx⟩

theorem hHasCannotLink_ok {m : Manager α} (h : Inv m) {xs ys : List α} (hx : ∀ x ∈ xs, x ∈ m.managed)
    (hy : ∀ y ∈ ys, y ∈ m.managed) :
    ∃ b, hHasCannotLink m xs ys = .ok b ∧ (b = true ↔ ∃ x ∈ xs, ∃ y ∈ ys, CannotLinked m x y) := by
  have h1 : ∀ x ∈ xs, ∃ b, (ys.anyM fun y => do return decide ((← m.getInferred x y) = some .cannotLink) :
      Except PyErr Bool) = .ok b ∧ (b = true ↔ ∃ y ∈ ys, CannotLinked m x y) := by
    intro x hxs
    have hval : ∀ y ∈ ys, ∃ o, (do return decide ((← m.getInferred x y) = some .cannotLink) : Except PyErr Bool) =
        .ok (decide (o = some CType.cannotLink)) ∧ (o = some .cannotLink ↔ CannotLinked m x y) := by
      intro y hys
      obtain ⟨o, ho, ho2, -⟩ := isCL_eq h (hx x hxs) (hy y hys)
      exact ⟨o, by rw [ho]; rfl, ho2⟩
    obtain ⟨b, hb, hiff⟩ := anyM_ok (f := fun y => (do return decide ((← m.getInferred x y) = some .cannotLink) :
      Except PyErr Bool)) (l := ys) (fun y hys => by obtain ⟨o, ho, -⟩ := hval y hys; exact ⟨_, ho⟩)
    refine ⟨b, hb, hiff.trans ⟨?_, ?_⟩⟩
    · rintro ⟨y, hys, hfy⟩
      obtain ⟨o, ho, ho2⟩ := hval y hys
      rw [ho] at hfy
      refine ⟨y, hys, ho2.1 ?_⟩
      simpa using hfy
    · rintro ⟨y, hys, hl⟩
      obtain ⟨o, ho, ho2⟩ := hval y hys
      refine ⟨y, hys, ?_⟩
      rw [ho, decide_eq_true (ho2.2 hl)]
  obtain ⟨b, hb, hiff⟩ := anyM_ok (f := fun x => (ys.anyM fun y => do
    return decide ((← m.getInferred x y) = some .cannotLink) : Except PyErr Bool)) (l := xs)
    (fun x hxs => by obtain ⟨b, hb, -⟩ := h1 x hxs; exact ⟨b, hb⟩)
  refine ⟨b, hb, hiff.trans ⟨?_, ?_⟩⟩
  · rintro ⟨x, hxs, hfx⟩
    obtain ⟨b', hb', hiff'⟩ := h1 x hxs
    rw [hb'] at hfx
    exact ⟨x, hxs, hiff'.1 (Except.ok.inj hfx)⟩
  · rintro ⟨x, hxs, hl⟩
    obtain ⟨b', hb', hiff'⟩ := h1 x hxs
    exact ⟨x, hxs, by rw [hb', hiff'.2 hl]⟩

theorem laterPairs_mem {l : List α} {p : α × α} (h : p ∈ laterPairs l) : p.1 ∈ l ∧ p.2 ∈ l := by
  induction l with
  | nil => cases h
  | cons a l ih =>
    rw [laterPairs, List.mem_append, List.mem_map] at h
    rcases h with ⟨y, hy, rfl⟩ | h
    · exact ⟨by simp, by simp [hy]⟩
    · exact ⟨by simp [(ih h).1], by simp [(ih h).2]⟩

/-- The distances looked up in the table are those of the vectors. -/
def PairTable (env : HierEnv V δ) (m : Manager α) (vectors : Dict α V) (table : Dict α (Dict α δ)) : Prop :=
  ∀ p : α × α, p.1 ∈ m.managed → p.2 ∈ m.managed →
    ∃ v w, dget? vectors p.1 = some v ∧ dget? vectors p.2 = some w ∧ pairDistance table p = .ok (env.metric v w)

theorem pairTable_of_ok {env : HierEnv V δ} {m : Manager α} {vectors : Dict α V} {table : Dict α (Dict α δ)}
    (h : distanceTable m vectors env.metric = .ok table) : PairTable env m vectors table := by
  intro p h1 h2
  obtain ⟨d, e1, vs, v, w, e2, e3, e4, e5⟩ := distanceTable_ok h h1 h2
  cases e2
  exact ⟨v, w, e3, e4, by rw [e1, e5]⟩

theorem mem_cross {xs ys : List α} {p : α × α} :
    p ∈ (xs.flatMap fun x => ys.map fun y => (x, y)) ↔ p.1 ∈ xs ∧ p.2 ∈ ys := by
  rw [List.mem_flatMap]
  constructor
  · rintro ⟨x, hx, hp⟩
    obtain ⟨y, hy, rfl⟩ := List.mem_map.1 hp
    exact ⟨hx, hy⟩
  · rintro ⟨h1, h2⟩
    exact ⟨p.1, h1, List.mem_map.2 ⟨p.2, h2, rfl⟩⟩

theorem hLinkage_ok {env : HierEnv V δ} {link : Linkage} {m : Manager α} {vectors : Dict α V}
    {table : Dict α (Dict α δ)} (hT : PairTable env m vectors table) {ci cj : HCluster α V}
    (hi : ∀ x ∈ ci.members, x ∈ m.managed) (hj : ∀ x ∈ cj.members, x ∈ m.managed)
    (hine : ci.members ≠ []) (hjne : cj.members ≠ [])
    (hci : hCentroid env vectors ci.members = .ok ci.centroid) (hcj : hCentroid env vectors cj.members = .ok cj.centroid) :
    ∃ d, hLinkage env link table ci cj = .ok d ∧ LinkageIs env link vectors ci.members cj.members d := by
  have hcross : ∃ ds, (ci.members.flatMap fun x => cj.members.map fun y => (x, y)).mapM (fun p => pairDistance table p) = .ok ds ∧
      ds ≠ [] ∧ (∀ d ∈ ds, ∃ x ∈ ci.members, ∃ y ∈ cj.members, ∃ v w, dget? vectors x = some v ∧ dget? vectors y = some w ∧
        d = env.metric v w) ∧
      (∀ x ∈ ci.members, ∀ y ∈ cj.members, ∀ v w, dget? vectors x = some v → dget? vectors y = some w → env.metric v w ∈ ds) := by
    obtain ⟨ds, hds⟩ := mapM_total (f := fun p => pairDistance table p)
      (l := ci.members.flatMap fun x => cj.members.map fun y => (x, y)) (fun p hp => by
        obtain ⟨h1, h2⟩ := mem_cross.1 hp
        obtain ⟨v, w, -, -, e⟩ := hT p (hi _ h1) (hj _ h2)
        exact ⟨_, e⟩)
    have hF := mapM_ok_iff.1 hds
    have hall : ∀ x ∈ ci.members, ∀ y ∈ cj.members, ∀ v w, dget? vectors x = some v → dget? vectors y = some w →
        env.metric v w ∈ ds := by
      intro x hx y hy v w hv hw
      obtain ⟨d, hd, e⟩ := forall₂_mem_left hF (mem_cross.2 ⟨hx, hy⟩ : (x, y) ∈ _)
      obtain ⟨v', w', e1, e2, e3⟩ := hT (x, y) (hi x hx) (hj y hy)
      rw [hv] at e1; rw [hw] at e2; cases e1; cases e2
      rw [e] at e3
      cases e3; exact hd
    refine ⟨ds, hds, ?_, ?_, hall⟩
    · obtain ⟨x, hx⟩ := List.exists_mem_of_ne_nil _ hine
      obtain ⟨y, hy⟩ := List.exists_mem_of_ne_nil _ hjne
      obtain ⟨v, w, e1, e2, -⟩ := hT (x, y) (hi x hx) (hj y hy)
      have := hall x hx y hy v w e1 e2
      rintro rfl; cases this
    · intro d hd
      obtain ⟨p, hp, e⟩ := forall₂_mem_right hF hd
      obtain ⟨h1, h2⟩ := mem_cross.1 hp
      obtain ⟨v, w, e1, e2, e3⟩ := hT p (hi _ h1) (hj _ h2)
      rw [e] at e3
      exact ⟨p.1, h1, p.2, h2, v, w, e1, e2, Except.ok.inj e3⟩
  cases link with
  | complete =>
    obtain ⟨ds, hds, hne, h1, h2⟩ := hcross
    cases hm : ds.max? with
    | none => exact absurd (List.max?_eq_none_iff.1 hm) hne
    | some d =>
      refine ⟨d, ?_, h1 d (max?_spec hm).1, fun x hx y hy v w hv hw => (max?_spec hm).2 _ (h2 x hx y hy v w hv hw)⟩
      unfold hLinkage
      simp only [hds, bind, Except.bind, hm]; rfl
  | single =>
    obtain ⟨ds, hds, hne, h1, h2⟩ := hcross
    cases hm : ds.min? with
    | none => exact absurd (List.min?_eq_none_iff.1 hm) hne
    | some d =>
      refine ⟨d, ?_, h1 d (min?_spec hm).1, fun x hx y hy v w hv hw => (min?_spec hm).2 _ (h2 x hx y hy v w hv hw)⟩
      unfold hLinkage
      simp only [hds, bind, Except.bind, hm]; rfl
  | average =>
    have key : ∀ {l : List α} {c : V}, hCentroid env vectors l = .ok c →
        ∃ vs, List.Forall₂ (fun x v => dget? vectors x = some v) l vs ∧ c = env.mean vs := by
      intro l c hc
      unfold hCentroid at hc
      cases hvs : (l.mapM fun x => dget vectors x : Except PyErr (List V)) with
      | error e => rw [hvs] at hc; cases hc
      | ok vs =>
        rw [hvs] at hc
        simp only [bind, Except.bind] at hc
        split at hc
        · cases hc
        · refine ⟨vs, (mapM_ok_iff.1 hvs).imp fun a b hab => dget_eq_ok.1 hab, ?_⟩
          exact (Except.ok.inj hc).symm
    obtain ⟨vs, h1, h2⟩ := key hci
    obtain ⟨ws, h3, h4⟩ := key hcj
    exact ⟨_, rfl, vs, ws, h1, h3, by rw [h2, h4]⟩
  | ward =>
    have hsub : ∀ x ∈ ci.members ++ cj.members, x ∈ m.managed := by
      intro x hx
      rcases List.mem_append.1 hx with hx | hx
      · exact hi x hx
      · exact hj x hx
    obtain ⟨ds, hds⟩ := mapM_total (f := fun p => pairDistance table p)
      (l := laterPairs (ci.members ++ cj.members)) (fun p hp => by
        obtain ⟨h1, h2⟩ := laterPairs_mem hp
        obtain ⟨v, w, -, -, e⟩ := hT p (hsub _ h1) (hsub _ h2)
        exact ⟨_, e⟩)
    have hlen : ci.members.length * cj.members.length ≠ 0 := by
      have h1 := List.length_pos_iff.2 hine
      have h2 := List.length_pos_iff.2 hjne
      exact Nat.mul_ne_zero (by omega) (by omega)
    refine ⟨env.ward ds ci.members.length cj.members.length, ?_, ds, ?_, rfl⟩
    · unfold hLinkage
      simp only [hds, bind, Except.bind, if_neg hlen]; rfl
    · have hF := mapM_ok_iff.1 hds
      have hsub' : ∀ p ∈ laterPairs (ci.members ++ cj.members), p.1 ∈ m.managed ∧ p.2 ∈ m.managed := fun p hp =>
        ⟨hsub _ (laterPairs_mem hp).1, hsub _ (laterPairs_mem hp).2⟩
      clear hds
      generalize laterPairs (ci.members ++ cj.members) = L at hF hsub'
      induction hF with
      | nil => exact .nil
      | @cons p e L ds h1 h2 ih =>
        refine .cons ?_ (ih (fun q hq => hsub' q (by simp [hq])))
        obtain ⟨e1, e2⟩ := hsub' p (by simp)
        obtain ⟨v, w, e3, e4, e5⟩ := hT p e1 e2
        rw [h1] at e5
        exact ⟨v, w, e3, e4, Except.ok.inj e5⟩

/-! ### Distances between clusters -/

def CentInv (env : HierEnv V δ) (vectors : Dict α V) (st : Dict Nat (HCluster α V)) : Prop :=
  ∀ i n, dget? st i = some n → hCentroid env vectors n.members = .ok n.centroid

/-- The distance of two stored clusters, from their members. -/
def DistIs (env : HierEnv V δ) (link : Linkage) (m : Manager α) (vectors : Dict α V) (xs ys : List α)
    (d : WithTop δ) : Prop :=
  (d = ⊤ ∧ Opposed m xs ys) ∨
  (∃ e : δ, d = e ∧ LinkageIs env link vectors xs ys e ∧ ¬ Opposed m xs ys)

theorem hComputeDistance_ok {env : HierEnv V δ} (link : Linkage) {m : Manager α} (h : Inv m) {vectors : Dict α V}
    {table : Dict α (Dict α δ)} (hT : PairTable env m vectors table) {R : Nat → Prop} {current : List Nat}
    {st : Dict Nat (HCluster α V)} (ht : TreeInv m R current st) (hc : CentInv env vectors st) {i j : Nat}
    (hi : i < st.length) (hj : j < st.length) :
    ∃ d, hComputeDistance env link m table st i j = .ok d ∧
      DistIs env link m vectors (membersOf st i) (membersOf st j) d := by
  obtain ⟨ni, hni⟩ := ht.keys.exists hi
  obtain ⟨nj, hnj⟩ := ht.keys.exists hj
  have hsi := ht.sub i
  have hsj := ht.sub j
  have hnei := ht.ne i hi
  have hnej := ht.ne j hj
  rw [membersOf_eq hni] at hsi hnei ⊢
  rw [membersOf_eq hnj] at hsj hnej ⊢
  obtain ⟨b, hb, hbiff⟩ := hHasCannotLink_ok h hsi hsj
  obtain ⟨e, he, hL⟩ := hLinkage_ok (link := link) hT hsi hsj hnei hnej (hc i ni hni) (hc j nj hnj)
  unfold hComputeDistance
  rw [dget_of_dget? hni, dget_of_dget? hnj]
  simp only [bind, Except.bind, hb]
  cases b with
  | true => exact ⟨⊤, rfl, .inl ⟨rfl, hbiff.1 rfl⟩⟩
  | false =>
    refine ⟨e, ?_, .inr ⟨e, rfl, hL, fun hx => ?_⟩⟩
    · simp only [Bool.false_eq_true, if_false, he]; rfl
    · exact absurd (hbiff.2 hx) (by simp)

/-- Look-up of the table of cluster distances. -/
def distGet (D : Dict Nat (Dict Nat (WithTop δ))) (i j : Nat) : Option (WithTop δ) :=
  (dget? D i).bind fun row => dget? row j

theorem hGetDistance_eq {D : Dict Nat (Dict Nat (WithTop δ))} {i j : Nat} (hij : i < j) {d : WithTop δ}
    (h : distGet D i j = some d) : hGetDistance D i j = .ok d := by
  unfold hGetDistance
  rw [Nat.min_eq_left (by omega), Nat.max_eq_right (by omega)]
  unfold distGet at h
  cases hr : dget? D i with
  | none => rw [hr] at h; cases h
  | some row =>
    rw [hr] at h
    rw [dget_of_dget? hr]
    exact dget_of_dget? h

theorem distGet_set (D : Dict Nat (Dict Nat (WithTop δ))) {i j : Nat} (hij : i < j) (d : WithTop δ) (a b : Nat) :
    distGet (hSetDistance D d i j) a b = if i = a ∧ j = b then some d else distGet D a b := by
  unfold hSetDistance distGet
  rw [Nat.min_eq_left (by omega), Nat.max_eq_right (by omega), dget?_dset]
  by_cases h1 : i = a
  · subst h1
    simp only [true_and, if_true]
    show dget? (dset _ j d) b = _
    rw [dget?_dset]
    split
    · rfl
    · cases hr : dget? D i with
      | none => simp [dget?]
      | some row => rfl
  · simp [h1]

/-- Every pair of current clusters has its distance in the table. -/
def DistInv (env : HierEnv V δ) (link : Linkage) (m : Manager α) (vectors : Dict α V) (current : List Nat)
    (st : Dict Nat (HCluster α V)) (D : Dict Nat (Dict Nat (WithTop δ))) : Prop :=
  ∀ i ∈ current, ∀ j ∈ current, i < j →
    ∃ d, distGet D i j = some d ∧ DistIs env link m vectors (membersOf st i) (membersOf st j) d

theorem dist_fold {env : HierEnv V δ} {link : Linkage} {m : Manager α} {vectors : Dict α V} {table : Dict α (Dict α δ)}
    {st : Dict Nat (HCluster α V)} {L : List (Nat × Nat)} (hL : ∀ p ∈ L, p.1 < p.2)
    (hc : ∀ p ∈ L, ∃ d, hComputeDistance env link m table st p.1 p.2 = .ok d ∧
      DistIs env link m vectors (membersOf st p.1) (membersOf st p.2) d) (D : Dict Nat (Dict Nat (WithTop δ))) :
    ∃ D', L.foldlM (fun distances p => do
      let d ← hComputeDistance env link m table st p.1 p.2
      return hSetDistance distances d p.1 p.2) D = .ok D' ∧
      (∀ p ∈ L, ∃ d, distGet D' p.1 p.2 = some d ∧ DistIs env link m vectors (membersOf st p.1) (membersOf st p.2) d) ∧
      (∀ a b, (a, b) ∉ L → distGet D' a b = distGet D a b) := by
  induction L generalizing D with
  | nil => exact ⟨D, rfl, by simp, by simp⟩
  | cons p L ih =>
    obtain ⟨d, hd, hdi⟩ := hc p (by simp)
    obtain ⟨D', e1, e2, e3⟩ := ih (fun q hq => hL q (by simp [hq])) (fun q hq => hc q (by simp [hq]))
      (hSetDistance D d p.1 p.2)
    refine ⟨D', ?_, ?_, ?_⟩
    · rw [List.foldlM_cons, hd]; exact e1
    · intro q hq
      by_cases hqL : q ∈ L
      · exact e2 q hqL
      · rcases List.mem_cons.1 hq with rfl | hq
        · refine ⟨d, ?_, hdi⟩
          rw [e3 q.1 q.2 hqL, distGet_set D (hL q (by simp)), if_pos ⟨rfl, rfl⟩]
        · exact absurd hq hqL
    · intro a b hab
      rw [e3 a b (fun hc => hab (by simp [hc])), distGet_set D (hL p (by simp)), if_neg]
      rintro ⟨rfl, rfl⟩
      exact hab (by simp)

theorem mem_ltPairs {l : List Nat} {p : Nat × Nat} :
    p ∈ (l.flatMap fun i => (l.filter fun j => decide (i < j)).map fun j => (i, j)) ↔ p.1 ∈ l ∧ p.2 ∈ l ∧ p.1 < p.2 := by
  rw [List.mem_flatMap]
  constructor
  · rintro ⟨i, hi, hp⟩
    obtain ⟨j, hj, rfl⟩ := List.mem_map.1 hp
    rw [List.mem_filter] at hj
    exact ⟨hi, hj.1, of_decide_eq_true hj.2⟩
  · rintro ⟨h1, h2, h3⟩
    exact ⟨p.1, h1, List.mem_map.2 ⟨p.2, List.mem_filter.2 ⟨h2, decide_eq_true h3⟩, rfl⟩⟩

theorem ClosestMerge.push {env : HierEnv V δ} {link : Linkage} {m : Manager α} {vectors : Dict α V}
    {st : Dict Nat (HCluster α V)} (hk : SeqKeys st) (v : HCluster α V) {i : Nat} (hi : i ≤ st.length) {n : HCluster α V}
    (h : ClosestMerge env link m vectors st i n) : ClosestMerge env link m vectors (dset st st.length v) i n := by
  have hal : ∀ j, Alive (dset st st.length v) i j ↔ Alive st i j := by
    intro j
    unfold Alive
    refine and_congr_right fun hj => forall_congr' fun k => imp_congr_right fun hki => not_congr ?_
    rw [child_push hk]
    constructor
    · rintro (h1 | ⟨rfl, -⟩)
      · exact h1
      · omega
    · exact .inl
  have hm : ∀ j, Alive st i j → membersOf (dset st st.length v) j = membersOf st j :=
    fun j hj => membersOf_push hk v (by have := hj.1; omega)
  obtain ⟨a, b, e1, e2, e3, e4, e5, d, e6, e7⟩ := h
  refine ⟨a, b, e1, e2, (hal a).2 e3, (hal b).2 e4, ?_, d, ?_, ?_⟩
  · rw [hm a e3, hm b e4]; exact e5
  · rw [hm a e3, hm b e4]; exact e6
  · intro c e hc he hce
    rw [hal] at hc he
    rw [hm a e3, hm b e4, hm c hc, hm e he]
    exact e7 c e hc he hce

theorem TreeInv.alive {m : Manager α} {R : Nat → Prop} {current : List Nat} {st : Dict Nat (HCluster α V)}
    (ht : TreeInv m R current st) {j : Nat} : Alive st st.length j ↔ j ∈ current := by
  constructor
  · rintro ⟨h1, h2⟩
    rcases ht.parent j h1 with h3 | ⟨k, h3⟩
    · exact h3
    · obtain ⟨n, hn, hc⟩ := h3
      exact absurd ⟨n, hn, hc⟩ (h2 k (ht.keys.lt hn))
  · intro hj
    exact ⟨ht.cur j hj, fun k _ hc => ht.top k j hc hj⟩

theorem TreeInv.alive_push {m : Manager α} {R : Nat → Prop} {current : List Nat} {st : Dict Nat (HCluster α V)}
    (ht : TreeInv m R current st) (v : HCluster α V) {j : Nat} :
    Alive (dset st st.length v) st.length j ↔ j ∈ current := by
  rw [← ht.alive]
  unfold Alive
  refine and_congr_right fun hj => forall_congr' fun k => imp_congr_right fun hki => not_congr ?_
  rw [child_push ht.keys]
  constructor
  · rintro (h1 | ⟨rfl, -⟩)
    · exact h1
    · omega
  · exact .inl

/-- State between two iterations of the loop. -/
structure LoopInv (env : HierEnv V δ) (link : Linkage) (m : Manager α) (vectors : Dict α V) (s : HState α V δ) : Prop where
  tree : TreeInv m (fun _ => False) s.current s.storage
  cent : CentInv env vectors s.storage
  dist : DistInv env link m vectors s.current s.storage s.distances
  iter : s.iteration + m.components.length = s.storage.length + 1
  size : s.storage.length + s.current.length = 2 * m.components.length
  iters : ∀ i n, dget? s.storage i = some n → (n.children = [] ∧ i < m.components.length) ∨
    (n.children ≠ [] ∧ m.components.length ≤ i ∧ n.iteration + m.components.length = i + 1)
  greedy : ∀ i n, dget? s.storage i = some n → n.children ≠ [] → ClosestMerge env link m vectors s.storage i n

theorem LoopInv.le {env : HierEnv V δ} {link : Linkage} {m : Manager α} {vectors : Dict α V} {s : HState α V δ}
    (hl : LoopInv env link m vectors s) (hne : m.managed ≠ []) : m.components.length ≤ s.storage.length ∧ s.current ≠ [] := by
  have hc : s.current ≠ [] := by
    intro h0
    have := hl.tree.cover
    rw [h0] at this
    exact hne this.symm.eq_nil
  refine ⟨?_, hc⟩
  have h1 := hl.iter
  have h2 := hl.size
  have h3 : s.current.length ≤ m.components.length := by
    by_contra hlt
    have hmem : ∃ c ∈ s.current, m.components.length ≤ c := by
      by_contra hall
      push Not at hall
      have hnd : s.current.Nodup := hl.tree.sorted.imp (fun h => Nat.ne_of_lt h)
      have hsub : s.current ⊆ List.range m.components.length := fun c hc => List.mem_range.2 (hall c hc)
      have := (hnd.subperm hsub).length_le
      rw [List.length_range] at this
      omega
    obtain ⟨c, hc, hle⟩ := hmem
    have := hl.tree.cur c hc
    omega
  omega

theorem hStart_ok {env : HierEnv V δ} (link : Linkage) {m : Manager α} (h : Inv m) {vectors : Dict α V}
    {table : Dict α (Dict α δ)} (hT : PairTable env m vectors table) (hv : HasVectors m vectors) :
    ∃ s, hStart env link m vectors table = .ok s ∧ LoopInv env link m vectors s := by
  obtain ⟨s, e1, hs⟩ := hAddLeaf_fold (env := env) hv (Q := m.components)
    (fun xs hxs => ⟨component_ne_nil h hxs, fun x hx => (mem_component_iff h hxs hx).1⟩) (leafInv_init env vectors)
  rw [List.nil_append] at hs
  have ht := hs.tree h
  obtain ⟨D, e2, e3, -⟩ := dist_fold (env := env) (link := link) (m := m) (vectors := vectors) (table := table) (st := s.storage)
    (L := s.current.flatMap fun i => (s.current.filter fun j => decide (i < j)).map fun j => (i, j))
    (fun p hp => (mem_ltPairs.1 hp).2.2)
    (fun p hp => hComputeDistance_ok link h hT ht hs.cent (ht.cur _ (mem_ltPairs.1 hp).1) (ht.cur _ (mem_ltPairs.1 hp).2.1)) []
  refine ⟨{ s with distances := D, iteration := 1 }, ?_, ht, hs.cent, ?_, ?_, ?_, ?_, ?_⟩
  · unfold hStart hInitDistances
    rw [e1]
    simp only [bind, Except.bind]
    simp only [bind, Except.bind] at e2
    rw [e2]; rfl
  · intro i hi j hj hij
    exact e3 (i, j) (mem_ltPairs.2 ⟨hi, hj, hij⟩)
  · simp only [hs.len]; omega
  · simp only [hs.cur, List.length_range, hs.len]; omega
  · intro i n hn
    refine .inl ⟨(hs.get i n hn).1, ?_⟩
    rw [← hs.len]; exact hs.keys.lt hn
  · intro i n hn hne
    exact absurd (hs.get i n hn).1 hne

theorem hClosest_ok {env : HierEnv V δ} {link : Linkage} {m : Manager α} {vectors : Dict α V} {s : HState α V δ}
    (hl : LoopInv env link m vectors s) (h1 : 1 < s.current.length) :
    ∃ o, hClosest s = .ok o ∧
      (o = none → ∀ i ∈ s.current, ∀ j ∈ s.current, i < j →
        Opposed m (membersOf s.storage i) (membersOf s.storage j)) ∧
      (∀ p, o = some p → p.1 ∈ s.current ∧ p.2 ∈ s.current ∧ p.1 < p.2 ∧
        (¬ Opposed m (membersOf s.storage p.1) (membersOf s.storage p.2)) ∧
        ∃ d : δ, LinkageIs env link vectors (membersOf s.storage p.1) (membersOf s.storage p.2) d ∧
          ∀ i ∈ s.current, ∀ j ∈ s.current, i < j →
            (¬ Opposed m (membersOf s.storage i) (membersOf s.storage j)) →
            ∃ e : δ, LinkageIs env link vectors (membersOf s.storage i) (membersOf s.storage j) e ∧
              (d < e ∨ (d = e ∧ (membersOf s.storage p.1).length + (membersOf s.storage p.2).length ≤
                (membersOf s.storage i).length + (membersOf s.storage j).length))) := by
  have ht := hl.tree
  have hval : ∀ p ∈ (s.current.flatMap fun i => (s.current.filter fun j => decide (i < j)).map fun j => (i, j)),
      ∃ d, (do
        let d ← hGetDistance s.distances p.1 p.2
        let n1 ← dget s.storage p.1
        let n2 ← dget s.storage p.2
        return (p, d, n1.members.length + n2.members.length) : Except PyErr ((Nat × Nat) × WithTop δ × Nat)) =
          .ok (p, d, (membersOf s.storage p.1).length + (membersOf s.storage p.2).length) ∧
        DistIs env link m vectors (membersOf s.storage p.1) (membersOf s.storage p.2) d := by
    intro p hp
    obtain ⟨e1, e2, e3⟩ := mem_ltPairs.1 hp
    obtain ⟨d, hd, hdi⟩ := hl.dist p.1 e1 p.2 e2 e3
    obtain ⟨n1, hn1⟩ := ht.keys.exists (ht.cur _ e1)
    obtain ⟨n2, hn2⟩ := ht.keys.exists (ht.cur _ e2)
    refine ⟨d, ?_, hdi⟩
    rw [hGetDistance_eq e3 hd, dget_of_dget? hn1, dget_of_dget? hn2, membersOf_eq hn1, membersOf_eq hn2]
    rfl
  obtain ⟨items, hitems⟩ := mapM_total (fun p hp => by obtain ⟨d, hd, -⟩ := hval p hp; exact ⟨_, hd⟩)
  have hF := mapM_ok_iff.1 hitems
  have hright : ∀ it ∈ items, it.1 ∈ (s.current.flatMap fun i => (s.current.filter fun j => decide (i < j)).map fun j => (i, j)) ∧
      it.2.2 = (membersOf s.storage it.1.1).length + (membersOf s.storage it.1.2).length ∧
      DistIs env link m vectors (membersOf s.storage it.1.1) (membersOf s.storage it.1.2) it.2.1 := by
    intro it hit
    obtain ⟨p, hp, e⟩ := forall₂_mem_right hF hit
    obtain ⟨d, hd, hdi⟩ := hval p hp
    rw [hd] at e
    cases e
    exact ⟨hp, rfl, hdi⟩
  have hleft : ∀ i ∈ s.current, ∀ j ∈ s.current, i < j → ∃ it ∈ items, it.1 = (i, j) := by
    intro i hi j hj hij
    obtain ⟨it, hit, e⟩ := forall₂_mem_left hF (mem_ltPairs.2 ⟨hi, hj, hij⟩ : (i, j) ∈ _)
    obtain ⟨d, hd, -⟩ := hval (i, j) (mem_ltPairs.2 ⟨hi, hj, hij⟩)
    rw [hd] at e
    cases e
    exact ⟨_, hit, rfl⟩
  have hine : items ≠ [] := by
    have hsort := ht.sorted
    match hcur : s.current, h1 with
    | a :: b :: l, _ =>
      rw [hcur] at hsort
      have hab : a < b := (List.pairwise_cons.1 hsort).1 b (by simp)
      obtain ⟨it, hit, -⟩ := hleft a (by rw [hcur]; simp) b (by rw [hcur]; simp) hab
      rintro rfl; cases hit
  obtain ⟨it, hit⟩ := pyMinBy_isSome (key := fun (it : (Nat × Nat) × WithTop δ × Nat) => toLex (it.2.1, it.2.2)) hine
  obtain ⟨hmem, hmin⟩ := pyMinBy_spec hit
  obtain ⟨hp, hsize, hdi⟩ := hright it hmem
  obtain ⟨e1, e2, e3⟩ := mem_ltPairs.1 hp
  have heq : hClosest s = .ok (if it.2.1 = ⊤ then none else some it.1) := by
    unfold hClosest
    rw [hitems]
    simp only [bind, Except.bind, hit]
    split <;> rfl
  refine ⟨_, heq, ?_, ?_⟩
  · intro ho i hi j hj hij
    have htop : it.2.1 = ⊤ := by
      by_contra hne
      rw [if_neg hne] at ho; cases ho
    obtain ⟨it', hit', he'⟩ := hleft i hi j hj hij
    have hle := hmin it' hit'
    obtain ⟨-, -, hdi'⟩ := hright it' hit'
    rw [he'] at hdi'
    rcases hdi' with ⟨-, hcl⟩ | ⟨e, hde, -, -⟩
    · exact hcl
    · exfalso
      rw [Prod.Lex.le_iff] at hle
      simp only [ofLex_toLex, htop, hde] at hle
      rcases hle with hle | ⟨hle, -⟩
      · exact absurd hle (not_lt_of_ge le_top)
      · exact absurd hle.symm (WithTop.coe_ne_top)
  · intro p ho
    have hne : it.2.1 ≠ ⊤ := by
      intro htop
      rw [if_pos htop] at ho; cases ho
    rw [if_neg hne] at ho
    cases ho
    rcases hdi with ⟨htop, -⟩ | ⟨d, hd, hL, hcl⟩
    · exact absurd htop hne
    · refine ⟨e1, e2, e3, hcl, d, hL, ?_⟩
      intro i hi j hj hij hno
      obtain ⟨it', hit', he'⟩ := hleft i hi j hj hij
      have hle := hmin it' hit'
      obtain ⟨-, hsize', hdi'⟩ := hright it' hit'
      rw [he'] at hdi' hsize'
      rcases hdi' with ⟨-, hc⟩ | ⟨e, hde, hL', -⟩
      · exact absurd hc hno
      · refine ⟨e, hL', ?_⟩
        rw [Prod.Lex.le_iff] at hle
        simp only [ofLex_toLex, hd, hde, hsize, hsize', WithTop.coe_lt_coe, WithTop.coe_inj] at hle
        exact hle

theorem hUpdate_eq {env : HierEnv V δ} {link : Linkage} {m : Manager α} {table : Dict α (Dict α δ)}
    {st : Dict Nat (HCluster α V)} {merged : Nat} (l : List Nat) (D : Dict Nat (Dict Nat (WithTop δ))) :
    l.foldlM (fun distances c => do
      if c ≠ merged then
        let d ← hComputeDistance env link m table st c merged
        return hSetDistance distances d c merged
      else return distances : Dict Nat (Dict Nat (WithTop δ)) → Nat → Except PyErr _) D =
    ((l.filter fun c => decide (c ≠ merged)).map fun c => (c, merged)).foldlM (fun distances p => do
      let d ← hComputeDistance env link m table st p.1 p.2
      return hSetDistance distances d p.1 p.2) D := by
  induction l generalizing D with
  | nil => rfl
  | cons c l ih =>
    rw [List.foldlM_cons]
    by_cases hc : c = merged
    · subst hc
      simp only [ne_eq, not_true_eq_false, if_false, decide_false, List.filter_cons_of_neg, Bool.false_eq_true, not_false_eq_true]
      exact ih D
    · rw [List.filter_cons_of_pos (by simp [hc]), List.map_cons, List.foldlM_cons]
      simp only [ne_eq, hc, not_false_eq_true, if_true]
      cases hComputeDistance env link m table st c merged with
      | error e => rfl
      | ok d => exact ih _

theorem hMergeStep_ok {env : HierEnv V δ} {link : Linkage} {m : Manager α} (h : Inv m) {vectors : Dict α V}
    {table : Dict α (Dict α δ)} (hT : PairTable env m vectors table) (hv : HasVectors m vectors) (hne : m.managed ≠ [])
    {s : HState α V δ} (hl : LoopInv env link m vectors s) {p : Nat × Nat}
    (h1 : p.1 ∈ s.current) (h2 : p.2 ∈ s.current) (h3 : p.1 < p.2)
    (h4 : ¬ Opposed m (membersOf s.storage p.1) (membersOf s.storage p.2))
    (h5 : ∃ d : δ, LinkageIs env link vectors (membersOf s.storage p.1) (membersOf s.storage p.2) d ∧
          ∀ i ∈ s.current, ∀ j ∈ s.current, i < j → ¬ Opposed m (membersOf s.storage i) (membersOf s.storage j) →
            ∃ e : δ, LinkageIs env link vectors (membersOf s.storage i) (membersOf s.storage j) e ∧
              (d < e ∨ (d = e ∧ (membersOf s.storage p.1).length + (membersOf s.storage p.2).length ≤
                (membersOf s.storage i).length + (membersOf s.storage j).length))) :
    ∃ s', hMergeStep env link m vectors table s p = .ok s' ∧ LoopInv env link m vectors s' ∧
      s'.current.length + 1 = s.current.length := by
  have hle := (hl.le hne).1
  have hk := hl.tree.keys
  have hlen := hl.size
  have hiter := hl.iter
  have hnd : s.current.Nodup := hl.tree.sorted.imp (fun h => Nat.ne_of_lt h)
  have hcs : ([p.1, p.2] : List Nat).Nodup := by simp; omega
  have hsub : ∀ c ∈ [p.1, p.2], c ∈ s.current := by
    intro c hc
    simp only [List.mem_cons, List.not_mem_nil, or_false] at hc
    rcases hc with rfl | rfl <;> assumption
  obtain ⟨n, e1, e2, e3, e4, hit, ht⟩ := TreeInv.merge (env := env) (R' := fun _ => False) h hv hl.tree (by omega) hcs hsub
    (by simp) (fun _ h => h) (.inr (by
      intro x hx y hy hcl
      simp only [List.flatMap_cons, List.flatMap_nil, List.append_nil, List.mem_append] at hx hy
      rcases hx with hx | hx <;> rcases hy with hy | hy
      · exact hl.tree.nocl p.1 (fun h => h) x hx y hy hcl
      · exact h4 ⟨x, hx, y, hy, hcl⟩
      · exact h4 ⟨y, hy, x, hx, hcl.symm h⟩
      · exact hl.tree.nocl p.2 (fun h => h) x hx y hy hcl))
  generalize hcur' : (s.current.filter fun i => decide (i ∉ [p.1, p.2])) ++ [s.storage.length] = cur' at e1 ht
  have hmem' : ∀ i ∈ cur', i = s.storage.length ∨ (i ∈ s.current ∧ i < s.storage.length) := by
    intro i hi
    rw [← hcur'] at hi
    rcases List.mem_append.1 hi with hi | hi
    · have := List.mem_of_mem_filter hi
      exact .inr ⟨this, hl.tree.cur i this⟩
    · exact .inl (List.mem_singleton.1 hi)
  have hcent : CentInv env vectors (dset s.storage s.storage.length n) := forall_push hk hl.cent e4
  have hlen' : cur'.length + 1 = s.current.length := by
    have := (perm_filter_append hnd hcs hsub).length_eq
    rw [List.length_append] at this
    rw [← hcur', List.length_append, this]; rfl
  obtain ⟨D, f1, f2, f3⟩ := dist_fold (env := env) (link := link) (m := m) (vectors := vectors) (table := table)
    (st := dset s.storage s.storage.length n)
    (L := (cur'.filter fun c => decide (c ≠ s.storage.length)).map fun c => (c, s.storage.length))
    (by
      intro q hq
      obtain ⟨c, hc, rfl⟩ := List.mem_map.1 hq
      obtain ⟨hc1, hc2⟩ := List.mem_filter.1 hc
      rcases hmem' c hc1 with rfl | ⟨-, hlt⟩
      · simp at hc2
      · exact hlt)
    (by
      intro q hq
      obtain ⟨c, hc, rfl⟩ := List.mem_map.1 hq
      obtain ⟨hc1, -⟩ := List.mem_filter.1 hc
      exact hComputeDistance_ok link h hT ht hcent (ht.cur c hc1) (by rw [length_push hk]; simp)) s.distances
  refine ⟨⟨cur', dset s.storage s.storage.length n, D, s.iteration + 1⟩, ?_, ⟨ht, hcent, ?_, ?_, ?_, ?_, ?_⟩, hlen'⟩
  · unfold hMergeStep hUpdateDistances
    rw [e1]
    simp only [bind, Except.bind]
    have := hUpdate_eq (env := env) (link := link) (m := m) (table := table) (st := dset s.storage s.storage.length n)
      (merged := s.storage.length) cur' s.distances
    rw [f1] at this
    simp only [bind, Except.bind] at this
    rw [this]
    rfl
  · -- distances
    intro i hi j hj hij
    by_cases hjl : j = s.storage.length
    · refine f2 (i, j) ?_
      rw [hjl]
      exact List.mem_map.2 ⟨i, List.mem_filter.2 ⟨hi, by simp; omega⟩, rfl⟩
    · rcases hmem' j hj with hj' | ⟨hj', hjlt⟩
      · exact absurd hj' hjl
      · rcases hmem' i hi with hi' | ⟨hi', hilt⟩
        · omega
        · obtain ⟨d, hd, hdi⟩ := hl.dist i hi' j hj' hij
          refine ⟨d, ?_, ?_⟩
          · rw [f3 i j, hd]
            intro hc
            obtain ⟨c, -, hc⟩ := List.mem_map.1 hc
            have := congrArg Prod.snd hc
            exact hjl this.symm
          · rw [membersOf_push hk n hilt, membersOf_push hk n hjlt]; exact hdi
  · simp only [length_push hk]; omega
  · simp only [length_push hk]; omega
  · refine forall_push hk (P := fun i n => (n.children = [] ∧ i < m.components.length) ∨
      (n.children ≠ [] ∧ m.components.length ≤ i ∧ n.iteration + m.components.length = i + 1)) hl.iters (.inr ⟨?_, hle, ?_⟩)
    · rw [e2]; simp
    · omega
  · refine forall_push hk (P := fun i n' => n'.children ≠ [] →
      ClosestMerge env link m vectors (dset s.storage s.storage.length n) i n')
      (fun i n' hi hn' => (hl.greedy i n' hi hn').push hk n (le_of_lt (hk.lt hi))) ?_
    intro _
    have hm : ∀ j ∈ s.current, membersOf (dset s.storage s.storage.length n) j = membersOf s.storage j :=
      fun j hj => membersOf_push hk n (hl.tree.cur j hj)
    obtain ⟨d, hd, hmin⟩ := h5
    refine ⟨p.1, p.2, e2, h3, (hl.tree.alive_push n).2 h1, (hl.tree.alive_push n).2 h2, ?_, d, ?_, ?_⟩
    · rw [hm _ h1, hm _ h2]; exact h4
    · rw [hm _ h1, hm _ h2]; exact hd
    · intro c e hc he hce
      rw [hl.tree.alive_push n] at hc he
      rw [hm _ h1, hm _ h2, hm _ hc, hm _ he]
      exact hmin c hc e he hce

/-- What the loop leaves. -/
theorem hLoop_ok {env : HierEnv V δ} {link : Linkage} {m : Manager α} (h : Inv m) {vectors : Dict α V}
    {table : Dict α (Dict α δ)} (hT : PairTable env m vectors table) (hv : HasVectors m vectors) (hne : m.managed ≠ []) :
    ∀ {fuel : Nat} {s : HState α V δ}, LoopInv env link m vectors s → s.current.length ≤ fuel + 1 →
    ∃ s', hLoop env link m vectors table fuel s = .ok s' ∧ LoopInv env link m vectors s' ∧
      s'.current.Pairwise fun i j => Opposed m (membersOf s'.storage i) (membersOf s'.storage j) := by
  have hshort : ∀ l : List Nat, ¬ l.length > 1 → ∀ R : Nat → Nat → Prop, l.Pairwise R := by
    intro l hl R
    match l, hl with
    | [], _ => exact List.Pairwise.nil
    | [a], _ => exact List.pairwise_singleton R a
    | a :: b :: l, hl => exact absurd (by simp) hl
  intro fuel
  induction fuel with
  | zero =>
    intro s hl hf
    have hn : ¬ s.current.length > 1 := by omega
    refine ⟨s, ?_, hl, hshort _ hn _⟩
    unfold hLoop
    rw [if_neg hn]
  | succ fuel ih =>
    intro s hl hf
    by_cases hn : s.current.length > 1
    · obtain ⟨o, ho, hnone, hsome⟩ := hClosest_ok hl hn
      cases o with
      | none =>
        refine ⟨s, ?_, hl, ?_⟩
        · unfold hLoop
          rw [if_pos hn, ho]; rfl
        · refine hl.tree.sorted.imp_of_mem ?_
          intro i j hi hj hij
          exact hnone rfl i hi j hj hij
      | some p =>
        obtain ⟨h1, h2, h3, h4, h5⟩ := hsome p rfl
        obtain ⟨s', e1, hl', hlen⟩ := hMergeStep_ok h hT hv hne hl h1 h2 h3 h4 h5
        obtain ⟨s'', e2, hl'', hp⟩ := ih hl' (by omega)
        refine ⟨s'', ?_, hl'', hp⟩
        unfold hLoop
        rw [if_pos hn, ho]
        simp only [bind, Except.bind, e1]
        exact e2
    · refine ⟨s, ?_, hl, hshort _ hn _⟩
      unfold hLoop
      rw [if_neg hn]

end Verif
