import Verif.Proofs.HierTree

/-
The distances at which clusters are merged (C74).
-/

namespace Verif

variable {α V δ : Type} [LinearOrder α] [LinearOrder δ]

/-- At distance at least `d`, for single and complete linkage. -/
def AtLeastApart (env : HierEnv V δ) (link : Linkage) (vectors : Dict α V) (xs ys : List α) (d : δ) : Prop :=
  match link with
  | .single => ∀ x ∈ xs, ∀ y ∈ ys, ∀ v w, dget? vectors x = some v → dget? vectors y = some w → d ≤ env.metric v w
  | .complete => ∃ x ∈ xs, ∃ y ∈ ys, ∃ v w, dget? vectors x = some v ∧ dget? vectors y = some w ∧ d ≤ env.metric v w
  | _ => True

theorem AtLeastApart.of_linkage {env : HierEnv V δ} {link : Linkage} {vectors : Dict α V} {xs ys : List α} {d d' : δ}
    (h : LinkageIs env link vectors xs ys d') (hd : d ≤ d') : AtLeastApart env link vectors xs ys d := by
  cases link with
  | single => exact fun x hx y hy v w hv hw => le_trans hd (h.2 x hx y hy v w hv hw)
  | complete =>
    obtain ⟨⟨x, hx, y, hy, v, w, hv, hw, rfl⟩, -⟩ := h
    exact ⟨x, hx, y, hy, v, w, hv, hw, hd⟩
  | average => trivial
  | ward => trivial

theorem AtLeastApart.le {env : HierEnv V δ} {link : Linkage} (hl : link = .single ∨ link = .complete) {vectors : Dict α V}
    {xs ys : List α} {d d' : δ} (h : AtLeastApart env link vectors xs ys d) (h' : LinkageIs env link vectors xs ys d') :
    d ≤ d' := by
  rcases hl with rfl | rfl
  · obtain ⟨⟨x, hx, y, hy, v, w, hv, hw, rfl⟩, -⟩ := h'
    exact h x hx y hy v w hv hw
  · obtain ⟨x, hx, y, hy, v, w, hv, hw, hd⟩ := h
    exact le_trans hd (h'.2 x hx y hy v w hv hw)

theorem AtLeastApart.symm {env : HierEnv V δ} (hs : ∀ v w, env.metric v w = env.metric w v) {link : Linkage}
    {vectors : Dict α V} {xs ys : List α} {d : δ} (h : AtLeastApart env link vectors xs ys d) :
    AtLeastApart env link vectors ys xs d := by
  cases link with
  | single => exact fun y hy x hx w v hw hv => hs v w ▸ h x hx y hy v w hv hw
  | complete =>
    obtain ⟨x, hx, y, hy, v, w, hv, hw, hd⟩ := h
    exact ⟨y, hy, x, hx, w, v, hw, hv, hs v w ▸ hd⟩
  | average => trivial
  | ward => trivial

theorem AtLeastApart.append {env : HierEnv V δ} {link : Linkage} {vectors : Dict α V} {xs ys zs : List α} {d : δ}
    (h : AtLeastApart env link vectors xs ys d) (h' : AtLeastApart env link vectors xs zs d) :
    AtLeastApart env link vectors xs (ys ++ zs) d := by
  cases link with
  | single =>
    intro x hx y hy
    rcases List.mem_append.mp hy with hy | hy
    · exact h x hx y hy
    · exact h' x hx y hy
  | complete =>
    obtain ⟨x, hx, y, hy, k⟩ := h
    exact ⟨x, hx, y, List.mem_append_left _ hy, k⟩
  | average => trivial
  | ward => trivial

theorem Opposed.symm {m : Manager α} (hm : Inv m) {xs ys : List α} (h : Opposed m xs ys) : Opposed m ys xs := by
  obtain ⟨x, hx, y, hy, k⟩ := h
  exact ⟨y, hy, x, hx, k.symm hm⟩

/-- Once `i` was created by a merge at distance `d`, any two clusters without cannot-link are at distance at
least `d`, as long as the merging goes on. -/
theorem far_after {env : HierEnv V δ} (hs : ∀ v w, env.metric v w = env.metric w v) {link : Linkage}
    {m : Manager α} (hm : Inv m) {vectors : Dict α V} {root : Nat} {st : Dict Nat (HCluster α V)}
    (hb : Built env link m vectors root st) {i a b : Nat} {n : HCluster α V} (hn : dget? st i = some n) (hc : n.children = [a, b])
    {d : δ} (hd : ∀ c e, Alive st i c → Alive st i e → c < e → ¬ Opposed m (membersOf st c) (membersOf st e) →
        ∃ d', LinkageIs env link vectors (membersOf st c) (membersOf st e) d' ∧ d ≤ d') {k : Nat} (hk : i ≤ k) (hkr : k ≤ root) :
    ∀ c e, Alive st k c → Alive st k e → c ≠ e → ¬ Opposed m (membersOf st c) (membersOf st e) →
      AtLeastApart env link vectors (membersOf st c) (membersOf st e) d := by
  induction k, hk using Nat.le_induction with
  | base =>
    intro c e h1 h2 hne ho
    rcases Nat.lt_or_gt_of_ne hne with hlt | hlt
    · obtain ⟨d', k1, k2⟩ := hd c e h1 h2 hlt ho
      exact .of_linkage k1 k2
    · obtain ⟨d', k1, k2⟩ := hd e c h2 h1 hlt fun h => ho (h.symm hm)
      exact (AtLeastApart.of_linkage k1 k2).symm hs
  | succ k hik ih =>
    have ih := ih (by omega)
    -- the node `k`
    obtain ⟨nk, hnk⟩ := hb.tree.keys.exists (i := k) (by have := hb.last; omega)
    have hin : nk.children ≠ [] := by
      have h0 : n.children ≠ [] := by rw [hc]; simp
      have h1 : m.components.length ≤ i := by
        rcases hb.iters i n hn with ⟨e, _⟩ | ⟨_, e, _⟩
        · exact (h0 e).elim
        · exact e
      rcases hb.iters k nk hnk with ⟨_, e⟩ | ⟨e, _⟩
      · omega
      · exact e
    have hcm : ClosestMerge env link m vectors st k nk := by
      rcases hb.kind k nk hnk hin with e | ⟨e, _⟩
      · exact e
      · omega
    obtain ⟨p, q, hpq, -, hp, hq, -⟩ := hcm
    have hmem : membersOf st k = membersOf st p ++ membersOf st q := by
      rw [membersOf_eq hnk, (hb.tree.inner k nk hnk hin).2.2.2.1, hpq]
      simp
    have hchild : ∀ c, c = p ∨ c = q → Child st k c := fun c h => ⟨nk, hnk, by rw [hpq]; simpa using h⟩
    -- a cluster and the new one
    have new : ∀ c, Alive st (k + 1) c → c ≠ k → ¬ Opposed m (membersOf st c) (membersOf st k) →
        AtLeastApart env link vectors (membersOf st c) (membersOf st k) d := by
      intro c h1 hck ho
      have h1' : Alive st k c := ⟨by have := h1.1; omega, fun k' hk' => h1.2 k' (by omega)⟩
      have hcp : c ≠ p := fun e => h1.2 k (by omega) (hchild c (.inl e))
      have hcq : c ≠ q := fun e => h1.2 k (by omega) (hchild c (.inr e))
      rw [hmem] at ho ⊢
      refine (ih c p h1' hp hcp fun h => ho ?_).append (ih c q h1' hq hcq fun h => ho ?_)
      · obtain ⟨x, hx, y, hy, k⟩ := h; exact ⟨x, hx, y, List.mem_append_left _ hy, k⟩
      · obtain ⟨x, hx, y, hy, k⟩ := h; exact ⟨x, hx, y, List.mem_append_right _ hy, k⟩
    intro c e h1 h2 hne ho
    by_cases hck : c = k
    · subst hck
      exact (new e h2 (Ne.symm hne) fun h => ho (h.symm hm)).symm hs
    by_cases hek : e = k
    · subst hek
      exact new c h1 hck ho
    have h1' : Alive st k c := ⟨by have := h1.1; omega, fun k' hk' => h1.2 k' (by omega)⟩
    have h2' : Alive st k e := ⟨by have := h2.1; omega, fun k' hk' => h2.2 k' (by omega)⟩
    exact ih c e h1' h2' hne ho

/-- Distances to other clusters at the time of a merge. -/
theorem Built.far {env : HierEnv V δ} {link : Linkage} {m : Manager α} {vectors : Dict α V} {root : Nat}
    {st : Dict Nat (HCluster α V)} (hb : Built env link m vectors root st)
    (hl : link = .single ∨ link = .complete) {i : Nat} {d : δ} (hi : MergedAt env link m vectors st i d) :
    ∃ n a b, dget? st i = some n ∧ n.children = [a, b] ∧ ∀ c e, Alive st i c → Alive st i e → c < e →
      ¬ Opposed m (membersOf st c) (membersOf st e) →
        ∃ d', LinkageIs env link vectors (membersOf st c) (membersOf st e) d' ∧ d ≤ d' := by
  obtain ⟨n, a, b, hn, hc, ho, hd⟩ := hi
  refine ⟨n, a, b, hn, hc, ?_⟩
  rcases hb.kind i n hn (by rw [hc]; simp) with ⟨a0, b0, e0, -, -, -, -, d0, hd0, hmin⟩ | ⟨-, -, k⟩
  · rw [hc] at e0
    cases e0
    have hdd : d ≤ d0 := (AtLeastApart.of_linkage hd (le_refl d)).le hl hd0
    intro c e h1 h2 hlt ho
    obtain ⟨d1, k1, k2⟩ := hmin c e h1 h2 hlt ho
    exact ⟨d1, k1, le_trans hdd (by rcases k2 with k2 | k2; exacts [le_of_lt k2, le_of_eq k2.1])⟩
  · rw [hc] at k
    simp at k
    exact (ho k).elim

theorem Built.gap {env : HierEnv V δ} (hs : ∀ v w, env.metric v w = env.metric w v) {link : Linkage} {m : Manager α}
    (hm : Inv m) {vectors : Dict α V} {root : Nat} {st : Dict Nat (HCluster α V)} (hb : Built env link m vectors root st)
    (hl : link = .single ∨ link = .complete) {i : Nat} {d : δ} (hi : MergedAt env link m vectors st i d) {c e : Nat}
    (hc : Alive st i c) (he : Alive st i e) (hne : c ≠ e) (ho : ¬ Opposed m (membersOf st c) (membersOf st e)) :
    AtLeastApart env link vectors (membersOf st c) (membersOf st e) d := by
  obtain ⟨n, a, b, hn, hc', hmin⟩ := hb.far hl hi
  have := hb.tree.keys.lt hn
  have := hb.last
  exact far_after hs hm hb hn hc' hmin (le_refl i) (by omega) c e hc he hne ho

theorem Built.mono {env : HierEnv V δ} (hs : ∀ v w, env.metric v w = env.metric w v) {link : Linkage} {m : Manager α}
    (hm : Inv m) {vectors : Dict α V} {root : Nat} {st : Dict Nat (HCluster α V)} (hb : Built env link m vectors root st)
    (hl : link = .single ∨ link = .complete) {i j : Nat} (hij : i < j) {d d' : δ} (hi : MergedAt env link m vectors st i d)
    (hj : MergedAt env link m vectors st j d') : d ≤ d' := by
  obtain ⟨n, a, b, hn, hc, hmin⟩ := hb.far hl hi
  obtain ⟨nj, c, e, hnj, hcj, hoj, hdj⟩ := hj
  have hjr : j ≤ root := by have := hb.tree.keys.lt hnj; have := hb.last; omega
  have far := far_after hs hm hb hn hc hmin (Nat.le_of_lt hij) hjr
  rcases hb.kind j nj hnj (by rw [hcj]; simp) with ⟨c0, e0, f0, hce, hc0, he0, -⟩ | ⟨-, -, k⟩
  · rw [hcj] at f0
    cases f0
    exact (far c e hc0 he0 (Nat.ne_of_lt hce) hoj).le hl hdj
  · rw [hcj] at k
    simp at k
    exact (hoj k).elim

/-- The two children of a merge: members, and what the children are. -/
theorem Built.split {env : HierEnv V δ} (hs : ∀ v w, env.metric v w = env.metric w v) {link : Linkage} {m : Manager α}
    (hm : Inv m) {vectors : Dict α V} {root : Nat} {st : Dict Nat (HCluster α V)} (hb : Built env link m vectors root st)
    (hl : link = .single ∨ link = .complete) {i : Nat} {d : δ} (hi : MergedAt env link m vectors st i d) :
    ∃ a b, a < i ∧ b < i ∧ membersOf st i = membersOf st a ++ membersOf st b ∧
      LinkageIs env link vectors (membersOf st a) (membersOf st b) d ∧
      ∀ c, c = a ∨ c = b → (∀ x ∈ membersOf st c, ∀ y ∈ membersOf st c, MustLinked m x y) ∨
        ∃ d', d' ≤ d ∧ MergedAt env link m vectors st c d' := by
  have hi' := hi
  obtain ⟨n, a, b, hn, hc, ho, hd⟩ := hi
  have hne : n.children ≠ [] := by rw [hc]; simp
  obtain ⟨-, hlt, -, hmem, -⟩ := hb.tree.inner i n hn hne
  rw [hc] at hlt hmem
  have hil := hb.tree.keys.lt hn
  have hlast := hb.last
  refine ⟨a, b, hlt a (by simp), hlt b (by simp), by rw [membersOf_eq hn, hmem]; simp, hd, ?_⟩
  intro c hcc
  have hci : c < i := hlt c (by simpa using hcc)
  obtain ⟨nc, hnc⟩ := hb.tree.keys.exists (i := c) (by omega)
  by_cases hk : nc.children = []
  · refine .inl fun x hx y hy => ?_
    have h1 := (hb.tree.leaf c nc hnc hk).1
    rw [membersOf_eq hnc] at hx hy
    exact ((mem_component_iff hm h1 hx).2 y).mp hy
  · rcases hb.kind c nc hnc hk with ⟨p, q, e, -, -, -, ho', d', hd', -⟩ | ⟨e, -⟩
    · have hcm : MergedAt env link m vectors st c d' := ⟨nc, p, q, hnc, e, ho', hd'⟩
      exact .inr ⟨d', hb.mono hs hm hl hci hcm hi', hcm⟩
    · omega

theorem Built.diameter {env : HierEnv V δ} (hs : ∀ v w, env.metric v w = env.metric w v) {m : Manager α}
    (hm : Inv m) {vectors : Dict α V} {root : Nat} {st : Dict Nat (HCluster α V)} (hb : Built env .complete m vectors root st)
    {i : Nat} {d : δ} (hi : MergedAt env .complete m vectors st i d) {x y : α} (hx : x ∈ membersOf st i) (hy : y ∈ membersOf st i)
    {v w : V} (hv : dget? vectors x = some v) (hw : dget? vectors y = some w) : MustLinked m x y ∨ env.metric v w ≤ d := by
  induction i using Nat.strongRecOn generalizing d with
  | ind i ih =>
    obtain ⟨a, b, ha, hb', hmem, hd, hch⟩ := hb.split hs hm (.inr rfl) hi
    have inside : ∀ c, (c = a ∨ c = b) → x ∈ membersOf st c → y ∈ membersOf st c → MustLinked m x y ∨ env.metric v w ≤ d := by
      intro c hc h1 h2
      rcases hch c hc with k | ⟨d', k1, k2⟩
      · exact .inl (k x h1 y h2)
      · exact (ih c (by rcases hc with rfl | rfl <;> assumption) k2 h1 h2).imp_right fun k => le_trans k k1
    rw [hmem, List.mem_append] at hx hy
    rcases hx with hx | hx <;> rcases hy with hy | hy
    · exact inside a (.inl rfl) hx hy
    · exact .inr (hd.2 x hx y hy v w hv hw)
    · exact .inr (hs v w ▸ hd.2 y hy x hx w v hw hv)
    · exact inside b (.inr rfl) hx hy

theorem Built.chain {env : HierEnv V δ} (hs : ∀ v w, env.metric v w = env.metric w v) {m : Manager α}
    (hm : Inv m) {vectors : Dict α V} {root : Nat} {st : Dict Nat (HCluster α V)} (hb : Built env .single m vectors root st)
    {i : Nat} {d : δ} (hi : MergedAt env .single m vectors st i d) {x y : α} (hx : x ∈ membersOf st i) (hy : y ∈ membersOf st i) :
    Chain (fun x y => MustLinked m x y ∨ ∃ v w, dget? vectors x = some v ∧ dget? vectors y = some w ∧ env.metric v w ≤ d) x y := by
  induction i using Nat.strongRecOn generalizing d x y with
  | ind i ih =>
    obtain ⟨a, b, ha, hb', hmem, hd, hch⟩ := hb.split hs hm (.inl rfl) hi
    have inside : ∀ c, (c = a ∨ c = b) → ∀ {x y}, x ∈ membersOf st c → y ∈ membersOf st c →
        Chain (fun x y => MustLinked m x y ∨ ∃ v w, dget? vectors x = some v ∧ dget? vectors y = some w ∧ env.metric v w ≤ d) x y := by
      intro c hc x y h1 h2
      rcases hch c hc with k | ⟨d', k1, k2⟩
      · exact .single (.inl (k x h1 y h2))
      · refine Chain.mono (fun x y hk => ?_) (ih c (by rcases hc with rfl | rfl <;> assumption) k2 h1 h2)
        exact hk.imp_right fun ⟨v, w, e1, e2, e3⟩ => ⟨v, w, e1, e2, le_trans e3 k1⟩
    obtain ⟨⟨p, hp, q, hq, v, w, hv, hw, e⟩, -⟩ := hd
    rw [hmem, List.mem_append] at hx hy
    rcases hx with hx | hx <;> rcases hy with hy | hy
    · exact inside a (.inl rfl) hx hy
    · exact ((inside a (.inl rfl) hx hp).trans (.single (.inr ⟨v, w, hv, hw, e ▸ le_refl _⟩))).trans (inside b (.inr rfl) hq hy)
    · exact ((inside b (.inr rfl) hx hq).trans (.single (.inr ⟨w, v, hw, hv, e ▸ hs w v ▸ le_refl _⟩))).trans
        (inside a (.inl rfl) hp hy)
    · exact inside b (.inr rfl) hx hy

end Verif
