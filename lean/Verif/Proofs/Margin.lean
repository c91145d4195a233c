import Verif.Spec.Margin
import Verif.Proofs.OrderHier
import Verif.Proofs.GeometryHier
import Verif.Proofs.HierExport

/-
Lemmas for C111: two trees with the same merges.
-/

set_option linter.unusedSectionVars false

namespace Verif

variable {α V V' δ δ' : Type} [LinearOrder α] [LinearOrder δ] [LinearOrder δ']

/-! ### Existing nodes are kept -/

theorem hAddMerge_keeps {env : HierEnv V δ} {vs : Dict α V} {s s' : HState α V δ} {cs : List Nat} {k : Nat}
    (h : hAddMerge env vs s cs = .ok (k, s')) {i : Nat} {n : HCluster α V} (hn : dget? s.storage i = some n) :
    dget? s'.storage i = some n := by
  unfold hAddMerge at h
  cases h1 : cs.foldlM hRemove s.current with
  | error e => rw [h1] at h; cases h
  | ok cur =>
    rw [h1] at h
    simp only [bind, Except.bind] at h
    cases h2 : (dkeys s.storage).max? with
    | none => rw [h2] at h; cases h
    | some q =>
      rw [h2] at h
      simp only at h
      cases h3 : hCreate env vs s cur cs (q + 1) with
      | error e => rw [h3] at h; cases h
      | ok s1 =>
        rw [h3] at h
        cases h
        unfold hCreate at h3
        simp only [bind, Except.bind] at h3
        split at h3
        · cases h3
        · split at h3
          · cases h3
          · cases h3
            simp only
            rw [dget?_dset]
            have : i ≤ q := (List.max?_eq_some_iff.1 h2).2 i (mem_dkeys_of_dget? hn)
            rw [if_neg (by omega)]
            exact hn

theorem hMergeStep_keeps {env : HierEnv V δ} {link : Linkage} {m : Manager α} {vs : Dict α V} {table : Dict α (Dict α δ)}
    {s s' : HState α V δ} {p : Nat × Nat} (h : hMergeStep env link m vs table s p = .ok s') {i : Nat} {n : HCluster α V}
    (hn : dget? s.storage i = some n) : dget? s'.storage i = some n := by
  unfold hMergeStep at h
  cases h1 : hAddMerge env vs s [p.1, p.2] with
  | error e => rw [h1] at h; cases h
  | ok q =>
    obtain ⟨k, s1⟩ := q
    rw [h1] at h
    simp only [bind, Except.bind] at h
    split at h
    · cases h
    · cases h
      exact hAddMerge_keeps h1 hn

theorem hLoop_keeps {env : HierEnv V δ} {link : Linkage} {m : Manager α} {vs : Dict α V} {table : Dict α (Dict α δ)} {fuel : Nat}
    {s s' : HState α V δ} (h : hLoop env link m vs table fuel s = .ok s') {i : Nat} {n : HCluster α V}
    (hn : dget? s.storage i = some n) : dget? s'.storage i = some n := by
  induction fuel generalizing s with
  | zero =>
    unfold hLoop at h
    split at h
    · cases h
    · cases h; exact hn
  | succ fuel ih =>
    unfold hLoop at h
    split at h
    · cases h1 : hClosest s with
      | error e => rw [h1] at h; cases h
      | ok o =>
        rw [h1] at h
        cases o with
        | none => cases h; exact hn
        | some p =>
          simp only [bind, Except.bind] at h
          cases h2 : hMergeStep env link m vs table s p with
          | error e => rw [h2] at h; cases h
          | ok s1 =>
            rw [h2] at h
            exact ih h (hMergeStep_keeps h2 hn)
    · cases h; exact hn

/-- The leaves of the tree are the components, in order. -/
theorem hBuild_leaves {env : HierEnv V δ} {link : Linkage} {m : Manager α} (h : Inv m) {vs : Dict α V} (hv : HasVectors m vs)
    {table : Dict α (Dict α δ)} {root : Nat} {st : Dict Nat (HCluster α V)} (hB : hBuild env link m vs table = .ok (root, st))
    {i : Nat} (hi : i < m.components.length) : m.components[i]? = some (membersOf st i) := by
  obtain ⟨s, e1, hs⟩ := hAddLeaf_fold (env := env) hv (Q := m.components)
    (fun xs hxs => ⟨component_ne_nil h hxs, fun x hx => (mem_component_iff h hxs hx).1⟩) (leafInv_init env vs)
  rw [List.nil_append] at hs
  unfold hBuild hStart at hB
  rw [e1] at hB
  simp only [bind, Except.bind] at hB
  cases h1 : hInitDistances env link m table s with
  | error e => rw [h1] at hB; cases hB
  | ok D =>
    rw [h1] at hB
    simp only [pure, Except.pure] at hB
    cases h2 : hLoop env link m vs table m.components.length { s with distances := D, iteration := 1 } with
    | error e => rw [h2] at hB; cases hB
    | ok s1 =>
      rw [h2] at hB
      simp only at hB
      cases h3 : hFinish env vs s1 with
      | error e => rw [h3] at hB; cases hB
      | ok s2 =>
        rw [h3] at hB
        simp only at hB
        obtain ⟨n, hn⟩ := hs.keys.exists (i := i) (by rw [hs.len]; exact hi)
        have h4 : dget? s1.storage i = some n := hLoop_keeps h2 hn
        have h5 : dget? s2.storage i = some n := by
          unfold hFinish at h3
          split at h3
          · cases h6 : hAddMerge env vs s1 s1.current with
            | error e => rw [h6] at h3; cases h3
            | ok q =>
              obtain ⟨k, s3⟩ := q
              rw [h6] at h3
              cases h3
              exact hAddMerge_keeps h6 h4
          · cases h3; exact h4
        have h6 : st = s2.storage := by
          split at hB
          · cases hB
          · split at hB
            · cases hB
            · cases hB; rfl
        rw [h6, membersOf_eq h5]
        exact (hs.get i n hn).2.2.2

/-- Two lists of IDs with vectors have a linkage distance. -/
theorem linkage_exists {env : HierEnv V δ} {link : Linkage} {m : Manager α} {vs : Dict α V} (hv : HasVectors m vs) {xs ys : List α}
    (hx : xs ≠ []) (hy : ys ≠ []) (h : ∀ x ∈ xs ++ ys, x ∈ m.managed) : ∃ d, LinkageIs env link vs xs ys d := by
  obtain ⟨x, hx'⟩ := List.exists_mem_of_ne_nil _ hx
  have hne : m.managed ≠ [] := List.ne_nil_of_mem (h x (List.mem_append_left _ hx'))
  obtain ⟨table, hT⟩ := distanceTable_total (metric := env.metric) hne hv
  have h1 : ∀ x ∈ xs, x ∈ m.managed := fun x hx => h x (List.mem_append_left _ hx)
  have h2 : ∀ x ∈ ys, x ∈ m.managed := fun x hx => h x (List.mem_append_right _ hx)
  obtain ⟨c1, hc1⟩ := hCentroid_ok (env := env) hv h1 hx
  obtain ⟨c2, hc2⟩ := hCentroid_ok (env := env) hv h2 hy
  obtain ⟨d, -, hd⟩ := hLinkage_ok (link := link) (pairTable_of_ok hT) (ci := ⟨0, [], 0, xs, c1⟩) (cj := ⟨0, [], 0, ys, c2⟩) h1 h2 hx hy hc1 hc2
  exact ⟨d, hd⟩

/-- Two different clusters that exist at the same time. -/
theorem Built.alive_pair {env : HierEnv V δ} {link : Linkage} {m : Manager α} {vs : Dict α V} {root : Nat} {st : Dict Nat (HCluster α V)}
    (hb : Built env link m vs root st) {i : Nat} (hi : i ≤ st.length) {p q : Nat} (hp : Alive st i p) (hq : Alive st i q) (hpq : p < q) :
    (membersOf st p ++ membersOf st q).Nodup ∧ membersOf st p ≠ [] ∧ membersOf st q ≠ [] ∧
      (∀ x ∈ membersOf st p ++ membersOf st q, x ∈ m.managed) := by
  refine ⟨List.nodup_append.2 ⟨hb.tree.nodup p, hb.tree.nodup q, fun x hx y hy hxy => ?_⟩, hb.tree.ne p (by have := hp.1; omega),
    hb.tree.ne q (by have := hq.1; omega), fun x hx => ?_⟩
  · subst hxy
    have := hb.alive_eq hi hp hq hx hy
    omega
  · rcases List.mem_append.1 hx with h | h
    · exact hb.tree.sub p x h
    · exact hb.tree.sub q x h

/-! ### Two trees -/

section Two
variable {env : HierEnv V δ} {env' : HierEnv V' δ'} {link : Linkage} {m : Manager α} {vs : Dict α V} {vs' : Dict α V'} {root root' : Nat}
  {st : Dict Nat (HCluster α V)} {st' : Dict Nat (HCluster α V')}

/-- The two trees agree below `k`. -/
def AgreeBelow (st : Dict Nat (HCluster α V)) (st' : Dict Nat (HCluster α V')) (k : Nat) : Prop :=
  ∀ i, i < k → ∀ n n', dget? st i = some n → dget? st' i = some n' → n'.children = n.children ∧ n'.members = n.members ∧
    n'.iteration = n.iteration ∧ n'.depth = n.depth

theorem AgreeBelow.alive {k : Nat} (h : AgreeBelow st st' k) (hk : SeqKeys st) (hk' : SeqKeys st') (h1 : k ≤ st.length)
    (h2 : k ≤ st'.length) (j : Nat) : Alive st' k j ↔ Alive st k j := by
  have key : ∀ i, i < k → (Child st' i j ↔ Child st i j) := by
    intro i hi
    obtain ⟨n, hn⟩ := hk.exists (i := i) (by omega)
    obtain ⟨n', hn'⟩ := hk'.exists (i := i) (by omega)
    have := (h i hi n n' hn hn').1
    constructor
    · rintro ⟨q, hq, hj⟩
      rw [hn'] at hq; cases hq
      exact ⟨n, hn, this ▸ hj⟩
    · rintro ⟨q, hq, hj⟩
      rw [hn] at hq; cases hq
      exact ⟨n', hn', this ▸ hj⟩
  unfold Alive
  constructor
  · rintro ⟨h1, h2⟩
    exact ⟨h1, fun i hi hc => h2 i hi ((key i hi).2 hc)⟩
  · rintro ⟨h1, h2⟩
    exact ⟨h1, fun i hi hc => h2 i hi ((key i hi).1 hc)⟩

theorem AgreeBelow.members {k : Nat} (h : AgreeBelow st st' k) (hk : SeqKeys st) (hk' : SeqKeys st') (h1 : k ≤ st.length)
    (h2 : k ≤ st'.length) {j : Nat} (hj : j < k) : membersOf st' j = membersOf st j := by
  obtain ⟨n, hn⟩ := hk.exists (i := j) (by omega)
  obtain ⟨n', hn'⟩ := hk'.exists (i := j) (by omega)
  rw [membersOf_eq hn, membersOf_eq hn']
  exact (h j hj n n' hn hn').2.1

theorem AgreeBelow.depth {k : Nat} (h : AgreeBelow st st' k) (hk : SeqKeys st) (hk' : SeqKeys st') (h1 : k ≤ st.length)
    (h2 : k ≤ st'.length) {j : Nat} (hj : j < k) : depthOf st' j = depthOf st j := by
  obtain ⟨n, hn⟩ := hk.exists (i := j) (by omega)
  obtain ⟨n', hn'⟩ := hk'.exists (i := j) (by omega)
  unfold depthOf
  rw [hn, hn']
  exact (h j hj n n' hn hn').2.2.2

/-- If there is one more cluster in one tree, then also in the other. -/
theorem AgreeBelow.lt {V V' δ δ' : Type} [LinearOrder δ] [LinearOrder δ'] {env : HierEnv V δ} {env' : HierEnv V' δ'} {vs : Dict α V}
    {vs' : Dict α V'} {st : Dict Nat (HCluster α V)} {st' : Dict Nat (HCluster α V')} {root root' : Nat}
    (hb : Built env link m vs root st) (hb' : Built env' link m vs' root' st') {i : Nat} (hi : m.components.length ≤ i)
    (ha : ∀ j, Alive st' i j ↔ Alive st i j) (h1 : i < st.length) (h2 : i ≤ st'.length) : i < st'.length := by
  rcases Nat.lt_or_eq_of_le h2 with h | rfl
  · exact h
  · exfalso
    obtain ⟨n, hn⟩ := hb.tree.keys.exists h1
    have hne : n.children ≠ [] := by
      rcases hb.iters _ n hn with ⟨-, h3⟩ | ⟨h3, -⟩
      · omega
      · exact h3
    obtain ⟨g1, -, g3, -⟩ := hb.tree.inner _ n hn hne
    match hc : n.children with
    | [] => exact hne hc
    | [_] => rw [hc] at g1; simp at g1
    | a :: b :: l =>
      have ha1 := hb.child_alive hn (c := a) (by rw [hc]; simp)
      have hb2 := hb.child_alive hn (c := b) (by rw [hc]; simp)
      have hab : a ≠ b := by rw [hc] at g3; intro h; subst h; simp at g3
      have e1 := List.mem_singleton.1 (hb'.tree.alive.1 ((ha a).2 ha1))
      have e2 := List.mem_singleton.1 (hb'.tree.alive.1 ((ha b).2 hb2))
      exact hab (by rw [e1, e2])

/-- The node `i` of both trees. -/
theorem AgreeBelow.children (hm : Inv m) (hb : Built env link m vs root st) (hb' : Built env' link m vs' root' st')
    (hbest : BestMerges env' link m vs' st) {i : Nat} (h : AgreeBelow st st' i) {n : HCluster α V} {n' : HCluster α V'}
    (hn : dget? st i = some n) (hn' : dget? st' i = some n') (hne : n.children ≠ []) (hne' : n'.children ≠ []) :
    n'.children = n.children := by
  have hi : i ≤ st.length := le_of_lt (hb.tree.keys.lt hn)
  have hi' : i ≤ st'.length := le_of_lt (hb'.tree.keys.lt hn')
  have hal := h.alive hb.tree.keys hb'.tree.keys hi hi'
  have hmem : ∀ {j}, Alive st i j → membersOf st' j = membersOf st j := fun hj =>
    h.members hb.tree.keys hb'.tree.keys hi hi' hj.1
  rcases hb.kind i n hn hne with h1 | ⟨-, h1⟩ <;> rcases hb'.kind i n' hn' hne' with h1' | ⟨-, h1'⟩
  · obtain ⟨a, b, e1, e2, e3, e4, e5, -⟩ := h1
    obtain ⟨a', b', e1', e2', e3', e4', e5', d', e6', e7'⟩ := h1'
    by_cases hpq : (a', b') = (a, b)
    · cases hpq; rw [e1, e1']
    · exfalso
      have ha' := (hal a').1 e3'
      have hb2' := (hal b').1 e4'
      rw [hmem ha', hmem hb2'] at e5' e6' e7'
      obtain ⟨d, e8, e9⟩ := e7' a b ((hal a).2 e3) ((hal b).2 e4) e2 (by rw [hmem e3, hmem e4]; exact e5)
      rw [hmem e3, hmem e4] at e8 e9
      have := hbest i n a b hn e1 a' b' ha' hb2' e2' hpq e5' d d' e8 e6'
      rcases this with h3 | ⟨h3, h4⟩ <;> rcases e9 with h5 | ⟨h5, h6⟩
      · exact lt_asymm h3 h5
      · exact absurd h5.symm (ne_of_lt h3)
      · exact absurd h3.symm (ne_of_lt h5)
      · omega
  · obtain ⟨a, b, e1, e2, e3, e4, e5, -⟩ := h1
    refine absurd (h1'.opposed hm ((hal a).2 e3) ((hal b).2 e4) (by omega)) ?_
    rw [hmem e3, hmem e4]; exact e5
  · obtain ⟨a, b, e1, e2, e3, e4, e5, -⟩ := h1'
    refine absurd (h1.opposed hm ((hal a).1 e3) ((hal b).1 e4) (by omega)) ?_
    rw [← hmem ((hal a).1 e3), ← hmem ((hal b).1 e4)]; exact e5
  · refine (List.Perm.eq_of_pairwise (le := (· < ·)) (fun a b _ _ h h' => absurd h (lt_asymm h')) (hb'.ordered i n' hn') (hb.ordered i n hn) ?_)
    exact (List.perm_ext_iff_of_nodup ((hb'.ordered i n' hn').imp ne_of_lt) ((hb.ordered i n hn).imp ne_of_lt)).2 fun j => by
      rw [h1.1, h1'.1, hal]

theorem agree_all (hm : Inv m) (hb : Built env link m vs root st) (hb' : Built env' link m vs' root' st')
    (hbest : BestMerges env' link m vs' st) (hl : ∀ i, i < m.components.length → membersOf st' i = membersOf st i) :
    st'.length = st.length ∧ root' = root ∧ AgreeBelow st st' st.length := by
  have hk := hb.tree.keys
  have hk' := hb'.tree.keys
  have hall : ∀ k, k ≤ st.length → k ≤ st'.length ∧ AgreeBelow st st' k := by
    intro k
    induction k with
    | zero => exact fun _ => ⟨Nat.zero_le _, fun i hi => absurd hi (Nat.not_lt_zero _)⟩
    | succ k ih =>
      intro hlt
      obtain ⟨h1, h2⟩ := ih (by omega)
      have hklt : k < st'.length := by
        by_cases hK : m.components.length ≤ k
        · exact AgreeBelow.lt hb hb' hK (h2.alive hk hk' (by omega) h1) (by omega) h1
        · have := hb'.size.1; omega
      refine ⟨hklt, fun i hi n n' hn hn' => ?_⟩
      rcases Nat.lt_or_eq_of_le (Nat.lt_succ_iff.1 hi) with hi | rfl
      · exact h2 i hi n n' hn hn'
      · by_cases hK : m.components.length ≤ i
        · have hne : n.children ≠ [] := by
            rcases hb.iters _ n hn with ⟨-, h3⟩ | ⟨h3, -⟩
            · omega
            · exact h3
          have hne' : n'.children ≠ [] := by
            rcases hb'.iters _ n' hn' with ⟨-, h3⟩ | ⟨h3, -⟩
            · omega
            · exact h3
          have hc := h2.children hm hb hb' hbest hn hn' hne hne'
          obtain ⟨-, g2, -, g4, -, d, g5, g6⟩ := hb.tree.inner i n hn hne
          obtain ⟨-, -, -, g4', -, d', g5', g6'⟩ := hb'.tree.inner i n' hn' hne'
          refine ⟨hc, ?_, ?_, ?_⟩
          · rw [g4, g4', hc]
            exact List.flatMap_congr fun c hc => h2.members hk hk' (by omega) h1 (g2 c hc)
          · rcases hb.iters _ n hn with ⟨h3, -⟩ | ⟨-, -, h3⟩
            · exact absurd h3 hne
            · rcases hb'.iters _ n' hn' with ⟨h4, -⟩ | ⟨-, -, h4⟩
              · exact absurd h4 hne'
              · omega
          · have : n'.children.map (depthOf st') = n.children.map (depthOf st) := by
              rw [hc]
              exact List.map_congr_left fun c hc => h2.depth hk hk' (by omega) h1 (g2 c hc)
            rw [this, g5] at g5'
            cases g5'
            rw [g6, g6']
        · have h0 : n.children = [] := by
            rcases hb.iters _ n hn with ⟨h3, -⟩ | ⟨-, h3, -⟩
            · exact h3
            · omega
          have h0' : n'.children = [] := by
            rcases hb'.iters _ n' hn' with ⟨h3, -⟩ | ⟨-, h3, -⟩
            · exact h3
            · omega
          have := hl i (by omega)
          rw [membersOf_eq hn, membersOf_eq hn'] at this
          obtain ⟨-, g1, g2⟩ := hb.tree.leaf i n hn h0
          obtain ⟨-, g1', g2'⟩ := hb'.tree.leaf i n' hn' h0'
          exact ⟨by rw [h0, h0'], this, by rw [g1, g1'], by rw [g2, g2']⟩
  obtain ⟨h1, h2⟩ := hall st.length le_rfl
  have hlen : st'.length = st.length := by
    by_contra hne
    have := AgreeBelow.lt hb' hb (i := st.length) hb.size.1
      (fun j => (h2.alive hk hk' le_rfl h1 j).symm) (by omega) le_rfl
    omega
  exact ⟨hlen, by have := hb.last; have := hb'.last; omega, h2⟩

theorem bare_of_agree (hk : SeqKeys st) (hk' : SeqKeys st') (hlen : st'.length = st.length) (h : AgreeBelow st st' st.length) :
    movedStorage (fun _ => ()) st' = movedStorage (fun _ => ()) st := by
  refine List.ext_getElem (by simp [movedStorage, dmap, hlen]) fun i h1 h2 => ?_
  have g1 : i < st.length := by simpa [movedStorage, dmap] using h2
  have g1' : i < st'.length := by omega
  have key : ∀ {W : Type} {t : Dict Nat (HCluster α W)} (_ : SeqKeys t) (hi : i < t.length), t[i].1 = i ∧ dget? t i = some t[i].2 := by
    intro W t ht hi
    have e : t[i].1 = i := by
      have h3 : (dkeys t)[i]? = (List.range t.length)[i]? := by rw [ht]
      unfold dkeys at h3
      rw [List.getElem?_map, List.getElem?_eq_getElem hi, List.getElem?_range hi] at h3
      simpa using h3
    refine ⟨e, ?_⟩
    have hnd : (dkeys t).Nodup := by rw [ht]; exact List.nodup_range
    have hmem : (i, t[i].2) ∈ t := by
      have := List.getElem_mem hi
      rw [show t[i] = (t[i].1, t[i].2) from rfl, e] at this
      exact this
    exact dget?_of_mem hnd hmem
  obtain ⟨e1, e2⟩ := key hk g1
  obtain ⟨e1', e2'⟩ := key hk' g1'
  obtain ⟨f1, f2, f3, f4⟩ := h i g1 _ _ e2 e2'
  simp only [movedStorage, dmap, List.getElem_map, id, HCluster.moved]
  rw [e1, e1', f1, f2, f3, f4]

end Two

/-! ### Sampling -/

theorem selectFrom_tableOf {ids : List α} {D : α → α → δ} {d : DistanceRestriction} {n : Nat} {L : List (α × α)}
    (h : ∀ p ∈ L, p.1 ∈ ids ∧ p.2 ∈ ids) :
    selectFrom d n L (tableOf ids D) =
      .ok ((sortedByKey (decide (d = .farthestNeighbors)) (L.map fun p => (D p.1 p.2, p))).take n) := by
  have get : ∀ {ν : Type} (f : α → ν) (l : List α) {x : α}, x ∈ l → dget? (l.map fun x => (x, f x)) x = some (f x) := by
    intro ν f l x hx
    induction l with
    | nil => cases hx
    | cons a l ih =>
      rw [List.map_cons]
      unfold dget?
      by_cases hax : a = x
      · rw [if_pos hax, hax]
      · rw [if_neg hax]
        exact ih (List.mem_of_ne_of_mem (Ne.symm hax) hx)
  have key : (L.mapM fun p => do return (← pairDistance (tableOf ids D) p, p) : Except PyErr (List (δ × α × α))) =
      .ok (L.map fun p => (D p.1 p.2, p)) := by
    induction L with
    | nil => rfl
    | cons p L ih =>
      rw [List.mapM_cons, ih fun q hq => h q (List.mem_cons_of_mem _ hq)]
      have e : pairDistance (tableOf ids D) p = .ok (D p.1 p.2) := by
        unfold pairDistance tableOf
        rw [dget_of_dget? (get (fun x => ids.map fun y => (y, D x y)) ids (h p List.mem_cons_self).1)]
        exact dget_of_dget? (get (fun y => D p.1 y) ids (h p List.mem_cons_self).2)
      rw [e]; rfl
  unfold selectFrom
  rw [key]; rfl

theorem sortedBy_congr {ι : Type} {D : ι → δ} {D' : ι → δ'} (rev : Bool) {L : List ι}
    (h : ∀ p ∈ L, ∀ q ∈ L, D' p ≤ D' q ↔ D p ≤ D q) :
    sortedByKey rev (L.map fun p => (D' p, p)) = sortedByKey rev (L.map fun p => (D p, p)) := by
  unfold sortedByKey
  rw [← List.map_insertionSort (fun p q : ι => if rev = true then D' q ≤ D' p else D' p ≤ D' q)
      (fun a b : δ' × ι => if rev = true then b.1 ≤ a.1 else a.1 ≤ b.1) (fun p : ι => (D' p, p)) L fun a _ b _ => Iff.rfl,
    ← List.map_insertionSort (fun p q : ι => if rev = true then D' q ≤ D' p else D' p ≤ D' q)
      (fun a b : δ × ι => if rev = true then b.1 ≤ a.1 else a.1 ≤ b.1) (fun p : ι => (D p, p)) L fun a ha b hb => by
        cases rev
        · simpa using h a ha b hb
        · simpa using h b hb a ha]
  simp [List.map_map, Function.comp_def]

end Verif
