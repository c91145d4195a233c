import Verif.Proofs.HierLoop

/-
Lemmas on the hierarchical clustering: the finished tree.
-/

set_option linter.unusedSectionVars false

namespace Verif

variable {α V δ : Type} [LinearOrder α] [LinearOrder δ]

theorem TreeInv.mono {m : Manager α} {R R' : Nat → Prop} {current : List Nat} {st : Dict Nat (HCluster α V)}
    (ht : TreeInv m R current st) (hR : ∀ i, R i → R' i) : TreeInv m R' current st :=
  { ht with nocl := fun i hi => ht.nocl i (fun h => hi (hR i h)) }

/-- The finished tree. -/
structure Built (env : HierEnv V δ) (link : Linkage) (m : Manager α) (vectors : Dict α V) (root : Nat)
    (st : Dict Nat (HCluster α V)) : Prop where
  tree : TreeInv m (fun i => i = root) [root] st
  cent : CentInv env vectors st
  last : root + 1 = st.length
  size : m.components.length ≤ st.length ∧ st.length < 2 * m.components.length
  iters : ∀ i n, dget? st i = some n → (n.children = [] ∧ i < m.components.length) ∨
    (n.children ≠ [] ∧ m.components.length ≤ i ∧ n.iteration + m.components.length = i + 1)
  kind : ∀ i n, dget? st i = some n → n.children ≠ [] →
    ClosestMerge env link m vectors st i n ∨ (i = root ∧ ForcedMerge m st i n)
  ordered : ∀ i n, dget? st i = some n → n.children.Pairwise (· < ·)

theorem ClosestMerge.ordered {env : HierEnv V δ} {link : Linkage} {m : Manager α} {vectors : Dict α V}
    {st : Dict Nat (HCluster α V)} {i : Nat} {n : HCluster α V}
    (h : n.children ≠ [] → ClosestMerge env link m vectors st i n) : n.children.Pairwise (· < ·) := by
  by_cases h0 : n.children = []
  · rw [h0]; exact .nil
  · obtain ⟨a, b, e, hab, -⟩ := h h0
    rw [e]
    simpa using hab

theorem hBuild_ok {env : HierEnv V δ} (link : Linkage) {m : Manager α} (h : Inv m) {vectors : Dict α V}
    {table : Dict α (Dict α δ)} (hT : PairTable env m vectors table) (hv : HasVectors m vectors) (hne : m.managed ≠ []) :
    ∃ root st, hBuild env link m vectors table = .ok (root, st) ∧ Built env link m vectors root st := by
  obtain ⟨s0, e0, hl0⟩ := hStart_ok link h hT hv
  have hlen0 : s0.current.length ≤ m.components.length + 1 := by
    have h1 := hl0.size
    have h2 := (hl0.le hne).1
    omega
  obtain ⟨s1, e1, hl1, hp⟩ := hLoop_ok h hT hv hne hl0 hlen0
  have hk := hl1.tree.keys
  have hle := hl1.le hne
  have hiter := hl1.iter
  have hsize := hl1.size
  unfold hBuild
  rw [e0]
  simp only [bind, Except.bind, e1]
  unfold hFinish
  by_cases hgt : s1.current.length > 1
  · have hnd : s1.current.Nodup := hl1.tree.sorted.imp (fun h => Nat.ne_of_lt h)
    obtain ⟨n, f1, f2, f3, f4, f5, ht⟩ := TreeInv.merge (env := env) (R' := fun i => i = s1.storage.length) h hv hl1.tree
      (by omega) hnd (fun _ h => h) hgt (fun _ h => h.elim) (.inl rfl)
    have hfil : (s1.current.filter fun i => decide (i ∉ s1.current)) = [] := by
      rw [List.filter_eq_nil_iff]
      intro a ha; simp [ha]
    rw [hfil, List.nil_append] at f1 ht
    refine ⟨s1.storage.length, dset s1.storage s1.storage.length n, ?_, ht, forall_push hk hl1.cent f4, ?_, ?_, ?_, ?_, ?_⟩
    · rw [if_pos hgt, f1]
      have hg : dget? (dset s1.storage s1.storage.length n) s1.storage.length = some n := by rw [dget?_dset, if_pos rfl]
      simp only [bind, Except.bind, pure, Except.pure, dget_of_dget? hg]
    · rw [length_push hk]
    · rw [length_push hk]
      omega
    · refine forall_push hk (P := fun i n => (n.children = [] ∧ i < m.components.length) ∨
        (n.children ≠ [] ∧ m.components.length ≤ i ∧ n.iteration + m.components.length = i + 1)) hl1.iters
        (.inr ⟨?_, hle.1, by omega⟩)
      rw [f2]; exact hle.2
    · refine forall_push hk (P := fun i n' => n'.children ≠ [] →
        ClosestMerge env link m vectors (dset s1.storage s1.storage.length n) i n' ∨
        (i = s1.storage.length ∧ ForcedMerge m (dset s1.storage s1.storage.length n) i n'))
        (fun i n' hi hn' => .inl ((hl1.greedy i n' hi hn').push hk n (le_of_lt (hk.lt hi)))) ?_
      intro _
      refine .inr ⟨rfl, ?_, ?_⟩
      · intro j; rw [hl1.tree.alive_push n, f2]
      · rw [f2]
        refine hp.imp_of_mem ?_
        intro i j hi hj ho
        rw [membersOf_push hk n (hl1.tree.cur i hi), membersOf_push hk n (hl1.tree.cur j hj)]
        exact ho
    · refine forall_push hk (P := fun _ n' => n'.children.Pairwise (· < ·))
        (fun i n' hi => ClosestMerge.ordered (hl1.greedy i n' hi)) ?_
      rw [f2]; exact hl1.tree.sorted
  · obtain ⟨root, hroot⟩ : ∃ root, s1.current = [root] := by
      match hc : s1.current, hgt, hle.2 with
      | [a], _, _ => exact ⟨a, rfl⟩
      | [], _, hcne => exact absurd rfl hcne
      | a :: b :: l, hgt, _ => exact absurd (by simp) hgt
    have htree := hl1.tree
    rw [hroot] at htree
    have hsz := hsize
    rw [hroot, List.length_singleton] at hsz
    refine ⟨root, s1.storage, ?_, htree.mono (fun _ h => h.elim), hl1.cent, ?_, ?_, hl1.iters, ?_,
      fun i n hi => ClosestMerge.ordered (hl1.greedy i n hi)⟩
    · rw [if_neg hgt]
      obtain ⟨n, hn⟩ := hk.exists (htree.cur root (by simp))
      simp only [hroot, dget_of_dget? hn, pure, Except.pure]
    · -- the last node has no parent
      have hpos : 0 < s1.storage.length := by omega
      rcases htree.parent (s1.storage.length - 1) (by omega) with h1 | ⟨j, nj, hj, hc⟩
      · have := List.mem_singleton.1 h1
        omega
      · have hne' : nj.children ≠ [] := fun h0 => by rw [h0] at hc; cases hc
        have h2 := (htree.inner j nj hj hne').2.1 _ hc
        have h3 := hk.lt hj
        omega
    · omega
    · intro i n hi hn
      exact .inl (hl1.greedy i n hi hn)

/-! ### The tree as specified -/

theorem TreeInv.child_lt {m : Manager α} {R : Nat → Prop} {current : List Nat} {st : Dict Nat (HCluster α V)}
    (ht : TreeInv m R current st) {i c : Nat} (h : Child st i c) : c < i ∧ i < st.length := by
  obtain ⟨n, hn, hc⟩ := h
  have hne : n.children ≠ [] := fun h0 => by rw [h0] at hc; cases hc
  exact ⟨(ht.inner i n hn hne).2.1 c hc, ht.keys.lt hn⟩

theorem Descends.snoc {st : Dict Nat (HCluster α V)} {i k j c : Nat} (h : Descends st i k j) (hc : Child st j c) :
    Descends st i (k + 1) c := by
  induction h with
  | refl => exact .step hc .refl
  | step h1 _ ih => exact .step h1 (ih hc)

theorem Built.connected {env : HierEnv V δ} {link : Linkage} {m : Manager α} {vectors : Dict α V} {root : Nat}
    {st : Dict Nat (HCluster α V)} (hb : Built env link m vectors root st) :
    ∀ d i, i + d + 1 = st.length → ∃ k, Descends st root k i := by
  intro d
  induction d using Nat.strong_induction_on with
  | _ d ih =>
    intro i hi
    rcases hb.tree.parent i (by omega) with h1 | ⟨j, hj⟩
    · rw [List.mem_singleton] at h1; subst h1; exact ⟨0, .refl⟩
    · obtain ⟨h1, h2⟩ := hb.tree.child_lt hj
      obtain ⟨k, hk⟩ := ih (st.length - 1 - j) (by omega) j (by omega)
      exact ⟨k + 1, hk.snoc hj⟩

theorem TreeInv.height {m : Manager α} {R : Nat → Prop} {current : List Nat} {st : Dict Nat (HCluster α V)}
    (ht : TreeInv m R current st) : ∀ i n, dget? st i = some n →
      (∃ j, Descends st i n.depth j) ∧ ∀ k j, Descends st i k j → k ≤ n.depth := by
  intro i
  induction i using Nat.strong_induction_on with
  | _ i ih =>
    intro n hn
    by_cases h0 : n.children = []
    · have hd := (ht.leaf i n hn h0).2.2
      rw [hd]
      refine ⟨⟨i, .refl⟩, ?_⟩
      intro k j hkj
      cases hkj with
      | refl => exact le_refl _
      | step hc _ =>
        obtain ⟨n', hn', hc⟩ := hc
        rw [hn] at hn'; cases hn'
        rw [h0] at hc; cases hc
    · obtain ⟨-, h2, -, -, -, d, hd, hdep⟩ := ht.inner i n hn h0
      obtain ⟨hm1, hm2⟩ := max?_spec hd
      have hil := ht.keys.lt hn
      rw [hdep]
      constructor
      · obtain ⟨c, hc, he⟩ := List.mem_map.1 hm1
        obtain ⟨nc, hnc⟩ := ht.keys.exists (i := c) (by have := h2 c hc; omega)
        rw [depthOf_eq hnc] at he
        obtain ⟨⟨j, hj⟩, -⟩ := ih c (h2 c hc) nc hnc
        rw [he] at hj
        exact ⟨j, .step ⟨n, hn, hc⟩ hj⟩
      · intro k j hkj
        cases hkj with
        | refl => omega
        | @step _ c k' _ hc hd' =>
          obtain ⟨n', hn', hc⟩ := hc
          rw [hn] at hn'; cases hn'
          obtain ⟨nc, hnc⟩ := ht.keys.exists (i := c) (by have := h2 c hc; omega)
          have h3 := (ih c (h2 c hc) nc hnc).2 _ _ hd'
          have h4 := hm2 (depthOf st c) (List.mem_map_of_mem hc)
          rw [depthOf_eq hnc] at h4
          omega

theorem opposed_iff {m : Manager α} (h : Inv m) {xs ys : List α} (hx : ∀ x ∈ xs, x ∈ m.managed) (hy : ∀ y ∈ ys, y ∈ m.managed) :
    Opposed m xs ys ↔ ∃ x ∈ xs, ∃ y ∈ ys, m.getInferred x y = .ok (some .cannotLink) := by
  constructor
  · rintro ⟨x, h1, y, h2, h3⟩; exact ⟨x, h1, y, h2, (inferred_cl_iff h (hx x h1) (hy y h2)).2 h3⟩
  · rintro ⟨x, h1, y, h2, h3⟩; exact ⟨x, h1, y, h2, (inferred_cl_iff h (hx x h1) (hy y h2)).1 h3⟩

theorem Built.dendrogram {env : HierEnv V δ} {link : Linkage} {m : Manager α} (h : Inv m) {vectors : Dict α V} {root : Nat}
    {st : Dict Nat (HCluster α V)} (hb : Built env link m vectors root st) : Dendrogram m root st := by
  have ht := hb.tree
  have hkeys := ht.keys
  refine ⟨?_, ⟨?_, ?_⟩, ?_, ?_, ht.single, ?_, ?_, ht.height, ?_, ?_, ?_⟩
  · rw [hkeys]; exact List.nodup_range
  · exact hkeys.mem.2 (ht.cur root (by simp))
  · have := ht.cover
    rw [List.flatMap_cons, List.flatMap_nil, List.append_nil] at this
    exact this
  · intro i hi
    have := hkeys.mem.1 hi
    exact hb.connected (st.length - 1 - i) i (by omega)
  · intro i n hn
    by_cases h0 : n.children = []
    · rw [h0]; simp
    · obtain ⟨-, h2, h3, -⟩ := ht.inner i n hn h0
      refine ⟨h3, fun c hc => ⟨hkeys.mem.2 ?_, ?_⟩⟩
      · have := h2 c hc; have := hkeys.lt hn; omega
      · rintro rfl
        exact ht.top i c ⟨n, hn, hc⟩ (by simp)
  · intro i n hn h0
    obtain ⟨h1, -, -, h4, -⟩ := ht.inner i n hn h0
    refine ⟨h1, h4, ?_⟩
    have := ht.nodup i
    rwa [membersOf_eq hn] at this
  · intro xs
    constructor
    · rintro ⟨i, n, hn, h0, rfl⟩; exact (ht.leaf i n hn h0).1
    · exact ht.leaves xs
  · intro i _ hir x hx y hy hcl
    exact ht.nocl i hir x hx y hy ((inferred_cl_iff h (ht.sub i x hx) (ht.sub i y hy)).1 hcl)
  · intro i n hn
    by_cases h0 : n.children = []
    · left; rw [h0]; simp
    · rcases hb.kind i n hn h0 with ⟨a, b, hab, -⟩ | ⟨hi, -, hF⟩
      · left; rw [hab]; simp
      · right
        refine ⟨hi, hF.imp ?_⟩
        intro c d hcd
        exact (opposed_iff h (ht.sub c) (ht.sub d)).1 hcd
  · intro i n hn
    constructor
    · intro hi
      by_contra h0
      have := (ht.inner i n hn h0).2.2.2.2.1
      omega
    · intro h0; exact (ht.leaf i n hn h0).2.1

end Verif
