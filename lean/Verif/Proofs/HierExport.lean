import Verif.Spec.HierExport
import Verif.Proofs.HierCut
import Verif.Proofs.Bounds

/-
Lemmas on the export of the dendrogram (C82).
-/

namespace Verif

variable {α V δ : Type} [LinearOrder α] [LinearOrder δ]

/-! ### Descendants -/

section
variable {m : Manager α} {R : Nat → Prop} {cur : List Nat} {st : Dict Nat (HCluster α V)}

theorem TreeInv.child_members (ht : TreeInv m R cur st) {i c : Nat} (hc : Child st i c) {x : α} (hx : x ∈ membersOf st c) :
    x ∈ membersOf st i := by
  obtain ⟨n, hn, hc⟩ := hc
  have hne : n.children ≠ [] := fun h0 => by rw [h0] at hc; cases hc
  rw [membersOf_eq hn, (ht.inner i n hn hne).2.2.2.1]
  exact List.mem_flatMap.2 ⟨c, hc, hx⟩

theorem TreeInv.descends_members (ht : TreeInv m R cur st) {i k j : Nat} (h : Descends st i k j) {x : α}
    (hx : x ∈ membersOf st j) : x ∈ membersOf st i := by
  induction h with
  | refl => exact hx
  | step hc _ ih => exact ht.child_members hc (ih hx)

theorem TreeInv.descends_le (ht : TreeInv m R cur st) {i k j : Nat} (h : Descends st i k j) : j + k ≤ i := by
  induction h with
  | refl => omega
  | step hc _ ih => have := (ht.child_lt hc).1; omega

theorem TreeInv.same_child (ht : TreeInv m R cur st) {i c d : Nat} (hc : Child st i c) (hd : Child st i d) {x : α}
    (h1 : x ∈ membersOf st c) (h2 : x ∈ membersOf st d) : c = d := by
  obtain ⟨n, hn, hc⟩ := hc
  obtain ⟨n', hn', hd⟩ := hd
  rw [hn] at hn'; cases hn'
  have hne : n.children ≠ [] := fun h0 => by rw [h0] at hc; cases hc
  have := ht.nodup i
  rw [membersOf_eq hn, (ht.inner i n hn hne).2.2.2.1] at this
  exact eq_of_flatMap this hc hd h1 h2

/-- Two clusters with a common member: one is below the other. -/
theorem TreeInv.laminar (ht : TreeInv m R cur st) {r k a : Nat} (ha : Descends st r k a) {k' b : Nat}
    (hb : Descends st r k' b) {x : α} (hxa : x ∈ membersOf st a) (hxb : x ∈ membersOf st b) :
    (∃ j, Descends st a j b) ∨ (∃ j, Descends st b j a) := by
  induction ha generalizing k' with
  | refl => exact .inl ⟨k', hb⟩
  | @step r c k a hc h1 ih =>
    cases hb with
    | refl => exact .inr ⟨_, .step hc h1⟩
    | @step _ d k'' _ hd h2 =>
      have := ht.same_child hc hd (ht.descends_members h1 hxa) (ht.descends_members h2 hxb)
      subst this
      exact ih h2 hxa

theorem Descends.last {i k j : Nat} (h : Descends st i (k + 1) j) : ∃ p, Descends st i k p ∧ Child st p j := by
  induction k generalizing i with
  | zero =>
    cases h with
    | step hc h2 => cases h2; exact ⟨i, .refl, hc⟩
  | succ k ih =>
    cases h with
    | step hc h2 =>
      obtain ⟨p, h3, h4⟩ := ih h2
      exact ⟨p, .step hc h3, h4⟩

end

section
variable {env : HierEnv V δ} {link : Linkage} {m : Manager α} {vectors : Dict α V} {root : Nat}
  {st : Dict Nat (HCluster α V)}

theorem Built.below (hb : Built env link m vectors root st) {i : Nat} (hi : i < st.length) : ∃ k, Descends st root k i :=
  hb.connected (st.length - 1 - i) i (by omega)

/-- Clusters that exist at the same time have no common member. -/
theorem Built.alive_eq (hb : Built env link m vectors root st) {i a b : Nat} (hi : i ≤ st.length) (ha : Alive st i a)
    (hb' : Alive st i b) {x : α} (hxa : x ∈ membersOf st a) (hxb : x ∈ membersOf st b) : a = b := by
  obtain ⟨k, h1⟩ := hb.below (i := a) (by have := ha.1; omega)
  obtain ⟨k', h2⟩ := hb.below (i := b) (by have := hb'.1; omega)
  have key : ∀ a b j, Alive st i a → Alive st i b → Descends st a j b → a = b := by
    intro a b j ha hb' h
    cases j with
    | zero => cases h; rfl
    | succ j =>
      obtain ⟨p, h3, h4⟩ := h.last
      have := hb.tree.descends_le h3
      exact (hb'.2 p (by have := ha.1; omega) h4).elim
  rcases hb.tree.laminar h1 h2 hxa hxb with ⟨j, h⟩ | ⟨j, h⟩
  · exact key a b j ha hb' h
  · exact (key b a j hb' ha h).symm

/-- A path from parent to child is shorter than the number of components. -/
theorem Built.path_lt (hb : Built env link m vectors root st) {i k j : Nat} (h : Descends st i k j) (hi : i < st.length) :
    k < m.components.length := by
  have key : ∀ i k j, Descends st i (k + 1) j → m.components.length + k ≤ i := by
    intro i k j h
    obtain ⟨p, h1, n, hn, hc⟩ := h.last
    have := hb.tree.descends_le h1
    rcases hb.iters p n hn with ⟨h0, -⟩ | ⟨-, h0, -⟩
    · rw [h0] at hc; cases hc
    · omega
  have := hb.size.2
  cases k with
  | zero => omega
  | succ k => have := key i k j h; omega

end

/-! ### `to_dict` -/

theorem mapM_error {ι κ : Type} {f : ι → Except PyErr κ} {e : PyErr} {l : List ι}
    (h : ∀ a ∈ l, f a = .error e ∨ ∃ b, f a = .ok b) {a : ι} (ha : a ∈ l) (he : f a = .error e) : l.mapM f = .error e := by
  induction l with
  | nil => cases ha
  | cons b l ih =>
    rw [List.mapM_cons]
    rcases h b (by simp) with h1 | ⟨c, h1⟩
    · rw [h1]; rfl
    · rw [h1]
      rcases List.mem_cons.1 ha with rfl | ha
      · rw [he] at h1; cases h1
      · have := ih (fun a ha => h a (by simp [ha])) ha
        simp only [bind, Except.bind]
        rw [this]

section
variable {m : Manager α} {R : Nat → Prop} {cur : List Nat} {st : Dict Nat (HCluster α V)}

theorem TreeInv.child_depth (ht : TreeInv m R cur st) {i : Nat} {n : HCluster α V} (hn : dget? st i = some n)
    (hne : n.children ≠ []) : (∀ c ∈ n.children, ∃ nc, c < i ∧ dget? st c = some nc ∧ nc.depth < n.depth) ∧
      ∃ c ∈ n.children, ∃ nc, dget? st c = some nc ∧ nc.depth + 1 = n.depth := by
  obtain ⟨-, h2, -, -, -, d, hd, hdep⟩ := ht.inner i n hn hne
  obtain ⟨hm1, hm2⟩ := max?_spec hd
  have hil := ht.keys.lt hn
  constructor
  · intro c hc
    obtain ⟨nc, hnc⟩ := ht.keys.exists (i := c) (by have := h2 c hc; omega)
    have h4 := hm2 (depthOf st c) (List.mem_map_of_mem hc)
    rw [depthOf_eq hnc] at h4
    exact ⟨nc, h2 c hc, hnc, by omega⟩
  · obtain ⟨c, hc, he⟩ := List.mem_map.1 hm1
    obtain ⟨nc, hnc⟩ := ht.keys.exists (i := c) (by have := h2 c hc; omega)
    rw [depthOf_eq hnc] at he
    exact ⟨c, hc, nc, hnc, by omega⟩

theorem TreeInv.toDict (ht : TreeInv m R cur st) : ∀ i n, dget? st i = some n → ∀ k,
    (n.depth < k → ∃ t, hToDict st k i = .ok t ∧ Exports st i t) ∧ (k ≤ n.depth → hToDict st k i = .error .recursionError) := by
  intro i
  induction i using Nat.strong_induction_on with
  | _ i ih =>
    intro n hn k
    cases k with
    | zero => exact ⟨fun h => absurd h (by omega), fun _ => rfl⟩
    | succ k =>
      by_cases h0 : n.children = []
      · have hd := (ht.leaf i n hn h0).2.2
        refine ⟨fun _ => ⟨.node i n.iteration [] n.depth n.members, ?_, .node hn (by rw [h0]; exact .nil)⟩,
          fun h => absurd h (by omega)⟩
        unfold hToDict
        rw [dget_of_dget? hn]
        simp only [bind, Except.bind, h0]
        rfl
      · obtain ⟨hc1, c0, hc0, nc0, hnc0, hd0⟩ := ht.child_depth hn h0
        constructor
        · intro hk
          obtain ⟨ts, e, hts⟩ := mapM_forall₂ (l := n.children) (f := fun c => hToDict st k c) (P := Exports st)
            (fun c hc => by
              obtain ⟨nc, h1, h2, h3⟩ := hc1 c hc
              exact (ih c h1 nc h2 k).1 (by omega))
          refine ⟨_, ?_, .node hn hts⟩
          unfold hToDict
          rw [dget_of_dget? hn]
          simp only [bind, Except.bind, e]
          rfl
        · intro hk
          have e := mapM_error (l := n.children) (f := fun c => hToDict st k c) (e := .recursionError)
            (fun c hc => by
              obtain ⟨nc, h1, h2, h3⟩ := hc1 c hc
              by_cases hk' : nc.depth < k
              · obtain ⟨t, ht, -⟩ := (ih c h1 nc h2 k).1 hk'
                exact .inr ⟨t, ht⟩
              · exact .inl ((ih c h1 nc h2 k).2 (by omega)))
            hc0 (by
              obtain ⟨nc, h1, h2, h3⟩ := hc1 c0 hc0
              exact (ih c0 h1 nc0 hnc0 k).2 (by omega))
          unfold hToDict
          rw [dget_of_dget? hn]
          simp only [bind, Except.bind, e]

/-! ### What was exported -/

theorem mem_allIds {ts : List (HTree α)} {j : Nat} : j ∈ HTree.allIds ts ↔ ∃ t ∈ ts, j ∈ t.ids := by
  induction ts with
  | nil => simp [HTree.allIds]
  | cons t ts ih => simp [HTree.allIds, ih]

theorem mem_allLeaves {ts : List (HTree α)} {xs : List α} : xs ∈ HTree.allLeaves ts ↔ ∃ t ∈ ts, xs ∈ t.leaves := by
  induction ts with
  | nil => simp [HTree.allLeaves]
  | cons t ts ih => simp [HTree.allLeaves, ih]

theorem forall₂_isEmpty {ι κ : Type} {P : ι → κ → Prop} {l : List ι} {ts : List κ} (h : List.Forall₂ P l ts) :
    ts.isEmpty = true ↔ l = [] := by
  cases h <;> simp

theorem TreeInv.exports_ids (ht : TreeInv m R cur st) : ∀ i t, Exports st i t →
    t.ids.Nodup ∧ ∀ j, j ∈ t.ids ↔ ∃ k, Descends st i k j := by
  intro i
  induction i using Nat.strong_induction_on with
  | _ i ih =>
    intro t h
    cases h with
    | @node _ n ts hn hts =>
      have hlt : ∀ c ∈ n.children, c < i := fun c hc => (ht.child_lt ⟨n, hn, hc⟩).1
      have hmem : ∀ j, j ∈ HTree.allIds ts ↔ ∃ c ∈ n.children, ∃ k, Descends st c k j := by
        intro j
        rw [mem_allIds]
        constructor
        · rintro ⟨t, h1, h2⟩
          obtain ⟨c, hc, h3⟩ := forall₂_mem_right hts h1
          exact ⟨c, hc, ((ih c (hlt c hc) t h3).2 j).1 h2⟩
        · rintro ⟨c, hc, k, h2⟩
          obtain ⟨t, h1, h3⟩ := forall₂_mem_left hts hc
          exact ⟨t, h1, ((ih c (hlt c hc) t h3).2 j).2 ⟨k, h2⟩⟩
      have hnd : (HTree.allIds ts).Nodup := by
        have hcn : n.children.Nodup := by
          by_cases h0 : n.children = []
          · rw [h0]; exact List.nodup_nil
          · exact (ht.inner i n hn h0).2.2.1
        have hch : ∀ c ∈ n.children, Child st i c := fun c hc => ⟨n, hn, hc⟩
        clear hn
        generalize n.children = cs at hts hlt hcn hch
        clear hmem
        induction hts with
        | nil => exact List.nodup_nil
        | @cons c t cs ts h1 h2 ih2 =>
          rw [List.nodup_cons] at hcn
          unfold HTree.allIds
          rw [List.nodup_append]
          refine ⟨(ih c (hlt c (by simp)) t h1).1, ih2 (fun c hc => hlt c (by simp [hc])) hcn.2
            (fun c hc => hch c (by simp [hc])), ?_⟩
          rintro j hj _ hj' rfl
          obtain ⟨k, hk⟩ := ((ih c (hlt c (by simp)) t h1).2 j).1 hj
          obtain ⟨t', ht', hjt⟩ := mem_allIds.1 hj'
          obtain ⟨c', hc', h3⟩ := forall₂_mem_right h2 ht'
          obtain ⟨k', hk'⟩ := ((ih c' (hlt c' (by simp [hc'])) t' h3).2 j).1 hjt
          have hjl : j < st.length := by
            have h4 := ht.descends_le hk
            have h5 := (ht.child_lt (hch c (by simp)))
            omega
          obtain ⟨x, hx⟩ := List.exists_mem_of_ne_nil _ (ht.ne j hjl)
          have := ht.same_child (hch c (by simp)) (hch c' (by simp [hc'])) (ht.descends_members hk hx)
            (ht.descends_members hk' hx)
          subst this
          exact hcn.1 hc'
      constructor
      · unfold HTree.ids
        rw [List.nodup_cons]
        refine ⟨fun hi => ?_, hnd⟩
        obtain ⟨c, hc, k, hk⟩ := (hmem i).1 hi
        have h1 := ht.descends_le hk
        have h2 := hlt c hc
        omega
      · intro j
        unfold HTree.ids
        rw [List.mem_cons, hmem]
        constructor
        · rintro (rfl | ⟨c, hc, k, hk⟩)
          · exact ⟨0, .refl⟩
          · exact ⟨k + 1, .step ⟨n, hn, hc⟩ hk⟩
        · rintro ⟨k, hk⟩
          cases hk with
          | refl => exact .inl rfl
          | step hc hk =>
            obtain ⟨n', hn', hc⟩ := hc
            rw [hn] at hn'; cases hn'
            exact .inr ⟨_, hc, _, hk⟩

theorem TreeInv.exports_levels (ht : TreeInv m R cur st) : ∀ i t, Exports st i t → ∀ n, dget? st i = some n →
    t.levels = n.depth + 1 := by
  intro i
  induction i using Nat.strong_induction_on with
  | _ i ih =>
    intro t h n' hn'
    cases h with
    | @node _ n ts hn hts =>
      rw [show n' = n from Option.some.inj (hn'.symm.trans hn)]
      clear hn' n'
      unfold HTree.levels
      congr 1
      by_cases h0 : n.children = []
      · rw [h0] at hts; cases hts
        exact (ht.leaf i n hn h0).2.2.symm
      · obtain ⟨hc1, hc2⟩ := ht.child_depth hn h0
        have hle : HTree.maxLevels ts ≤ n.depth := by
          clear hc2 hn h0
          generalize n.children = cs at hts hc1
          induction hts with
          | nil => exact Nat.zero_le _
          | @cons c t cs ts h1 h2 ih2 =>
            obtain ⟨nc, h3, h4, h5⟩ := hc1 c (by simp)
            have := ih c h3 t h1 nc h4
            have := ih2 fun c hc => hc1 c (by simp [hc])
            unfold HTree.maxLevels
            omega
        have hge : n.depth ≤ HTree.maxLevels ts := by
          obtain ⟨c, hc, nc, hnc, hd⟩ := hc2
          obtain ⟨t, h1, h2⟩ := forall₂_mem_left hts hc
          obtain ⟨nc', h3, h4, -⟩ := hc1 c hc
          have h5 := ih c h3 t h2 nc hnc
          have : ∀ ts : List (HTree α), t ∈ ts → t.levels ≤ HTree.maxLevels ts := by
            intro ts hts
            induction ts with
            | nil => cases hts
            | cons t' ts ih3 =>
              unfold HTree.maxLevels
              rcases List.mem_cons.1 hts with rfl | hts
              · omega
              · have := ih3 hts; omega
          have := this ts h1
          omega
        omega

theorem TreeInv.exports_leaves (ht : TreeInv m R cur st) : ∀ i t, Exports st i t →
    t.leaves.flatten = membersOf st i ∧
    ∀ xs, xs ∈ t.leaves ↔ ∃ k j n, Descends st i k j ∧ dget? st j = some n ∧ n.children = [] ∧ n.members = xs := by
  intro i
  induction i using Nat.strong_induction_on with
  | _ i ih =>
    intro t h
    cases h with
    | @node _ n ts hn hts =>
      have hlt : ∀ c ∈ n.children, c < i := fun c hc => (ht.child_lt ⟨n, hn, hc⟩).1
      unfold HTree.leaves
      by_cases h0 : n.children = []
      · rw [if_pos ((forall₂_isEmpty hts).2 h0)]
        refine ⟨by rw [membersOf_eq hn]; simp, fun xs => ?_⟩
        rw [List.mem_singleton]
        constructor
        · rintro rfl; exact ⟨0, i, n, .refl, hn, h0, rfl⟩
        · rintro ⟨k, j, n', h1, h2, -, rfl⟩
          cases h1 with
          | refl => rw [hn] at h2; cases h2; rfl
          | step hc _ =>
            obtain ⟨n', hn', hc⟩ := hc
            rw [hn] at hn'; cases hn'
            rw [h0] at hc; cases hc
      · rw [if_neg (fun h => h0 ((forall₂_isEmpty hts).1 h))]
        constructor
        · rw [membersOf_eq hn, (ht.inner i n hn h0).2.2.2.1]
          clear hn h0
          generalize n.children = cs at hts hlt
          induction hts with
          | nil => rfl
          | @cons c t cs ts h1 h2 ih2 =>
            unfold HTree.allLeaves
            rw [List.flatten_append, List.flatMap_cons, (ih c (hlt c (by simp)) t h1).1,
              ih2 fun c hc => hlt c (by simp [hc])]
        · intro xs
          rw [mem_allLeaves]
          constructor
          · rintro ⟨t, h1, h2⟩
            obtain ⟨c, hc, h3⟩ := forall₂_mem_right hts h1
            obtain ⟨k, j, nj, h4, h5⟩ := ((ih c (hlt c hc) t h3).2 xs).1 h2
            exact ⟨k + 1, j, nj, .step ⟨n, hn, hc⟩ h4, h5⟩
          · rintro ⟨k, j, nj, h1, h2, h3, h4⟩
            cases h1 with
            | refl => rw [hn] at h2; cases h2; exact (h0 h3).elim
            | step hc hd =>
              obtain ⟨n', hn', hc⟩ := hc
              rw [hn] at hn'; cases hn'
              obtain ⟨t, h5, h6⟩ := forall₂_mem_left hts hc
              exact ⟨t, h5, ((ih _ (hlt _ hc) t h6).2 xs).2 ⟨_, j, nj, hd, h2, h3, h4⟩⟩

end

end Verif
