import Verif.Proofs.HierExport
import Verif.Proofs.Inertia

/-
A dendrogram that is as deep as the number of IDs allows (C82).
-/

namespace Verif

variable {env : HierEnv Nat Nat} {m : Manager Nat} {vectors : Dict Nat Nat} {root : Nat} {st : Dict Nat (HCluster Nat Nat)}

theorem pow_gap {x y k : Nat} (hxy : x < y) (h : 2 ^ y - 2 ^ x ≤ 2 ^ k) : y ≤ k ∨ (y = k + 1 ∧ x = k) := by
  obtain ⟨z, rfl⟩ : ∃ z, y = z + 1 := ⟨y - 1, by omega⟩
  have h1 : 2 ^ x ≤ 2 ^ z := Nat.pow_le_pow_right (by omega) (by omega)
  have h2 : 2 ^ (z + 1) = 2 * 2 ^ z := by rw [Nat.pow_succ]; omega
  have h3 : 2 ^ z ≤ 2 ^ k := by omega
  have h4 : z ≤ k := (Nat.pow_le_pow_iff_right (by omega)).1 h3
  by_cases h5 : z = k
  · subst h5
    have h6 : 2 ^ z ≤ 2 ^ x := by omega
    have h7 : z ≤ x := (Nat.pow_le_pow_iff_right (by omega)).1 h6
    right; omega
  · left; omega

/-- The leaf of an ID without constraints. -/
theorem Built.free_leaf {α V δ : Type} [LinearOrder α] [LinearOrder δ] {env : HierEnv V δ} {link : Linkage} {m : Manager α}
    {vectors : Dict α V} {root : Nat} {st : Dict Nat (HCluster α V)} (h : Inv m) (hu : Unconstrained m)
    (hb : Built env link m vectors root st) {x : α} (hx : x ∈ m.managed) :
    ∃ i, i < m.components.length ∧ i < st.length ∧ ∀ y, y ∈ membersOf st i ↔ y = x := by
  obtain ⟨c, hc, hxc⟩ := exists_component h hx
  obtain ⟨i, n, hn, h0, hm⟩ := hb.tree.leaves c hc
  refine ⟨i, ?_, hb.tree.keys.lt hn, fun y => ?_⟩
  · rcases hb.iters i n hn with ⟨-, h1⟩ | ⟨h1, -⟩
    · exact h1
    · exact (h1 h0).elim
  · rw [membersOf_eq hn, hm, (mem_component_iff h hc hxc).2]
    constructor
    · intro hl; exact (hu.ml h hx hl).symm
    · rintro rfl; exact .refl _ _

theorem components_le {α : Type} [LinearOrder α] {m : Manager α} (h : Inv m) : m.components.length ≤ m.managed.length := by
  rw [← (components_flatten_perm h).length_eq, List.length_flatten]
  have : ∀ l : List (List α), (∀ c ∈ l, c ≠ []) → l.length ≤ (l.map List.length).sum := by
    intro l
    induction l with
    | nil => simp
    | cons c l ih =>
      intro hl
      have h1 := List.length_pos_iff.2 (hl c (by simp))
      have h2 := ih fun c hc => hl c (by simp [hc])
      simp only [List.length_cons, List.map_cons, List.sum_cons]
      omega
  exact this _ fun c hc => component_ne_nil h hc

/-- Points `1, 2, 4, …`, single linkage, no constraint: every merge adds the next point to the cluster of the
previous ones. -/
theorem Built.powers (h : Inv m) (hu : Unconstrained m) (hb : Built env .single m vectors root st) {n : Nat}
    (hm : ∀ x, x ∈ m.managed ↔ x < n) (hv : ∀ x, x < n → dget? vectors x = some (2 ^ x))
    (he : ∀ v w, env.metric v w = max v w - min v w) :
    ∀ k, m.components.length + k < st.length →
      (∀ x, x ∈ membersOf st (m.components.length + k) ↔ x ≤ k + 1) ∧
      ∃ c, Child st (m.components.length + k) c ∧ (1 ≤ k → c + 1 = m.components.length + k) := by
  have ht := hb.tree
  have hlen : m.managed.length = n := by
    have : m.managed.Perm (List.range n) :=
      (List.perm_ext_iff_of_nodup h.d.nodup List.nodup_range).2 fun x => (hm x).trans List.mem_range.symm
    rw [this.length_eq, List.length_range]
  have hcl := components_le h
  have hsz := hb.size
  intro k
  induction k using Nat.strong_induction_on with
  | _ k ih =>
    intro hk
    have hkn : k + 1 < n := by omega
    obtain ⟨node, hnode⟩ := ht.keys.exists hk
    have hin : node.children ≠ [] := by
      rcases hb.iters _ node hnode with ⟨-, e⟩ | ⟨e, -⟩
      · omega
      · exact e
    have hnop : ∀ xs ys : List Nat, ¬ Opposed m xs ys := fun xs ys ⟨x, _, y, _, hl⟩ => hu.cl h x y hl
    have inner : ∀ p c, Child st p c → m.components.length ≤ p := by
      rintro p c ⟨np, hnp, hc⟩
      rcases hb.iters p np hnp with ⟨h0, -⟩ | ⟨-, h0, -⟩
      · rw [h0] at hc; cases hc
      · exact h0
    -- the leaf of the next point
    obtain ⟨L, hL1, hL2, hL3⟩ := hb.free_leaf h hu ((hm (k + 1)).2 hkn)
    have hLa : Alive st (m.components.length + k) L := by
      refine ⟨by omega, fun p hp hc => ?_⟩
      obtain ⟨k', rfl⟩ : ∃ k', p = m.components.length + k' := ⟨p - m.components.length, by have := inner p L hc; omega⟩
      have := ((ih k' (by omega) (by omega)).1 (k + 1)).1 (ht.child_members hc ((hL3 _).2 rfl))
      omega
    -- the cluster of the previous ones
    obtain ⟨P, hPa, hPm, hPk⟩ : ∃ P, Alive st (m.components.length + k) P ∧ (∀ x, x ∈ membersOf st P ↔ x ≤ k) ∧
        (1 ≤ k → P + 1 = m.components.length + k) := by
      cases k with
      | zero =>
        obtain ⟨P, hP1, hP2, hP3⟩ := hb.free_leaf h hu ((hm 0).2 (by omega))
        refine ⟨P, ⟨by omega, fun p hp hc => ?_⟩, fun x => by rw [hP3]; omega, by omega⟩
        have := inner p P hc
        omega
      | succ k =>
        refine ⟨m.components.length + k, ⟨by omega, fun p hp hc => ?_⟩, (ih k (by omega) (by omega)).1, by omega⟩
        have := (ht.child_lt hc).1
        omega
    have hPL : P ≠ L := by
      intro e
      have := (hL3 k).1 (e ▸ (hPm k).2 (le_refl k))
      omega
    have hcm : ClosestMerge env .single m vectors st (m.components.length + k) node := by
      rcases hb.kind _ node hnode hin with e | ⟨-, -, e⟩
      · exact e
      · have h2 := (ht.inner _ node hnode hin).1
        match hc : node.children, h2 with
        | a :: b :: l, _ =>
          rw [hc, List.pairwise_cons] at e
          exact (hnop _ _ (e.1 b (by simp))).elim
    obtain ⟨a, b, hab, hlt, haa, hba, -, d, hd, hmin⟩ := hcm
    have hvk := hv k (by omega)
    have hvk1 := hv (k + 1) hkn
    have hmet : 2 ^ (k + 1) - 2 ^ k = 2 ^ k := by rw [Nat.pow_succ]; omega
    have hpk : 2 ^ k ≤ 2 ^ (k + 1) := Nat.pow_le_pow_right (by omega) (by omega)
    have hdk : d ≤ 2 ^ k := by
      rcases Nat.lt_or_gt_of_ne hPL with hlt | hlt
      · obtain ⟨d', h1, h2⟩ := hmin P L hPa hLa hlt (hnop _ _)
        have h3 := h1.2 k ((hPm k).2 (le_refl k)) (k + 1) ((hL3 _).2 rfl) _ _ hvk hvk1
        rw [he, Nat.max_eq_right hpk, Nat.min_eq_left hpk, hmet] at h3
        omega
      · obtain ⟨d', h1, h2⟩ := hmin L P hLa hPa hlt (hnop _ _)
        have h3 := h1.2 (k + 1) ((hL3 _).2 rfl) k ((hPm k).2 (le_refl k)) _ _ hvk1 hvk
        rw [he, Nat.max_eq_left hpk, Nat.min_eq_right hpk, hmet] at h3
        omega
    obtain ⟨⟨x, hx, y, hy, v, w, hv1, hw1, rfl⟩, -⟩ := hd
    have hxn := (hm x).1 (ht.sub a x hx)
    have hyn := (hm y).1 (ht.sub b y hy)
    rw [hv x hxn] at hv1; cases hv1
    rw [hv y hyn] at hw1; cases hw1
    rw [he] at hdk
    have hile : m.components.length + k ≤ st.length := by omega
    have inP : ∀ c z, Alive st (m.components.length + k) c → z ∈ membersOf st c → z ≤ k → c = P :=
      fun c z hc hz hzk => hb.alive_eq hile hc hPa hz ((hPm z).2 hzk)
    have inL : ∀ c z, Alive st (m.components.length + k) c → z ∈ membersOf st c → z = k + 1 → c = L :=
      fun c z hc hz hzk => hb.alive_eq hile hc hLa hz ((hL3 z).2 hzk)
    have hset : (a = P ∧ b = L) ∨ (a = L ∧ b = P) := by
      rcases Nat.lt_trichotomy x y with hxy | hxy | hxy
      · have hle : 2 ^ x ≤ 2 ^ y := Nat.pow_le_pow_right (by omega) (by omega)
        rw [Nat.max_eq_right hle, Nat.min_eq_left hle] at hdk
        rcases pow_gap hxy hdk with h1 | ⟨h1, h2⟩
        · have := inP a x haa hx (by omega)
          have := inP b y hba hy (by omega)
          omega
        · exact .inl ⟨inP a x haa hx (by omega), inL b y hba hy h1⟩
      · subst hxy
        have := hb.alive_eq hile haa hba hx hy
        omega
      · have hle : 2 ^ y ≤ 2 ^ x := Nat.pow_le_pow_right (by omega) (by omega)
        rw [Nat.max_eq_left hle, Nat.min_eq_right hle] at hdk
        rcases pow_gap hxy hdk with h1 | ⟨h1, h2⟩
        · have := inP a x haa hx (by omega)
          have := inP b y hba hy (by omega)
          omega
        · exact .inr ⟨inL a x haa hx h1, inP b y hba hy (by omega)⟩
    constructor
    · intro z
      rw [membersOf_eq hnode, (ht.inner _ node hnode hin).2.2.2.1, hab]
      rcases hset with ⟨rfl, rfl⟩ | ⟨rfl, rfl⟩
      · simp only [List.flatMap_cons, List.flatMap_nil, List.append_nil, List.mem_append, hPm, hL3]
        omega
      · simp only [List.flatMap_cons, List.flatMap_nil, List.append_nil, List.mem_append, hPm, hL3]
        omega
    · refine ⟨P, ⟨node, hnode, ?_⟩, hPk⟩
      rw [hab]
      rcases hset with ⟨rfl, rfl⟩ | ⟨rfl, rfl⟩ <;> simp

/-- Its depth is the number of points minus one. -/
theorem Built.powers_depth (h : Inv m) (hu : Unconstrained m) (hb : Built env .single m vectors root st) {n : Nat}
    (hm : ∀ x, x ∈ m.managed ↔ x < n) (hv : ∀ x, x < n → dget? vectors x = some (2 ^ x))
    (he : ∀ v w, env.metric v w = max v w - min v w) (hn : 2 ≤ n) {r : HCluster Nat Nat} (hr : dget? st root = some r) :
    n ≤ r.depth + 1 := by
  have ht := hb.tree
  have hp := hb.powers h hu hm hv he
  have hpath : ∀ k, m.components.length + k < st.length → ∃ j, Descends st (m.components.length + k) (k + 1) j := by
    intro k
    induction k with
    | zero =>
      intro hk
      obtain ⟨-, c, hc, -⟩ := hp 0 hk
      exact ⟨c, .step hc .refl⟩
    | succ k ih =>
      intro hk
      obtain ⟨-, c, hc, h1⟩ := hp (k + 1) hk
      obtain ⟨j, hj⟩ := ih (by omega)
      obtain rfl : c = m.components.length + k := by have := h1 (by omega); omega
      exact ⟨j, .step hc hj⟩
  have hall : ∀ x, x < n → x ∈ membersOf st root := by
    intro x hx
    have := ht.cover
    rw [List.flatMap_cons, List.flatMap_nil, List.append_nil] at this
    exact this.mem_iff.2 ((hm x).2 hx)
  have hlast := hb.last
  have hroot : m.components.length ≤ root := by
    rcases hb.iters root r hr with ⟨h0, -⟩ | ⟨-, h0, -⟩
    · obtain ⟨hc, -⟩ := ht.leaf root r hr h0
      have h1 := hall 0 (by omega)
      have h2 := hall 1 (by omega)
      rw [membersOf_eq hr] at h1 h2
      have := hu.ml h ((hm 0).2 (by omega)) (((mem_component_iff h hc h1).2 1).1 h2)
      omega
    · exact h0
  obtain ⟨k, rfl⟩ : ∃ k, root = m.components.length + k := ⟨root - m.components.length, by omega⟩
  have h1 := ((hp k (by omega)).1 (n - 1)).1 (hall (n - 1) (by omega))
  obtain ⟨j, hj⟩ := hpath k (by omega)
  have := (ht.height _ r hr).2 _ _ hj
  omega

end Verif
