import Verif.Spec.HierChained
import Verif.Proofs.HierSeparated

/-
Lemmas on single linkage and chained classes.
-/

namespace Verif

variable {α V δ : Type} [LinearOrder α] [LinearOrder δ]

section
variable {env : HierEnv V δ} {m : Manager α} {vectors : Dict α V} {root : Nat}
  {st : Dict Nat (HCluster α V)} {f : α → Nat}

theorem Built.mergesPure_chained (hs : ∀ v w, env.metric v w = env.metric w v) (h : Inv m)
    (hb : Built env .single m vectors root st) (hf : Satisfies m f) (hc : ChainsSeparate env m vectors f) :
    MergesPure m f st := by
  intro i n hn hne hp
  by_cases hpi : PureNode f st i
  · exact .inl hpi
  refine .inr ?_
  -- the merged clusters are not farther than two clusters that share a class
  have key : ∀ c e, Alive st i c → Alive st i e → c ≠ e → ∀ x ∈ membersOf st c, ∀ y ∈ membersOf st e, f x = f y →
      ∃ a b d, n.children = [a, b] ∧ ¬ Opposed m (membersOf st a) (membersOf st b) ∧
      (∀ u ∈ membersOf st a, ∀ v ∈ membersOf st b, f u ≠ f v) ∧
      LinkageIs env .single vectors (membersOf st a) (membersOf st b) d ∧
      ∀ v w, dget? vectors x = some v → dget? vectors y = some w → d ≤ env.metric v w := by
    intro c e hc he hce x hx y hy hxy
    rcases lt_or_gt_of_ne hce with hlt | hlt
    · obtain ⟨a, b, d, d', k1, -, -, -, k5, k6, k7, k8, k9⟩ := hb.impure_merge h hf hn hne hp hpi hc he hlt hx hy hxy
      exact ⟨a, b, d, k1, k5, k6, k7, fun v w e1 e2 => k9.trans (k8.2 x hx y hy v w e1 e2)⟩
    · obtain ⟨a, b, d, d', k1, -, -, -, k5, k6, k7, k8, k9⟩ := hb.impure_merge h hf hn hne hp hpi he hc hlt hy hx hxy.symm
      exact ⟨a, b, d, k1, k5, k6, k7, fun v w e1 e2 => k9.trans (hs v w ▸ k8.2 y hy x hx w v e2 e1)⟩
  intro c hc' x hx y hy hxy
  by_contra hyc
  have hic := hb.components_le_inner hn hne
  obtain ⟨e, he, hye⟩ := hb.alive_exists h hic hy
  have hce : c ≠ e := by rintro rfl; exact hyc hye
  obtain ⟨a, b, d, k1, k2, k3, k4, -⟩ := key c e hc' he hce x hx y hye hxy
  obtain ⟨⟨z, hz, t, ht, v', w', hv', hw', rfl⟩, k4⟩ := k4
  have hch := hc z (hb.tree.sub a z hz) t (hb.tree.sub b t ht) (k3 z hz t ht) (fun hcl => k2 ⟨z, hz, t, ht, hcl⟩) v' w'
    hv' hw' x (hb.tree.sub c x hx) y hy hxy
  refine hyc ?_
  clear hyc hye he hce e hy hxy
  induction hch with
  | refl => exact hx
  | @tail p q _ hpq ih =>
    rcases hpq with hpq | ⟨hq, hpq, v, w, hv, hw, hlt⟩
    · exact hb.tree.closed c p ih q hpq
    · by_contra hqc
      obtain ⟨e, he, hqe⟩ := hb.alive_exists h hic hq
      have hce : c ≠ e := by rintro rfl; exact hqc hqe
      obtain ⟨a', b', d, k1', -, -, k7, k8⟩ := key c e hc' he hce p ih q hqe hpq
      rw [k1] at k1'
      cases k1'
      obtain ⟨⟨z1, hz1, t1, ht1, v1, w1, e1, e2, rfl⟩, -⟩ := k7
      exact absurd hlt (not_lt.2 ((k4 z1 hz1 t1 ht1 v1 w1 e1 e2).trans (k8 v w hv hw)))

/-- The chain stays inside the cluster. -/
theorem Built.chain_inside (hs : ∀ v w, env.metric v w = env.metric w v) (hm : Inv m)
    (hb : Built env .single m vectors root st) {i : Nat} {d : δ} (hi : MergedAt env .single m vectors st i d) {x y : α}
    (hx : x ∈ membersOf st i) (hy : y ∈ membersOf st i) :
    Chain (fun x y => MustLinked m x y ∨ (x ∈ membersOf st i ∧ y ∈ membersOf st i ∧
      ∃ v w, dget? vectors x = some v ∧ dget? vectors y = some w ∧ env.metric v w ≤ d)) x y := by
  induction i using Nat.strongRecOn generalizing d x y with
  | ind i ih =>
    obtain ⟨a, b, ha, hb', hmem, hd, hch⟩ := hb.split hs hm (.inl rfl) hi
    have hsub : ∀ c, (c = a ∨ c = b) → ∀ x ∈ membersOf st c, x ∈ membersOf st i := by
      rintro c (rfl | rfl) x hx <;> rw [hmem, List.mem_append]
      exacts [.inl hx, .inr hx]
    have inside : ∀ c, (c = a ∨ c = b) → ∀ {x y}, x ∈ membersOf st c → y ∈ membersOf st c →
        Chain (fun x y => MustLinked m x y ∨ (x ∈ membersOf st i ∧ y ∈ membersOf st i ∧
          ∃ v w, dget? vectors x = some v ∧ dget? vectors y = some w ∧ env.metric v w ≤ d)) x y := by
      intro c hc x y h1 h2
      rcases hch c hc with k | ⟨d', k1, k2⟩
      · exact .single (.inl (k x h1 y h2))
      · refine Chain.mono (fun x y hk => ?_) (ih c (by rcases hc with rfl | rfl <;> assumption) k2 h1 h2)
        exact hk.imp_right fun ⟨e4, e5, v, w, e1, e2, e3⟩ => ⟨hsub c hc _ e4, hsub c hc _ e5, v, w, e1, e2, le_trans e3 k1⟩
    obtain ⟨⟨p, hp, q, hq, v, w, hv, hw, e⟩, -⟩ := hd
    have hp' := hsub a (.inl rfl) p hp
    have hq' := hsub b (.inr rfl) q hq
    rw [hmem, List.mem_append] at hx hy
    rcases hx with hx | hx <;> rcases hy with hy | hy
    · exact inside a (.inl rfl) hx hy
    · exact ((inside a (.inl rfl) hx hp).trans (.single (.inr ⟨hp', hq', v, w, hv, hw, e ▸ le_refl _⟩))).trans
        (inside b (.inr rfl) hq hy)
    · exact ((inside b (.inr rfl) hx hq).trans (.single (.inr ⟨hq', hp', w, v, hw, hv, e ▸ hs w v ▸ le_refl _⟩))).trans
        (inside a (.inl rfl) hp hy)
    · exact inside b (.inr rfl) hx hy

/-- A cut by iteration that gives the classes, without cannot-links and without ties: the classes are chained. -/
theorem Explored.chained (hs : ∀ v w, env.metric v w = env.metric w v) (hm : Inv m)
    (hb : Built env .single m vectors root st) (hno : ∀ x y, ¬ CannotLinked m x y)
    (ht : NoTies env vectors m.managed f) {nb : Int} {l : List Nat} (hE : Explored .iteration st nb [root] l)
    (hl : ∀ x ∈ m.managed, ∀ y ∈ m.managed, (∃ c ∈ l, x ∈ membersOf st c ∧ y ∈ membersOf st c) ↔ f x = f y) :
    ChainsSeparate env m vectors f := by
  intro z hz t ht' hzt _ v' w' hv' hw' x hx y hy hxy
  have hcut := hE.cutInv hm hb.tree hb.cutInv_root
  obtain ⟨i, h3, h4, h5⟩ := hE.alive hm hb
  obtain ⟨c, hc, hxc, hyc⟩ := (hl x hx y hy).2 hxy
  obtain ⟨c1, hc1, hzc1⟩ := hcut.exists hz
  obtain ⟨c2, hc2, htc2⟩ := hcut.exists ht'
  have h12 : c1 ≠ c2 := by
    rintro rfl
    exact hzt ((hl z hz t ht').1 ⟨c1, hc1, hzc1, htc2⟩)
  have hclass : ∀ u ∈ membersOf st c, ∀ v ∈ membersOf st c, f u = f v := fun u hu v hv =>
    (hl u (hb.tree.sub c u hu) v (hb.tree.sub c v hv)).1 ⟨c, hc, hu, hv⟩
  have hnop : ∀ xs ys : List α, ¬ Opposed m xs ys := fun xs ys ⟨x, _, y, _, hl⟩ => hno x y hl
  have hci := (h5 c).1 hc
  have hc1i := (h5 c1).1 hc1
  have hc2i := (h5 c2).1 hc2
  have hlast := hb.last
  have hir : i ≤ root := by
    by_contra hlt
    have : i = st.length := by omega
    subst this
    have e1 := hb.tree.alive.1 hc1i
    have e2 := hb.tree.alive.1 hc2i
    rw [List.mem_singleton] at e1 e2
    exact h12 (e1.trans e2.symm)
  obtain ⟨nc, hnc⟩ := hb.tree.keys.exists (i := c) (by have := hci.1; omega)
  by_cases h0 : nc.children = []
  · have h1 := (hb.tree.leaf c nc hnc h0).1
    rw [membersOf_eq hnc] at hxc hyc
    exact .single (.inl (((mem_component_iff hm h1 hxc).2 y).mp hyc))
  rcases hb.kind c nc hnc h0 with ⟨a, b, e1, hab, ha, hb', ho, d, hd, -⟩ | ⟨e, -⟩
  · have hcm : MergedAt env .single m vectors st c d := ⟨nc, a, b, hnc, e1, ho, hd⟩
    obtain ⟨n, a', b', hn, hc', hmin⟩ := hb.far (.inl rfl) hcm
    have hgap := far_after hs hm hb hn hc' hmin hci.1.le hir c1 c2 hc1i hc2i h12 (hnop _ _)
    have hle : d ≤ env.metric v' w' := hgap z hzc1 t htc2 v' w' hv' hw'
    obtain ⟨⟨p, hp, q, hq, v, w, hv, hw, rfl⟩, -⟩ := hd
    have hpc : p ∈ membersOf st c := (hb.mem_inner hnc h0).2 ⟨a, by rw [e1]; simp, hp⟩
    have hqc : q ∈ membersOf st c := (hb.mem_inner hnc h0).2 ⟨b, by rw [e1]; simp, hq⟩
    have hpq : p ≠ q := by
      rintro rfl
      have := hb.alive_eq (hb.tree.keys.lt hnc).le ha hb' hp hq
      omega
    have hlt : env.metric v w < env.metric v' w' := lt_of_le_of_ne hle
      (ht p (hb.tree.sub c p hpc) q (hb.tree.sub c q hqc) z hz t ht' hpq (hclass p hpc q hqc) hzt v w v' w' hv hw hv' hw')
    refine Chain.mono (fun x y hk => ?_) (hb.chain_inside hs hm hcm hxc hyc)
    exact hk.imp_right fun ⟨k1, k2, v1, w1, k3, k4, k5⟩ =>
      ⟨hb.tree.sub c _ k2, hclass _ k1 _ k2, v1, w1, k3, k4, lt_of_le_of_lt k5 hlt⟩
  · have := hci.1
    omega

end

theorem ChainsSeparate.more {env : HierEnv V δ} {m m' : Manager α} {vectors : Dict α V} {f : α → Nat}
    (hc : ChainsSeparate env m vectors f) (hk : KnowsAtLeast m m') : ChainsSeparate env m' vectors f := by
  intro z hz t ht hzt hcl v' w' hv' hw' x hx y hy hxy
  refine Chain.mono (fun a b hab => ?_) (hc z ((hk.ids z).1 hz) t ((hk.ids t).1 ht) hzt (fun h => hcl (hk.cannot z t h)) v' w'
    hv' hw' x ((hk.ids x).1 hx) y ((hk.ids y).1 hy) hxy)
  exact hab.imp (hk.must a b) fun ⟨k1, k2⟩ => ⟨(hk.ids b).2 k1, k2⟩

end Verif
