import Verif.Spec.HierSeparated
import Verif.Proofs.HierHeights
import Verif.Proofs.HierExport
import Verif.Proofs.Questions
import Verif.Proofs.HierDeep
import Mathlib.Data.List.Pairwise
import Mathlib.Data.Nat.Find

/-
Lemmas on the hierarchical clustering of separated classes.
-/

set_option linter.unusedSectionVars false

namespace Verif

variable {α V δ : Type} [LinearOrder α] [LinearOrder δ]

/-- All the members are in one class. -/
def PureNode (f : α → Nat) (st : Dict Nat (HCluster α V)) (c : Nat) : Prop :=
  ∀ x ∈ membersOf st c, ∀ y ∈ membersOf st c, f x = f y

/-- The members are all the IDs of some classes. -/
def WholeNode (m : Manager α) (f : α → Nat) (st : Dict Nat (HCluster α V)) (c : Nat) : Prop :=
  ∀ x ∈ membersOf st c, ∀ y ∈ m.managed, f x = f y → y ∈ membersOf st c

section
variable {env : HierEnv V δ} {link : Linkage} {m : Manager α} {vectors : Dict α V} {root : Nat}
  {st : Dict Nat (HCluster α V)} {f : α → Nat}

/-- The clusters of a state cover the IDs. -/
theorem Built.alive_exists (h : Inv m) (hb : Built env link m vectors root st) {i : Nat} (hi : m.components.length ≤ i)
    {x : α} (hx : x ∈ m.managed) : ∃ j, Alive st i j ∧ x ∈ membersOf st j := by
  classical
  obtain ⟨c, hc, hxc⟩ := exists_component h hx
  obtain ⟨j, n, hn, h0, hm⟩ := hb.tree.leaves c hc
  have hj : j < m.components.length := by
    rcases hb.iters j n hn with ⟨-, h1⟩ | ⟨h1, -⟩
    · exact h1
    · exact (h1 h0).elim
  have hP : ∃ k, k ≤ i ∧ (fun j => j < i ∧ x ∈ membersOf st j) k := ⟨j, by omega, by omega, by rw [membersOf_eq hn, hm]; exact hxc⟩
  obtain ⟨k0, hk0, hk0'⟩ := hP
  have hs := Nat.findGreatest_spec (P := fun j => j < i ∧ x ∈ membersOf st j) hk0 hk0'
  set k := Nat.findGreatest (fun j => j < i ∧ x ∈ membersOf st j) i with hk
  refine ⟨k, ⟨hs.1, ?_⟩, hs.2⟩
  rintro p hp ⟨np, hnp, hcp⟩
  have hne : np.children ≠ [] := by rintro h0; rw [h0] at hcp; cases hcp
  obtain ⟨-, hlt, -, hmem, -⟩ := hb.tree.inner p np hnp hne
  have hxp : x ∈ membersOf st p := by
    rw [membersOf_eq hnp, hmem]
    exact List.mem_flatMap.2 ⟨k, hcp, hs.2⟩
  have h1 : p ≤ k := Nat.le_findGreatest (P := fun j => j < i ∧ x ∈ membersOf st j) (by omega) ⟨hp, hxp⟩
  have := hlt k hcp
  omega

theorem Built.children_alive (hb : Built env link m vectors root st) {i : Nat} {n : HCluster α V} (hn : dget? st i = some n)
    {c : Nat} (hc : c ∈ n.children) : Alive st i c := by
  have hne : n.children ≠ [] := by rintro h0; rw [h0] at hc; cases hc
  rcases hb.kind i n hn hne with ⟨a, b, e, -, ha, hb', -⟩ | ⟨-, h1, -⟩
  · rw [e] at hc
    rcases List.mem_pair.1 hc with rfl | rfl
    exacts [ha, hb']
  · exact (h1 c).1 hc

theorem Built.mem_inner (hb : Built env link m vectors root st) {i : Nat} {n : HCluster α V} (hn : dget? st i = some n)
    (hne : n.children ≠ []) {x : α} : x ∈ membersOf st i ↔ ∃ c ∈ n.children, x ∈ membersOf st c := by
  rw [membersOf_eq hn, (hb.tree.inner i n hn hne).2.2.2.1]
  exact List.mem_flatMap

theorem Built.two_groups (hb : Built env link m vectors root st) {i a b : Nat} (hi : i ≤ st.length) (ha : Alive st i a)
    (hb' : Alive st i b) (hab : a ≠ b) : TwoGroups m.managed (membersOf st a) (membersOf st b) := by
  refine ⟨?_, ?_, hb.tree.ne a (by have := ha.1; omega), hb.tree.ne b (by have := hb'.1; omega)⟩
  · intro x hx
    rcases List.mem_append.1 hx with hx | hx
    exacts [hb.tree.sub _ x hx, hb.tree.sub _ x hx]
  · rw [List.nodup_append]
    refine ⟨hb.tree.nodup a, hb.tree.nodup b, ?_⟩
    rintro x hx y hy rfl
    exact hab (hb.alive_eq hi ha hb' hx hy)

/-- While some cluster of a state is not a union of classes, the clusters of the state being inside classes, the next
merge is inside a class. -/
def MergesPure (m : Manager α) (f : α → Nat) (st : Dict Nat (HCluster α V)) : Prop :=
  ∀ i n, dget? st i = some n → n.children ≠ [] → (∀ j, Alive st i j → PureNode f st j) →
    PureNode f st i ∨ ∀ j, Alive st i j → WholeNode m f st j

/-- A merge of clusters inside different classes while some class is shared by two clusters: the two clusters that
are merged are not opposed, and not farther from each other than the two clusters that share a class. -/
theorem Built.impure_merge (h : Inv m) (hb : Built env link m vectors root st) (hf : Satisfies m f)
    {i : Nat} {n : HCluster α V} (hn : dget? st i = some n) (hne : n.children ≠ [])
    (hp : ∀ j, Alive st i j → PureNode f st j) (hpi : ¬ PureNode f st i) {c e : Nat} (hc : Alive st i c)
    (he : Alive st i e) (hce : c < e) {x y : α} (hx : x ∈ membersOf st c) (hy : y ∈ membersOf st e) (hxy : f x = f y) :
    ∃ a b d d', n.children = [a, b] ∧ Alive st i a ∧ Alive st i b ∧ a ≠ b ∧ ¬ Opposed m (membersOf st a) (membersOf st b) ∧
      (∀ u ∈ membersOf st a, ∀ v ∈ membersOf st b, f u ≠ f v) ∧
      LinkageIs env link vectors (membersOf st a) (membersOf st b) d ∧
      LinkageIs env link vectors (membersOf st c) (membersOf st e) d' ∧ d ≤ d' := by
  have hno : ¬ Opposed m (membersOf st c) (membersOf st e) := by
    rintro ⟨z, hz, t, ht, hzt⟩
    exact satisfies_sep hf hzt (by rw [hp c hc z hz x hx, hxy, hp e he y hy t ht])
  rcases hb.kind i n hn hne with ⟨a, b, e1, hab, ha, hb', ho, d, hd, hmin⟩ | ⟨-, h1, h2⟩
  · obtain ⟨d', hd', hle⟩ := hmin c e hc he hce hno
    refine ⟨a, b, d, d', e1, ha, hb', by omega, ho, ?_, hd, hd', hle.elim le_of_lt fun h => h.1.le⟩
    intro u hu v hv huv
    refine hpi fun z hz t ht => ?_
    have : ∀ z, z ∈ membersOf st i → f z = f u := by
      intro z hz
      rw [hb.mem_inner hn hne, e1] at hz
      obtain ⟨k, hk, hz⟩ := hz
      rcases List.mem_pair.1 hk with rfl | rfl
      · exact hp _ ha z hz u hu
      · rw [huv]; exact hp _ hb' z hz v hv
    rw [this z hz, this t ht]
  · have hsym : Std.Symm fun c d => Opposed m (membersOf st c) (membersOf st d) :=
      ⟨fun c d ⟨x, hx, y, hy, hxy⟩ => ⟨y, hy, x, hx, hxy.symm h⟩⟩
    exact (hno (h2.forall ((h1 c).2 hc) ((h1 e).2 he) (by omega))).elim

theorem Built.components_le_inner (hb : Built env link m vectors root st) {i : Nat} {n : HCluster α V}
    (hn : dget? st i = some n) (hne : n.children ≠ []) : m.components.length ≤ i := by
  rcases hb.iters i n hn with ⟨h0, -⟩ | ⟨-, h1, -⟩
  exacts [absurd h0 hne, h1]

theorem Built.mergesPure (h : Inv m) (hb : Built env link m vectors root st) (hf : Satisfies m f)
    (hs : LinkageSeparates env link vectors m.managed f) : MergesPure m f st := by
  intro i n hn hne hp
  by_cases hpi : PureNode f st i
  · exact .inl hpi
  refine .inr ?_
  have hil := hb.tree.keys.lt hn
  intro c hc x hx y hy hxy
  obtain ⟨e, he, hye⟩ := hb.alive_exists h (hb.components_le_inner hn hne) hy
  by_cases hce : c = e
  · exact hce ▸ hye
  exfalso
  have key : ∀ c e, Alive st i c → Alive st i e → c < e → ∀ x ∈ membersOf st c, ∀ y ∈ membersOf st e, f x = f y →
      False := by
    intro c e hc he hlt x hx y hy hxy
    obtain ⟨a, b, d, d', -, ha, hb', hab, -, hdiff, hd, hd', hle⟩ := hb.impure_merge h hf hn hne hp hpi hc he hlt hx hy hxy
    obtain ⟨u, hu⟩ := List.exists_mem_of_ne_nil _ (hb.tree.ne a (by have := ha.1; omega))
    obtain ⟨v, hv⟩ := List.exists_mem_of_ne_nil _ (hb.tree.ne b (by have := hb'.1; omega))
    have hlt' := hs _ _ _ _ (hb.two_groups hil.le hc he (by omega)) (hb.two_groups hil.le ha hb' hab) (f x) (f u)
      (f v) (hdiff u hu v hv) (by
        intro z hz
        rcases List.mem_append.1 hz with hz | hz
        · exact hp c hc z hz x hx
        · rw [hxy]; exact hp e he z hz y hy) (fun z hz => hp a ha z hz u hu) (fun z hz => hp b hb' z hz v hv) d' d hd' hd
    exact absurd hlt' (not_lt.2 hle)
  rcases lt_or_gt_of_ne hce with hlt | hlt
  · exact key c e hc he hlt x hx y hye hxy
  · exact key e c he hc hlt y hye x hx hxy.symm

theorem Built.whole_inner (hb : Built env link m vectors root st) {i : Nat} {n : HCluster α V} (hn : dget? st i = some n)
    (hne : n.children ≠ []) (hw : ∀ c ∈ n.children, WholeNode m f st c) : WholeNode m f st i := by
  intro x hx y hy hxy
  rw [hb.mem_inner hn hne] at hx ⊢
  obtain ⟨c, hc, hx⟩ := hx
  exact ⟨c, hc, hw c hc x hx y hy hxy⟩

/-- In every state, all the clusters are inside classes, or all are unions of classes. -/
theorem Built.state_separated (h : Inv m) (hb : Built env link m vectors root st) (hf : Satisfies m f)
    (hs : MergesPure m f st) {i : Nat} (hi : m.components.length ≤ i) (hil : i ≤ st.length) :
    (∀ j, Alive st i j → PureNode f st j) ∨ ∀ j, Alive st i j → WholeNode m f st j := by
  induction i, hi using Nat.le_induction with
  | base =>
    refine .inl fun j hj x hx y hy => ?_
    obtain ⟨n, hn⟩ := hb.tree.keys.exists (i := j) (by have := hj.1; omega)
    have h0 : n.children = [] := by
      rcases hb.iters j n hn with ⟨h0, -⟩ | ⟨-, h1, -⟩
      · exact h0
      · have := hj.1; omega
    have h1 := (hb.tree.leaf j n hn h0).1
    rw [membersOf_eq hn] at hx hy
    exact satisfies_chain hf (((mem_component_iff h h1 hx).2 y).mp hy)
  | succ i hi ih =>
    obtain ⟨n, hn⟩ := hb.tree.keys.exists (i := i) (by omega)
    have hne : n.children ≠ [] := by
      rcases hb.iters i n hn with ⟨-, h1⟩ | ⟨h0, -⟩
      · omega
      · exact h0
    have hal : ∀ j, Alive st (i + 1) j → j = i ∨ Alive st i j := by
      rintro j ⟨h1, h2⟩
      by_cases hj : j = i
      · exact .inl hj
      · exact .inr ⟨by omega, fun k hk => h2 k (by omega)⟩
    have hwhole : (∀ j, Alive st i j → WholeNode m f st j) → ∀ j, Alive st (i + 1) j → WholeNode m f st j := by
      intro hw j hj
      rcases hal j hj with rfl | hj
      · exact hb.whole_inner hn hne fun c hc => hw c (hb.children_alive hn hc)
      · exact hw j hj
    rcases ih (by omega) with hp | hw
    · rcases hs _ _ hn hne hp with hpi | hw
      · refine .inl fun j hj => ?_
        rcases hal j hj with rfl | hj
        exacts [hpi, hp j hj]
      · exact .inr (hwhole hw)
    · exact .inr (hwhole hw)

/-- A cluster that meets two classes has children that are unions of classes. -/
theorem Built.children_whole (h : Inv m) (hb : Built env link m vectors root st) (hf : Satisfies m f)
    (hs : MergesPure m f st) {i : Nat} {n : HCluster α V} (hn : dget? st i = some n)
    (hi : ¬ PureNode f st i) : n.children ≠ [] ∧ ∀ c ∈ n.children, WholeNode m f st c := by
  have hil := hb.tree.keys.lt hn
  rcases hb.iters i n hn with ⟨h0, h1⟩ | ⟨hne, h1, -⟩
  · refine (hi ?_).elim
    intro x hx y hy
    have h1 := (hb.tree.leaf i n hn h0).1
    rw [membersOf_eq hn] at hx hy
    exact satisfies_chain hf (((mem_component_iff h h1 hx).2 y).mp hy)
  · refine ⟨hne, fun c hc => ?_⟩
    rcases hb.state_separated h hf hs h1 hil.le with hp | hw
    · rcases hs _ _ hn hne hp with hpi | hw
      · exact (hi hpi).elim
      · exact hw c (hb.children_alive hn hc)
    · exact hw c (hb.children_alive hn hc)

/-! ### Counting clusters and classes -/

/-- As many values of `g` as of the coarser `f`: no difference. -/
theorem eq_of_card_le {S : Finset α} {f g : α → Nat} (hle : ∀ x ∈ S, ∀ y ∈ S, g x = g y → f x = f y)
    (hc : (S.image g).card ≤ (S.image f).card) : ∀ x ∈ S, ∀ y ∈ S, f x = f y → g x = g y := by
  classical
  let φ : Nat → Nat := fun n => if hx : ∃ x ∈ S, g x = n then f hx.choose else 0
  have hφ : ∀ x ∈ S, φ (g x) = f x := by
    intro x hx
    have hex : ∃ z ∈ S, g z = g x := ⟨x, hx, rfl⟩
    have : φ (g x) = f hex.choose := dif_pos hex
    rw [this]
    exact hle _ hex.choose_spec.1 x hx hex.choose_spec.2
  have himg : S.image f = (S.image g).image φ := by
    rw [Finset.image_image]
    exact Finset.image_congr fun x hx => (hφ x hx).symm
  have hinj : Set.InjOn φ (S.image g : Finset Nat) := by
    rw [← Finset.card_image_iff, ← himg]
    refine le_antisymm ?_ hc
    rw [himg]
    exact Finset.card_image_le
  intro x hx y hy hxy
  refine hinj (Finset.mem_coe.2 (Finset.mem_image_of_mem g hx)) (Finset.mem_coe.2 (Finset.mem_image_of_mem g hy)) ?_
  rw [hφ x hx, hφ y hy, hxy]

/-- The position of the cluster of an ID. -/
def cutIdx (st : Dict Nat (HCluster α V)) (l : List Nat) (x : α) : Nat := l.findIdx fun c => x ∈ membersOf st c

theorem CutInv.cutIdx_iff (h : Inv m) {l : List Nat} (hc : CutInv m st l) {x y : α} (hx : x ∈ m.managed)
    (hy : y ∈ m.managed) :
    cutIdx st l x = cutIdx st l y ↔ ∃ c ∈ l, x ∈ membersOf st c ∧ y ∈ membersOf st c := by
  have hlt : ∀ {z}, z ∈ m.managed → ∃ hz : cutIdx st l z < l.length, z ∈ membersOf st (l[cutIdx st l z]) := by
    intro z hz
    obtain ⟨c, hcl, hzc⟩ := hc.exists hz
    have h1 : cutIdx st l z < l.length := List.findIdx_lt_length_of_exists ⟨c, hcl, by simpa using hzc⟩
    exact ⟨h1, of_decide_eq_true (List.findIdx_getElem (w := h1))⟩
  obtain ⟨hx1, hx2⟩ := hlt hx
  obtain ⟨hy1, hy2⟩ := hlt hy
  constructor
  · intro he
    refine ⟨_, List.getElem_mem hx1, hx2, ?_⟩
    simp only [he]
    exact hy2
  · rintro ⟨c, hcl, hxc, hyc⟩
    have e1 := eq_of_flatMap (hc.flat_nodup h) (List.getElem_mem hx1) hcl hx2 hxc
    have : ∀ d ∈ l, (x ∈ membersOf st d ↔ y ∈ membersOf st d) := by
      intro d hd
      constructor
      · intro hxd
        have := eq_of_flatMap (hc.flat_nodup h) hd hcl hxd hxc
        exact this ▸ hyc
      · intro hyd
        have := eq_of_flatMap (hc.flat_nodup h) hd hcl hyd hyc
        exact this ▸ hxc
    unfold cutIdx
    have key : ∀ l : List Nat, (∀ d ∈ l, (x ∈ membersOf st d ↔ y ∈ membersOf st d)) →
        l.findIdx (fun c => decide (x ∈ membersOf st c)) = l.findIdx (fun c => decide (y ∈ membersOf st c)) := by
      intro l
      induction l with
      | nil => intro _; rfl
      | cons d l ih =>
        intro hl
        rw [List.findIdx_cons, List.findIdx_cons, ih fun e he => hl e (by simp [he])]
        simp only [hl d (by simp)]
    exact key l this

theorem CutInv.cutIdx_card (h : Inv m) {R : Nat → Prop} {cur : List Nat} (ht : TreeInv m R cur st) {l : List Nat}
    (hc : CutInv m st l) : (m.managed.toFinset.image (cutIdx st l)).card = l.length := by
  have : m.managed.toFinset.image (cutIdx st l) = Finset.range l.length := by
    ext k
    simp only [Finset.mem_image, List.mem_toFinset, Finset.mem_range]
    constructor
    · rintro ⟨x, hx, rfl⟩
      obtain ⟨c, hcl, hxc⟩ := hc.exists hx
      exact List.findIdx_lt_length_of_exists ⟨c, hcl, by simpa using hxc⟩
    · intro hk
      obtain ⟨x, hx⟩ := List.exists_mem_of_ne_nil _ (ht.ne _ (hc.stored _ (List.getElem_mem hk)))
      have hxm := ht.sub _ x hx
      refine ⟨x, hxm, ?_⟩
      have h1 : cutIdx st l x < l.length := List.findIdx_lt_length_of_exists ⟨_, List.getElem_mem hk, by simpa using hx⟩
      have h2 : x ∈ membersOf st (l[cutIdx st l x]) := of_decide_eq_true (List.findIdx_getElem (w := h1))
      have := eq_of_flatMap (hc.flat_nodup h) (List.getElem_mem h1) (List.getElem_mem hk) h2 hx
      exact (List.Nodup.getElem_inj_iff (hc.nodup h ht)).1 this
  rw [this, Finset.card_range]

theorem CutInv.pure_card (h : Inv m) {R : Nat → Prop} {cur : List Nat} (ht : TreeInv m R cur st) {l : List Nat}
    (hc : CutInv m st l) (hp : ∀ c ∈ l, PureNode f st c) : classes f m.managed ≤ l.length := by
  rw [← hc.cutIdx_card h ht]
  apply image_card_le
  intro x hx y hy he
  rw [List.mem_toFinset] at hx hy
  obtain ⟨c, hcl, hxc, hyc⟩ := (hc.cutIdx_iff h hx hy).1 he
  exact hp c hcl x hxc y hyc

theorem CutInv.whole_card (h : Inv m) {R : Nat → Prop} {cur : List Nat} (ht : TreeInv m R cur st) {l : List Nat}
    (hc : CutInv m st l) (hw : ∀ c ∈ l, WholeNode m f st c) : l.length ≤ classes f m.managed := by
  rw [← hc.cutIdx_card h ht]
  apply image_card_le
  intro x hx y hy he
  rw [List.mem_toFinset] at hx hy
  obtain ⟨c, hcl, hxc⟩ := hc.exists hx
  exact (hc.cutIdx_iff h hx hy).2 ⟨c, hcl, hxc, hw c hcl x hxc y hy he⟩

/-- As many clusters as classes, all inside classes or all unions of classes: they are the classes. -/
theorem CutInv.classes_of_card (h : Inv m) {R : Nat → Prop} {cur : List Nat} (ht : TreeInv m R cur st) {l : List Nat}
    (hc : CutInv m st l) (hpw : (∀ c ∈ l, PureNode f st c) ∨ ∀ c ∈ l, WholeNode m f st c)
    (hl : l.length = classes f m.managed) {x y : α} (hx : x ∈ m.managed) (hy : y ∈ m.managed) :
    (∃ c ∈ l, x ∈ membersOf st c ∧ y ∈ membersOf st c) ↔ f x = f y := by
  rw [← hc.cutIdx_iff h hx hy]
  have hcard := hc.cutIdx_card h ht
  have hcl : (m.managed.toFinset.image f).card = l.length := hl.symm
  rcases hpw with hp | hw
  · have h1 : ∀ x ∈ m.managed.toFinset, ∀ y ∈ m.managed.toFinset, cutIdx st l x = cutIdx st l y → f x = f y := by
      intro x hx y hy he
      rw [List.mem_toFinset] at hx hy
      obtain ⟨c, hcl, hxc, hyc⟩ := (hc.cutIdx_iff h hx hy).1 he
      exact hp c hcl x hxc y hyc
    exact ⟨h1 x (by simpa) y (by simpa), eq_of_card_le h1 (by omega) x (by simpa) y (by simpa)⟩
  · have h1 : ∀ x ∈ m.managed.toFinset, ∀ y ∈ m.managed.toFinset, f x = f y → cutIdx st l x = cutIdx st l y := by
      intro x hx y hy he
      rw [List.mem_toFinset] at hx hy
      obtain ⟨c, hcl, hxc⟩ := hc.exists hx
      exact (hc.cutIdx_iff h hx hy).2 ⟨c, hcl, hxc, hw c hcl x hxc y hy he⟩
    exact ⟨eq_of_card_le h1 (by omega) x (by simpa) y (by simpa), h1 x (by simpa) y (by simpa)⟩

/-- The clusters of a state, as a cut. -/
theorem Built.rootWidth_le (h : Inv m) (hb : Built env link m vectors root st) (hf : Satisfies m f)
    (hs : MergesPure m f st) : rootWidth st root ≤ max 2 (classes f m.managed) := by
  obtain ⟨n, hn⟩ := hb.tree.keys.exists (hb.tree.cur root (by simp))
  have hw : rootWidth st root = n.children.length := by unfold rootWidth; rw [hn]
  rw [hw]
  by_cases hne : n.children = []
  · rw [hne]; simp
  have hc : CutInv m st n.children := by
    have := (hb.cutInv_root.split h hb.tree (List.mem_singleton_self root) hn hne).1
    simpa using this
  by_cases hp : PureNode f st root
  · rcases hb.kind root n hn hne with ⟨a, b, e, -⟩ | ⟨-, h1, h2⟩
    · rw [e]; simp
    · have : n.children.length ≤ 1 := by
        by_contra hlt
        have h3 := List.pairwise_iff_getElem.1 h2 0 1 (by omega) (by omega) (by omega)
        obtain ⟨x, hx, y, hy, hxy⟩ := h3
        refine satisfies_sep hf hxy (hp x ?_ y ?_)
        · exact (hb.mem_inner hn hne).2 ⟨_, List.getElem_mem _, hx⟩
        · exact (hb.mem_inner hn hne).2 ⟨_, List.getElem_mem _, hy⟩
      omega
  · have := hc.whole_card h hb.tree (hb.children_whole h hf hs hn hp).2
    omega

/-- The cut by iteration into as many clusters as there are classes. -/
theorem Explored.classes_iteration (h : Inv m) (hb : Built env link m vectors root st) (hf : Satisfies m f)
    (hs : MergesPure m f st) (h2 : 2 ≤ classes f m.managed) {l : List Nat}
    (hE : Explored .iteration st (classes f m.managed : Nat) [root] l) {x y : α} (hx : x ∈ m.managed) (hy : y ∈ m.managed) :
    (∃ c ∈ l, x ∈ membersOf st c ∧ y ∈ membersOf st c) ↔ f x = f y := by
  have hlen := hE.count_iteration h hb (by omega) (by exact_mod_cast classes_le h hf)
  have hw := hb.rootWidth_le h hf hs
  obtain ⟨i, h3, h4, h5⟩ := hE.alive h hb
  refine (hE.cutInv h hb.tree hb.cutInv_root).classes_of_card h hb.tree ?_ (by omega) hx hy
  rcases hb.state_separated h hf hs h3 h4 with hp | hp
  · exact .inl fun c hc => hp c ((h5 c).1 hc)
  · exact .inr fun c hc => hp c ((h5 c).1 hc)

/-- The cut by size into as many clusters as there are classes, any two classes together being larger than any class. -/
theorem Explored.classes_size (h : Inv m) (hb : Built env link m vectors root st) (hf : Satisfies m f)
    (hs : MergesPure m f st)
    (hsize : ∀ x ∈ m.managed, ∀ y ∈ m.managed, ∀ z ∈ m.managed, f x ≠ f y →
      classSize m.managed f (f z) < classSize m.managed f (f x) + classSize m.managed f (f y)) {l : List Nat}
    (hE : Explored .size st (classes f m.managed : Nat) [root] l) {x y : α} (hx : x ∈ m.managed) (hy : y ∈ m.managed) :
    (∃ c ∈ l, x ∈ membersOf st c ∧ y ∈ membersOf st c) ↔ f x = f y := by
  have ht := hb.tree
  -- the sizes of clusters
  have hsz : ∀ c, WholeNode m f st c → ∀ x ∈ membersOf st c, ∀ y ∈ membersOf st c, f x ≠ f y →
      classSize m.managed f (f x) + classSize m.managed f (f y) ≤ (membersOf st c).length := by
    intro c hw x hx y hy hxy
    unfold classSize
    rw [← List.length_append]
    refine ((List.Nodup.subperm ?_ ?_)).length_le
    · rw [List.nodup_append]
      refine ⟨h.d.nodup.filter _, h.d.nodup.filter _, ?_⟩
      rintro z hz t ht' rfl
      simp only [List.mem_filter, decide_eq_true_eq] at hz ht'
      exact hxy (hz.2.symm.trans ht'.2)
    · intro z hz
      rcases List.mem_append.1 hz with hz | hz <;> simp only [List.mem_filter, decide_eq_true_eq] at hz
      · exact hw x hx z hz.1 hz.2.symm
      · exact hw y hy z hz.1 hz.2.symm
  have hsp : ∀ c, PureNode f st c → ∀ x ∈ membersOf st c, (membersOf st c).length ≤ classSize m.managed f (f x) := by
    intro c hp x hx
    refine ((List.Nodup.subperm (ht.nodup c) ?_)).length_le
    intro z hz
    simp only [List.mem_filter, decide_eq_true_eq]
    exact ⟨ht.sub c z hz, hp z hz x hx⟩
  -- with too few clusters, the largest one meets two classes
  have hbig : ∀ l c, CutInv m st l → (∀ d ∈ l, WholeNode m f st d) → l.length < classes f m.managed → c ∈ l →
      (∀ d ∈ l, keyOf .size st d ≤ keyOf .size st c) → ¬ PureNode f st c := by
    intro l c hc hw hlt hcl hmax hp
    have : ∃ d ∈ l, ¬ PureNode f st d := by
      by_contra hno
      push Not at hno
      have := hc.pure_card h ht hno
      omega
    obtain ⟨d, hd, hnp⟩ := this
    unfold PureNode at hnp
    push Not at hnp
    obtain ⟨x, hx, y, hy, hxy⟩ := hnp
    obtain ⟨z, hz⟩ := List.exists_mem_of_ne_nil _ (ht.ne c (hc.stored c hcl))
    have h1 := hsz d (hw d hd) x hx y hy hxy
    have h2 := hsp c hp z hz
    have h3 := hsize x (ht.sub _ _ hx) y (ht.sub _ _ hy) z (ht.sub _ _ hz) hxy
    have h4 := hmax d hd
    obtain ⟨nd, hnd⟩ := ht.keys.exists (hc.stored d hd)
    obtain ⟨nc, hnc⟩ := ht.keys.exists (hc.stored c hcl)
    rw [keyOf_eq hnd, keyOf_eq hnc] at h4
    simp only [CutBy.key] at h4
    rw [membersOf_eq hnd] at h1
    rw [membersOf_eq hnc] at h2
    omega
  have hinv : CutInv m st l ∧ ∀ c ∈ l, WholeNode m f st c := by
    refine hE.induct (P := fun l => CutInv m st l ∧ ∀ c ∈ l, WholeNode m f st c) ⟨hb.cutInv_root, ?_⟩ ?_
    · intro c hc x hx y hy _
      obtain ⟨d, hd, hyd⟩ := hb.cutInv_root.exists hy
      rw [List.mem_singleton] at hc hd
      rw [hc, ← hd]; exact hyd
    · rintro l c n ⟨hc, hw⟩ hlt hcl hmax hn hne
      refine ⟨(hc.split h ht hcl hn hne).1, fun d hd => ?_⟩
      rcases List.mem_append.1 hd with hd | hd
      · exact hw d (List.mem_of_mem_erase hd)
      · exact (hb.children_whole h hf hs hn (hbig l c hc hw (by exact_mod_cast hlt) hcl hmax)).2 d hd
  have hle := hinv.1.whole_card h ht hinv.2
  have hge : classes f m.managed ≤ l.length := by
    rcases hE.final with hf' | ⟨hlt, c, hcl, hmax, n, hn, h0⟩
    · exact_mod_cast hf'
    · exact absurd h0 (hb.children_whole h hf hs hn (hbig l c hinv.1 hinv.2 (by exact_mod_cast hlt) hcl hmax)).1
  exact hinv.1.classes_of_card h ht (.inr hinv.2) (by omega) hx hy

end

/-! ### Linkages that separate classes -/

theorem separates_single_complete {env : HierEnv V δ} {link : Linkage} (hl : link = .single ∨ link = .complete)
    {vectors : Dict α V} {ids : List α} {f : α → Nat} (hd : DistancesSeparate env vectors ids f) :
    LinkageSeparates env link vectors ids f := by
  intro xs ys zs ts h1 h2 p q r hqr hxy hz ht d d' k1 k2
  have key : (∃ x ∈ xs, ∃ y ∈ ys, ∃ v w, dget? vectors x = some v ∧ dget? vectors y = some w ∧ d = env.metric v w) →
      (∃ x ∈ zs, ∃ y ∈ ts, ∃ v w, dget? vectors x = some v ∧ dget? vectors y = some w ∧ d' = env.metric v w) → d < d' := by
    rintro ⟨x, hx, y, hy, v, w, e1, e2, rfl⟩ ⟨z, hz', t, ht', v', w', e3, e4, rfl⟩
    refine hd x (h1.sub x (by simp [hx])) y (h1.sub y (by simp [hy])) z (h2.sub z (by simp [hz'])) t (h2.sub t (by simp [ht']))
      ?_ ?_ ?_ v w v' w' e1 e2 e3 e4
    · rintro rfl
      exact (List.nodup_append.1 h1.nodup).2.2 x hx x hy rfl
    · rw [hxy x (by simp [hx]), hxy y (by simp [hy])]
    · rw [hz z hz', ht t ht']; exact hqr
  rcases hl with rfl | rfl
  · exact key k1.1 k2.1
  · exact key k1.1 k2.1

section Real
variable {E : Type} [NormedAddCommGroup E] [NormedSpace ℝ E]

theorem norm_sum_sub_le {l : List E} {u : E} {w : ℝ} (h : ∀ v ∈ l, dist v u ≤ w) :
    ‖l.sum - (l.length : ℝ) • u‖ ≤ l.length * w := by
  induction l with
  | nil => simp
  | cons v l ih =>
    have h1 := h v (by simp)
    have h2 := ih fun v hv => h v (by simp [hv])
    rw [dist_eq_norm] at h1
    have e : (v :: l).sum - ((v :: l).length : ℝ) • u = (v - u) + (l.sum - (l.length : ℝ) • u) := by
      rw [List.sum_cons, List.length_cons]
      push_cast
      rw [add_smul, one_smul]
      abel
    rw [e]
    refine (norm_add_le _ _).trans ?_
    rw [List.length_cons]
    push_cast
    linarith

theorem dist_realMean_le {l : List E} (hl : l ≠ []) {u : E} {w : ℝ} (h : ∀ v ∈ l, dist v u ≤ w) :
    dist (realMean l) u ≤ w := by
  have hn : (0 : ℝ) < l.length := by exact_mod_cast List.length_pos_iff.2 hl
  have e : realMean l - u = (l.length : ℝ)⁻¹ • (l.sum - (l.length : ℝ) • u) := by
    unfold realMean
    rw [smul_sub, smul_smul, inv_mul_cancel₀ hn.ne', one_smul]
  rw [dist_eq_norm, e, norm_smul, norm_inv, Real.norm_of_nonneg hn.le, inv_mul_le_iff₀ hn]
  exact norm_sum_sub_le h

theorem separates_average {vectors : Dict α E} {ids : List α} {f : α → Nat} {w b : ℝ} (hg : ClassGap vectors ids f w b)
    (hwb : 3 * w < b) : LinkageSeparates realHier .average vectors ids f := by
  intro xs ys zs ts h1 h2 p q r hqr hxy hz ht d d' k1 k2
  obtain ⟨us, vs, hu, hv, rfl⟩ := k1
  obtain ⟨us', vs', hu', hv', rfl⟩ := k2
  have hne : ∀ {l : List α} {l' : List E}, List.Forall₂ (fun x v => dget? vectors x = some v) l l' → l ≠ [] → l' ≠ [] := by
    rintro l l' h hl rfl
    cases h; exact hl rfl
  have w0 : 0 ≤ w := by
    obtain ⟨x, hx⟩ := List.exists_mem_of_ne_nil _ h1.left
    obtain ⟨v, hv1⟩ := List.exists_mem_of_ne_nil _ (hne hv h1.right)
    obtain ⟨y, hy, e⟩ := forall₂_mem_right hv hv1
    obtain ⟨u, hu1⟩ := List.exists_mem_of_ne_nil _ (hne hu h1.left)
    obtain ⟨x, hx, e'⟩ := forall₂_mem_right hu hu1
    exact dist_nonneg.trans ((hg x (h1.sub x (by simp [hx])) y (h1.sub y (by simp [hy])) (by
      rintro rfl
      exact (List.nodup_append.1 h1.nodup).2.2 x hx x hy rfl) u v e' e).1
        (by rw [hxy x (by simp [hx]), hxy y (by simp [hy])]))
  have hin : ∀ x ∈ ids, ∀ y ∈ ids, f x = f y → ∀ u v, dget? vectors x = some u → dget? vectors y = some v → dist u v ≤ w := by
    intro x hx y hy he u v e1 e2
    by_cases hxy : x = y
    · subst hxy
      rw [e1] at e2
      cases e2
      rw [dist_self]; exact w0
    · exact (hg x hx y hy hxy u v e1 e2).1 he
  have hup : dist (realMean us) (realMean vs) ≤ w := by
    refine dist_realMean_le (hne hu h1.left) fun u hu1 => ?_
    rw [dist_comm]
    refine dist_realMean_le (hne hv h1.right) fun v hv1 => ?_
    obtain ⟨x, hx, e⟩ := forall₂_mem_right hu hu1
    obtain ⟨y, hy, e'⟩ := forall₂_mem_right hv hv1
    rw [dist_comm]
    exact hin x (h1.sub x (by simp [hx])) y (h1.sub y (by simp [hy])) (by rw [hxy x (by simp [hx]), hxy y (by simp [hy])]) u v e e'
  obtain ⟨u, hu1⟩ := List.exists_mem_of_ne_nil _ (hne hu' h2.left)
  obtain ⟨v, hv1⟩ := List.exists_mem_of_ne_nil _ (hne hv' h2.right)
  obtain ⟨z, hz1, ez⟩ := forall₂_mem_right hu' hu1
  obtain ⟨t, ht1, et⟩ := forall₂_mem_right hv' hv1
  have m1 : dist (realMean us') u ≤ w := by
    refine dist_realMean_le (hne hu' h2.left) fun u2 hu2 => ?_
    obtain ⟨x, hx, e⟩ := forall₂_mem_right hu' hu2
    exact hin x (h2.sub x (by simp [hx])) z (h2.sub z (by simp [hz1])) (by rw [hz x hx, hz z hz1]) u2 u e ez
  have m2 : dist (realMean vs') v ≤ w := by
    refine dist_realMean_le (hne hv' h2.right) fun u2 hu2 => ?_
    obtain ⟨x, hx, e⟩ := forall₂_mem_right hv' hu2
    exact hin x (h2.sub x (by simp [hx])) t (h2.sub t (by simp [ht1])) (by rw [ht x hx, ht t ht1]) u2 v e et
  have m3 : b ≤ dist u v := by
    refine (hg z (h2.sub z (by simp [hz1])) t (h2.sub t (by simp [ht1])) ?_ u v ez et).2 (by rw [hz z hz1, ht t ht1]; exact hqr)
    rintro rfl
    exact (List.nodup_append.1 h2.nodup).2.2 z hz1 z ht1 rfl
  have m4 : dist u v ≤ dist (realMean us') u + dist (realMean us') (realMean vs') + dist (realMean vs') v := by
    have := dist_triangle4 u (realMean us') (realMean vs') v
    rwa [dist_comm u (realMean us')] at this
  show dist (realMean us) (realMean vs) < dist (realMean us') (realMean vs')
  linarith

/-! ### Ward -/

theorem laterPairs_ne {l : List α} (hl : l.Nodup) {q : α × α} (hq : q ∈ laterPairs l) : q.1 ≠ q.2 := by
  induction l with
  | nil => cases hq
  | cons x l ih =>
    rw [List.nodup_cons] at hl
    rcases List.mem_append.1 hq with hq | hq
    · obtain ⟨y, hy, rfl⟩ := List.mem_map.1 hq
      intro (e : x = y)
      exact hl.1 (e ▸ hy)
    · exact ih hl.2 hq

theorem laterPairs_length2 (l : List α) : 2 * (laterPairs l).length + l.length = l.length * l.length := by
  induction l with
  | nil => rfl
  | cons x l ih =>
    simp only [laterPairs, List.length_append, List.length_map, List.length_cons]
    nlinarith

theorem sum_le_length_mul {l : List ℝ} {w : ℝ} (h : ∀ e ∈ l, e ≤ w) : l.sum ≤ l.length * w := by
  induction l with
  | nil => simp
  | cons e l ih =>
    have h1 := h e (by simp)
    have h2 := ih fun e he => h e (by simp [he])
    rw [List.sum_cons, List.length_cons]
    push_cast
    linarith

theorem length_mul_le_sum {l : List ℝ} {w : ℝ} (h : ∀ e ∈ l, w ≤ e) : l.length * w ≤ l.sum := by
  induction l with
  | nil => simp
  | cons e l ih =>
    have h1 := h e (by simp)
    have h2 := ih fun e he => h e (by simp [he])
    rw [List.sum_cons, List.length_cons]
    push_cast
    linarith

/-- The pairs between two groups are among all the pairs. -/
theorem cross_le_laterPairs {g : α × α → ℝ} {b : ℝ} {zs ts : List α} (h0 : ∀ q, 0 ≤ g q)
    (hb : ∀ z ∈ zs, ∀ t ∈ ts, b ≤ g (z, t)) : (zs.length * ts.length : ℝ) * b ≤ ((laterPairs (zs ++ ts)).map g).sum := by
  induction zs with
  | nil =>
    simp only [List.length_nil, Nat.cast_zero, zero_mul, List.nil_append]
    exact List.sum_nonneg fun e he => by
      obtain ⟨q, -, rfl⟩ := List.mem_map.1 he
      exact h0 q
  | cons z zs ih =>
    have h1 := ih fun z hz => hb z (by simp [hz])
    have h2 : (ts.length : ℝ) * b ≤ ((ts.map fun y => (z, y)).map g).sum := by
      have := length_mul_le_sum (l := (ts.map fun y => (z, y)).map g) (w := b) (by
        intro e he
        obtain ⟨q, hq, rfl⟩ := List.mem_map.1 he
        obtain ⟨t, ht, rfl⟩ := List.mem_map.1 hq
        exact hb z (by simp) t ht)
      simpa using this
    have h3 : 0 ≤ ((zs.map fun y => (z, y)).map g).sum := List.sum_nonneg fun e he => by
      obtain ⟨q, -, rfl⟩ := List.mem_map.1 he
      exact h0 q
    simp only [List.cons_append, laterPairs, List.map_append, List.sum_append, List.length_cons]
    push_cast
    linarith

theorem separates_ward {vectors : Dict α E} {ids : List α} {f : α → Nat} {w b : ℝ} (hg : ClassGap vectors ids f w b)
    (hwb : ∀ x ∈ ids, classSize ids f (f x) * w < 2 * b) :
    LinkageSeparates realHier .ward vectors ids f := by
  intro xs ys zs ts h1 h2 p q r hqr hxy hz ht d d' k1 k2
  obtain ⟨ds, hds, rfl⟩ := k1
  obtain ⟨ds', hds', rfl⟩ := k2
  let g : α × α → ℝ := fun q => match dget? vectors q.1, dget? vectors q.2 with
    | some u, some v => dist u v
    | _, _ => 0
  have hmap : ∀ {l : List (α × α)} {ds : List ℝ}, List.Forall₂ (fun (p : α × α) e => ∃ v w, dget? vectors p.1 = some v ∧
      dget? vectors p.2 = some w ∧ e = (realHier (E := E)).metric v w) l ds → ds = l.map g := by
    intro l ds h
    induction h with
    | nil => rfl
    | cons h1 _ ih =>
      obtain ⟨v, w, e1, e2, rfl⟩ := h1
      rw [List.map_cons, ← ih]
      simp only [g, e1, e2]
      rfl
  have g0 : ∀ q, 0 ≤ g q := by
    intro q
    simp only [g]
    split
    · exact dist_nonneg
    · exact le_refl _
  -- inside one class
  obtain ⟨x0, hx0⟩ := List.exists_mem_of_ne_nil _ h1.left
  have hup : ∀ e ∈ ds, e ≤ w := by
    intro e he
    obtain ⟨c, hc, u, v, e1, e2, rfl⟩ := forall₂_mem_right hds he
    have hm := laterPairs_mem hc
    exact (hg _ (h1.sub _ hm.1) _ (h1.sub _ hm.2) (laterPairs_ne h1.nodup hc) u v e1 e2).1 (by rw [hxy _ hm.1, hxy _ hm.2])
  have hsum := sum_le_length_mul hup
  have hlen : ds.length = (laterPairs (xs ++ ys)).length := hds.length_eq.symm
  have hlen2 := laterPairs_length2 (xs ++ ys)
  have hsize : xs.length + ys.length ≤ classSize ids f (f x0) := by
    unfold classSize
    rw [← List.length_append]
    refine (List.Nodup.subperm h1.nodup ?_).length_le
    intro z hz
    simp only [List.mem_filter, decide_eq_true_eq]
    exact ⟨h1.sub z hz, by rw [hxy z hz, hxy x0 (by simp [hx0])]⟩
  have hx1 : (1 : ℝ) ≤ xs.length := by exact_mod_cast List.length_pos_iff.2 h1.left
  have hy1 : (1 : ℝ) ≤ ys.length := by exact_mod_cast List.length_pos_iff.2 h1.right
  have hz1 : (1 : ℝ) ≤ zs.length := by exact_mod_cast List.length_pos_iff.2 h2.left
  have ht1 : (1 : ℝ) ≤ ts.length := by exact_mod_cast List.length_pos_iff.2 h2.right
  have w0 : 0 ≤ w := by
    obtain ⟨e, he⟩ : ∃ e, e ∈ ds := by
      refine List.exists_mem_of_ne_nil _ fun h0 => ?_
      rw [h0, List.length_nil] at hlen
      rw [← hlen, List.length_append] at hlen2
      have a1 := List.length_pos_iff.2 h1.left
      have a2 := List.length_pos_iff.2 h1.right
      nlinarith
    refine le_trans ?_ (hup e he)
    rw [hmap hds] at he
    obtain ⟨c, -, rfl⟩ := List.mem_map.1 he
    exact g0 c
  have hs := hwb x0 (h1.sub x0 (by simp [hx0]))
  have hlenR : 2 * (ds.length : ℝ) + (xs.length + ys.length) = (xs.length + ys.length) * (xs.length + ys.length) := by
    rw [hlen]
    rw [List.length_append] at hlen2
    exact_mod_cast hlen2
  have hsizeR : (xs.length + ys.length : ℝ) ≤ classSize ids f (f x0) := by exact_mod_cast hsize
  have hd : ds.sum / (xs.length * ys.length) < b := by
    rw [div_lt_iff₀ (by positivity)]
    have c1 : (xs.length + ys.length : ℝ) * w < 2 * b := lt_of_le_of_lt (mul_le_mul_of_nonneg_right hsizeR w0) hs
    have c2 : (xs.length + ys.length - 1 : ℝ) ≤ xs.length * ys.length := by nlinarith
    have c3 : 2 * (ds.length : ℝ) * w = (xs.length + ys.length - 1) * ((xs.length + ys.length) * w) := by
      have : 2 * (ds.length : ℝ) = (xs.length + ys.length - 1) * (xs.length + ys.length) := by linarith
      rw [this]; ring
    have c4 : 2 * ds.sum ≤ (xs.length + ys.length - 1) * ((xs.length + ys.length) * w) := by linarith
    have c5 : (xs.length + ys.length - 1 : ℝ) * ((xs.length + ys.length) * w) < (xs.length + ys.length - 1) * (2 * b) :=
      mul_lt_mul_of_pos_left c1 (by linarith)
    have b0 : 0 ≤ b := by
      have : 0 ≤ (xs.length + ys.length : ℝ) * w := by positivity
      linarith
    have c6 : (xs.length + ys.length - 1 : ℝ) * (2 * b) ≤ (xs.length * ys.length) * (2 * b) :=
      mul_le_mul_of_nonneg_right c2 (by linarith)
    linarith
  -- between two classes
  have hlow : b ≤ ds'.sum / (zs.length * ts.length) := by
    rw [le_div_iff₀ (by positivity), mul_comm, hmap hds']
    refine cross_le_laterPairs g0 fun z hz' t ht' => ?_
    have hzt : z ≠ t := by
      rintro rfl
      exact (List.nodup_append.1 h2.nodup).2.2 z hz' z ht' rfl
    have hmem : ∀ z ∈ zs, ∀ t ∈ ts, (z, t) ∈ laterPairs (zs ++ ts) := by
      intro z hz t ht
      clear * - hz ht
      induction zs with
      | nil => cases hz
      | cons a zs ih =>
        rw [List.cons_append]
        refine List.mem_append.2 ?_
        rcases List.mem_cons.1 hz with rfl | hz
        · exact .inl (List.mem_map.2 ⟨t, by simp [ht], rfl⟩)
        · exact .inr (ih hz)
    obtain ⟨e, -, u, v, e1, e2, -⟩ := forall₂_mem_left hds' (hmem z hz' t ht')
    have := (hg z (h2.sub z (by simp [hz'])) t (h2.sub t (by simp [ht'])) hzt u v e1 e2).2 (by rw [hz z hz', ht t ht']; exact hqr)
    simp only [g, e1, e2]
    exact this
  exact lt_of_lt_of_le hd hlow

end Real

end Verif
