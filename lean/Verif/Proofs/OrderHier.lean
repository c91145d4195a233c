import Verif.Spec.Order
import Verif.Proofs.HierExport
import Verif.Proofs.InferredHier
import Verif.Proofs.GeometryHier

/-
Lemmas for C93: the hierarchical clustering for two orders of the IDs.
-/

set_option linter.unusedSectionVars false

namespace Verif

variable {α V δ : Type} [LinearOrder α] [LinearOrder δ]

/-! ### Lists that differ by the order of neighbouring leaves -/

/-- What matters of a stored cluster: its members, and its ID unless it is a leaf. -/
abbrev Desc (α : Type) := Finset α × Option Nat

inductive LeafPerm : List (Desc α) → List (Desc α) → Prop
  | nil : LeafPerm [] []
  | cons {l l'} (d : Desc α) : LeafPerm l l' → LeafPerm (d :: l) (d :: l')
  | swap {S T : Finset α} {l} : LeafPerm ((S, none) :: (T, none) :: l) ((T, none) :: (S, none) :: l)
  | trans {l l' l''} : LeafPerm l l' → LeafPerm l' l'' → LeafPerm l l''

theorem LeafPerm.refl (l : List (Desc α)) : LeafPerm l l := by
  induction l with
  | nil => exact .nil
  | cons d l ih => exact .cons d ih

theorem LeafPerm.perm {l l' : List (Desc α)} (h : LeafPerm l l') : l.Perm l' := by
  induction h with
  | nil => exact .nil
  | cons d _ ih => exact .cons d ih
  | swap => exact .swap _ _ _
  | trans _ _ ih1 ih2 => exact ih1.trans ih2

theorem LeafPerm.append_left {l l' : List (Desc α)} (h : LeafPerm l l') (t : List (Desc α)) : LeafPerm (l ++ t) (l' ++ t) := by
  induction h with
  | nil => exact .refl _
  | cons d _ ih => exact .cons d ih
  | swap => exact .swap
  | trans _ _ ih1 ih2 => exact ih1.trans ih2

theorem LeafPerm.append_right (t : List (Desc α)) {l l' : List (Desc α)} (h : LeafPerm l l') : LeafPerm (t ++ l) (t ++ l') := by
  induction t with
  | nil => exact h
  | cons d t ih => exact .cons d ih

theorem LeafPerm.append {l l' t t' : List (Desc α)} (h : LeafPerm l l') (h' : LeafPerm t t') : LeafPerm (l ++ t) (l' ++ t') :=
  (h.append_left t).trans (h'.append_right l')

theorem LeafPerm.filter (p : Desc α → Bool) {l l' : List (Desc α)} (h : LeafPerm l l') : LeafPerm (l.filter p) (l'.filter p) := by
  induction h with
  | nil => exact .nil
  | cons d _ ih =>
    simp only [List.filter_cons]
    split
    · exact .cons d ih
    · exact ih
  | @swap S T l =>
    simp only [List.filter_cons]
    cases p (S, none) <;> cases p (T, none)
    · exact .refl _
    · exact .refl _
    · exact .refl _
    · exact .swap
  | trans _ _ ih1 ih2 => exact ih1.trans ih2

theorem LeafPerm.of_perm {l l' : List (Desc α)} (h : l.Perm l') (hl : ∀ d ∈ l, d.2 = none) : LeafPerm l l' := by
  induction h with
  | nil => exact .nil
  | cons d _ ih => exact .cons d (ih fun e he => hl e (List.mem_cons_of_mem _ he))
  | swap d e l =>
    obtain ⟨S, a⟩ := d
    obtain ⟨T, b⟩ := e
    have h1 : a = none := hl (S, a) (by simp)
    have h2 : b = none := hl (T, b) (by simp)
    subst h1; subst h2
    exact .swap
  | trans h1 _ ih1 ih2 => exact (ih1 hl).trans (ih2 fun d hd => hl d (h1.mem_iff.2 hd))

/-! ### The first largest element -/

def betterOf (key : Desc α → Nat) (best : Option (Nat × Option Nat)) (d : Desc α) : Option (Nat × Option Nat) :=
  match best with
  | none => some (key d, d.2)
  | some p => if p.1 < key d then some (key d, d.2) else some p

theorem betterOf_swap (key : Desc α → Nat) (best : Option (Nat × Option Nat)) (S T : Finset α) :
    betterOf key (betterOf key best (S, none)) (T, none) = betterOf key (betterOf key best (T, none)) (S, none) := by
  cases best with
  | none =>
    simp only [betterOf]
    split_ifs with h1 h2
    · omega
    · rfl
    · rfl
    · have : key (S, none) = key (T, none) := by omega
      rw [this]
  | some p =>
    simp only [betterOf]
    by_cases h1 : p.1 < key (S, none) <;> by_cases h2 : p.1 < key (T, none)
    · simp only [if_pos h1, if_pos h2]
      split_ifs with h3 h4
      · omega
      · rfl
      · rfl
      · have : key (S, none) = key (T, none) := by omega
        rw [this]
    · simp only [if_pos h1, if_neg h2]
      rw [if_neg (by omega)]
    · simp only [if_neg h1, if_pos h2]
      rw [if_neg (by omega)]
    · simp only [if_neg h1, if_neg h2]

theorem LeafPerm.better (key : Desc α → Nat) {l l' : List (Desc α)} (h : LeafPerm l l') (best : Option (Nat × Option Nat)) :
    l.foldl (betterOf key) best = l'.foldl (betterOf key) best := by
  induction h generalizing best with
  | nil => rfl
  | cons d _ ih => exact ih _
  | swap => rw [List.foldl_cons, List.foldl_cons, List.foldl_cons, List.foldl_cons, betterOf_swap]
  | trans _ _ ih1 ih2 => rw [ih1, ih2]

theorem pyMaxBy_better (key : Desc α → Nat) (l : List (Desc α)) :
    (pyMaxBy key l).map (fun d => (key d, d.2)) = l.foldl (betterOf key) none := by
  cases l with
  | nil => rfl
  | cons a l =>
    show some _ = l.foldl (betterOf key) (some (key a, a.2))
    induction l generalizing a with
    | nil => rfl
    | cons b l ih =>
      rw [List.foldl_cons, List.foldl_cons]
      by_cases h : key a < key b
      · rw [if_pos h, ih b]
        congr 1
        simp only [betterOf, if_pos h]
      · rw [if_neg h, ih a]
        congr 1
        simp only [betterOf, if_neg h]

theorem pyMaxBy_map {ι ι' κ κ' : Type} [LinearOrder κ] [LinearOrder κ'] {key : ι → κ} {key' : ι' → κ'} {F : ι → ι'} {l : List ι}
    (h : ∀ a ∈ l, ∀ b ∈ l, key' (F a) < key' (F b) ↔ key a < key b) : pyMaxBy key' (l.map F) = (pyMaxBy key l).map F := by
  cases l with
  | nil => rfl
  | cons a l =>
    show some _ = some _
    congr 1
    induction l generalizing a with
    | nil => rfl
    | cons b l ih =>
      rw [List.map_cons, List.foldl_cons, List.foldl_cons]
      have hab := h a (by simp) b (by simp)
      by_cases hk : key a < key b
      · rw [if_pos hk, if_pos (hab.2 hk)]
        exact ih b fun x hx y hy => h x (List.mem_cons_of_mem _ hx) y (List.mem_cons_of_mem _ hy)
      · rw [if_neg hk, if_neg (fun h' => hk (hab.1 h'))]
        refine ih a fun x hx y hy => h x ?_ y ?_
        · rcases List.mem_cons.1 hx with rfl | hx <;> simp [*]
        · rcases List.mem_cons.1 hy with rfl | hy <;> simp [*]

/-! ### Distances -/

section
variable {env : HierEnv V δ} {link : Linkage} {vs : Dict α V}

theorem LinkageIs.unique {xs ys : List α} {d d' : δ} (h : LinkageIs env link vs xs ys d) (h' : LinkageIs env link vs xs ys d') : d = d' := by
  cases link with
  | complete =>
    obtain ⟨⟨x, hx, y, hy, v, w, e1, e2, e3⟩, h2⟩ := h
    obtain ⟨⟨x', hx', y', hy', v', w', e1', e2', e3'⟩, h2'⟩ := h'
    refine le_antisymm ?_ ?_
    · rw [e3]; exact h2' x hx y hy v w e1 e2
    · rw [e3']; exact h2 x' hx' y' hy' v' w' e1' e2'
  | single =>
    obtain ⟨⟨x, hx, y, hy, v, w, e1, e2, e3⟩, h2⟩ := h
    obtain ⟨⟨x', hx', y', hy', v', w', e1', e2', e3'⟩, h2'⟩ := h'
    refine le_antisymm ?_ ?_
    · rw [e3']; exact h2 x' hx' y' hy' v' w' e1' e2'
    · rw [e3]; exact h2' x hx y hy v w e1 e2
  | average =>
    obtain ⟨a, b, h1, h2, rfl⟩ := h
    obtain ⟨a', b', h1', h2', rfl⟩ := h'
    have key : ∀ {zs : List α} {c c' : List V}, List.Forall₂ (fun x v => dget? vs x = some v) zs c →
        List.Forall₂ (fun x v => dget? vs x = some v) zs c' → c = c' := by
      intro zs c c' hc
      induction hc generalizing c' with
      | nil => intro h; cases h; rfl
      | cons h1 _ ih =>
        intro h
        cases h with
        | cons h2 h3 => rw [h1] at h2; cases h2; rw [ih h3]
    rw [key h1 h1', key h2 h2']
  | ward =>
    obtain ⟨a, h1, rfl⟩ := h
    obtain ⟨a', h1', rfl⟩ := h'
    have key : ∀ {zs : List (α × α)} {c c' : List δ},
        List.Forall₂ (fun (p : α × α) e => ∃ v w, dget? vs p.1 = some v ∧ dget? vs p.2 = some w ∧ e = env.metric v w) zs c →
        List.Forall₂ (fun (p : α × α) e => ∃ v w, dget? vs p.1 = some v ∧ dget? vs p.2 = some w ∧ e = env.metric v w) zs c' → c = c' := by
      intro zs c c' hc
      induction hc generalizing c' with
      | nil => intro h; cases h; rfl
      | cons h1 _ ih =>
        intro h
        cases h with
        | cons h2 h3 =>
          obtain ⟨v, w, e1, e2, rfl⟩ := h1
          obtain ⟨v', w', e1', e2', rfl⟩ := h2
          rw [e1] at e1'; rw [e2] at e2'
          cases e1'; cases e2'
          rw [ih h3]
    rw [key h1 h1']

theorem forall₂_perm {ι ρ : Type} {R : ι → ρ → Prop} {l l' : List ι} {r : List ρ} (hp : l.Perm l') (h : List.Forall₂ R l r) :
    ∃ r', r.Perm r' ∧ List.Forall₂ R l' r' := by
  induction hp generalizing r with
  | nil => exact ⟨r, .refl _, h⟩
  | cons x _ ih =>
    cases h with
    | cons h1 h2 =>
      obtain ⟨r', h3, h4⟩ := ih h2
      exact ⟨_, .cons _ h3, .cons h1 h4⟩
  | swap x y l =>
    cases h with
    | cons h1 h2 =>
      cases h2 with
      | cons h3 h4 => exact ⟨_, .swap _ _ _, .cons h3 (.cons h1 h4)⟩
  | trans _ _ ih1 ih2 =>
    obtain ⟨r1, h1, h2⟩ := ih1 h
    obtain ⟨r2, h3, h4⟩ := ih2 h2
    exact ⟨r2, h1.trans h3, h4⟩

theorem forall₂_append_split {ι ρ : Type} {R : ι → ρ → Prop} {l l' : List ι} {r : List ρ} (h : List.Forall₂ R (l ++ l') r) :
    ∃ r1 r2, List.Forall₂ R l r1 ∧ List.Forall₂ R l' r2 ∧ r = r1 ++ r2 := by
  induction l generalizing r with
  | nil => exact ⟨[], r, .nil, h, rfl⟩
  | cons a l ih =>
    cases h with
    | cons h1 h2 =>
      obtain ⟨r1, r2, h3, h4, rfl⟩ := ih h2
      exact ⟨_ :: r1, r2, .cons h1 h3, h4, rfl⟩

/-- Pairs of the same elements, in another order, up to swapping the two of a pair. -/
theorem laterPairs_forall₂ {R : α × α → δ → Prop} (hR : ∀ x y d, R (x, y) d → R (y, x) d) {l l' : List α} (hp : l.Perm l') {r : List δ}
    (h : List.Forall₂ R (laterPairs l) r) : ∃ r', r.Perm r' ∧ List.Forall₂ R (laterPairs l') r' := by
  induction hp generalizing r with
  | nil => exact ⟨r, .refl _, h⟩
  | cons x hp ih =>
    simp only [laterPairs] at h ⊢
    obtain ⟨r1, r2, h1, h2, rfl⟩ := forall₂_append_split h
    obtain ⟨r1', g1, g2⟩ := forall₂_perm (hp.map fun y => (x, y)) h1
    obtain ⟨r2', g3, g4⟩ := ih h2
    exact ⟨r1' ++ r2', g1.append g3, List.rel_append g2 g4⟩
  | swap x y l =>
    simp only [laterPairs, List.map_cons, List.cons_append] at h ⊢
    cases h with
    | @cons _ d _ r h1 h2 =>
      obtain ⟨r1, r2, h3, h4, rfl⟩ := forall₂_append_split h2
      obtain ⟨r3, r4, h5, h6, rfl⟩ := forall₂_append_split h4
      refine ⟨d :: (r3 ++ (r1 ++ r4)), .cons d ?_, .cons (hR _ _ _ h1) (List.rel_append h5 (List.rel_append h3 h6))⟩
      rw [← List.append_assoc, ← List.append_assoc]
      exact List.perm_append_comm.append_right _
  | trans _ _ ih1 ih2 =>
    obtain ⟨r1, h1, h2⟩ := ih1 h
    obtain ⟨r2, h3, h4⟩ := ih2 h2
    exact ⟨r2, h1.trans h3, h4⟩

theorem LinkageIs.perm (hu : Unordered env link) {xs ys xs' ys' : List α} (hx : xs.Perm xs') (hy : ys.Perm ys') {d : δ}
    (h : LinkageIs env link vs xs ys d) : LinkageIs env link vs xs' ys' d := by
  cases link with
  | complete =>
    obtain ⟨⟨x, h1, y, h2, h3⟩, h4⟩ := h
    exact ⟨⟨x, hx.mem_iff.1 h1, y, hy.mem_iff.1 h2, h3⟩, fun a ha b hb => h4 a (hx.mem_iff.2 ha) b (hy.mem_iff.2 hb)⟩
  | single =>
    obtain ⟨⟨x, h1, y, h2, h3⟩, h4⟩ := h
    exact ⟨⟨x, hx.mem_iff.1 h1, y, hy.mem_iff.1 h2, h3⟩, fun a ha b hb => h4 a (hx.mem_iff.2 ha) b (hy.mem_iff.2 hb)⟩
  | average =>
    obtain ⟨a, b, h1, h2, rfl⟩ := h
    obtain ⟨a', g1, g2⟩ := forall₂_perm hx h1
    obtain ⟨b', g3, g4⟩ := forall₂_perm hy h2
    exact ⟨a', b', g2, g4, by rw [hu.mean rfl a a' g1, hu.mean rfl b b' g3]⟩
  | ward =>
    obtain ⟨ds, h1, rfl⟩ := h
    obtain ⟨ds', g1, g2⟩ := laterPairs_forall₂ (by
      rintro x y d ⟨v, w, e1, e2, rfl⟩
      exact ⟨w, v, e2, e1, (hu.symm v w).symm⟩) (hx.append hy) h1
    exact ⟨ds', g2, by rw [hu.ward rfl ds ds' _ _ g1, hx.length_eq, hy.length_eq]⟩

theorem LinkageIs.symm (hu : Unordered env link) {xs ys : List α} {d : δ} (h : LinkageIs env link vs xs ys d) :
    LinkageIs env link vs ys xs d := by
  cases link with
  | complete =>
    obtain ⟨⟨x, h1, y, h2, v, w, e1, e2, e3⟩, h4⟩ := h
    refine ⟨⟨y, h2, x, h1, w, v, e2, e1, by rw [e3, hu.symm]⟩, fun a ha b hb v w e e' => ?_⟩
    rw [hu.symm w v]; exact h4 b hb a ha w v e' e
  | single =>
    obtain ⟨⟨x, h1, y, h2, v, w, e1, e2, e3⟩, h4⟩ := h
    refine ⟨⟨y, h2, x, h1, w, v, e2, e1, by rw [e3, hu.symm]⟩, fun a ha b hb v w e e' => ?_⟩
    rw [hu.symm w v]; exact h4 b hb a ha w v e' e
  | average =>
    obtain ⟨a, b, h1, h2, rfl⟩ := h
    exact ⟨b, a, h2, h1, hu.symm _ _⟩
  | ward =>
    obtain ⟨ds, h1, rfl⟩ := h
    obtain ⟨ds', g1, g2⟩ := laterPairs_forall₂ (by
      rintro x y d ⟨v, w, e1, e2, rfl⟩
      exact ⟨w, v, e2, e1, (hu.symm v w).symm⟩) (List.perm_append_comm (l₁ := xs) (l₂ := ys)) h1
    exact ⟨ds', g2, by rw [hu.ward rfl ds ds' _ _ g1, hu.swap rfl]⟩

end

/-! ### The two trees -/

def descOf (K : Nat) (st : Dict Nat (HCluster α V)) (c : Nat) : Desc α :=
  ((membersOf st c).toFinset, if c < K then none else some c)

theorem descOf_some {K : Nat} {st : Dict Nat (HCluster α V)} {c d : Nat} (hd : K ≤ d) : (descOf K st c).2 = some d ↔ c = d := by
  unfold descOf
  by_cases h : c < K
  · simp only [if_pos h]
    constructor
    · intro h'; cases h'
    · intro h'; omega
  · simp only [if_neg h, Option.some.injEq]

theorem desc_mem {K : Nat} {st st' : Dict Nat (HCluster α V)} {c d : Nat} (h : descOf K st c = descOf K st' d) (x : α) :
    x ∈ membersOf st c ↔ x ∈ membersOf st' d := by
  have h1 : (membersOf st c).toFinset = (membersOf st' d).toFinset := congrArg Prod.fst h
  have := Finset.ext_iff.1 h1 x
  simpa using this

section
variable {env : HierEnv V δ} {link : Linkage} {m m' : Manager α} {vs : Dict α V} {root root' : Nat} {st st' : Dict Nat (HCluster α V)}

theorem desc_perm (hb : Built env link m vs root st) (hb' : Built env link m' vs root' st') {K c d : Nat}
    (h : descOf K st c = descOf K st' d) : (membersOf st c).Perm (membersOf st' d) :=
  (List.perm_ext_iff_of_nodup (hb.tree.nodup c) (hb'.tree.nodup d)).2 (desc_mem h)

/-- Clusters that exist at the same time are known by their members. -/
theorem Built.desc_inj (hb : Built env link m vs root st) {i a b K : Nat} (hi : i ≤ st.length) (ha : Alive st i a) (hb' : Alive st i b)
    (h : descOf K st a = descOf K st b) : a = b := by
  obtain ⟨x, hx⟩ := List.exists_mem_of_ne_nil _ (hb.tree.ne a (by have := ha.1; omega))
  exact hb.alive_eq hi ha hb' hx ((desc_mem h x).1 hx)

theorem Built.child_alive (hb : Built env link m vs root st) {i : Nat} {n : HCluster α V} (hn : dget? st i = some n) {c : Nat}
    (hc : c ∈ n.children) : Alive st i c := by
  have hch : Child st i c := ⟨n, hn, hc⟩
  refine ⟨(hb.tree.child_lt hch).1, fun k hk hk' => ?_⟩
  have := hb.tree.single k i c hk' hch
  omega

theorem Built.alive_succ (hb : Built env link m vs root st) {i : Nat} {n : HCluster α V} (hn : dget? st i = some n) {j : Nat} :
    Alive st (i + 1) j ↔ j = i ∨ (Alive st i j ∧ j ∉ n.children) := by
  constructor
  · rintro ⟨h1, h2⟩
    by_cases hj : j = i
    · exact .inl hj
    · exact .inr ⟨⟨by omega, fun k hk => h2 k (by omega)⟩, fun hc => h2 i (by omega) ⟨n, hn, hc⟩⟩
  · rintro (rfl | ⟨⟨h1, h2⟩, h3⟩)
    · refine ⟨by omega, fun k hk hc => ?_⟩
      have := (hb.tree.child_lt hc).1
      omega
    · refine ⟨by omega, fun k hk hc => ?_⟩
      by_cases hki : k = i
      · subst hki
        obtain ⟨n', hn', hc'⟩ := hc
        rw [hn] at hn'; cases hn'
        exact h3 hc'
      · exact h2 k (by omega) hc

/-- The same clusters exist when the cluster `i` is created. -/
def SameAt (K : Nat) (st st' : Dict Nat (HCluster α V)) (i : Nat) : Prop :=
  ∀ D : Desc α, (∃ j, Alive st i j ∧ descOf K st j = D) ↔ ∃ j, Alive st' i j ∧ descOf K st' j = D

theorem SameAt.symm {K i : Nat} (h : SameAt K st st' i) : SameAt K st' st i := fun D => (h D).symm

theorem SameAt.right {K i j : Nat} (h : SameAt K st st' i) (hj : Alive st i j) : ∃ j', Alive st' i j' ∧ descOf K st' j' = descOf K st j :=
  (h _).1 ⟨j, hj, rfl⟩

theorem SameAt.left {K i j : Nat} (h : SameAt K st st' i) (hj : Alive st' i j) : ∃ j', Alive st i j' ∧ descOf K st j' = descOf K st' j :=
  (h _).2 ⟨j, hj, rfl⟩

/-- If there is one more cluster in one tree, then also in the other. -/
theorem SameAt.lt (hb : Built env link m vs root st) (hb' : Built env link m' vs root' st') {i : Nat} (hi : m.components.length ≤ i)
    (hs : SameAt m.components.length st st' i) (h1 : i < st.length) (h2 : i ≤ st'.length) : i < st'.length := by
  rcases Nat.lt_or_eq_of_le h2 with h | rfl
  · exact h
  · exfalso
    obtain ⟨n, hn⟩ := hb.tree.keys.exists h1
    have hne : n.children ≠ [] := by
      rcases hb.iters _ n hn with ⟨-, h3⟩ | ⟨h3, -⟩
      · omega
      · exact h3
    obtain ⟨g1, -, g3, -⟩ := hb.tree.inner _ n hn hne
    match hc : n.children with
    | [] => exact hne hc
    | [_] => rw [hc] at g1; simp at g1
    | a :: b :: l =>
      have ha := hb.child_alive hn (c := a) (by rw [hc]; simp)
      have hb2 := hb.child_alive hn (c := b) (by rw [hc]; simp)
      have hab : a ≠ b := by rw [hc] at g3; intro h; subst h; simp at g3
      obtain ⟨a', p1, p2⟩ := hs.right ha
      obtain ⟨b', q1, q2⟩ := hs.right hb2
      have e1 := List.mem_singleton.1 (hb'.tree.alive.1 p1)
      have e2 := List.mem_singleton.1 (hb'.tree.alive.1 q1)
      exact hab (hb.desc_inj (K := m.components.length) (le_of_lt h1) ha hb2 (by rw [← p2, ← q2, e1, e2]))

theorem opposed_desc (hcl : ∀ x y, CannotLinked m x y → CannotLinked m' x y) {K a b a' b' : Nat} (ha : descOf K st' a' = descOf K st a)
    (hb : descOf K st' b' = descOf K st b) (h : Opposed m (membersOf st a) (membersOf st b)) :
    Opposed m' (membersOf st' a') (membersOf st' b') := by
  obtain ⟨x, hx, y, hy, hc⟩ := h
  exact ⟨x, (desc_mem ha x).2 hx, y, (desc_mem hb y).2 hy, hcl x y hc⟩

theorem Opposed.symm' {m : Manager α} (hm : Inv m) {xs ys : List α} (h : Opposed m xs ys) : Opposed m ys xs := by
  obtain ⟨x, hx, y, hy, hc⟩ := h
  exact ⟨y, hy, x, hx, hc.symm hm⟩

theorem ClosestMerge.best (hm : Inv m) (hu : Unordered env link) {i : Nat} {n : HCluster α V}
    (h : ClosestMerge env link m vs st i n) : ∃ a b d, n.children = [a, b] ∧ a < b ∧ Alive st i a ∧ Alive st i b ∧
      ¬ Opposed m (membersOf st a) (membersOf st b) ∧ LinkageIs env link vs (membersOf st a) (membersOf st b) d ∧
      ∀ c e, Alive st i c → Alive st i e → c ≠ e → ¬ Opposed m (membersOf st c) (membersOf st e) →
        ∀ d', LinkageIs env link vs (membersOf st c) (membersOf st e) d' →
          d < d' ∨ (d = d' ∧ (membersOf st a).length + (membersOf st b).length ≤ (membersOf st c).length + (membersOf st e).length) := by
  obtain ⟨a, b, h1, h2, h3, h4, h5, d, h6, h7⟩ := h
  refine ⟨a, b, d, h1, h2, h3, h4, h5, h6, fun c e hc he hce ho d' hd' => ?_⟩
  rcases Nat.lt_or_gt_of_ne hce with hlt | hlt
  · obtain ⟨d'', g1, g2⟩ := h7 c e hc he hlt ho
    rw [hd'.unique g1]; exact g2
  · obtain ⟨d'', g1, g2⟩ := h7 e c he hc hlt (fun h => ho (h.symm' hm))
    rw [(hd'.symm hu).unique g1, Nat.add_comm (membersOf st c).length]; exact g2

theorem StrictMerges.strict (hm : Inv m) (hu : Unordered env link) (h : StrictMerges env link m vs st) {i a b : Nat} {n : HCluster α V}
    (hn : dget? st i = some n) (hc : n.children = [a, b]) {d : δ} (hd : LinkageIs env link vs (membersOf st a) (membersOf st b) d)
    {c e : Nat} (hca : Alive st i c) (hea : Alive st i e) (hce : c ≠ e) (ho : ¬ Opposed m (membersOf st c) (membersOf st e))
    (hd' : LinkageIs env link vs (membersOf st c) (membersOf st e) d)
    (hsz : (membersOf st c).length + (membersOf st e).length = (membersOf st a).length + (membersOf st b).length) :
    (c = a ∧ e = b) ∨ (c = b ∧ e = a) := by
  rcases Nat.lt_or_gt_of_ne hce with hlt | hlt
  · by_contra hne
    exact h i n a b hn hc c e hca hea hlt (fun h => hne (.inl (Prod.mk.inj h))) ho d d hd hd' ⟨rfl, hsz⟩
  · by_contra hne
    exact h i n a b hn hc e c hea hca hlt (fun h => hne (.inr ⟨(Prod.mk.inj h).2, (Prod.mk.inj h).1⟩)) (fun h => ho (h.symm' hm)) d d hd
      (hd'.symm hu) ⟨rfl, by omega⟩

theorem pairwise_or {ι : Type} {R : ι → ι → Prop} {l : List ι} (h : l.Pairwise R) {a b : ι} (ha : a ∈ l) (hb : b ∈ l) (hab : a ≠ b) :
    R a b ∨ R b a := by
  induction h with
  | nil => cases ha
  | cons h1 _ ih =>
    rcases List.mem_cons.1 ha with rfl | ha' <;> rcases List.mem_cons.1 hb with rfl | hb'
    · exact absurd rfl hab
    · exact .inl (h1 _ hb')
    · exact .inr (h1 _ ha')
    · exact ih ha' hb'

theorem ForcedMerge.opposed (hm : Inv m) {i : Nat} {n : HCluster α V} (h : ForcedMerge m st i n) {a b : Nat} (ha : Alive st i a)
    (hb : Alive st i b) (hab : a ≠ b) : Opposed m (membersOf st a) (membersOf st b) := by
  rcases pairwise_or h.2 ((h.1 a).2 ha) ((h.1 b).2 hb) hab with h | h
  · exact h
  · exact h.symm' hm

theorem closest_not_forced (hm : Inv m) (hm' : Inv m') (hb : Built env link m vs root st) (hu : Unordered env link)
    (hcl : ∀ x y, CannotLinked m' x y → CannotLinked m x y)
    {K i : Nat} (hs : SameAt K st st' i) {n n' : HCluster α V} (hn : dget? st i = some n) (h1 : ClosestMerge env link m vs st i n)
    (h2 : ForcedMerge m' st' i n') : False := by
  have hi : i ≤ st.length := le_of_lt (hb.tree.keys.lt hn)
  obtain ⟨a, b, d, e1, e2, e3, e4, e5, -⟩ := h1.best hm hu
  obtain ⟨f, f1, f2⟩ := hs.right e3
  obtain ⟨g, f3, f4⟩ := hs.right e4
  have hfg : f ≠ g := by
    rintro rfl
    have := hb.desc_inj (K := K) hi e3 e4 (by rw [← f2, ← f4])
    omega
  exact e5 (opposed_desc hcl f2.symm f4.symm (h2.opposed hm' f1 f3 hfg))

/-- The clusters merged into the cluster `i` are the same. -/
theorem SameAt.children (hm : Inv m) (hm' : Inv m') (hb : Built env link m vs root st) (hb' : Built env link m' vs root' st')
    (hu : Unordered env link) (hst : StrictMerges env link m vs st) (hcl : ∀ x y, CannotLinked m x y ↔ CannotLinked m' x y)
    {K i : Nat} (hs : SameAt K st st' i) {n n' : HCluster α V} (hn : dget? st i = some n) (hn' : dget? st' i = some n')
    (hne : n.children ≠ []) (hne' : n'.children ≠ []) (D : Desc α) :
    (∃ c ∈ n.children, descOf K st c = D) ↔ ∃ c ∈ n'.children, descOf K st' c = D := by
  have hi : i ≤ st.length := le_of_lt (hb.tree.keys.lt hn)
  have hi' : i ≤ st'.length := le_of_lt (hb'.tree.keys.lt hn')
  rcases hb.kind i n hn hne with h1 | ⟨-, h1, h2⟩ <;> rcases hb'.kind i n' hn' hne' with h1' | ⟨-, h1', h2'⟩
  · obtain ⟨a, b, d, e1, e2, e3, e4, e5, e6, e7⟩ := h1.best hm hu
    obtain ⟨a', b', d', e1', e2', e3', e4', e5', e6', e7'⟩ := h1'.best hm' hu
    obtain ⟨c, c1, c2⟩ := hs.left e3'
    obtain ⟨e, c3, c4⟩ := hs.left e4'
    obtain ⟨f, f1, f2⟩ := hs.right e3
    obtain ⟨g, f3, f4⟩ := hs.right e4
    have hce : c ≠ e := by
      rintro rfl
      have := hb'.desc_inj (K := K) hi' e3' e4' (by rw [← c2, ← c4])
      omega
    have hfg : f ≠ g := by
      rintro rfl
      have := hb.desc_inj (K := K) hi e3 e4 (by rw [← f2, ← f4])
      omega
    have pc := desc_perm hb hb' c2
    have pe := desc_perm hb hb' c4
    have pf := desc_perm hb hb' f2.symm
    have pg := desc_perm hb hb' f4.symm
    have hoc : ¬ Opposed m (membersOf st c) (membersOf st e) := fun h => e5' (opposed_desc (fun x y => (hcl x y).1) c2.symm c4.symm h)
    have hof : ¬ Opposed m' (membersOf st' f) (membersOf st' g) := fun h => e5 (opposed_desc (fun x y => (hcl x y).2) f2.symm f4.symm h)
    have g1 := e7 c e c1 c3 hce hoc d' (e6'.perm hu pc.symm pe.symm)
    have g2 := e7' f g f1 f3 hfg hof d (e6.perm hu pf pg)
    rw [pc.length_eq, pe.length_eq] at g1
    rw [← pf.length_eq, ← pg.length_eq] at g2
    have hd : d' = d := by
      rcases g1 with g1 | g1
      · rcases g2 with g2 | g2
        · exact absurd g1 (lt_asymm g2)
        · exact g2.1
      · exact g1.1.symm
    subst hd
    have hsz : (membersOf st c).length + (membersOf st e).length = (membersOf st a).length + (membersOf st b).length := by
      rw [pc.length_eq, pe.length_eq]
      rcases g1 with g1 | g1
      · exact absurd g1 (lt_irrefl _)
      · rcases g2 with g2 | g2
        · exact absurd g2 (lt_irrefl _)
        · omega
    rw [e1, e1']
    simp only [List.mem_cons, List.not_mem_nil, or_false, exists_eq_or_imp, exists_eq_left]
    rw [← c2, ← c4]
    rcases hst.strict hm hu hn e1 e6 c1 c3 hce hoc (e6'.perm hu pc.symm pe.symm) hsz with ⟨rfl, rfl⟩ | ⟨rfl, rfl⟩
    · rfl
    · exact or_comm
  · exact (closest_not_forced hm hm' hb hu (fun x y => (hcl x y).2) hs hn h1 ⟨h1', h2'⟩).elim
  · exact (closest_not_forced hm' hm hb' hu (fun x y => (hcl x y).1) hs.symm hn' h1' ⟨h1, h2⟩).elim
  · constructor
    · rintro ⟨c, hc, rfl⟩
      obtain ⟨j, hj, e⟩ := hs.right ((h1 c).1 hc)
      exact ⟨j, (h1' j).2 hj, e⟩
    · rintro ⟨c, hc, rfl⟩
      obtain ⟨j, hj, e⟩ := hs.left ((h1' c).1 hc)
      exact ⟨j, (h1 j).2 hj, e⟩

/-- Two increasing lists with the same descriptions differ by the order of the leaves, which come first. -/
theorem leafPerm_of_sorted {K : Nat} {l l' : List Nat} (hl : l.Pairwise (· < ·)) (hl' : l'.Pairwise (· < ·))
    (hinj : ∀ a ∈ l, ∀ b ∈ l, descOf K st a = descOf K st b → a = b) (hinj' : ∀ a ∈ l', ∀ b ∈ l', descOf K st' a = descOf K st' b → a = b)
    (h : ∀ D, (∃ c ∈ l, descOf K st c = D) ↔ ∃ c ∈ l', descOf K st' c = D) :
    LeafPerm (l.map (descOf K st)) (l'.map (descOf K st')) := by
  have split : ∀ {l : List Nat}, l.Pairwise (· < ·) → l = l.filter (fun c => decide (c < K)) ++ l.filter (fun c => decide (¬ c < K)) := by
    intro l hl
    induction hl with
    | nil => rfl
    | @cons a l h1 _ ih =>
      by_cases ha : a < K
      · simp only [List.filter_cons, ha, decide_true, if_true, not_true_eq_false, decide_false, Bool.false_eq_true, if_false, List.cons_append]
        rw [← ih]
      · have h0 : l.filter (fun c => decide (c < K)) = [] := by
          rw [List.filter_eq_nil_iff]
          intro c hc
          have := h1 c hc
          simp; omega
        have h2 : l.filter (fun c => decide (¬ c < K)) = l := by
          rw [List.filter_eq_self]
          intro c hc
          have := h1 c hc
          simp; omega
        rw [List.filter_cons_of_neg (by simpa using ha), List.filter_cons_of_pos (by simpa using ha), h0, h2]; rfl
  have hiff : ∀ D, D ∈ l.map (descOf K st) ↔ D ∈ l'.map (descOf K st') := fun D => by
    rw [List.mem_map, List.mem_map]; exact h D
  have hnone : ∀ (st : Dict Nat (HCluster α V)) c, (descOf K st c).2 = none ↔ c < K := by
    intro st c
    unfold descOf
    by_cases hc : c < K <;> simp [hc]
  -- the inner nodes
  have hinner : l.filter (fun c => decide (¬ c < K)) = l'.filter (fun c => decide (¬ c < K)) := by
    refine List.Perm.eq_of_pairwise' (r := (· < ·)) (hl.filter _) (hl'.filter _) ?_
    refine (List.perm_ext_iff_of_nodup ((hl.filter _).imp fun h => Nat.ne_of_lt h) ((hl'.filter _).imp fun h => Nat.ne_of_lt h)).2 fun c => ?_
    simp only [List.mem_filter, decide_eq_true_eq]
    refine and_congr_left fun hc => ?_
    have hc' : K ≤ c := by omega
    constructor
    · intro hcl
      obtain ⟨d, hd, e⟩ := (h _).1 ⟨c, hcl, rfl⟩
      have := (descOf_some (st := st') (c := d) hc').1 (by rw [e]; exact (descOf_some hc').2 rfl)
      exact this ▸ hd
    · intro hcl
      obtain ⟨d, hd, e⟩ := (h _).2 ⟨c, hcl, rfl⟩
      have := (descOf_some (st := st) (c := d) hc').1 (by rw [e]; exact (descOf_some hc').2 rfl)
      exact this ▸ hd
  have hinner' : (l.filter (fun c => decide (¬ c < K))).map (descOf K st) = (l'.filter (fun c => decide (¬ c < K))).map (descOf K st') := by
    rw [← hinner]
    refine List.map_congr_left fun c hc => ?_
    rw [List.mem_filter, decide_eq_true_eq] at hc
    have hc' : K ≤ c := by omega
    obtain ⟨d, hd, e⟩ := (h _).1 ⟨c, hc.1, rfl⟩
    have := (descOf_some (st := st') (c := d) hc').1 (by rw [e]; exact (descOf_some hc').2 rfl)
    rw [← e, this]
  have hleaf : ((l.filter (fun c => decide (c < K))).map (descOf K st)).Perm ((l'.filter (fun c => decide (c < K))).map (descOf K st')) := by
    refine (List.perm_ext_iff_of_nodup ?_ ?_).2 fun D => ?_
    · refine List.Nodup.map_on (fun a ha b hb => hinj a (List.mem_filter.1 ha).1 b (List.mem_filter.1 hb).1) ?_
      exact (hl.filter _).imp fun h => Nat.ne_of_lt h
    · refine List.Nodup.map_on (fun a ha b hb => hinj' a (List.mem_filter.1 ha).1 b (List.mem_filter.1 hb).1) ?_
      exact (hl'.filter _).imp fun h => Nat.ne_of_lt h
    · simp only [List.mem_map, List.mem_filter, decide_eq_true_eq]
      constructor
      · rintro ⟨c, ⟨hc, hK⟩, rfl⟩
        obtain ⟨d, hd, e⟩ := (h _).1 ⟨c, hc, rfl⟩
        exact ⟨d, ⟨hd, (hnone st' d).1 (by rw [e]; exact (hnone st c).2 hK)⟩, e⟩
      · rintro ⟨c, ⟨hc, hK⟩, rfl⟩
        obtain ⟨d, hd, e⟩ := (h _).2 ⟨c, hc, rfl⟩
        exact ⟨d, ⟨hd, (hnone st d).1 (by rw [e]; exact (hnone st' c).2 hK)⟩, e⟩
  rw [split hl, split hl', List.map_append, List.map_append, hinner']
  refine (LeafPerm.of_perm hleaf ?_).append_left _
  intro d hd
  obtain ⟨c, hc, rfl⟩ := List.mem_map.1 hd
  rw [List.mem_filter, decide_eq_true_eq] at hc
  exact (hnone st c).2 hc.2

/-- Two trees that differ by the numbers of the leaves and the order of the members. -/
structure SameShape (K : Nat) (st st' : Dict Nat (HCluster α V)) : Prop where
  length : st'.length = st.length
  desc : ∀ i, K ≤ i → i < st.length → descOf K st' i = descOf K st i
  children : ∀ i n n', K ≤ i → dget? st i = some n → dget? st' i = some n' →
    LeafPerm (n.children.map (descOf K st)) (n'.children.map (descOf K st'))

theorem sameAt_step (hm : Inv m) (hm' : Inv m') (hb : Built env link m vs root st) (hb' : Built env link m' vs root' st')
    (hu : Unordered env link) (hst : StrictMerges env link m vs st) (hcl : ∀ x y, CannotLinked m x y ↔ CannotLinked m' x y)
    (hK : m'.components.length = m.components.length) {i : Nat} (hKi : m.components.length ≤ i)
    (hs : SameAt m.components.length st st' i) (hi : i < st.length) (hi' : i < st'.length) :
    SameAt m.components.length st st' (i + 1) ∧ descOf m.components.length st' i = descOf m.components.length st i ∧
    ∀ n n', dget? st i = some n → dget? st' i = some n' →
      LeafPerm (n.children.map (descOf m.components.length st)) (n'.children.map (descOf m.components.length st')) := by
  obtain ⟨n, hn⟩ := hb.tree.keys.exists hi
  obtain ⟨n', hn'⟩ := hb'.tree.keys.exists hi'
  have hne : n.children ≠ [] := by
    rcases hb.iters _ n hn with ⟨-, h3⟩ | ⟨h3, -⟩
    · omega
    · exact h3
  have hne' : n'.children ≠ [] := by
    rcases hb'.iters _ n' hn' with ⟨-, h3⟩ | ⟨h3, -⟩
    · omega
    · exact h3
  have hch := hs.children hm hm' hb hb' hu hst hcl hn hn' hne hne'
  have hdesc : descOf m.components.length st' i = descOf m.components.length st i := by
    unfold descOf
    rw [membersOf_eq hn, membersOf_eq hn', (hb.tree.inner _ n hn hne).2.2.2.1, (hb'.tree.inner _ n' hn' hne').2.2.2.1]
    congr 1
    ext x
    simp only [List.mem_toFinset, List.mem_flatMap]
    constructor
    · rintro ⟨c, hc, hx⟩
      obtain ⟨d, hd, e⟩ := (hch _).2 ⟨c, hc, rfl⟩
      exact ⟨d, hd, (desc_mem e x).2 hx⟩
    · rintro ⟨c, hc, hx⟩
      obtain ⟨d, hd, e⟩ := (hch _).1 ⟨c, hc, rfl⟩
      exact ⟨d, hd, (desc_mem e x).2 hx⟩
  refine ⟨fun D => ?_, hdesc, ?_⟩
  · constructor
    · rintro ⟨j, hj, rfl⟩
      rcases (hb.alive_succ hn).1 hj with rfl | ⟨h1, h2⟩
      · exact ⟨j, (hb'.alive_succ hn').2 (.inl rfl), hdesc⟩
      · obtain ⟨j', h3, h4⟩ := hs.right h1
        refine ⟨j', (hb'.alive_succ hn').2 (.inr ⟨h3, fun hc => h2 ?_⟩), h4⟩
        obtain ⟨c, hc', e⟩ := (hch _).2 ⟨j', hc, rfl⟩
        have := hb.desc_inj (le_of_lt hi) h1 (hb.child_alive hn hc') (h4.symm.trans e.symm)
        exact this ▸ hc'
    · rintro ⟨j, hj, rfl⟩
      rcases (hb'.alive_succ hn').1 hj with rfl | ⟨h1, h2⟩
      · exact ⟨j, (hb.alive_succ hn).2 (.inl rfl), hdesc.symm⟩
      · obtain ⟨j', h3, h4⟩ := hs.left h1
        refine ⟨j', (hb.alive_succ hn).2 (.inr ⟨h3, fun hc => h2 ?_⟩), h4⟩
        obtain ⟨c, hc', e⟩ := (hch _).1 ⟨j', hc, rfl⟩
        have := hb'.desc_inj (le_of_lt hi') h1 (hb'.child_alive hn' hc') (h4.symm.trans e.symm)
        exact this ▸ hc'
  · intro n1 n1' e e'
    rw [hn] at e; rw [hn'] at e'
    cases e; cases e'
    exact leafPerm_of_sorted (hb.ordered i n hn) (hb'.ordered i n' hn')
      (fun a ha b hb2 => hb.desc_inj (le_of_lt hi) (hb.child_alive hn ha) (hb.child_alive hn hb2))
      (fun a ha b hb2 => hb'.desc_inj (le_of_lt hi') (hb'.child_alive hn' ha) (hb'.child_alive hn' hb2)) hch

theorem sameShape (hm : Inv m) (hm' : Inv m') (hb : Built env link m vs root st) (hb' : Built env link m' vs root' st')
    (hu : Unordered env link) (hst : StrictMerges env link m vs st) (hml : ∀ x y, MustLinked m x y ↔ MustLinked m' x y)
    (hcl : ∀ x y, CannotLinked m x y ↔ CannotLinked m' x y) (hids : ∀ x, x ∈ m'.managed ↔ x ∈ m.managed)
    (hK : m'.components.length = m.components.length) : SameShape m.components.length st st' := by
  have hbase : SameAt m.components.length st st' m.components.length := by
    have key : ∀ {m m' : Manager α} {root root' : Nat} {st st' : Dict Nat (HCluster α V)}, Inv m → Inv m' →
        Built env link m vs root st → Built env link m' vs root' st' → (∀ x, x ∈ m'.managed ↔ x ∈ m.managed) →
        (∀ x y, MustLinked m x y ↔ MustLinked m' x y) → m'.components.length = m.components.length →
        ∀ j, Alive st m.components.length j → ∃ j', Alive st' m.components.length j' ∧
          descOf m.components.length st' j' = descOf m.components.length st j := by
      intro m m' root root' st st' hm hm' hb hb' hids hml hK j hj
      obtain ⟨n, hn⟩ := hb.tree.keys.exists (i := j) (by have := hj.1; have := hb.size.1; omega)
      have h0 : n.children = [] := by
        rcases hb.iters _ n hn with ⟨h3, -⟩ | ⟨-, h3, -⟩
        · exact h3
        · have := hj.1; omega
      have hcomp := (hb.tree.leaf j n hn h0).1
      obtain ⟨x, hx⟩ := List.exists_mem_of_ne_nil _ (component_ne_nil hm hcomp)
      obtain ⟨hxm, hxc⟩ := mem_component_iff hm hcomp hx
      obtain ⟨c', hc', hxc'⟩ := exists_component hm' ((hids x).2 hxm)
      obtain ⟨j', n', h1, h2, h3⟩ := hb'.tree.leaves c' hc'
      have hj' : j' < m.components.length := by
        rcases hb'.iters _ n' h1 with ⟨-, h4⟩ | ⟨h4, -⟩
        · omega
        · exact absurd h2 h4
      refine ⟨j', ⟨hj', fun k hk hch => ?_⟩, ?_⟩
      · obtain ⟨nk, hnk, hc⟩ := hch
        rcases hb'.iters _ nk hnk with ⟨h4, -⟩ | ⟨-, h4, -⟩
        · rw [h4] at hc; cases hc
        · omega
      · unfold descOf
        rw [if_pos hj', if_pos hj.1, membersOf_eq h1, membersOf_eq hn, h3]
        congr 1
        ext y
        rw [List.mem_toFinset, List.mem_toFinset, hxc y, (mem_component_iff hm' hc' hxc').2 y]
        exact (hml x y).symm
    intro D
    constructor
    · rintro ⟨j, hj, rfl⟩
      exact key hm hm' hb hb' hids hml hK j hj
    · rintro ⟨j, hj, rfl⟩
      have := key hm' hm hb' hb (fun x => (hids x).symm) (fun x y => (hml x y).symm) hK.symm j (by rw [hK]; exact hj)
      rwa [hK] at this
  have hall : ∀ k, m.components.length + k ≤ st.length → m.components.length + k ≤ st'.length ∧
      SameAt m.components.length st st' (m.components.length + k) := by
    intro k
    induction k with
    | zero => exact fun _ => ⟨by have := hb'.size.1; omega, hbase⟩
    | succ k ih =>
      intro hk
      obtain ⟨h1, h2⟩ := ih (by omega)
      have h3 := SameAt.lt hb hb' (Nat.le_add_right _ _) h2 (by omega) h1
      exact ⟨h3, (sameAt_step hm hm' hb hb' hu hst hcl hK (Nat.le_add_right _ _) h2 (by omega) h3).1⟩
  have hlen : st'.length = st.length := by
    have h1 := hall (st.length - m.components.length) (by have := hb.size.1; omega)
    rw [show m.components.length + (st.length - m.components.length) = st.length by have := hb.size.1; omega] at h1
    by_contra hne
    have h2 := SameAt.lt hb' hb (i := st.length) (by rw [hK]; exact hb.size.1) (by rw [hK]; exact h1.2.symm) (by omega) (le_refl _)
    omega
  have hstep : ∀ i, m.components.length ≤ i → i < st.length → _ := fun i h1 h2 => sameAt_step hm hm' hb hb' hu hst hcl hK h1
    (by
      have := (hall (i - m.components.length) (by omega)).2
      rwa [show m.components.length + (i - m.components.length) = i by omega] at this) h2 (by omega)
  exact ⟨hlen, fun i h1 h2 => (hstep i h1 h2).2.1, fun i n n' h1 hn => (hstep i h1 (hb.tree.keys.lt hn)).2.2 n n' hn⟩

/-! ### The two cuts -/

def descKey (by_ : CutBy) (K : Nat) (d : Desc α) : Nat :=
  match by_ with
  | .size => d.1.card
  | .iteration => match d.2 with
    | none => 0
    | some i => i + 1 - K

theorem Built.key_desc (hb : Built env link m vs root st) (by_ : CutBy) {c : Nat} (hc : c < st.length) :
    keyOf by_ st c = descKey by_ m.components.length (descOf m.components.length st c) := by
  obtain ⟨n, hn⟩ := hb.tree.keys.exists hc
  rw [keyOf_eq hn]
  cases by_ with
  | size =>
    show n.members.length = (membersOf st c).toFinset.card
    rw [List.toFinset_card_of_nodup (hb.tree.nodup c), membersOf_eq hn]
  | iteration =>
    show n.iteration = _
    rcases hb.iters c n hn with ⟨h0, h1⟩ | ⟨-, h1, h2⟩
    · rw [(hb.tree.leaf c n hn h0).2.1]
      simp only [descKey, descOf, if_pos h1]
    · simp only [descKey, descOf, if_neg (Nat.not_lt.2 h1)]
      omega

theorem Built.choice_desc (hb : Built env link m vs root st) (by_ : CutBy) {l : List Nat} (hl : ∀ c ∈ l, c < st.length) (hne : l ≠ []) :
    ∃ c ∈ l, hChoice by_ st l = .ok c ∧ (l.map (descOf m.components.length st)).foldl (betterOf (descKey by_ m.components.length)) none =
      some (keyOf by_ st c, (descOf m.components.length st c).2) := by
  have hmap : (l.mapM fun c => do return (c, by_.key (← dget st c)) : Except PyErr (List (Nat × Nat))) =
      .ok (l.map fun c => (c, keyOf by_ st c)) := by
    rw [mapM_ok_iff, List.forall₂_map_right_iff, List.forall₂_same]
    intro c hc
    obtain ⟨n, hn⟩ := hb.tree.keys.exists (hl c hc)
    rw [dget_of_dget? hn, keyOf_eq hn]; rfl
  obtain ⟨c, hp⟩ := pyMaxBy_isSome (key := fun c => keyOf by_ st c) hne
  have hc := (pyMaxBy_spec hp).1
  have h1 : pyMaxBy (fun (p : Nat × Nat) => p.2) (l.map fun c => (c, keyOf by_ st c)) = some (c, keyOf by_ st c) := by
    rw [pyMaxBy_map (key := fun c => keyOf by_ st c) (key' := fun (p : Nat × Nat) => p.2) (F := fun c => (c, keyOf by_ st c))
      (fun _ _ _ _ => Iff.rfl), hp]; rfl
  have h2 : pyMaxBy (descKey by_ m.components.length) (l.map (descOf m.components.length st)) = some (descOf m.components.length st c) := by
    rw [pyMaxBy_map (key := fun c => keyOf by_ st c) (fun a ha b hb2 => by
      rw [hb.key_desc by_ (hl a ha), hb.key_desc by_ (hl b hb2)]), hp]; rfl
  refine ⟨c, hc, ?_, ?_⟩
  · unfold hChoice
    rw [hmap]
    simp only [bind, Except.bind, h1]; rfl
  · rw [← pyMaxBy_better, h2, hb.key_desc by_ (hl c hc)]; rfl

theorem erase_desc {K c : Nat} (hc : K ≤ c) {l : List Nat} (hl : l.Nodup) :
    (l.erase c).map (descOf K st) = (l.map (descOf K st)).filter fun d => decide (d.2 ≠ some c) := by
  rw [hl.erase_eq_filter, List.filter_map]
  congr 1
  refine List.filter_congr fun x _ => ?_
  have := descOf_some (st := st) (c := x) hc
  by_cases hx : x = c
  · simp [hx, (descOf_some (st := st) (c := c) hc).2 rfl]
  · have h2 : (descOf K st x).2 ≠ some c := fun h => hx (this.1 h)
    simp [hx, h2]

theorem explore_desc (hm : Inv m) (hm' : Inv m') (hb : Built env link m vs root st) (hb' : Built env link m' vs root' st')
    (hK : m'.components.length = m.components.length) (hsh : SameShape m.components.length st st') (by_ : CutBy) (nb : Int) (fuel : Nat) :
    ∀ {l l' : List Nat}, CutInv m st l → CutInv m' st' l' → l ≠ [] →
      LeafPerm (l.map (descOf m.components.length st)) (l'.map (descOf m.components.length st')) →
      ∀ {r r' : List Nat}, hExplore by_ st nb fuel l = .ok r → hExplore by_ st' nb fuel l' = .ok r' →
        LeafPerm (r.map (descOf m.components.length st)) (r'.map (descOf m.components.length st')) := by
  induction fuel with
  | zero =>
    intro l l' _ _ _ hp r r' h1 h2
    unfold hExplore at h1 h2
    split at h1
    · cases h1
    · split at h2
      · cases h2
      · cases h1; cases h2; exact hp
  | succ fuel ih =>
    intro l l' hc hc' hne hp r r' h1 h2
    have hlen : l'.length = l.length := by simpa using hp.perm.length_eq.symm
    have hne' : l' ≠ [] := by
      rintro rfl
      exact hne (List.eq_nil_of_length_eq_zero hlen.symm)
    unfold hExplore at h1 h2
    rw [hlen] at h2
    by_cases hn : (l.length : Int) < nb
    · rw [if_pos hn] at h1 h2
      obtain ⟨c, hcl, e1, e2⟩ := hb.choice_desc by_ hc.stored hne
      obtain ⟨c', hcl', e1', e2'⟩ := hb'.choice_desc by_ hc'.stored hne'
      rw [hK, ← hp.better, e2] at e2'
      have hcc : (descOf m.components.length st c).2 = (descOf m.components.length st' c').2 := (Prod.mk.inj (Option.some.inj e2')).2
      obtain ⟨n, hn1⟩ := hb.tree.keys.exists (hc.stored c hcl)
      obtain ⟨n', hn1'⟩ := hb'.tree.keys.exists (hc'.stored c' hcl')
      simp only [e1, bind, Except.bind, dget_of_dget? hn1] at h1
      simp only [e1', bind, Except.bind, dget_of_dget? hn1'] at h2
      rcases hb.iters c n hn1 with ⟨g0, g1⟩ | ⟨g0, g1, -⟩
      · -- a leaf
        have g2 : c' < m.components.length := by
          by_contra hge
          have : (descOf m.components.length st c).2 = none := by unfold descOf; rw [if_pos g1]
          rw [this] at hcc
          unfold descOf at hcc
          rw [if_neg hge] at hcc
          cases hcc
        have g3 : n'.children = [] := by
          rcases hb'.iters c' n' hn1' with ⟨g3, -⟩ | ⟨-, g3, -⟩
          · exact g3
          · omega
        rw [if_pos g0] at h1
        rw [if_pos g3] at h2
        cases h1; cases h2
        exact hp
      · have g2 : c' = c := (descOf_some (st := st') g1).1 (by rw [← hcc]; exact (descOf_some g1).2 rfl)
        subst g2
        have g3 : n'.children ≠ [] := by
          rcases hb'.iters c' n' hn1' with ⟨-, g3⟩ | ⟨g3, -⟩
          · omega
          · exact g3
        rw [if_neg g0] at h1
        rw [if_neg g3] at h2
        refine ih (hc.split hm hb.tree hcl hn1 g0).1 (hc'.split hm' hb'.tree hcl' hn1' g3).1 ?_ ?_ h1 h2
        · intro h0
          exact g0 (List.append_eq_nil_iff.1 h0).2
        · rw [List.map_append, List.map_append]
          refine LeafPerm.append ?_ (hsh.children c' n n' g1 hn1 hn1')
          rw [erase_desc g1 (hc.nodup hm hb.tree), erase_desc g1 (hc'.nodup hm' hb'.tree)]
          exact hp.filter _
    · rw [if_neg hn] at h1 h2
      cases h1; cases h2
      exact hp

theorem labels_unique {ids ids' : List α} (hids : ids.Perm ids') (hnd : ids.Nodup) {r r' : Dict α Int}
    (h1 : dkeys r = ids.insertionSort (· ≤ ·)) (h1' : dkeys r' = ids'.insertionSort (· ≤ ·))
    (h2 : FirstAppearanceOrder (dvals r)) (h2' : FirstAppearanceOrder (dvals r'))
    (h3 : ∀ x ∈ ids, ∀ y ∈ ids, (dget? r x = dget? r y ↔ dget? r' x = dget? r' y)) : r = r' := by
  have hkeys : dkeys r = dkeys r' := by
    rw [h1, h1']
    exact List.Perm.eq_of_pairwise' ((List.pairwise_insertionSort _ _)) ((List.pairwise_insertionSort _ _))
      (((List.perm_insertionSort _ _).trans hids).trans (List.perm_insertionSort _ _).symm)
  have hrn : (dkeys r).Nodup := by rw [h1]; exact (List.perm_insertionSort _ _).nodup_iff.2 hnd
  have hmem : ∀ x, x ∈ dkeys r ↔ x ∈ ids := fun x => by rw [h1]; exact List.mem_insertionSort _
  have hvals : ∀ d : Dict α Int, (dkeys d).Nodup → dvals d = (dkeys d).map (lab d) := by
    intro d hd
    unfold dvals dkeys
    rw [List.map_map]
    apply List.map_congr_left
    intro p hp
    show p.2 = lab d p.1
    rw [lab, dget?_of_mem hd hp]; rfl
  rw [hvals r hrn] at h2
  rw [hvals r' (hkeys ▸ hrn), ← hkeys] at h2'
  have huniq := firstAppearance_unique h2 h2' (by
    intro x hx y hy
    have e1 := h3 x ((hmem x).1 hx) y ((hmem y).1 hy)
    rw [dget?_lab hx, dget?_lab hy, dget?_lab (hkeys ▸ hx), dget?_lab (hkeys ▸ hy)] at e1
    simpa using e1)
  apply dict_ext hrn hkeys
  intro x
  by_cases hx : x ∈ dkeys r
  · rw [dget?_lab hx, dget?_lab (hkeys ▸ hx), huniq x hx]
  · rw [dget?_eq_none_iff.2 hx, dget?_eq_none_iff.2 (hkeys ▸ hx)]

theorem cut_desc (hm : Inv m) (hm' : Inv m') (hb : Built env link m vs root st) (hb' : Built env link m' vs root' st')
    (hK : m'.components.length = m.components.length) (hids : ∀ x, x ∈ m'.managed ↔ x ∈ m.managed)
    (hsh : SameShape m.components.length st st') (by_ : CutBy) (nb : Int) :
    hCut m'.managed st' root' nb by_ = hCut m.managed st root nb by_ := by
  obtain ⟨l, r, e1, -, e2, hR⟩ := hCut_ok hm hb nb by_
  obtain ⟨l', r', e1', -, e2', hR'⟩ := hCut_ok hm' hb' nb by_
  rw [e2, e2']
  have hroot : root' = root := by have := hb.last; have := hb'.last; have := hsh.length; omega
  subst hroot
  have hdr : descOf m.components.length st' root' = descOf m.components.length st root' := by
    by_cases h : m.components.length ≤ root'
    · exact hsh.desc root' h (by have := hb.last; omega)
    · -- only one component
      unfold descOf
      rw [if_pos (by omega)]
      congr 1
      ext x
      have h1 := hb.tree.cover
      have h2 := hb'.tree.cover
      simp only [List.flatMap_cons, List.flatMap_nil, List.append_nil] at h1 h2
      rw [List.mem_toFinset, List.mem_toFinset, h1.mem_iff, h2.mem_iff, hids]
  have hp := explore_desc hm hm' hb hb' hK hsh by_ nb nb.toNat hb.cutInv_root hb'.cutInv_root (by simp) (by
    simp only [List.map_cons, List.map_nil, hdr]; exact .refl _) e1 e1'
  congr 1
  have hperm : m'.managed.Perm m.managed := (List.perm_ext_iff_of_nodup hm'.d.nodup hm.d.nodup).2 hids
  refine labels_unique hperm hm'.d.nodup hR'.keys hR.keys hR'.order hR.order fun x hx y hy => ?_
  rw [hR'.same x hx y hy, hR.same x ((hids x).1 hx) y ((hids y).1 hy)]
  constructor
  · rintro ⟨c, hc, h1, h2⟩
    obtain ⟨d, hd, e⟩ := List.mem_map.1 (hp.perm.mem_iff.2 (List.mem_map.2 ⟨c, hc, rfl⟩))
    exact ⟨d, hd, (desc_mem e x).2 h1, (desc_mem e y).2 h2⟩
  · rintro ⟨c, hc, h1, h2⟩
    obtain ⟨d, hd, e⟩ := List.mem_map.1 (hp.perm.mem_iff.1 (List.mem_map.2 ⟨c, hc, rfl⟩))
    exact ⟨d, hd, (desc_mem e x).2 h1, (desc_mem e y).2 h2⟩

end

end Verif
