import Mathlib.Data.List.Dedup
import Verif.Spec.MPC
import Verif.Proofs.Matrix
import Verif.Proofs.DBScan

/-
MPC-KMeans: the preprocessing of the constraints.
-/

namespace Verif

/-- A fold whose steps keep an invariant. -/
theorem foldlM_keep {ι σ : Type} {f : σ → ι → Except PyErr σ} {P : σ → Prop} {l : List ι}
    (hf : ∀ a ∈ l, ∀ s, P s → ∃ s', f s a = .ok s' ∧ P s') {s : σ} (hs : P s) : ∃ s', l.foldlM f s = .ok s' ∧ P s' := by
  induction l generalizing s with
  | nil => exact ⟨s, rfl, hs⟩
  | cons a l ih =>
    obtain ⟨s1, e1, h1⟩ := hf a (by simp) s hs
    obtain ⟨s2, e2, h2⟩ := ih (fun b hb => hf b (by simp [hb])) h1
    exact ⟨s2, by rw [List.foldlM_cons, e1]; exact e2, h2⟩

/-! ### Graphs -/

theorem GraphOf.get {n : Nat} {g : Graph} {R : Nat → Nat → Prop} (h : GraphOf n g R) {i : Nat} (hi : i < n) :
    ∃ s, dget g i = .ok s ∧ dget? g i = some s ∧ s.Nodup ∧ ∀ j, j ∈ s ↔ R i j := by
  obtain ⟨s, hs⟩ := dget?_isSome_of_mem (d := g) (k := i) (by rw [h.1]; exact List.mem_range.2 hi)
  exact ⟨s, dget_of_dget? hs, hs, h.2 i s hs⟩

theorem GraphOf.congr {n : Nat} {g : Graph} {R R' : Nat → Nat → Prop} (h : GraphOf n g R)
    (hR : ∀ i < n, ∀ j, R i j ↔ R' i j) : GraphOf n g R' := by
  refine ⟨h.1, fun i s hs => ⟨(h.2 i s hs).1, fun j => ?_⟩⟩
  have hi : i < n := by
    have := mem_dkeys_of_dget? hs
    rw [h.1] at this
    exact List.mem_range.1 this
  rw [(h.2 i s hs).2 j, hR i hi j]

theorem gAdd_ok {n : Nat} {g : Graph} {R : Nat → Nat → Prop} (h : GraphOf n g R) {i : Nat} (hi : i < n) (j : Nat) :
    ∃ g', gAdd g i j = .ok g' ∧ GraphOf n g' fun a b => R a b ∨ (a = i ∧ b = j) := by
  obtain ⟨s, e, e', hn, hs⟩ := h.get hi
  refine ⟨dset g i (oinsert s j), ?_, ?_, fun a t ht => ?_⟩
  · unfold gAdd
    rw [e]; rfl
  · rw [dkeys_dset_of_mem _ (mem_dkeys_of_dget? e'), h.1]
  · rw [dget?_dset] at ht
    split at ht
    · rename_i hia
      subst hia
      cases ht
      refine ⟨nodup_oinsert hn, fun b => ?_⟩
      rw [mem_oinsert, hs]
      simp
    · rename_i hia
      obtain ⟨h1, h2⟩ := h.2 a t ht
      refine ⟨h1, fun b => ?_⟩
      rw [h2 b]
      have : a ≠ i := fun c => hia c.symm
      simp [this]

theorem gAdd_same {n : Nat} {g : Graph} {R : Nat → Nat → Prop} (h : GraphOf n g R) {i j : Nat} (hi : i < n) (hR : R i j) :
    ∃ g', gAdd g i j = .ok g' ∧ GraphOf n g' R := by
  obtain ⟨g', e, h'⟩ := gAdd_ok h hi j
  refine ⟨g', e, h'.congr fun a _ b => ?_⟩
  constructor
  · rintro (c | ⟨rfl, rfl⟩)
    · exact c
    · exact hR
  · exact Or.inl

theorem gAddBoth_ok {n : Nat} {g : Graph} {R : Nat → Nat → Prop} (h : GraphOf n g R) {i j : Nat} (hi : i < n) (hj : j < n) :
    ∃ g', gAddBoth g i j = .ok g' ∧ GraphOf n g' fun a b => R a b ∨ (a = i ∧ b = j) ∨ (a = j ∧ b = i) := by
  obtain ⟨g1, e1, h1⟩ := gAdd_ok h hi j
  obtain ⟨g2, e2, h2⟩ := gAdd_ok h1 hj i
  refine ⟨g2, ?_, h2.congr fun a _ b => or_assoc⟩
  unfold gAddBoth
  rw [e1]; exact e2

theorem gAddBoth_same {n : Nat} {g : Graph} {R : Nat → Nat → Prop} (h : GraphOf n g R) {i j : Nat} (hi : i < n) (hj : j < n)
    (hR : R i j) (hR' : R j i) : ∃ g', gAddBoth g i j = .ok g' ∧ GraphOf n g' R := by
  obtain ⟨g1, e1, h1⟩ := gAdd_same h hi hR
  obtain ⟨g2, e2, h2⟩ := gAdd_same h1 hj hR'
  refine ⟨g2, ?_, h2⟩
  unfold gAddBoth
  rw [e1]; exact e2

theorem gEmpty_ok (n : Nat) : GraphOf n (gEmpty n) fun _ _ => False := by
  unfold gEmpty
  refine ⟨?_, fun i s hs => ?_⟩
  · rw [dkeys_dofList_map, ounion_nil_of_nodup List.nodup_range]
  · rw [dget?_dofList_map] at hs
    split at hs
    · cases hs; simp
    · cases hs

theorem gOfPairs_ok {n : Nat} {pairs : List (Nat × Nat)} (hp : ∀ p ∈ pairs, p.1 < n ∧ p.2 < n)
    (hsym : ∀ i j, (i, j) ∈ pairs → (j, i) ∈ pairs) :
    ∃ g, gOfPairs n pairs = .ok g ∧ GraphOf n g fun i j => (i, j) ∈ pairs := by
  have gen : ∀ (l : List (Nat × Nat)) (g : Graph) (R : Nat → Nat → Prop), (∀ p ∈ l, p.1 < n ∧ p.2 < n) → GraphOf n g R →
      ∃ g', l.foldlM (fun g p => gAddBoth g p.1 p.2) g = .ok g' ∧
        GraphOf n g' fun i j => R i j ∨ (i, j) ∈ l ∨ (j, i) ∈ l := by
    intro l
    induction l with
    | nil => exact fun g R _ hg => ⟨g, rfl, hg.congr fun i _ j => by simp⟩
    | cons p l ih =>
      intro g R hl hg
      obtain ⟨g1, e1, h1⟩ := gAddBoth_ok hg (hl p (by simp)).1 (hl p (by simp)).2
      obtain ⟨g2, e2, h2⟩ := ih g1 _ (fun q hq => hl q (by simp [hq])) h1
      refine ⟨g2, by rw [List.foldlM_cons, e1]; exact e2, h2.congr fun i _ j => ?_⟩
      obtain ⟨p1, p2⟩ := p
      simp only [List.mem_cons, Prod.mk.injEq]
      tauto
  obtain ⟨g, e, hg⟩ := gen pairs _ _ hp (gEmpty_ok n)
  refine ⟨g, e, hg.congr fun i _ j => ?_⟩
  have h1 := hsym i j
  have h2 := hsym j i
  tauto

/-! ### Depth-first search -/

/-- An equivalence relation on the positions `0, …, n - 1`. -/
structure EquivOn (n : Nat) (R : Nat → Nat → Prop) : Prop where
  refl : ∀ i < n, R i i
  symm : ∀ i j, R i j → R j i
  trans : ∀ i j k, R i j → R j k → R i k
  lt : ∀ i j, R i j → i < n ∧ j < n

open Classical in
/-- The positions of the class of `i` that are not visited yet. -/
noncomputable def unvisited (n : Nat) (R : Nat → Nat → Prop) (v : List Bool) (i : Nat) : List Nat :=
  (List.range n).filter fun j => decide (R i j ∧ v[j]? = some false)

theorem mem_unvisited {n : Nat} {R : Nat → Nat → Prop} (hR : EquivOn n R) {v : List Bool} {i j : Nat} :
    j ∈ unvisited n R v i ↔ R i j ∧ v[j]? = some false := by
  classical
  unfold unvisited
  rw [List.mem_filter, List.mem_range, decide_eq_true_eq]
  exact ⟨fun h => h.2, fun h => ⟨(hR.lt i j h.1).2, h⟩⟩

theorem nodup_unvisited (n : Nat) (R : Nat → Nat → Prop) (v : List Bool) (i : Nat) : (unvisited n R v i).Nodup := by
  unfold unvisited
  exact List.nodup_range.filter _

theorem unvisited_congr {n : Nat} {R : Nat → Nat → Prop} (hR : EquivOn n R) (v : List Bool) {i j : Nat} (h : R i j) :
    unvisited n R v i = unvisited n R v j := by
  classical
  unfold unvisited
  apply List.filter_congr
  intro k _
  have : R i k ↔ R j k := ⟨fun c => hR.trans _ _ _ (hR.symm _ _ h) c, fun c => hR.trans _ _ _ h c⟩
  rw [this]

theorem unvisited_set {n : Nat} {R : Nat → Nat → Prop} (hR : EquivOn n R) {v : List Bool} {i : Nat} (hi : i < n)
    (hv : v[i]? = some false) : (i :: unvisited n R (v.set i true) i).Perm (unvisited n R v i) := by
  rw [List.perm_ext_iff_of_nodup]
  · intro j
    rw [List.mem_cons, mem_unvisited hR, mem_unvisited hR, List.getElem?_set]
    constructor
    · rintro (rfl | ⟨h1, h2⟩)
      · exact ⟨hR.refl j hi, hv⟩
      · split at h2
        · split at h2
          · cases h2
          · cases h2
        · exact ⟨h1, h2⟩
    · rintro ⟨h1, h2⟩
      by_cases hij : i = j
      · exact .inl hij.symm
      · exact .inr ⟨h1, by rw [if_neg hij]; exact h2⟩
  · refine List.nodup_cons.2 ⟨?_, nodup_unvisited _ _ _ _⟩
    rw [mem_unvisited hR, List.getElem?_set, if_pos rfl]
    rintro ⟨-, h2⟩
    split at h2 <;> cases h2
  · exact nodup_unvisited _ _ _ _

/-- The visited positions after the search from `i`. -/
def VisitedAfter (n : Nat) (R : Nat → Nat → Prop) (v v' : List Bool) (i : Nat) : Prop :=
  v'.length = n ∧ ∀ j, v'[j]? = some true ↔ v[j]? = some true ∨ R i j

/-- The loop of `_dfs` when nothing is left to visit. -/
theorem dfs_skip {f : List Bool × List Nat → Nat → Except PyErr (List Bool × List Nat)} {L : List Nat}
    {s : List Bool × List Nat} (h : ∀ j ∈ L, s.1[j]? = some true) :
    L.foldlM (fun t j => do if (← lget t.1 j) = true then return t else f t j) s = .ok s := by
  induction L with
  | nil => rfl
  | cons j L ih =>
    rw [List.foldlM_cons, lget_ok.2 (h j (by simp))]
    simp only [bind, Except.bind, if_true, pure, Except.pure]
    exact ih fun k hk => h k (by simp [hk])

/-- The loop of `_dfs`: the first unvisited neighbour is searched, and this visits all of them. -/
theorem dfs_loop {n : Nat} {R : Nat → Nat → Prop} (hR : EquivOn n R)
    {f : List Bool × List Nat → Nat → Except PyErr (List Bool × List Nat)} {i : Nat} {v : List Bool} (hv : v.length = n)
    {c : List Nat} {L : List Nat} (hL : ∀ j ∈ L, R i j) (hex : ∃ j ∈ L, v[j]? = some false) :
    ∃ j, R i j ∧ v[j]? = some false ∧
      (∀ v' D, f (v, c) j = .ok (v', D) → VisitedAfter n R v v' j →
        L.foldlM (fun t j => do if (← lget t.1 j) = true then return t else f t j) (v, c) = .ok (v', D)) ∧
      ∀ e, f (v, c) j = .error e →
        L.foldlM (fun t j => do if (← lget t.1 j) = true then return t else f t j) (v, c) = .error e := by
  induction L with
  | nil => obtain ⟨j, hj, -⟩ := hex; cases hj
  | cons j L ih =>
    have hij := hL j (by simp)
    obtain ⟨b, eb, hb⟩ := lget_lt (l := v) (i := j) (by rw [hv]; exact (hR.lt i j hij).2)
    cases b with
    | false =>
      refine ⟨j, hij, hb, fun v' D e hvis => ?_, fun er e => ?_⟩
      · rw [List.foldlM_cons, eb]
        simp only [bind, Except.bind, if_neg (show ¬ false = true by decide), e]
        apply dfs_skip
        intro k hk
        exact (hvis.2 k).2 (.inr (hR.trans _ _ _ (hR.symm _ _ hij) (hL k (by simp [hk]))))
      · rw [List.foldlM_cons, eb]
        simp only [bind, Except.bind, if_neg (show ¬ false = true by decide), e]
    | true =>
      have hex' : ∃ k ∈ L, v[k]? = some false := by
        obtain ⟨k, hk, hk'⟩ := hex
        rcases List.mem_cons.1 hk with rfl | hk
        · rw [hb] at hk'; cases hk'
        · exact ⟨k, hk, hk'⟩
      obtain ⟨k, h1, h2, h3, h4⟩ := ih (fun k hk => hL k (by simp [hk])) hex'
      refine ⟨k, h1, h2, fun v' D e hvis => ?_, fun er e => ?_⟩
      · rw [List.foldlM_cons, eb]
        simp only [bind, Except.bind, if_true, pure, Except.pure]
        exact h3 v' D e hvis
      · rw [List.foldlM_cons, eb]
        simp only [bind, Except.bind, if_true, pure, Except.pure]
        exact h4 er e

/-- The search visits exactly the class of `i`, and needs one nested call for every member. -/
theorem mpcDfs_ok {enum : List Nat → List Nat} (henum : SetOrder enum) {n : Nat} {R : Nat → Nat → Prop} (hR : EquivOn n R)
    {g : Graph} (hg : GraphOf n g R) (depth : Nat) {i : Nat} (hi : i < n) {v : List Bool} (hv : v.length = n)
    (hvi : v[i]? = some false) (c : List Nat) :
    ((unvisited n R v i).length ≤ depth → ∃ v' D, mpcDfs enum g depth i (v, c) = .ok (v', c ++ D) ∧
      VisitedAfter n R v v' i ∧ D.Perm (unvisited n R v i)) ∧
    (depth < (unvisited n R v i).length → mpcDfs enum g depth i (v, c) = .error .recursionError) := by
  induction depth generalizing i v c with
  | zero =>
    refine ⟨fun h => ?_, fun _ => rfl⟩
    have : i ∈ unvisited n R v i := (mem_unvisited hR).2 ⟨hR.refl i hi, hvi⟩
    have := List.length_pos_of_mem this
    omega
  | succ depth ih =>
    have hperm := unvisited_set hR hi hvi
    have hlen := hperm.length_eq
    rw [List.length_cons] at hlen
    obtain ⟨s, es, -, -, hs⟩ := hg.get hi
    have hv1 : (v.set i true).length = n := by rw [List.length_set, hv]
    have hset : lset v i true = .ok (v.set i true) := lset_lt (by omega) _
    have hvis1 : ∀ j, (v.set i true)[j]? = some true ↔ v[j]? = some true ∨ j = i := by
      intro j
      rw [List.getElem?_set]
      by_cases hij : i = j
      · rw [if_pos hij, if_pos (by omega)]; simp [hij]
      · rw [if_neg hij]
        have : j ≠ i := fun c => hij c.symm
        simp [this]
    have hunf : mpcDfs enum g (depth + 1) i (v, c) =
        (do let t ← (enum s).foldlM (fun t j => do if (← lget t.1 j) = true then return t else mpcDfs enum g depth j t)
              (v.set i true, c)
            return (t.1, t.2 ++ [i])) := by
      show (do let visited ← lset v i true; _) = _
      rw [hset, es]; rfl
    rw [hunf]
    have hL : ∀ j ∈ enum s, R i j := fun j hj => (hs j).1 (((henum s).2 j).1 hj)
    by_cases hex : ∃ j ∈ enum s, (v.set i true)[j]? = some false
    · obtain ⟨j, hij, hj, hok, herr⟩ := dfs_loop (f := fun t j => mpcDfs enum g depth j t) hR hv1 (c := c) hL hex
      have hj' := (hR.lt i j hij).2
      obtain ⟨ih1, ih2⟩ := ih hj' hv1 hj c
      rw [← unvisited_congr hR _ hij] at ih1 ih2
      refine ⟨fun hd => ?_, fun hd => ?_⟩
      · obtain ⟨v', D, e, hvis, hD⟩ := ih1 (by omega)
        rw [hok v' (c ++ D) e hvis]
        refine ⟨v', D ++ [i], by simp [bind, Except.bind, pure, Except.pure], ⟨hvis.1, fun k => ?_⟩, ?_⟩
        · rw [hvis.2 k, hvis1 k]
          have hk : R j k ↔ R i k := ⟨hR.trans _ _ _ hij, hR.trans _ _ _ (hR.symm _ _ hij)⟩
          rw [hk]
          constructor
          · rintro ((h | rfl) | h)
            · exact .inl h
            · exact .inr (hR.refl k hi)
            · exact .inr h
          · rintro (h | h)
            · exact .inl (.inl h)
            · exact .inr h
        · refine (List.perm_append_comm.trans ?_).trans hperm
          exact List.Perm.cons i hD
      · rw [herr _ (ih2 (by omega))]
        rfl
    · have hall : ∀ j ∈ enum s, (v.set i true)[j]? = some true := by
        intro j hj
        obtain ⟨b, -, hb⟩ := lget_lt (l := v.set i true) (i := j) (by rw [hv1]; exact (hR.lt i j (hL j hj)).2)
        cases b with
        | true => exact hb
        | false => exact absurd ⟨j, hj, hb⟩ hex
      have hnil : unvisited n R (v.set i true) i = [] := by
        rw [List.eq_nil_iff_forall_not_mem]
        intro j hj
        obtain ⟨h1, h2⟩ := (mem_unvisited hR).1 hj
        exact hex ⟨j, ((henum s).2 j).2 ((hs j).2 h1), h2⟩
      rw [hnil, List.length_nil] at hlen
      refine ⟨fun hd => ?_, fun hd => by omega⟩
      rw [dfs_skip (f := fun t j => mpcDfs enum g depth j t) hall]
      refine ⟨v.set i true, [i], rfl, ⟨hv1, fun k => ?_⟩, by rw [hnil] at hperm; exact hperm⟩
      rw [hvis1 k]
      constructor
      · rintro (h | rfl)
        · exact .inl h
        · exact .inr (hR.refl k hi)
      · rintro (h | h)
        · exact .inl h
        · rcases (hvis1 k).1 (hall k (((henum s).2 k).2 ((hs k).2 h))) with h | h
          · exact .inl h
          · exact .inr h

end Verif
