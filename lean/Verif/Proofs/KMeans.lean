import Verif.Spec.KMeans
import Verif.Proofs.Clustering

/-
Lemmas on COP-KMeans.
-/

set_option linter.unusedSectionVars false

namespace Verif

variable {α V δ : Type} [LinearOrder α] [LinearOrder δ]

theorem kmNotCompatible_ok {m : Manager α} (h : Inv m) {new : Dict α Int} (hk : dkeys new = m.managed) {x : α}
    (hx : x ∈ m.managed) :
    ∃ l, kmNotCompatible m m.managed new x = .ok l ∧
      ∀ c, c ∈ l ↔ c ≠ -1 ∧ ∃ y ∈ m.managed, dget? new y = some c ∧ CannotLinked m x y := by
  have hf : ∀ y ∈ m.managed, ∃ b v, (do
      if (← dget new y) ≠ -1 then return decide ((← m.getInferred x y) = some .cannotLink) else return false :
        Except PyErr Bool) = .ok b ∧ dget? new y = some v ∧ (b = true ↔ v ≠ -1 ∧ CannotLinked m x y) := by
    intro y hy
    obtain ⟨v, hv⟩ := dget?_isSome_of_mem (show y ∈ dkeys new by rw [hk]; exact hy)
    obtain ⟨o, ho, ho2, -⟩ := isCL_eq h hx hy
    by_cases hv1 : v = -1
    · refine ⟨false, v, ?_, hv, by simp [hv1]⟩
      rw [dget_of_dget? hv, hv1]; rfl
    · refine ⟨decide (o = some .cannotLink), v, ?_, hv, ?_⟩
      · rw [dget_of_dget? hv, ho]
        simp only [bind, Except.bind, pure, Except.pure, ne_eq, hv1, not_false_eq_true, if_true]
      · simp [hv1, ho2]
  obtain ⟨ys, hys⟩ := filterM_total (l := m.managed) (f := fun y => (do
      if (← dget new y) ≠ -1 then return decide ((← m.getInferred x y) = some .cannotLink) else return false :
        Except PyErr Bool)) (fun y hy => by obtain ⟨b, v, h1, -⟩ := hf y hy; exact ⟨b, h1⟩)
  obtain ⟨-, hys2⟩ := filterM_ok hys
  have hmem : ∀ y, y ∈ ys ↔ y ∈ m.managed ∧ ∃ v, dget? new y = some v ∧ v ≠ -1 ∧ CannotLinked m x y := by
    intro y
    rw [hys2, List.mem_filter]
    constructor
    · rintro ⟨hy, hb⟩
      obtain ⟨b, v, h1, h2, h3⟩ := hf y hy
      rw [h1] at hb
      exact ⟨hy, v, h2, h3.1 hb⟩
    · rintro ⟨hy, v, hv, h2⟩
      obtain ⟨b, v', h1, hv', h3⟩ := hf y hy
      rw [hv] at hv'; cases hv'
      refine ⟨hy, ?_⟩
      rw [h1]; exact h3.2 h2
  obtain ⟨l, hl, hl2⟩ := mapM_dget (d := new) (l := ys) (fun y hy => by rw [hk]; exact ((hmem y).1 hy).1)
  refine ⟨l, ?_, ?_⟩
  · unfold kmNotCompatible
    rw [hys]; exact hl
  · intro c
    constructor
    · intro hc
      obtain ⟨y, hy, hyc⟩ := forall₂_mem_right hl2 hc
      obtain ⟨hym, v, hv, hv1, hcl⟩ := (hmem y).1 hy
      rw [hyc] at hv; cases hv
      exact ⟨hv1, y, hym, hyc, hcl⟩
    · rintro ⟨hc1, y, hym, hyc, hcl⟩
      obtain ⟨b, hb, hyb⟩ := forall₂_mem_left hl2 ((hmem y).2 ⟨hym, c, hyc, hc1, hcl⟩)
      rw [hyc] at hyb; cases hyb
      exact hb

theorem kmNearest_ok {row : Dict Int δ} {possible : List Int} (hne : possible ≠ [])
    (hrow : ∀ c ∈ possible, c ∈ dkeys row) :
    ∃ c, kmNearest row possible = .ok c ∧ c ∈ possible ∧
      ∃ d, dget? row c = some d ∧ ∀ c' ∈ possible, ∀ d', dget? row c' = some d' → d ≤ d' := by
  have hf : ∀ c ∈ possible, ∃ b : δ × Int, (do return (← dget row c, c) : Except PyErr (δ × Int)) = .ok b := by
    intro c hc
    obtain ⟨v, hv⟩ := dget?_isSome_of_mem (hrow c hc)
    exact ⟨(v, c), by rw [dget_of_dget? hv]; rfl⟩
  obtain ⟨items, hi⟩ := mapM_total hf
  have hi2 := mapM_ok_iff.1 hi
  have hitem : ∀ c (b : δ × Int), (do return (← dget row c, c) : Except PyErr (δ × Int)) = .ok b → b.2 = c ∧ dget? row c = some b.1 := by
    intro c b hb
    cases hv : dget? row c with
    | none => rw [dget, hv] at hb; cases hb
    | some v => rw [dget, hv] at hb; cases hb; exact ⟨rfl, rfl⟩
  have hkeys : ∀ d, d ∈ dkeys (dofList items) ↔ ∃ c ∈ possible, dget? row c = some d := by
    intro d
    rw [dkeys_dofList, mem_ounion]
    simp only [List.not_mem_nil, false_or, List.mem_map]
    constructor
    · rintro ⟨b, hb, rfl⟩
      obtain ⟨c, hc, hcb⟩ := forall₂_mem_right hi2 hb
      exact ⟨c, hc, (hitem c b hcb).2⟩
    · rintro ⟨c, hc, hcd⟩
      obtain ⟨b, hb, hcb⟩ := forall₂_mem_left hi2 hc
      obtain ⟨-, h2⟩ := hitem c b hcb
      rw [hcd] at h2
      exact ⟨b, hb, (Option.some.inj h2).symm⟩
  have hget : ∀ d c, dget? (dofList items) d = some c → c ∈ possible ∧ dget? row c = some d := by
    intro d c hdc
    have : (d, c) ∈ items := mem_of_dget?_dofList hdc
    obtain ⟨c', hc', hcb⟩ := forall₂_mem_right hi2 this
    obtain ⟨h1, h2⟩ := hitem c' _ hcb
    simp only at h1 h2
    subst h1
    exact ⟨hc', h2⟩
  have hne' : dkeys (dofList items) ≠ [] := by
    obtain ⟨c, hc⟩ := List.exists_mem_of_ne_nil _ hne
    obtain ⟨v, hv⟩ := dget?_isSome_of_mem (hrow c hc)
    exact List.ne_nil_of_mem ((hkeys v).2 ⟨c, hc, hv⟩)
  obtain ⟨d, hd⟩ : ∃ d, (dkeys (dofList items)).min? = some d := by
    cases hm : (dkeys (dofList items)).min? with
    | none => exact absurd (List.min?_eq_none_iff.1 hm) hne'
    | some d => exact ⟨d, rfl⟩
  obtain ⟨hd1, hd2⟩ := min?_spec hd
  obtain ⟨c, hc⟩ := dget?_isSome_of_mem hd1
  obtain ⟨hc1, hc2⟩ := hget d c hc
  refine ⟨c, ?_, hc1, d, hc2, ?_⟩
  · unfold kmNearest
    show ((possible.mapM fun c => do return (← dget row c, c) : Except PyErr (List (δ × Int))) >>= fun items => _) = _
    rw [hi]
    simp only [bind, Except.bind]
    rw [hd]
    exact dget_of_dget? hc
  · intro c' hc' d' hd'
    exact hd2 d' ((hkeys d').2 ⟨c', hc', hd'⟩)

theorem admissible_iff {m : Manager α} (h : Inv m) {centroids : Dict Int V} {new : Dict α Int} {x : α}
    (hx : x ∈ m.managed) {c : Int} :
    Admissible m centroids new x c ↔
      c ∈ dkeys centroids ∧ ∀ y ∈ m.managed, dget? new y = some c → ¬ CannotLinked m x y := by
  unfold Admissible
  constructor
  · rintro ⟨h1, h2⟩
    exact ⟨h1, fun y hy hc hl => h2 y hy hc ((inferred_cl_iff h hx hy).2 hl)⟩
  · rintro ⟨h1, h2⟩
    exact ⟨h1, fun y hy hc hl => h2 y hy hc ((inferred_cl_iff h hx hy).1 hl)⟩

theorem kmChoose_ok {m : Manager α} (h : Inv m) {nb : Nat} {centroids : Dict Int V} {dist : Dict α (Dict Int δ)}
    {new : Dict α Int} (hk : dkeys new = m.managed) {x : α} (hx : x ∈ m.managed)
    (hcen : -1 ∉ dkeys centroids) {row : Dict Int δ} (hdist : dget? dist x = some row)
    (hrow : ∀ c ∈ dkeys centroids, c ∈ dkeys row) :
    ∃ c, kmChoose m m.managed nb centroids dist new x = .ok c ∧
      ((∃ c', Admissible m centroids new x c') → Admissible m centroids new x c ∧
        ∃ d, dget? row c = some d ∧ ∀ c', Admissible m centroids new x c' → ∀ d', dget? row c' = some d' → d ≤ d') ∧
      ((¬ ∃ c', Admissible m centroids new x c') → (∀ y v, dget? new y = some v → v < c) ∧ (nb : Int) ≤ c) := by
  obtain ⟨l, hl, hl2⟩ := kmNotCompatible_ok h hk hx
  have hposs : ∀ c, c ∈ ((dkeys centroids).filter fun c => decide (c ∉ l)) ↔ Admissible m centroids new x c := by
    intro c
    rw [admissible_iff h hx, List.mem_filter]
    simp only [decide_not, Bool.not_eq_true', decide_eq_false_iff_not]
    constructor
    · rintro ⟨h1, h2⟩
      refine ⟨h1, fun y hy hc hcl => h2 ((hl2 c).2 ⟨?_, y, hy, hc, hcl⟩)⟩
      rintro rfl; exact hcen h1
    · rintro ⟨h1, h2⟩
      refine ⟨h1, fun hc => ?_⟩
      obtain ⟨-, y, hy, hyc, hcl⟩ := (hl2 c).1 hc
      exact h2 y hy hyc hcl
  have heq : kmChoose m m.managed nb centroids dist new x =
      if ((dkeys centroids).filter fun c => decide (c ∉ l)) = [] then
        match (dvals new).max? with
        | none => .error (.valueError "max")
        | some v => .ok (max (v + 1) nb)
      else kmNearest row ((dkeys centroids).filter fun c => decide (c ∉ l)) := by
    unfold kmChoose
    rw [hl]
    simp only [bind, Except.bind, dget_of_dget? hdist]
    rfl
  rw [heq]
  by_cases hne : ((dkeys centroids).filter fun c => decide (c ∉ l)) = []
  · have hno : ¬ ∃ c', Admissible m centroids new x c' := by
      rintro ⟨c', hc'⟩
      have := (hposs c').2 hc'
      rw [hne] at this; cases this
    rw [if_pos hne]
    have hvne : dvals new ≠ [] := by
      intro hv
      have : new = [] := by simpa [dvals] using hv
      rw [this] at hk
      rw [← hk] at hx; cases hx
    cases hmax : (dvals new).max? with
    | none => exact absurd (List.max?_eq_none_iff.1 hmax) hvne
    | some v =>
      refine ⟨_, rfl, fun hc => absurd hc hno, fun _ => ⟨?_, le_max_right _ _⟩⟩
      intro y w hw
      have hwv : w ∈ dvals new := by
        have := mem_of_dget? hw
        exact List.mem_map.2 ⟨_, this, rfl⟩
      have h1 := (max?_spec hmax).2 w hwv
      have h2 : v + 1 ≤ max (v + 1) (nb : Int) := le_max_left _ _
      omega
  · rw [if_neg hne]
    obtain ⟨c, h1, h2, d, h3, h4⟩ := kmNearest_ok hne (row := row)
      (fun c hc => hrow c ((hposs c).1 hc).1)
    refine ⟨c, h1, fun _ => ⟨(hposs c).1 h2, d, h3, fun c' hc' => h4 c' ((hposs c').2 hc')⟩, fun hno => ?_⟩
    exact absurd ⟨c, (hposs c).1 h2⟩ hno

/-- Lines 318-328. -/
theorem kmLink_fold {m : Manager α} (h : Inv m) {x : α} (hx : x ∈ m.managed) {c : Int} {Q : List α}
    (hQ : ∀ y ∈ Q, y ∈ m.managed) {s : List α × Dict α Int} (hn : s.1.Nodup) (hk : dkeys s.2 = m.managed)
    (hc : dget? s.2 x = some c) :
    ∃ s', Q.foldlM (kmLink m x) s = .ok s' ∧ s'.1.Nodup ∧ dkeys s'.2 = m.managed ∧
      (∀ z, z ∈ s'.1 ↔ z ∈ s.1 ∧ ¬ (z ∈ Q ∧ MustLinked m x z)) ∧
      (∀ z, z ∈ Q → MustLinked m x z → dget? s'.2 z = some c) ∧
      (∀ z, ¬ (z ∈ Q ∧ MustLinked m x z) → dget? s'.2 z = dget? s.2 z) := by
  induction Q generalizing s with
  | nil => exact ⟨s, rfl, hn, hk, by simp, by simp, by simp⟩
  | cons y Q ih =>
    obtain ⟨o, ho, -, ho2⟩ := isCL_eq h hx (hQ y (by simp))
    have hQ' : ∀ z ∈ Q, z ∈ m.managed := fun z hz => hQ z (by simp [hz])
    by_cases hml : MustLinked m x y
    · have hstep : kmLink m x s y = .ok (s.1.erase y, dset s.2 y c) := by
        unfold kmLink
        rw [ho]
        simp only [bind, Except.bind, if_pos (ho2.2 hml), dget_of_dget? hc]; rfl
      have hk' : dkeys (dset s.2 y c) = m.managed := by
        rw [dkeys_dset_of_mem _ (by rw [hk]; exact hQ y (by simp)), hk]
      have hc' : dget? (dset s.2 y c) x = some c := by
        rw [dget?_dset]; split
        · rfl
        · exact hc
      obtain ⟨s', e1, e2, e3, e4, e5, e6⟩ := ih hQ' (s := (s.1.erase y, dset s.2 y c)) (hn.erase y) hk' hc'
      refine ⟨s', ?_, e2, e3, ?_, ?_, ?_⟩
      · rw [List.foldlM_cons, hstep]; exact e1
      · intro z
        rw [e4, hn.mem_erase_iff]
        constructor
        · rintro ⟨⟨h1, h2⟩, h3⟩
          refine ⟨h2, ?_⟩
          rintro ⟨h4, h5⟩
          rcases List.mem_cons.1 h4 with rfl | h4
          · exact h1 rfl
          · exact h3 ⟨h4, h5⟩
        · rintro ⟨h1, h2⟩
          refine ⟨⟨?_, h1⟩, fun h3 => h2 ⟨by simp [h3.1], h3.2⟩⟩
          rintro rfl; exact h2 ⟨by simp, hml⟩
      · intro z hz hzl
        by_cases hzQ : z ∈ Q
        · exact e5 z hzQ hzl
        · rcases List.mem_cons.1 hz with rfl | hz
          · rw [e6 z (fun h => hzQ h.1), dget?_dset, if_pos rfl]
          · exact absurd hz hzQ
      · intro z hz
        rw [e6 z (fun h => hz ⟨by simp [h.1], h.2⟩), dget?_dset, if_neg]
        rintro rfl; exact hz ⟨by simp, hml⟩
    · have hstep : kmLink m x s y = .ok s := by
        unfold kmLink
        rw [ho]
        simp only [bind, Except.bind, if_neg (fun h => hml (ho2.1 h))]; rfl
      obtain ⟨s', e1, e2, e3, e4, e5, e6⟩ := ih hQ' hn hk hc
      refine ⟨s', ?_, e2, e3, ?_, ?_, ?_⟩
      · rw [List.foldlM_cons, hstep]; exact e1
      · intro z
        rw [e4]
        constructor
        · rintro ⟨h1, h2⟩
          refine ⟨h1, ?_⟩
          rintro ⟨h4, h5⟩
          rcases List.mem_cons.1 h4 with rfl | h4
          · exact hml h5
          · exact h2 ⟨h4, h5⟩
        · rintro ⟨h1, h2⟩
          exact ⟨h1, fun h3 => h2 ⟨by simp [h3.1], h3.2⟩⟩
      · intro z hz hzl
        rcases List.mem_cons.1 hz with rfl | hz
        · exact absurd hzl hml
        · exact e5 z hz hzl
      · intro z hz
        exact e6 z (fun h => hz ⟨by simp [h.1], h.2⟩)

/-- The state inside a pass. -/
structure PassInv (m : Manager α) (s : List α × Dict α Int) : Prop where
  nodup : s.1.Nodup
  sub : ∀ y ∈ s.1, y ∈ m.managed
  keys : dkeys s.2 = m.managed
  todo : ∀ y ∈ m.managed, (dget? s.2 y = some (-1) ↔ y ∈ s.1)
  low : ∀ y v, dget? s.2 y = some v → -1 ≤ v
  closed : ∀ y z, MustLinked m y z → y ∈ s.1 → z ∈ s.1
  ml : ∀ y z, y ∈ m.managed → y ∉ s.1 → MustLinked m y z → dget? s.2 y = dget? s.2 z
  cl : ∀ y z, y ∉ s.1 → z ∉ s.1 → CannotLinked m y z → dget? s.2 y ≠ dget? s.2 z

theorem kmAssign_ok {m : Manager α} (h : Inv m) {nb : Nat} {centroids : Dict Int V} {dist : Dict α (Dict Int δ)}
    {s : List α × Dict α Int} (hk : dkeys s.2 = m.managed) (hn : s.1.Nodup) {x : α} (hx : x ∈ m.managed)
    (hcen : ∀ c ∈ dkeys centroids, 0 ≤ c) {row : Dict Int δ} (hdist : dget? dist x = some row)
    (hrow : ∀ c ∈ dkeys centroids, c ∈ dkeys row) :
    ∃ c s', kmAssign m m.managed nb centroids dist x s = .ok s' ∧
      kmChoose m m.managed nb centroids dist s.2 x = .ok c ∧
      s'.1.Nodup ∧ dkeys s'.2 = m.managed ∧
      (∀ z, z ∈ s'.1 ↔ z ∈ s.1 ∧ ¬ (z ∈ m.managed ∧ MustLinked m x z)) ∧
      (∀ z, z ∈ m.managed → MustLinked m x z → dget? s'.2 z = some c) ∧
      (∀ z, ¬ MustLinked m x z → dget? s'.2 z = dget? s.2 z) := by
  have hcen' : -1 ∉ dkeys centroids := fun hc => by have := hcen _ hc; omega
  obtain ⟨c, hc, -, -⟩ := kmChoose_ok (nb := nb) h hk hx hcen' hdist hrow
  have hk' : dkeys (dset s.2 x c) = m.managed := by
    rw [dkeys_dset_of_mem _ (by rw [hk]; exact hx), hk]
  obtain ⟨s', e1, e2, e3, e4, e5, e6⟩ := kmLink_fold h hx (Q := m.managed) (fun y hy => hy)
    (s := (s.1, dset s.2 x c)) hn hk' (by rw [dget?_dset, if_pos rfl])
  refine ⟨c, s', ?_, hc, e2, e3, e4, e5, ?_⟩
  · unfold kmAssign
    rw [hc]; exact e1
  · intro z hz
    rw [e6 z (fun h => hz h.2), dget?_dset, if_neg]
    rintro rfl; exact hz (MustLinked.refl m _)

theorem PassInv.step {m : Manager α} (h : Inv m) {nb : Nat} {centroids : Dict Int V} {dist : Dict α (Dict Int δ)}
    {todo : List α} {new : Dict α Int} (hp : PassInv m (todo, new)) {x : α} (hlast : todo.getLast? = some x)
    (hcen : ∀ c ∈ dkeys centroids, 0 ≤ c) {row : Dict Int δ} (hdist : dget? dist x = some row)
    (hrow : ∀ c ∈ dkeys centroids, c ∈ dkeys row) :
    ∃ s', kmAssign m m.managed nb centroids dist x (todo.dropLast, new) = .ok s' ∧ PassInv m s' ∧
      s'.1.length < todo.length := by
  have htodo : todo = todo.dropLast ++ [x] := by
    obtain ⟨l, rfl⟩ := List.getLast?_eq_some_iff.1 hlast
    simp
  have hxt : x ∈ todo := by rw [htodo]; simp
  have hx : x ∈ m.managed := hp.sub x hxt
  have hnd : todo.dropLast.Nodup := hp.nodup.sublist (List.dropLast_sublist _)
  obtain ⟨c, s', e1, ec, e2, e3, e4, e5, e6⟩ := kmAssign_ok (nb := nb) h (s := (todo.dropLast, new)) hp.keys hnd hx
    hcen hdist hrow
  have hcen' : -1 ∉ dkeys centroids := fun hc => by have := hcen _ hc; omega
  obtain ⟨c', hc', hA, hB⟩ := kmChoose_ok (nb := nb) h hp.keys hx hcen' hdist hrow
  have : c' = c := by
    have : kmChoose m m.managed nb centroids dist new x = .ok c := ec
    rw [hc'] at this; exact Except.ok.inj this
  subst this
  have hc0 : 0 ≤ c' := by
    by_cases hex : ∃ c'', Admissible m centroids new x c''
    · exact hcen _ (hA hex).1.1
    · have := (hB hex).2; omega
  have hsafe : ∀ y, dget? new y = some c' → ¬ CannotLinked m x y := by
    intro y hy hcl
    by_cases hex : ∃ c'', Admissible m centroids new x c''
    · exact ((admissible_iff h hx).1 (hA hex).1).2 y (hcl.mem h).2 hy hcl
    · have := (hB hex).1 y _ hy; omega
  have hmem : ∀ z, z ∈ s'.1 ↔ z ∈ todo ∧ ¬ MustLinked m x z := by
    intro z
    rw [e4]
    constructor
    · rintro ⟨h1, h2⟩
      have hz : z ∈ todo := (List.dropLast_sublist todo).subset h1
      exact ⟨hz, fun hl => h2 ⟨hp.sub z hz, hl⟩⟩
    · rintro ⟨h1, h2⟩
      refine ⟨?_, fun h3 => h2 h3.2⟩
      rw [htodo, List.mem_append, List.mem_singleton] at h1
      rcases h1 with h1 | rfl
      · exact h1
      · exact absurd (MustLinked.refl m z) h2
  refine ⟨s', e1, ⟨e2, ?_, e3, ?_, ?_, ?_, ?_, ?_⟩, ?_⟩
  · intro y hy; exact hp.sub y ((hmem y).1 hy).1
  · intro y hy
    rw [hmem]
    by_cases hl : MustLinked m x y
    · rw [e5 y hy hl]
      constructor
      · intro h; simp only [Option.some.injEq] at h; omega
      · intro h; exact absurd hl h.2
    · rw [e6 y hl]
      have := hp.todo y hy
      simp only at this
      rw [this]
      exact ⟨fun h => ⟨h, hl⟩, fun h => h.1⟩
  · intro y v hv
    by_cases hl : MustLinked m x y
    · rw [e5 y (hl.mem h hx) hl] at hv
      cases hv; omega
    · rw [e6 y hl] at hv
      exact hp.low y v hv
  · intro y z hyz hy
    rw [hmem] at hy ⊢
    exact ⟨hp.closed y z hyz hy.1, fun hl => hy.2 (hl.trans (hyz.symm h))⟩
  · intro y z hy hyt hyz
    have hz : z ∈ m.managed := hyz.mem h hy
    by_cases hl : MustLinked m x y
    · rw [e5 y hy hl, e5 z hz (hl.trans hyz)]
    · have hl' : ¬ MustLinked m x z := fun hc => hl (hc.trans (hyz.symm h))
      rw [e6 y hl, e6 z hl']
      exact hp.ml y z hy (fun hc => hyt ((hmem y).2 ⟨hc, hl⟩)) hyz
  · intro y z hyt hzt hcl
    obtain ⟨hy, hz⟩ := hcl.mem h
    by_cases hl : MustLinked m x y
    · have hl' : ¬ MustLinked m x z := fun hc => not_both h ((hl.symm h).trans hc) hcl
      rw [e5 y hy hl, e6 z hl']
      intro he
      exact hsafe z he.symm (hcl.congr hl (MustLinked.refl m z))
    · by_cases hl' : MustLinked m x z
      · rw [e5 z hz hl', e6 y hl]
        intro he
        exact hsafe y he ((hcl.symm h).congr hl' (MustLinked.refl m y))
      · rw [e6 y hl, e6 z hl']
        exact hp.cl y z (fun hc => hyt ((hmem y).2 ⟨hc, hl⟩)) (fun hc => hzt ((hmem z).2 ⟨hc, hl'⟩)) hcl
  · have hsub : s'.1.Subperm todo.dropLast := by
      apply List.subperm_of_subset e2
      intro z hz; exact ((e4 z).1 hz).1
    have h1 := hsub.length_le
    have h2 : todo.length = todo.dropLast.length + 1 := by
      conv_lhs => rw [htodo]
      simp
    omega

/-! ### A pass -/

theorem passInv_start {m : Manager α} (h : Inv m) : PassInv m (m.managed, dofList (m.managed.map fun x => (x, -1))) := by
  have hget : ∀ y v, dget? (dofList (m.managed.map fun x => (x, (-1 : Int)))) y = some v ↔ y ∈ m.managed ∧ v = -1 := by
    intro y v
    rw [dget?_dofList_map m.managed (fun _ => (-1 : Int))]
    split <;> rename_i hy <;> simp [hy, eq_comm]
  refine ⟨h.d.nodup, fun y hy => hy, ?_, ?_, ?_, ?_, ?_, ?_⟩
  · rw [dkeys_dofList_map m.managed (fun _ => (-1 : Int))]
    exact ounion_nil_of_nodup h.d.nodup
  · intro y hy; rw [hget]; simp [hy]
  · intro y v hv; have := ((hget y v).1 hv).2; omega
  · intro y z hl hy; exact hl.mem h hy
  · intro y z hy hyt; exact absurd hy hyt
  · intro y z hyt _ hl; exact absurd (hl.mem h).1 hyt

/-- The centroids of a run. -/
structure CentroidsInv (centroids : Dict Int V) : Prop where
  nodup : (dkeys centroids).Nodup
  nonneg : ∀ c ∈ dkeys centroids, 0 ≤ c
  ne : centroids ≠ []

/-- The table of distances. -/
def TableOk (env : KMeansEnv α V δ) (m : Manager α) (vectors : Dict α V) (centroids : Dict Int V)
    (dist : Dict α (Dict Int δ)) : Prop :=
  ∀ x ∈ m.managed, ∀ v, dget? vectors x = some v → ∃ row, dget? dist x = some row ∧ dkeys row = dkeys centroids ∧
    ∀ c w, dget? centroids c = some w → dget? row c = some (env.metric v w)

theorem kmDistances_ok {env : KMeansEnv α V δ} {m : Manager α} (h : Inv m) {vectors : Dict α V} {centroids : Dict Int V}
    (hv : HasVectors m vectors) (hne : m.managed ≠ []) (hc : CentroidsInv centroids) :
    ∃ dist, kmDistances env m vectors centroids = .ok dist ∧ TableOk env m vectors centroids dist := by
  obtain ⟨rows, hrows⟩ := mapM_total (l := m.managed) (f := fun x => (do return (x, ← dget vectors x) : Except PyErr (α × V)))
    (fun x hx => by
      obtain ⟨v, hv⟩ := hv x hx
      exact ⟨(x, v), by rw [dget_of_dget? hv]; rfl⟩)
  have hF : List.Forall₂ (fun x p => p.1 = x ∧ dget? vectors x = some p.2) m.managed rows := by
    refine (mapM_ok_iff.1 hrows).imp ?_
    intro x p hp
    cases hd : dget vectors x with
    | error e => rw [hd] at hp; cases hp
    | ok v =>
      rw [hd] at hp
      cases hp
      exact ⟨rfl, dget_eq_ok.1 hd⟩
  have hkeys : rows.map Prod.fst = m.managed := by
    clear hrows hne
    generalize m.managed = l at hF
    induction hF with
    | nil => rfl
    | cons h1 _ ih => rw [List.map_cons, ih, h1.1]
  have hrne : rows.isEmpty = false := by
    cases rows with
    | nil => exact absurd hkeys.symm hne
    | cons _ _ => rfl
  have hcne : centroids.isEmpty = false := by
    have := hc.ne
    cases centroids with
    | nil => exact absurd rfl this
    | cons _ _ => rfl
  refine ⟨dofList (rows.map fun p => (p.1, dofList (centroids.map fun q => (q.1, env.metric p.2 q.2)))), ?_, ?_⟩
  · unfold kmDistances
    rw [hrows]
    simp only [bind, Except.bind, hrne, hcne, Bool.false_eq_true, if_false, pure, Except.pure]
  · intro x hx v hxv
    have hxr : (x, v) ∈ rows := by
      obtain ⟨p, hp, hp1, hp2⟩ := forall₂_mem_left hF hx
      rw [hxv] at hp2
      cases p; simp only at hp1 hp2; cases hp1; cases hp2; exact hp
    have hnd : ((rows.map fun p => (p.1, dofList (centroids.map fun q => (q.1, env.metric p.2 q.2)))).map Prod.fst).Nodup := by
      rw [List.map_map]
      show (rows.map Prod.fst).Nodup
      rw [hkeys]; exact h.d.nodup
    have hnd2 : ((centroids.map fun q => (q.1, env.metric v q.2)).map Prod.fst).Nodup := by
      rw [List.map_map]; exact hc.nodup
    refine ⟨dofList (centroids.map fun q => (q.1, env.metric v q.2)), ?_, ?_, ?_⟩
    · rw [dofList_of_nodup hnd]
      apply dget?_of_mem hnd
      exact List.mem_map.2 ⟨(x, v), hxr, rfl⟩
    · rw [dofList_of_nodup hnd2]
      unfold dkeys; rw [List.map_map]; rfl
    · intro c w hcw
      rw [dofList_of_nodup hnd2]
      apply dget?_of_mem hnd2
      exact List.mem_map.2 ⟨(c, w), mem_of_dget? hcw, rfl⟩

theorem TableOk.row {env : KMeansEnv α V δ} {m : Manager α} {vectors : Dict α V} {centroids : Dict Int V}
    {dist : Dict α (Dict Int δ)} (ht : TableOk env m vectors centroids dist) (hv : HasVectors m vectors) {x : α}
    (hx : x ∈ m.managed) : ∃ row, dget? dist x = some row ∧ ∀ c ∈ dkeys centroids, c ∈ dkeys row := by
  obtain ⟨v, hv⟩ := hv x hx
  obtain ⟨row, h1, h2, -⟩ := ht x hx v hv
  exact ⟨row, h1, fun c hc => by rw [h2]; exact hc⟩

theorem kmAssignAll_ok {env : KMeansEnv α V δ} {m : Manager α} (h : Inv m) {vectors : Dict α V} {nb : Nat}
    {centroids : Dict Int V} {dist : Dict α (Dict Int δ)} (hv : HasVectors m vectors) (hc : CentroidsInv centroids)
    (ht : TableOk env m vectors centroids dist) {fuel : Nat} {s : List α × Dict α Int} (hp : PassInv m s)
    (hfuel : s.1.length ≤ fuel) :
    ∃ new, kmAssignAll m m.managed nb centroids dist fuel s = .ok new ∧ PassInv m ([], new) := by
  induction fuel generalizing s with
  | zero =>
    have h0 : s.1 = [] := List.eq_nil_of_length_eq_zero (by omega)
    refine ⟨s.2, ?_, ?_⟩
    · unfold kmAssignAll; rw [if_pos h0]
    · obtain ⟨todo, new⟩ := s
      simp only at h0; subst h0; exact hp
  | succ fuel ih =>
    obtain ⟨todo, new⟩ := s
    cases hl : todo.getLast? with
    | none =>
      have h0 : todo = [] := List.getLast?_eq_none_iff.1 hl
      subst h0
      exact ⟨new, rfl, hp⟩
    | some x =>
      have hx : x ∈ m.managed := hp.sub x (List.mem_of_getLast? hl)
      obtain ⟨row, hr1, hr2⟩ := ht.row hv hx
      obtain ⟨s', e1, e2, e3⟩ := hp.step (nb := nb) h hl hc.nonneg hr1 hr2
      obtain ⟨r, e4, e5⟩ := ih e2 (by simp only at hfuel; omega)
      refine ⟨r, ?_, e5⟩
      rw [kmAssignAll.eq_def]
      simp only [hl]
      rw [e1]
      exact e4

theorem kmCentroids_ok {env : KMeansEnv α V δ} (he : env.Ok) {m : Manager α} (h : Inv m) {vectors : Dict α V}
    (hv : HasVectors m vectors) {clusters : Dict α Int} (hk : dkeys clusters = m.managed) :
    ∃ cs, kmCentroids env m vectors clusters = .ok cs ∧ (dkeys cs).Nodup ∧ ∀ c, c ∈ dkeys cs ↔ c ∈ dvals clusters := by
  have hnd : (dkeys clusters).Nodup := by rw [hk]; exact h.d.nodup
  have hf : ∀ c ∈ env.enum (dvals clusters), ∃ w, (do
      let ys ← m.managed.filterM fun y => do return decide ((← dget clusters y) = c)
      let members ← ys.mapM fun y => dget vectors y
      if members.isEmpty then throw .zeroDivisionError
      return (c, env.mean members) : Except PyErr (Int × V)) = .ok (c, w) := by
    intro c hc
    have hb : ∀ y ∈ m.managed, ∃ v, (do return decide ((← dget clusters y) = c) : Except PyErr Bool) = .ok (decide (v = c)) ∧
        dget? clusters y = some v := by
      intro y hy
      obtain ⟨v, hv⟩ := dget?_isSome_of_mem (show y ∈ dkeys clusters by rw [hk]; exact hy)
      exact ⟨v, by rw [dget_of_dget? hv]; rfl, hv⟩
    obtain ⟨ys, hys⟩ := filterM_total (l := m.managed)
      (f := fun y => (do return decide ((← dget clusters y) = c) : Except PyErr Bool))
      (fun y hy => by obtain ⟨v, h1, -⟩ := hb y hy; exact ⟨_, h1⟩)
    obtain ⟨-, hys2⟩ := filterM_ok hys
    have hysub : ∀ y ∈ ys, y ∈ m.managed := by
      intro y hy; rw [hys2] at hy; exact List.mem_of_mem_filter hy
    obtain ⟨mem, hmem⟩ := mapM_total (f := fun y => dget vectors y) (l := ys) (fun y hy => by
      obtain ⟨v, hv⟩ := hv y (hysub y hy)
      exact ⟨v, dget_of_dget? hv⟩)
    have hyne : ys ≠ [] := by
      have := (he.enum (dvals clusters)).2 c |>.1 hc
      obtain ⟨y, hy⟩ := (mem_dvals hnd).1 this
      have hym : y ∈ m.managed := by rw [← hk]; exact mem_dkeys_of_dget? hy
      intro h0
      have : y ∈ ys := by
        rw [hys2, List.mem_filter]
        refine ⟨hym, ?_⟩
        obtain ⟨v, h1, h2⟩ := hb y hym
        rw [hy] at h2; cases h2
        rw [h1]; simp
      rw [h0] at this; cases this
    have hmne : mem.isEmpty = false := by
      have hlen := (mapM_ok_iff.1 hmem).length_eq
      cases mem with
      | nil => exact absurd (List.eq_nil_of_length_eq_zero hlen) hyne
      | cons _ _ => rfl
    refine ⟨env.mean mem, ?_⟩
    rw [hys]
    simp only [bind, Except.bind, pure, Except.pure]
    rw [hmem]
    simp only [hmne, Bool.false_eq_true, if_false]
  obtain ⟨items, hitems⟩ := mapM_total (fun c hc => by obtain ⟨w, hw⟩ := hf c hc; exact ⟨_, hw⟩)
  have hmap : items.map Prod.fst = env.enum (dvals clusters) := by
    have hF := mapM_ok_iff.1 hitems
    clear hitems
    generalize env.enum (dvals clusters) = l at hF hf
    induction hF with
    | nil => rfl
    | @cons a b l1 l2 h1 h2 ih =>
      obtain ⟨w, hw⟩ := hf a (by simp)
      rw [hw] at h1
      cases h1
      rw [List.map_cons, ih (fun c hc => hf c (by simp [hc]))]
  have hnd2 : (items.map Prod.fst).Nodup := by rw [hmap]; exact (he.enum _).1
  refine ⟨dofList items, ?_, ?_, ?_⟩
  · unfold kmCentroids
    rw [hitems]; rfl
  · rw [dofList_of_nodup hnd2]; exact hnd2
  · intro c
    rw [dofList_of_nodup hnd2]
    show c ∈ items.map Prod.fst ↔ _
    rw [hmap]; exact (he.enum _).2 c

/-- The end of a pass. -/
structure PassDone (m : Manager α) (new : Dict α Int) (cs : Dict Int V) : Prop where
  pass : PassInv m ([], new)
  cent : CentroidsInv cs
  keys : ∀ c, c ∈ dkeys cs ↔ c ∈ dvals new

theorem PassInv.nonneg {m : Manager α} (h : Inv m) {new : Dict α Int} (hp : PassInv m ([], new)) :
    ∀ v ∈ dvals new, 0 ≤ v := by
  intro v hv
  have hk : dkeys new = m.managed := hp.keys
  obtain ⟨y, hy⟩ := (mem_dvals (by rw [hk]; exact h.d.nodup)).1 hv
  have h1 := hp.low y v hy
  have hym : y ∈ m.managed := by rw [← hk]; exact mem_dkeys_of_dget? hy
  have h2 : v ≠ -1 := by
    rintro rfl
    exact List.not_mem_nil ((hp.todo y hym).1 hy)
  omega

theorem kmPass_ok {env : KMeansEnv α V δ} (he : env.Ok) {m : Manager α} (h : Inv m) {vectors : Dict α V}
    (hv : HasVectors m vectors) (hne : m.managed ≠ []) (nb : Nat) {centroids : Dict Int V} (hc : CentroidsInv centroids) :
    ∃ new cs, kmPass env m vectors nb centroids = .ok (new, cs) ∧ PassDone m new cs := by
  obtain ⟨dist, e1, ht⟩ := kmDistances_ok (env := env) h hv hne hc
  obtain ⟨new, e2, hp⟩ := kmAssignAll_ok (nb := nb) h hv hc ht (passInv_start h) (fuel := m.managed.length) (le_refl _)
  have hk : dkeys new = m.managed := hp.keys
  obtain ⟨cs, e3, hn, hcs⟩ := kmCentroids_ok he h hv hk
  refine ⟨new, cs, ?_, hp, ⟨hn, fun c hc => hp.nonneg h c ((hcs c).1 hc), ?_⟩, hcs⟩
  · unfold kmPass
    rw [e1]
    simp only [bind, Except.bind, pure, Except.pure]
    rw [e2]
    simp only [e3]
  · rintro rfl
    obtain ⟨x, hx⟩ := List.exists_mem_of_ne_nil _ hne
    obtain ⟨v, hv⟩ := dget?_isSome_of_mem (show x ∈ dkeys new by rw [hk]; exact hx)
    have := (hcs v).2 ((mem_dvals (by rw [hk]; exact h.d.nodup)).2 ⟨x, hv⟩)
    simp at this

theorem kmConverged_ok {env : KMeansEnv α V δ} {m : Manager α} (h : Inv m) (hne : m.managed ≠ [])
    {clusters new : Dict α Int} {centroids cs : Dict Int V} (hc : CentroidsInv centroids)
    (hcl : (∀ v ∈ dvals clusters, v = -1) ∨ ∀ c, c ∈ dkeys centroids ↔ c ∈ dvals clusters)
    (hd : PassDone m new cs) : ∃ b, kmConverged env clusters new centroids cs = .ok b := by
  unfold kmConverged
  by_cases hs : (∀ v ∈ dvals clusters, v ∈ dvals new) ∧ (∀ v ∈ dvals new, v ∈ dvals clusters)
  · rw [if_pos hs]
    have hk : dkeys new = m.managed := hd.pass.keys
    have hkeys : ∀ c, c ∈ dkeys centroids ↔ c ∈ dvals clusters := by
      rcases hcl with hcl | hcl
      · exfalso
        obtain ⟨x, hx⟩ := List.exists_mem_of_ne_nil _ hne
        obtain ⟨v, hv⟩ := dget?_isSome_of_mem (show x ∈ dkeys new by rw [hk]; exact hx)
        have hvn := (mem_dvals (by rw [hk]; exact h.d.nodup)).2 ⟨x, hv⟩
        have h1 := hd.pass.nonneg h v hvn
        have h2 := hcl v (hs.2 v hvn)
        omega
      · exact hcl
    obtain ⟨pairs, hp⟩ := mapM_total (l := dkeys centroids)
      (f := fun c => (do return (← dget centroids c, ← dget cs c) : Except PyErr (V × V))) (fun c hc => by
        obtain ⟨v, hv⟩ := dget?_isSome_of_mem hc
        obtain ⟨w, hw⟩ := dget?_isSome_of_mem ((hd.keys c).2 (hs.1 c ((hkeys c).1 hc)))
        exact ⟨(v, w), by rw [dget_of_dget? hv, dget_of_dget? hw]; rfl⟩)
    have hpne : pairs.isEmpty = false := by
      have hlen := (mapM_ok_iff.1 hp).length_eq
      have := hc.ne
      cases pairs with
      | nil =>
        have h0 := List.eq_nil_of_length_eq_zero hlen
        exact absurd (by simpa [dkeys] using h0) this
      | cons _ _ => rfl
    refine ⟨env.small pairs, ?_⟩
    rw [hp]
    simp only [bind, Except.bind, hpne, Bool.false_eq_true, if_false, pure, Except.pure]
  · rw [if_neg hs]
    exact ⟨false, rfl⟩

theorem kmLoop_ok {env : KMeansEnv α V δ} (he : env.Ok) {m : Manager α} (h : Inv m) {vectors : Dict α V}
    (hv : HasVectors m vectors) (hne : m.managed ≠ []) (nb : Nat) {left : Nat} {clusters : Dict α Int}
    {centroids : Dict Int V} (hc : CentroidsInv centroids)
    (hcl : (∀ v ∈ dvals clusters, v = -1) ∨ ∀ c, c ∈ dkeys centroids ↔ c ∈ dvals clusters) :
    ∃ new cs, kmLoop env m vectors nb (left + 1) clusters centroids = .ok (new, cs) ∧ PassDone m new cs := by
  induction left generalizing clusters centroids with
  | zero =>
    obtain ⟨new, cs, e1, hd⟩ := kmPass_ok he h hv hne nb hc
    obtain ⟨b, hb⟩ := kmConverged_ok (env := env) h hne hc hcl hd
    refine ⟨new, cs, ?_, hd⟩
    rw [kmLoop.eq_def]
    simp only [bind, Except.bind, e1, hb]
    cases b <;> rfl
  | succ left ih =>
    obtain ⟨new, cs, e1, hd⟩ := kmPass_ok he h hv hne nb hc
    obtain ⟨b, hb⟩ := kmConverged_ok (env := env) h hne hc hcl hd
    cases b with
    | true =>
      refine ⟨new, cs, ?_, hd⟩
      rw [kmLoop.eq_def]
      simp only [bind, Except.bind, e1, hb]
      rfl
    | false =>
      obtain ⟨new', cs', e2, hd'⟩ := ih hd.cent (.inr hd.keys)
      refine ⟨new', cs', ?_, hd'⟩
      rw [kmLoop.eq_def]
      simp only [bind, Except.bind, e1, hb]
      exact e2

theorem kmInitialize_ok {env : KMeansEnv α V δ} (he : env.Ok) {m : Manager α} {vectors : Dict α V}
    (hv : HasVectors m vectors) {nb : Nat} (hnb : nb ≤ m.managed.length) (hpos : 0 < nb) :
    ∃ cs, kmInitialize env m.managed vectors nb = .ok cs ∧ CentroidsInv cs := by
  have hlen : ((env.shuffle m.managed).take nb).length = nb := by
    rw [List.length_take, (he.shuffle m.managed).length_eq]; omega
  have hf : ∀ c ∈ List.range nb, ∃ w, kmInitEntry vectors ((env.shuffle m.managed).take nb) c = .ok ((c : Int), w) := by
    intro c hc
    have hc' : c < ((env.shuffle m.managed).take nb).length := by rw [hlen]; exact List.mem_range.1 hc
    have hx : ((env.shuffle m.managed).take nb)[c] ∈ m.managed :=
      (he.shuffle m.managed).mem_iff.1 (List.mem_of_mem_take (List.getElem_mem hc'))
    obtain ⟨v, hv⟩ := hv _ hx
    refine ⟨v, ?_⟩
    unfold kmInitEntry
    rw [List.getElem?_eq_getElem hc']
    simp only [dget_of_dget? hv]; rfl
  obtain ⟨items, hitems⟩ := mapM_total (fun c hc => by obtain ⟨w, hw⟩ := hf c hc; exact ⟨_, hw⟩)
  have hmap : items.map Prod.fst = (List.range nb).map fun (c : Nat) => (c : Int) := by
    have hF := mapM_ok_iff.1 hitems
    clear hitems hlen
    generalize List.range nb = l at hF hf
    induction hF with
    | nil => rfl
    | @cons a b l1 l2 h1 h2 ih =>
      obtain ⟨w, hw⟩ := hf a (by simp)
      rw [hw] at h1
      cases h1
      rw [List.map_cons, List.map_cons, ih (fun c hc => hf c (by simp [hc]))]
  have hnd : (items.map Prod.fst).Nodup := by
    rw [hmap]
    refine List.Nodup.map ?_ List.nodup_range
    intro a b hab
    simp only at hab; omega
  refine ⟨dofList items, ?_, ?_⟩
  · unfold kmInitialize
    simp only
    rw [hitems]; rfl
  · rw [dofList_of_nodup hnd]
    refine ⟨hnd, ?_, ?_⟩
    · intro c hc
      have : c ∈ items.map Prod.fst := hc
      rw [hmap] at this
      obtain ⟨i, -, rfl⟩ := List.mem_map.1 this
      omega
    · rintro rfl
      have := congrArg List.length hmap
      simp at this; omega

/-- What COP-KMeans does on a non-empty manager. -/
theorem kmCluster_ok {env : KMeansEnv α V δ} (he : env.Ok) {m : Manager α} (h : Inv m) {vectors : Dict α V}
    (hv : HasVectors m vectors) (hne : m.managed ≠ []) {nb : Int} (hnb : 2 ≤ nb) {maxIteration : Nat}
    (hmax : 1 ≤ maxIteration) :
    ∃ new r cs, kmCluster env maxIteration m (some vectors) (some nb) = .ok (r, cs) ∧
      PassInv m ([], new) ∧ renameClusters new = .ok r ∧ kmCentroids env m vectors new = .ok cs := by
  have hlen : 0 < m.managed.length := List.length_pos_iff.2 hne
  obtain ⟨cs0, e0, hc0⟩ := kmInitialize_ok he hv (nb := min nb.toNat m.managed.length) (by omega) (by omega)
  obtain ⟨left, rfl⟩ : ∃ left, maxIteration = left + 1 := ⟨maxIteration - 1, by omega⟩
  obtain ⟨new, cs, e1, hd⟩ := kmLoop_ok he h hv hne (min nb.toNat m.managed.length) (left := left)
    (clusters := dofList (m.managed.map fun x => (x, -1))) hc0 (.inl (by
      intro v hv
      obtain ⟨k, hk⟩ := (mem_dvals (nodup_dkeys_dofList _)).1 hv
      have := mem_of_dget?_dofList hk
      obtain ⟨x, -, hx⟩ := List.mem_map.1 this
      cases hx; rfl))
  have hk : dkeys new = m.managed := hd.pass.keys
  obtain ⟨r, e2, -⟩ := rename_managed h hk
  obtain ⟨fc, e3, -⟩ := kmCentroids_ok he h hv hk
  refine ⟨new, r, fc, ?_, hd.pass, e2, e3⟩
  unfold kmCluster
  simp only
  rw [if_neg (by omega)]
  unfold kmCOP
  rw [e0]
  simp only [bind, Except.bind]
  rw [e1]
  simp only [e2, e3]
  rfl

theorem kmInit_pos {model : String} {it : Int} {tol : Bool} {k : Nat} (h : kmInit model it tol = .ok k) : 1 ≤ k := by
  unfold kmInit at h
  split at h
  · cases h
  · split at h
    · cases h
    · split at h
      · cases h
      · cases h; omega

theorem kmCluster_empty (env : KMeansEnv α V δ) {maxIteration : Nat} (hi : 1 ≤ maxIteration) {m : Manager α}
    (hm : m.managed = []) (vectors : Dict α V) {nb : Int} (hnb : 2 ≤ nb) :
    kmCluster env maxIteration m (some vectors) (some nb) = .error (.valueError "vstack") := by
  obtain ⟨left, rfl⟩ : ∃ left, maxIteration = left + 1 := ⟨maxIteration - 1, by omega⟩
  unfold kmCluster
  simp only
  rw [if_neg (by omega), hm]
  unfold kmCOP kmInitialize
  have hpass : ∀ c, kmPass env m vectors 0 c = .error (.valueError "vstack") := by
    intro c
    unfold kmPass kmDistances
    rw [hm]; rfl
  simp only [List.length_nil, Nat.min_zero, List.range_zero, List.mapM_nil, bind, Except.bind, pure, Except.pure]
  rw [kmLoop.eq_def]
  simp only [bind, Except.bind, hpass]

theorem kmCluster_ok_args {env : KMeansEnv α V δ} {maxIteration : Nat} {m : Manager α} {vectors : Dict α V}
    {nb : Option Int} {r : Dict α Int} {cs : Dict Int V}
    (hr : kmCluster env maxIteration m (some vectors) nb = .ok (r, cs)) (hi : 1 ≤ maxIteration) :
    ∃ n, nb = some n ∧ 2 ≤ n ∧ m.managed ≠ [] := by
  cases nb with
  | none => cases hr
  | some n =>
    by_cases hn : n < 2
    · unfold kmCluster at hr
      simp only at hr
      rw [if_pos hn] at hr; cases hr
    · refine ⟨n, rfl, by omega, fun hm => ?_⟩
      rw [kmCluster_empty env hi hm vectors (by omega)] at hr; cases hr

theorem RunCentroids.inv {env : KMeansEnv α V δ} (he : env.Ok) {m : Manager α} (h : Inv m) {vectors : Dict α V}
    (hv : HasVectors m vectors) {nb : Nat} (hnb : 0 < nb) (hnb' : nb ≤ m.managed.length) {centroids : Dict Int V}
    (hc : RunCentroids env m vectors nb centroids) : CentroidsInv centroids := by
  induction hc with
  | init e =>
    obtain ⟨cs, e1, e2⟩ := kmInitialize_ok he hv hnb' hnb
    rw [e] at e1; cases e1; exact e2
  | pass _ e ih =>
    have hne : m.managed ≠ [] := List.length_pos_iff.1 (by omega)
    obtain ⟨new, cs, e1, e2⟩ := kmPass_ok he h hv hne nb ih
    rw [e] at e1; cases e1; exact e2.cent

theorem InPass.inv {env : KMeansEnv α V δ} {m : Manager α} (h : Inv m) {vectors : Dict α V}
    (hv : HasVectors m vectors) {nb : Nat} {centroids : Dict Int V} (hc : CentroidsInv centroids)
    {dist : Dict α (Dict Int δ)} (ht : TableOk env m vectors centroids dist) {s : List α × Dict α Int}
    (hs : InPass m nb centroids dist s) : PassInv m s := by
  induction hs with
  | start => exact passInv_start h
  | @step s x s' _ hl e ih =>
    obtain ⟨row, hr1, hr2⟩ := ht.row hv (ih.sub x (List.mem_of_getLast? hl))
    obtain ⟨s'', e1, e2, -⟩ := ih.step (todo := s.1) (new := s.2) (nb := nb) h hl hc.nonneg hr1 hr2
    rw [e] at e1; cases e1; exact e2

theorem kmAssign_nearest {env : KMeansEnv α V δ} (he : env.Ok) {m : Manager α} (h : Inv m)
    {vectors : Dict α V} (hv : HasVectors m vectors) {nb : Nat} (hnb : 0 < nb) (hnb' : nb ≤ m.managed.length)
    {centroids : Dict Int V} (hc : RunCentroids env m vectors nb centroids) {dist : Dict α (Dict Int δ)}
    (hd : kmDistances env m vectors centroids = .ok dist) {s : List α × Dict α Int} (hs : InPass m nb centroids dist s)
    {x : α} (hx : s.1.getLast? = some x) :
    ∃ s' label, kmAssign m m.managed nb centroids dist x (s.1.dropLast, s.2) = .ok s' ∧
      dget? s.2 x = some (-1) ∧ dget? s'.2 x = some label ∧
      ((∃ c, Admissible m centroids s.2 x c) → Admissible m centroids s.2 x label ∧
        ∀ c, Admissible m centroids s.2 x c → ∀ v w w', dget? vectors x = some v → dget? centroids label = some w →
          dget? centroids c = some w' → env.metric v w ≤ env.metric v w') ∧
      ((¬ ∃ c, Admissible m centroids s.2 x c) → label ∉ dkeys centroids ∧ ∀ y, dget? s.2 y ≠ some label) ∧
      (∀ y, m.getInferred x y = .ok (some .mustLink) → dget? s'.2 y = some label) ∧
      (∀ y, m.getInferred x y ≠ .ok (some .mustLink) → dget? s'.2 y = dget? s.2 y) := by
  have hne : m.managed ≠ [] := List.length_pos_iff.1 (by omega)
  have hci := hc.inv he h hv hnb hnb'
  obtain ⟨dist', e1, ht⟩ := kmDistances_ok (env := env) h hv hne hci
  rw [hd] at e1; cases e1
  have hp := hs.inv h hv hci ht
  have hxt := List.mem_of_getLast? hx
  have hxm := hp.sub x hxt
  obtain ⟨v, hxv⟩ := hv x hxm
  obtain ⟨row, hr1, hr2, hr3⟩ := ht x hxm v hxv
  have hrow : ∀ c ∈ dkeys centroids, c ∈ dkeys row := fun c hc => by rw [hr2]; exact hc
  have hcen' : -1 ∉ dkeys centroids := fun hc => by have := hci.nonneg _ hc; omega
  obtain ⟨label, s', e2, e3, -, -, -, e5, e6⟩ := kmAssign_ok (nb := nb) h (s := (s.1.dropLast, s.2)) hp.keys
    (hp.nodup.sublist (List.dropLast_sublist _)) hxm hci.nonneg hr1 hrow
  obtain ⟨label', e3', hA, hB⟩ := kmChoose_ok (nb := nb) h hp.keys hxm hcen' hr1 hrow
  have : label' = label := by
    have e3 : kmChoose m m.managed nb centroids dist s.2 x = .ok label := e3
    rw [e3'] at e3; exact Except.ok.inj e3
  subst this
  refine ⟨s', label', e2, (hp.todo x hxm).2 hxt, e5 x hxm (MustLinked.refl m x), ?_, ?_, ?_, ?_⟩
  · intro hex
    obtain ⟨h1, d, h2, h3⟩ := hA hex
    refine ⟨h1, fun c hcA v' w w' hv' hw hw' => ?_⟩
    rw [hxv] at hv'; cases hv'
    have := hr3 _ _ hw
    rw [h2] at this; cases this
    exact h3 c hcA _ (hr3 _ _ hw')
  · intro hno
    obtain ⟨h1, h2⟩ := hB hno
    have hfresh : ∀ y, dget? s.2 y ≠ some label' := fun y hy => lt_irrefl _ (h1 y _ hy)
    refine ⟨fun hmem => hno ⟨label', hmem, fun y _ hy => absurd hy (hfresh y)⟩, hfresh⟩
  · intro y hy
    obtain ⟨-, hym⟩ := mem_of_getInferred h hy
    exact e5 y hym ((inferred_ml_iff h hxm hym).1 hy)
  · intro y hy
    apply e6
    intro hl
    exact hy ((inferred_ml_iff h hxm (hl.mem h hxm)).2 hl)

end Verif
