import Verif.Model.Spectral
import Verif.Proofs.Matrix

/-
Proofs about `SpectralConstrainedClustering`.
-/

namespace Verif

section
variable {α V κ : Type} [LinearOrder α]

/-! ### Labels given by index -/

theorem dget?_zip {l : List α} {r : List Int} (hn : l.Nodup) {i : Nat} {x : α} (hx : l[i]? = some x) :
    dget? (l.zip r) x = r[i]? := by
  induction l generalizing r i with
  | nil => simp at hx
  | cons a l ih =>
    cases r with
    | nil => simp [dget?]
    | cons c r =>
      rw [List.zip_cons_cons]
      cases i with
      | zero =>
        simp only [List.getElem?_cons_zero, Option.some.injEq] at hx
        subst hx
        simp [dget?]
      | succ i =>
        simp only [List.getElem?_cons_succ] at hx ⊢
        have hmem : x ∈ l := List.mem_of_getElem? hx
        have hne : a ≠ x := by
          rintro rfl
          exact (List.nodup_cons.1 hn).1 hmem
        simp only [dget?, if_neg hne]
        exact ih (List.nodup_cons.1 hn).2 hx

theorem dkeys_zip {l : List α} {r : List Int} (h : l.length ≤ r.length) : dkeys (l.zip r) = l := by
  unfold dkeys
  exact List.map_fst_zip h

theorem specItems_ok {l : List α} {labels : List Int} (h : l.length ≤ labels.length) :
    l.zipIdx.mapM (specEntry labels) = .ok (l.zip labels) := by
  rw [mapM_ok_iff, List.forall₂_iff_get]
  refine ⟨by simp; omega, fun i h1 h2 => ?_⟩
  simp only [List.length_zipIdx] at h1
  have h3 : i < labels.length := by omega
  simp [specEntry, h3]

theorem specItems_short {l : List α} {labels : List Int} (h : labels.length < l.length) :
    l.zipIdx.mapM (specEntry labels) = .error .indexError := by
  have key : ∀ (l : List α) (k : Nat), labels.length < k + l.length → l ≠ [] →
      (l.zipIdx k).mapM (specEntry labels) = .error .indexError := by
    intro l
    induction l with
    | nil => intro _ _ h; exact absurd rfl h
    | cons a l ih =>
      intro k hk _
      rw [List.zipIdx_cons, List.mapM_cons]
      by_cases hlt : k < labels.length
      · have hl : l ≠ [] := by
          rintro rfl
          simp at hk; omega
        rw [ih (k + 1) (by simp at hk; omega) hl]
        simp [specEntry, hlt, bind, Except.bind]
      · simp [specEntry, List.getElem?_eq_none (Nat.le_of_not_lt hlt), bind, Except.bind]
  exact key l 0 (by omega) (by rintro rfl; simp at h)

theorem specItems_length {l : List α} {labels : List Int} {items : List (α × Int)}
    (h : l.zipIdx.mapM (specEntry labels) = .ok items) : l.length ≤ labels.length := by
  by_contra hc
  rw [specItems_short (by omega)] at h
  cases h

/-! ### The matrix -/

/-- The entry that the loops should write. -/
noncomputable def specTarget (env : SpecEnv V κ) (m : Manager α) (f : Nat → Nat → κ) (i j : Nat) : κ :=
  match m.managed[i]?, m.managed[j]? with
  | some x, some y =>
    open Classical in if MustLinked m x y then env.one else if CannotLinked m x y then env.zero else f i j
  | _, _ => f i j

theorem specStep_ok {env : SpecEnv V κ} {m : Manager α} (h : Inv m) {S : Mat κ} {f g : Nat → Nat → κ}
    (hS : Entries m.managed.length S g) {i j : Nat} {x y : α} (hx : m.managed[i]? = some x) (hy : m.managed[j]? = some y)
    (hg : g i j = f i j ∨ j < i) (hg' : g j i = f j i ∨ j < i) :
    ∃ S', specStep env m (x, i) S (y, j) = .ok S' ∧
      Entries m.managed.length S' (fun a b =>
        if i ≤ j ∧ ((a = i ∧ b = j) ∨ (a = j ∧ b = i)) then specTarget env m f a b else g a b) := by
  have hi : i < m.managed.length := (List.getElem?_eq_some_iff.1 hx).1
  have hj : j < m.managed.length := (List.getElem?_eq_some_iff.1 hy).1
  have hxm : x ∈ m.managed := List.mem_of_getElem? hx
  have hym : y ∈ m.managed := List.mem_of_getElem? hy
  unfold specStep
  by_cases hlt : j < i
  · rw [if_pos hlt]
    refine ⟨S, rfl, fun a b => ?_⟩
    rw [hS a b]
    have : ¬ i ≤ j := by omega
    simp [this]
  · rw [if_neg hlt]
    have hij : i ≤ j := by omega
    have hg := hg.resolve_right hlt
    have hg' := hg'.resolve_right hlt
    obtain ⟨o, ho, hocl, homl⟩ := isCL_eq h hxm hym
    rw [ho]
    -- the two writes of one value
    have write : ∀ v, specTarget env m f i j = v → specTarget env m f j i = v →
        ∃ S', (mset S i j v >>= fun S1 => mset S1 j i v) = .ok S' ∧
          Entries m.managed.length S' (fun a b =>
            if i ≤ j ∧ ((a = i ∧ b = j) ∨ (a = j ∧ b = i)) then specTarget env m f a b else g a b) := by
      intro v hv1 hv2
      obtain ⟨S1, e1, h1⟩ := entries_mset hS hi hj v
      obtain ⟨S2, e2, h2⟩ := entries_mset h1 hj hi v
      refine ⟨S2, by rw [e1]; exact e2, fun a b => ?_⟩
      rw [h2 a b]
      congr 2
      beta_reduce
      by_cases c1 : a = j ∧ b = i
      · obtain ⟨rfl, rfl⟩ := c1
        simp [hij, hv2]
      · rw [if_neg c1]
        by_cases c2 : a = i ∧ b = j
        · obtain ⟨rfl, rfl⟩ := c2
          simp [hij, hv1]
        · rw [if_neg c2, if_neg]
          rintro ⟨-, c | c⟩
          · exact c2 c
          · exact c1 c
    have htij : specTarget env m f i j =
        open Classical in if MustLinked m x y then env.one else if CannotLinked m x y then env.zero else f i j := by
      simp only [specTarget, hx, hy]
    have htji : specTarget env m f j i =
        open Classical in if MustLinked m x y then env.one else if CannotLinked m x y then env.zero else f j i := by
      have c1 : MustLinked m y x ↔ MustLinked m x y := ⟨fun c => c.symm h, fun c => c.symm h⟩
      have c2 : CannotLinked m y x ↔ CannotLinked m x y := ⟨fun c => c.symm h, fun c => c.symm h⟩
      simp only [specTarget, hx, hy]
      by_cases d1 : MustLinked m x y
      · rw [if_pos d1, if_pos (c1.2 d1)]
      · rw [if_neg d1, if_neg (fun d => d1 (c1.1 d))]
        by_cases d2 : CannotLinked m x y
        · rw [if_pos d2, if_pos (c2.2 d2)]
        · rw [if_neg d2, if_neg (fun d => d2 (c2.1 d))]
    simp only [bind, Except.bind] at write ⊢
    by_cases hml : o = some .mustLink
    · rw [if_pos hml]
      have : MustLinked m x y := homl.1 hml
      exact write env.one (by rw [htij, if_pos this]) (by rw [htji, if_pos this])
    · rw [if_neg hml]
      have hnm : ¬ MustLinked m x y := fun c => hml (homl.2 c)
      by_cases hcl : o = some .cannotLink
      · rw [if_pos hcl]
        have : CannotLinked m x y := hocl.1 hcl
        exact write env.zero (by rw [htij, if_neg hnm, if_pos this]) (by rw [htji, if_neg hnm, if_pos this])
      · rw [if_neg hcl]
        have hnc : ¬ CannotLinked m x y := fun c => hcl (hocl.2 c)
        refine ⟨S, rfl, fun a b => ?_⟩
        rw [hS a b]
        congr 2
        beta_reduce
        by_cases c1 : a = i ∧ b = j
        · obtain ⟨rfl, rfl⟩ := c1
          rw [if_pos ⟨hij, .inl ⟨rfl, rfl⟩⟩, htij, if_neg hnm, if_neg hnc, hg]
        · by_cases c2 : a = j ∧ b = i
          · obtain ⟨rfl, rfl⟩ := c2
            rw [if_pos ⟨hij, .inr ⟨rfl, rfl⟩⟩, htji, if_neg hnm, if_neg hnc, hg']
          · rw [if_neg]
            rintro ⟨-, c | c⟩
            · exact c1 c
            · exact c2 c

/-- The pairs already treated before the pair `(i, j)`. -/
def specDone (i j a b : Nat) : Prop := min a b < i ∨ (min a b = i ∧ max a b < j)

theorem specImprint_ok {env : SpecEnv V κ} {m : Manager α} (h : Inv m) {S : Mat κ} {f : Nat → Nat → κ}
    (hS : Entries m.managed.length S f) :
    ∃ S', specImprint env m S = .ok S' ∧ Entries m.managed.length S' (specTarget env m f) := by
  classical
  unfold specImprint
  have outer := foldlM_zipIdx_inv (l := m.managed)
    (f := fun S p => m.managed.zipIdx.foldlM (specStep env m p) S) (s := S)
    (fun i S' => Entries m.managed.length S' (fun a b => if specDone i 0 a b then specTarget env m f a b else f a b))
  have hfin := outer ?h0 ?hs
  · obtain ⟨S', e, hE⟩ := hfin
    refine ⟨S', e, fun a b => ?_⟩
    rw [hE a b]
    by_cases hab : a < m.managed.length ∧ b < m.managed.length
    · rw [if_pos hab, if_pos hab]
      beta_reduce
      rw [if_pos (.inl (by omega))]
    · rw [if_neg hab, if_neg hab]
  · intro a b
    rw [hS a b]
    by_cases hab : a < m.managed.length ∧ b < m.managed.length
    · rw [if_pos hab, if_pos hab]
      beta_reduce
      rw [if_neg]
      rintro (c | ⟨-, c⟩) <;> omega
    · rw [if_neg hab, if_neg hab]
  · intro i x S1 hx h1
    have inner := foldlM_zipIdx_inv (l := m.managed) (f := specStep env m (x, i)) (s := S1)
      (fun j S' => Entries m.managed.length S' (fun a b => if specDone i j a b then specTarget env m f a b else f a b)) h1
    obtain ⟨S2, e2, h2⟩ := inner (fun j y S3 hy h3 => by
      obtain ⟨S4, e4, h4⟩ := specStep_ok (env := env) (f := f) h h3 hx hy
        (by
          by_cases c : j < i
          · exact .inr c
          · left; rw [if_neg]; rintro (c | ⟨-, c⟩) <;> omega)
        (by
          by_cases c : j < i
          · exact .inr c
          · left; rw [if_neg]; rintro (c | ⟨-, c⟩) <;> omega)
      refine ⟨S4, e4, fun a b => ?_⟩
      rw [h4 a b]
      congr 2
      beta_reduce
      by_cases c1 : i ≤ j ∧ ((a = i ∧ b = j) ∨ (a = j ∧ b = i))
      · rw [if_pos c1, if_pos]
        obtain ⟨c0, ⟨rfl, rfl⟩ | ⟨rfl, rfl⟩⟩ := c1 <;> exact .inr ⟨by omega, by omega⟩
      · rw [if_neg c1]
        by_cases c2 : specDone i j a b
        · rw [if_pos c2, if_pos]
          rcases c2 with c2 | c2
          · exact .inl c2
          · exact .inr ⟨c2.1, by omega⟩
        · rw [if_neg c2, if_neg]
          rintro (c3 | ⟨c3, c4⟩)
          · exact c2 (.inl c3)
          · apply c1
            have c5 : ¬ max a b < j := fun c => c2 (.inr ⟨c3, c⟩)
            refine ⟨by omega, ?_⟩
            rcases Nat.le_total a b with hle | hle
            · left; omega
            · right; omega)
    refine ⟨S2, e2, fun a b => ?_⟩
    rw [h2 a b]
    by_cases hab : a < m.managed.length ∧ b < m.managed.length
    · rw [if_pos hab, if_pos hab]
      congr 1
      beta_reduce
      by_cases c : specDone i m.managed.length a b
      · rw [if_pos c, if_pos]
        rcases c with c | c <;> left <;> omega
      · rw [if_neg c, if_neg]
        rintro (c1 | ⟨-, c1⟩)
        · apply c
          by_cases c2 : min a b < i
          · exact .inl c2
          · exact .inr ⟨by omega, by omega⟩
        · omega
    · rw [if_neg hab, if_neg hab]

end

end Verif
