import Verif.Proofs.MpcExact

/-
MPC-KMeans in exact arithmetic: the logarithm of the determinant has no effect.
-/

namespace Verif

theorem mapM_shift {ι σ τ : Type} {F : ι → Except PyErr τ} {G : ι → Except PyErr σ} {g : σ → τ} {l : List ι}
    (h : ∀ a, F a = (G a).map g) : l.mapM F = (l.mapM G).map (List.map g) := by
  induction l with
  | nil => rfl
  | cons a l ih =>
    rw [List.mapM_cons, List.mapM_cons, h a, ih]
    cases G a with
    | error e => rfl
    | ok b =>
      cases l.mapM G with
      | error e => rfl
      | ok bs => rfl

section
variable {κ : Type} [Field κ] [LinearOrder κ] [IsStrictOrderedRing κ] {D : Nat}

theorem npArgmin_shift (c : κ) (l : List κ) : npArgmin (l.map fun a => a + c) = npArgmin l := by
  by_cases hl : l = []
  · subst hl; rfl
  · obtain ⟨k, e, -, a, ha, h1, h2⟩ := npArgmin_ok hl
    obtain ⟨k', e', -, a', ha', h1', h2'⟩ := npArgmin_ok (l := l.map fun a => a + c) (by simpa using hl)
    rw [List.getElem?_map, Option.map_eq_some_iff] at ha'
    obtain ⟨b, hb, rfl⟩ := ha'
    rw [e, e']
    congr 1
    have hm : ∀ (d : Nat) (z : κ), l[d]? = some z → (l.map fun a => a + c)[d]? = some (z + c) := by
      intro d z hz
      rw [List.getElem?_map, hz]; rfl
    rcases Nat.lt_trichotomy k k' with hlt | h | hlt
    · have s1 := h2' k _ hlt (hm k a ha)
      have s2 := h1 k' b hb
      linarith
    · exact h.symm
    · have s1 := h2 k' b hlt hb
      have s2 := h1' k _ (hm k a ha)
      linarith

variable (ch : MpcChoices κ D) (w : κ) (f g : (Fin D → κ) → κ)

theorem mpcObjective_logDet (A : Fin D → κ) (far : κ) (X centers : List (Fin D → κ)) (ml cl : Graph) (labels : List Int) (i c : Nat) :
    mpcObjective (mpcExact { ch with logDet := f } w) A far X centers ml cl labels i c =
      (mpcObjective (mpcExact { ch with logDet := g } w) A far X centers ml cl labels i c).map fun a => a + (g A - f A) := by
  obtain ⟨F, hF, hF'⟩ : ∃ F : List Nat → Except PyErr κ,
      (∀ s, ((mpcExact { ch with logDet := f } w).enum s).foldlM (mpcTermM (mpcExact { ch with logDet := f } w) A X labels i c)
        (mpcExact { ch with logDet := f } w).zero = F s) ∧
      ∀ s, ((mpcExact { ch with logDet := g } w).enum s).foldlM (mpcTermM (mpcExact { ch with logDet := g } w) A X labels i c)
        (mpcExact { ch with logDet := g } w).zero = F s := ⟨_, fun _ => rfl, fun _ => rfl⟩
  obtain ⟨G, hG, hG'⟩ : ∃ G : List Nat → Except PyErr κ,
      (∀ s, ((mpcExact { ch with logDet := f } w).enum s).foldlM (mpcTermC (mpcExact { ch with logDet := f } w) A far X labels i c)
        (mpcExact { ch with logDet := f } w).zero = G s) ∧
      ∀ s, ((mpcExact { ch with logDet := g } w).enum s).foldlM (mpcTermC (mpcExact { ch with logDet := g } w) A far X labels i c)
        (mpcExact { ch with logDet := g } w).zero = G s := ⟨_, fun _ => rfl, fun _ => rfl⟩
  unfold mpcObjective
  simp only [bind, Except.bind, hF, hF', hG, hG']
  cases lget X i with
  | error e => rfl
  | ok x =>
    cases lget centers c with
    | error e => rfl
    | ok y =>
      cases dget ml i with
      | error e => rfl
      | ok s1 =>
        simp only
        cases F s1 with
        | error e => rfl
        | ok tm =>
          cases dget cl i with
          | error e => rfl
          | ok s2 =>
            simp only
            cases G s2 with
            | error e => rfl
            | ok tc =>
              show Except.ok (((mpcDist A x y - f A) + tm) + tc) = Except.ok ((((mpcDist A x y - g A) + tm) + tc) + (g A - f A))
              congr 1
              ring

theorem mpcAssignStep_logDet (A : Fin D → κ) (far : κ) (X centers : List (Fin D → κ)) (ml cl : Graph) :
    mpcAssignStep (mpcExact { ch with logDet := f } w) A far X centers ml cl =
      mpcAssignStep (mpcExact { ch with logDet := g } w) A far X centers ml cl := by
  funext labels i
  unfold mpcAssignStep
  rw [mapM_shift (G := mpcObjective (mpcExact { ch with logDet := g } w) A far X centers ml cl labels i)
    (g := fun a => a + (g A - f A)) fun c => mpcObjective_logDet ch w f g A far X centers ml cl labels i c]
  simp only [bind, Except.bind]
  cases (List.range centers.length).mapM (mpcObjective (mpcExact { ch with logDet := g } w) A far X centers ml cl labels i) with
  | error e => rfl
  | ok values =>
    simp only [Except.map]
    rw [npArgmin_shift]

theorem mpcAssign_logDet (A : Fin D → κ) (far : κ) (X centers : List (Fin D → κ)) (ml cl : Graph) (nb it : Nat) :
    mpcAssign (mpcExact { ch with logDet := f } w) A far X centers ml cl nb it =
      mpcAssign (mpcExact { ch with logDet := g } w) A far X centers ml cl nb it := by
  unfold mpcAssign
  rw [mpcAssignStep_logDet ch w f g]
  rfl

theorem mpcLoop_logDet (X : List (Fin D → κ)) (ml cl : Graph) (nb left it : Nat) (centers : List (Fin D → κ)) (A : Fin D → κ)
    (labels : List Int) : mpcLoop (mpcExact { ch with logDet := f } w) X ml cl nb left it centers A labels =
      mpcLoop (mpcExact { ch with logDet := g } w) X ml cl nb left it centers A labels := by
  induction left generalizing it centers A labels with
  | zero => rfl
  | succ left ih =>
    unfold mpcLoop
    simp only [bind, Except.bind]
    rw [show mpcFarPair (mpcExact { ch with logDet := f } w) A X = mpcFarPair (mpcExact { ch with logDet := g } w) A X from rfl]
    cases mpcFarPair (mpcExact { ch with logDet := g } w) A X with
    | error e => rfl
    | ok far =>
      simp only
      rw [mpcAssign_logDet ch w f g]
      cases mpcAssign (mpcExact { ch with logDet := g } w) A far.2.2 X centers ml cl nb it with
      | error e => rfl
      | ok L =>
        simp only
        rw [show mpcCenters (mpcExact { ch with logDet := f } w) X L nb = mpcCenters (mpcExact { ch with logDet := g } w) X L nb from rfl,
          show (mpcExact { ch with logDet := f } w).close = (mpcExact { ch with logDet := g } w).close from rfl]
        split
        · rfl
        · exact ih _ _ _ _

end

end Verif
