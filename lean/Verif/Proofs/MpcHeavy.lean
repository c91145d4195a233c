import Verif.Proofs.MpcExact

/-
MPC-KMeans in exact arithmetic: heavy must-links.
-/

namespace Verif

section
variable {κ : Type} [Field κ] [LinearOrder κ] [IsStrictOrderedRing κ] {D : Nat}

theorem foldl_term_ge {l : List Nat} {P : Nat → Prop} [DecidablePred P] {f : Nat → κ} (h : ∀ j ∈ l, P j → 0 ≤ f j) (t : κ) :
    t ≤ l.foldl (fun t j => if P j then t + f j else t) t ∧
      ∀ j ∈ l, P j → t + f j ≤ l.foldl (fun t j => if P j then t + f j else t) t := by
  induction l generalizing t with
  | nil => exact ⟨le_rfl, by simp⟩
  | cons a l ih =>
    rw [List.foldl_cons]
    have ih' := ih (fun j hj => h j (by simp [hj]))
    by_cases ha : P a
    · rw [if_pos ha]
      have h0 := h a (by simp) ha
      refine ⟨le_trans (le_add_of_nonneg_right h0) (ih' _).1, fun j hj hp => ?_⟩
      rcases List.mem_cons.1 hj with rfl | hj
      · exact (ih' _).1
      · refine le_trans ?_ ((ih' (t + f a)).2 j hj hp)
        linarith
    · rw [if_neg ha]
      refine ⟨(ih' t).1, fun j hj hp => ?_⟩
      rcases List.mem_cons.1 hj with rfl | hj
      · exact absurd hp ha
      · exact (ih' t).2 j hj hp

omit [IsStrictOrderedRing κ] in
theorem FirstNearest.unique {A : Fin D → κ} {centers : List (Fin D → κ)} {x : Fin D → κ} {c d : Nat} (h1 : FirstNearest A centers x c)
    (h2 : FirstNearest A centers x d) : c = d := by
  obtain ⟨y, hy, by'⟩ := h1
  obtain ⟨z, hz, bz⟩ := h2
  rcases Nat.lt_trichotomy c d with h | h | h
  · exact absurd ((bz c y hy).2 h) (not_lt.2 (by' d z hz).1)
  · exact h
  · exact absurd ((by' d z hz).2 h) (not_lt.2 (bz c y hy).1)

/-- Without cannot-links, when violating a must-link between different vectors costs more than any distance to a
centre, the arg-min loop satisfies every must-link. -/
theorem assign_heavy {ch : MpcChoices κ D} {w : κ} (hw : 0 ≤ w) (henum : SetOrder ch.enum) {n : Nat} {X : List (Fin D → κ)}
    {ml cl : Graph} {R S : Nat → Nat → Prop} (hr : MpcReady n X ml cl R S) (hsymm : ∀ i j, R i j → R j i)
    (htrans : ∀ i j k, R i j → R j k → R i k) (hS : ∀ i j, ¬ S i j) {A : Fin D → κ} (hA : ∀ d, 0 < A d) {far : κ}
    {centers : List (Fin D → κ)} (hne : centers ≠ []) {o : List Nat} (ho : o.Perm (List.range n))
    (hheavy : ∀ (i j : Nat) (x y : Fin D → κ), R i j → X[i]? = some x → X[j]? = some y → x ≠ y → ∀ z ∈ centers,
      mpcDist A x z < 2 * w * mpcDist A x y) :
    ∃ t : List Int, o.foldlM (mpcAssignStep (mpcExact ch w) A far X centers ml cl) (List.replicate n (-1)) = .ok t ∧
      t.length = n ∧ ∀ i j, R i j → t[i]? = t[j]? := by
  obtain ⟨t, e, hl, hout, hsplit⟩ := mpcAssignLoop_ok (env := mpcExact ch w) henum hr A far hne (o := o)
    (ho.nodup_iff.2 List.nodup_range) (fun i hi => List.mem_range.1 (ho.mem_iff.1 hi)) (s := List.replicate n (-1)) (by simp)
  refine ⟨t, e, hl, ?_⟩
  have key : ∀ p q, o = p ++ q → (∀ i ∈ p, ∀ j ∈ p, R i j → t[i]? = t[j]?) ∧
      ∀ i ∈ p, ∀ x, X[i]? = some x → (∀ j ∈ p, R i j → X[j]? = some x) → ∃ c : Nat, t[i]? = some (c : Int) ∧ FirstNearest A centers x c := by
    intro p
    induction p using List.reverseRecOn with
    | nil => intro q _; exact ⟨by simp, by simp⟩
    | append_singleton p k ih =>
      intro q hpq
      have hpq' : o = p ++ k :: q := by rw [hpq]; simp
      obtain ⟨iha, ihb⟩ := ih (k :: q) hpq'
      obtain ⟨L, hL, hLj, c, htc, hc, a, hca, hmin⟩ := hsplit p k q hpq'
      have hkn : k < n := List.mem_range.1 (ho.mem_iff.1 (by rw [hpq']; simp))
      have hpn : ∀ j ∈ p, j < n := fun j hj => List.mem_range.1 (ho.mem_iff.1 (by rw [hpq']; simp [hj]))
      have hXn : ∀ j, j < n → ∃ y, X[j]? = some y := fun j hj => ⟨_, List.getElem?_eq_getElem (by rw [hr.len]; exact hj)⟩
      obtain ⟨x, hXk⟩ := hXn k hkn
      have hLv : ∀ j, (L[j]?).getD (-1) = if j ∈ p then (t[j]?).getD (-1) else -1 := by
        intro j
        rw [hLj j]
        by_cases hj : j ∈ p
        · simp only [hj, if_true]
        · simp only [hj, if_false, List.getElem?_replicate]
          split <;> rfl
      have htj : ∀ j ∈ p, ∃ v : Int, t[j]? = some v ∧ 0 ≤ v := by
        intro j hj
        obtain ⟨p1, p2, rfl⟩ := List.append_of_mem hj
        obtain ⟨-, -, -, c', hc', -⟩ := hsplit p1 j (p2 ++ k :: q) (by rw [hpq']; simp)
        exact ⟨_, hc', Int.natCast_nonneg _⟩
      have hval : ∀ (d : Nat) (z : Fin D → κ), centers[d]? = some z →
          ∃ b, mpcObjective (mpcExact ch w) A far X centers ml cl L k d = .ok b ∧ mpcDist A x z - ch.logDet A ≤ b ∧
          (∀ j ∈ p, R k j → t[j]? ≠ some (d : Int) → ∀ y, X[j]? = some y → mpcDist A x z - ch.logDet A + 2 * w * mpcDist A x y ≤ b) ∧
          ((∀ j ∈ p, R k j → t[j]? ≠ some (d : Int) → X[j]? = some x) → b = mpcDist A x z - ch.logDet A) := by
        intro d z hz
        obtain ⟨x', z', M, C, hx', hz', -, -, hMR, hCS, hv⟩ := mpcObjective_ok (env := mpcExact ch w) henum hr A far
          (centers := centers) hL hkn (List.getElem?_eq_some_iff.1 hz).1
        rw [hXk] at hx'
        cases hx'
        rw [hz] at hz'
        cases hz'
        have hC : C = [] := by
          by_contra hne
          obtain ⟨j, hj⟩ := List.exists_mem_of_ne_nil _ hne
          exact hS k j ((hCS j).1 hj)
        subst hC
        obtain ⟨g1, g2⟩ := foldl_term_ge (l := M) (P := fun j => 0 ≤ (L[j]?).getD (-1) ∧ (L[j]?).getD (-1) ≠ (d : Int))
          (f := fun j => 2 * w * mpcDist A x ((X[j]?).getD x))
          (fun j _ _ => mul_nonneg (mul_nonneg (by norm_num) hw) (mpcDist_nonneg hA _ _)) 0
        refine ⟨_, hv x, ?_, fun j hj hR hjd y hy => ?_, fun hall => ?_⟩
        · exact le_trans (le_add_of_nonneg_right g1) (le_of_eq (add_zero _).symm)
        · obtain ⟨v, hv', hv0⟩ := htj j hj
          have := g2 j ((hMR j).2 hR) (by
            rw [hLv j, if_pos hj, hv']
            exact ⟨hv0, fun h => hjd (by rw [hv']; exact congrArg some h)⟩)
          rw [hy] at this
          refine le_trans (add_le_add_right (le_trans (le_of_eq (zero_add _).symm) this) _) (le_of_eq (add_zero _).symm)
        · show (mpcDist A x z - ch.logDet A + M.foldl (fun t j => if 0 ≤ (L[j]?).getD (-1) ∧ (L[j]?).getD (-1) ≠ (d : Int) then
              t + 2 * w * mpcDist A x ((X[j]?).getD x) else t) 0) + 0 = _
          rw [foldl_term_zero (fun j hj hp => ?_) 0, add_zero, add_zero]
          rw [hLv j] at hp
          by_cases hjp : j ∈ p
          · obtain ⟨v, hv', hv0⟩ := htj j hjp
            rw [if_pos hjp, hv'] at hp
            rw [hall j hjp ((hMR j).1 hj) (by rw [hv']; exact fun h => hp.2 (Option.some.inj h)), Option.getD_some, mpcDist_self, mul_zero]
          · rw [if_neg hjp] at hp
            exact absurd hp.1 (by decide)
      -- the label of `k` when the penalties of all clusters vanish
      have hfree : (∀ j ∈ p, R k j → X[j]? = some x) → FirstNearest A centers x c := by
        intro hall
        have hz := List.getElem?_eq_getElem hc
        refine ⟨_, hz, fun d z' hz' => ?_⟩
        obtain ⟨b, hb, -, -, hb'⟩ := hval c _ hz
        have hb' := hb' (fun j hj hR _ => hall j hj hR)
        obtain ⟨b2, hb2, -, -, hb2'⟩ := hval d z' hz'
        have hb2' := hb2' (fun j hj hR _ => hall j hj hR)
        rw [hca] at hb
        cases hb
        obtain ⟨b3, hb3, h1, h2⟩ := hmin d (List.getElem?_eq_some_iff.1 hz').1
        rw [hb2] at hb3
        cases hb3
        exact ⟨by linarith, fun hd => by have := h2 hd; linarith⟩
      have hk : ∀ j ∈ p, R k j → t[j]? = t[k]? := by
        intro j hj hRkj
        by_cases hall : ∀ j ∈ p, R k j → X[j]? = some x
        · obtain ⟨c', hc', hn⟩ := ihb j hj x (hall j hj hRkj) (fun i hi hR => hall i hi (htrans _ _ _ hRkj hR))
          rw [hc', htc, hn.unique (hfree hall)]
        · obtain ⟨i, hi⟩ := not_forall.1 hall
          obtain ⟨hi, hi2⟩ := Classical.not_imp.1 hi
          obtain ⟨hRki, hXi⟩ := Classical.not_imp.1 hi2
          have hij := iha i hi j hj (htrans _ _ _ (hsymm _ _ hRki) hRkj)
          rw [← hij]
          obtain ⟨p1, p2, rfl⟩ := List.append_of_mem hi
          obtain ⟨-, -, -, c0, hc0, hc0l, -⟩ := hsplit p1 i (p2 ++ k :: q) (by rw [hpq']; simp)
          rw [hc0, htc]
          by_contra hcon
          obtain ⟨y, hy⟩ := hXn i (hpn i hi)
          have hz := List.getElem?_eq_getElem hc
          have hz0 := List.getElem?_eq_getElem hc0l
          obtain ⟨b, hb, -, hb', -⟩ := hval c _ hz
          have hb' := hb' i hi hRki (by rw [hc0]; exact hcon) y hy
          obtain ⟨b2, hb2, -, -, hb2'⟩ := hval c0 _ hz0
          have hb2' := hb2' (fun j' hj' hR' hne' => absurd (by
            rw [← hc0]
            exact (iha i hi j' hj' (htrans _ _ _ (hsymm _ _ hRki) hR')).symm) hne')
          rw [hca] at hb
          cases hb
          obtain ⟨b3, hb3, h1, -⟩ := hmin c0 hc0l
          rw [hb2] at hb3
          cases hb3
          have := hheavy k i x y hRki hXk hy (fun h => hXi (by rw [hy, h])) _ (List.getElem_mem hc0l)
          have h0 := mpcDist_nonneg hA x (centers[c])
          linarith
      refine ⟨fun i hi j hj hR => ?_, fun i hi y hy hall => ?_⟩
      · rw [List.mem_append, List.mem_singleton] at hi hj
        rcases hi with hi | rfl <;> rcases hj with hj | rfl
        · exact iha i hi j hj hR
        · exact hk i hi (hsymm _ _ hR)
        · exact (hk j hj hR).symm
        · rfl
      · rw [List.mem_append, List.mem_singleton] at hi
        rcases hi with hi | rfl
        · exact ihb i hi y hy (fun j hj => hall j (by simp [hj]))
        · rw [hXk] at hy
          cases hy
          exact ⟨c, htc, hfree (fun j hj => hall j (by simp [hj]))⟩
  intro i j hR
  have hi := hr.ltR _ _ (hsymm _ _ hR)
  have hj := hr.ltR _ _ hR
  exact (key o [] (by simp)).1 i (ho.mem_iff.2 (List.mem_range.2 hi)) j (ho.mem_iff.2 (List.mem_range.2 hj)) hR

end

end Verif
