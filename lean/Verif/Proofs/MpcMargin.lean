import Verif.Spec.MpcMargin
import Verif.Proofs.MpcMove

/-
Lemmas for C127: MPC-KMeans with rounding errors.
-/

namespace Verif

/-- If the first computation succeeds, so does the second one, with a related result. -/
def Follows {ε β β' : Type} (R : β → β' → Prop) (a : Except ε β) (a' : Except ε β') : Prop := ∀ b, a = .ok b → ∃ b', a' = .ok b' ∧ R b b'

theorem Follows.bind {ε β β' γ γ' : Type} {R : β → β' → Prop} {Q : γ → γ' → Prop} {a : Except ε β} {a' : Except ε β'}
    {k : β → Except ε γ} {k' : β' → Except ε γ'} (h : Follows R a a') (hk : ∀ b b', a = .ok b → R b b' → Follows Q (k b) (k' b')) :
    Follows Q (a >>= k) (a' >>= k') := by
  cases ha : a with
  | error e => intro b hb; cases hb
  | ok b =>
    obtain ⟨b', hb', hR⟩ := h b ha
    rw [hb']
    exact hk b b' ha hR

theorem Follows.bind_both {ε β β' γ γ' : Type} {R : β → β' → Prop} {Q : γ → γ' → Prop} {a : Except ε β} {a' : Except ε β'}
    {k : β → Except ε γ} {k' : β' → Except ε γ'} (h : Follows R a a')
    (hk : ∀ b b', a = .ok b → a' = .ok b' → R b b' → Follows Q (k b) (k' b')) : Follows Q (a >>= k) (a' >>= k') := by
  have h' : Follows (fun b b' => a' = .ok b' ∧ R b b') a a' := fun b hb => by
    obtain ⟨b', e, hR⟩ := h b hb
    exact ⟨b', e, e, hR⟩
  exact h'.bind fun b b' hb hR => hk b b' hb hR.1 hR.2

theorem Follows.pure {ε β β' : Type} {R : β → β' → Prop} {b : β} {b' : β'} (h : R b b') :
    Follows (ε := ε) R (.ok b) (.ok b') := by
  intro c hc
  cases hc
  exact ⟨b', rfl, h⟩

theorem Follows.refl {ε β : Type} (a : Except ε β) : Follows (fun b b' => b' = b) a a := fun b hb => ⟨b, hb, rfl⟩

theorem Follows.mapM {ε ι β β' : Type} {R : β → β' → Prop} {f : ι → Except ε β} {f' : ι → Except ε β'} {l : List ι}
    (h : ∀ i ∈ l, Follows R (f i) (f' i)) : Follows (List.Forall₂ R) (l.mapM f) (l.mapM f') := by
  induction l with
  | nil => rw [List.mapM_nil, List.mapM_nil]; exact Follows.pure .nil
  | cons a l ih =>
    rw [List.mapM_cons, List.mapM_cons]
    exact (h a List.mem_cons_self).bind fun b b' _ hb => (ih fun i hi => h i (List.mem_cons_of_mem _ hi)).bind fun c c' _ hc =>
      Follows.pure (.cons hb hc)

theorem Follows.foldlM {ε ι σ σ' : Type} {R : σ → σ' → Prop} {k : σ → ι → Except ε σ} {k' : σ' → ι → Except ε σ'} {l : List ι}
    (h : ∀ x ∈ l, ∀ s s', R s s' → Follows R (k s x) (k' s' x)) {s : σ} {s' : σ'} (hs : R s s') :
    Follows R (l.foldlM k s) (l.foldlM k' s') := by
  induction l generalizing s s' with
  | nil => rw [List.foldlM_nil, List.foldlM_nil]; exact Follows.pure hs
  | cons a l ih =>
    rw [List.foldlM_cons, List.foldlM_cons]
    exact (h a List.mem_cons_self s s' hs).bind fun b b' _ hb => ih (fun x hx => h x (List.mem_cons_of_mem _ hx)) hb

theorem Follows.lget {β β' : Type} {R : β → β' → Prop} {l : List β} {l' : List β'} (h : List.Forall₂ R l l') (i : Nat) :
    Follows R (Verif.lget l i) (Verif.lget l' i) := by
  intro b hb
  rw [lget_ok] at hb
  obtain ⟨hi, rfl⟩ := List.getElem?_eq_some_iff.1 hb
  have hi' : i < l'.length := by rw [← h.length_eq]; exact hi
  exact ⟨l'[i], lget_ok.2 (List.getElem?_eq_getElem hi'), (List.forall₂_iff_get.1 h).2 i hi hi'⟩

section
variable {κ : Type} [Field κ] [LinearOrder κ] [IsStrictOrderedRing κ]

/-! ### The largest number -/

/-- A loop that keeps the largest number seen so far. -/
theorem best_mem {ι τ : Type} {f : ι → Except PyErr κ} {g : ι → κ → τ} {k : κ × Option τ → ι → Except PyErr (κ × Option τ)}
    (hk : ∀ s p, k s p = do let d ← f p; if s.1 < d then return (d, some (g p d)) else return s) {l : List ι} {z b : κ} {t : τ}
    (h : l.foldlM k (z, none) = .ok (b, some t)) : (∀ p ∈ l, ∃ v, f p = .ok v) ∧ ∃ p ∈ l, f p = .ok b ∧ t = g p b := by
  have key : ∀ (l : List ι) (s r : κ × Option τ), l.foldlM k s = .ok r →
      (∀ p ∈ l, ∃ v, f p = .ok v) ∧ (r = s ∨ ∃ p ∈ l, ∃ v, f p = .ok v ∧ r = (v, some (g p v))) := by
    intro l
    induction l with
    | nil =>
      intro s r h
      rw [List.foldlM_nil] at h
      cases h
      exact ⟨fun p hp => (List.not_mem_nil hp).elim, .inl rfl⟩
    | cons a l ih =>
      intro s r h
      rw [List.foldlM_cons, hk] at h
      cases hf : f a with
      | error e => rw [hf] at h; cases h
      | ok v =>
        rw [hf] at h
        have hs : ∃ s', l.foldlM k s' = .ok r ∧ (s' = s ∨ s' = (v, some (g a v))) := by
          by_cases hlt : s.1 < v
          · simp only [bind, Except.bind, if_pos hlt] at h
            exact ⟨_, h, .inr rfl⟩
          · simp only [bind, Except.bind, if_neg hlt] at h
            exact ⟨_, h, .inl rfl⟩
        obtain ⟨s', h1, h2⟩ := hs
        obtain ⟨i1, i2⟩ := ih s' r h1
        refine ⟨fun p hp => ?_, ?_⟩
        · rcases List.mem_cons.1 hp with rfl | hp
          · exact ⟨v, hf⟩
          · exact i1 p hp
        · rcases i2 with rfl | ⟨p, hp, w, hw, rfl⟩
          · rcases h2 with rfl | rfl
            · exact .inl rfl
            · exact .inr ⟨a, List.mem_cons_self, v, hf, rfl⟩
          · exact .inr ⟨p, List.mem_cons_of_mem _ hp, w, hw, rfl⟩
  obtain ⟨k1, k2⟩ := key l _ _ h
  refine ⟨k1, ?_⟩
  rcases k2 with h | ⟨p, hp, v, hv, h⟩
  · cases h
  · cases h
    exact ⟨p, hp, hv, rfl⟩

theorem best_near {ι τ : Type} {f' : ι → Except PyErr κ} {g : ι → κ → τ} {k' : κ × Option τ → ι → Except PyErr (κ × Option τ)}
    (hk : ∀ s p, k' s p = do let d ← f' p; if s.1 < d then return (d, some (g p d)) else return s) {l : List ι} {q : ι} {z v : κ}
    (hq : q ∈ l) (hv : f' q = .ok v) (hz : z < v) (hother : ∀ p ∈ l, p ≠ q → ∃ w, f' p = .ok w ∧ w < v) :
    l.foldlM k' (z, none) = .ok (v, some (g q v)) := by
  obtain ⟨s, e, hs⟩ := foldlM_inv (f := k') (L := l) (s := (z, none))
    (I := fun P s => (q ∉ P ∧ s.1 < v) ∨ s = (v, some (g q v)))
    (by
      rintro P p s ⟨Q, hL⟩ hI
      have hp : p ∈ l := by rw [hL]; simp
      rw [hk]
      by_cases hpq : p = q
      · subst hpq
        rw [hv]
        rcases hI with ⟨-, hlt⟩ | rfl
        · exact ⟨_, by simp only [bind, Except.bind, if_pos hlt]; rfl, .inr rfl⟩
        · exact ⟨_, by simp only [bind, Except.bind, lt_irrefl, if_false]; rfl, .inr rfl⟩
      · obtain ⟨w, hw, hwv⟩ := hother p hp hpq
        rw [hw]
        rcases hI with ⟨hn, hlt⟩ | rfl
        · have hn' : q ∉ P ++ [p] := by
            rw [List.mem_append, List.mem_singleton]
            rintro (h | h)
            · exact hn h
            · exact hpq h.symm
          by_cases h : s.1 < w
          · exact ⟨_, by simp only [bind, Except.bind, if_pos h]; rfl, .inl ⟨hn', hwv⟩⟩
          · exact ⟨_, by simp only [bind, Except.bind, if_neg h]; rfl, .inl ⟨hn', hlt⟩⟩
        · exact ⟨_, by simp only [bind, Except.bind, if_neg (not_lt.2 hwv.le)]; rfl, .inr rfl⟩) (.inl ⟨by simp, hz⟩)
  rcases hs with ⟨hn, -⟩ | rfl
  · exact absurd hq hn
  · exact e

omit [IsStrictOrderedRing κ] in
theorem npArgmin_unique {l : List κ} {c : Nat} (hc : c < l.length) (h : ∀ d (hd : d < l.length), d ≠ c → l[c] < l[d]) : npArgmin l = .ok c := by
  obtain ⟨k, e, hk, a, ha, hmin, -⟩ := npArgmin_ok (l := l) (by rintro rfl; simp at hc)
  rw [e]
  by_contra hne
  have hkc : k ≠ c := fun h => hne (by rw [h])
  have h1 := h k hk hkc
  have h2 := hmin c l[c] (List.getElem?_eq_getElem hc)
  rw [List.getElem?_eq_getElem hk] at ha
  cases ha
  exact absurd h1 (not_lt.2 h2)

theorem npArgmin_near {ε : κ} {l l' : List κ} (h : List.Forall₂ (fun a b => |b - a| ≤ ε) l l') (hm : LeastMargin ε l) :
    npArgmin l' = npArgmin l := by
  obtain ⟨c, hc, hc'⟩ := hm
  have hlen := h.length_eq
  have hget := (List.forall₂_iff_get.1 h).2
  simp only [List.get_eq_getElem] at hget
  have hbeat : ∀ d (hd : d < l.length), d ≠ c → l[c] + 2 * ε < l[d] := fun d hd hdc =>
    hc' d hd hdc _ (List.getElem?_eq_getElem hc) _ (List.getElem?_eq_getElem hd)
  have hε : 0 ≤ ε := le_trans (abs_nonneg _) (hget c hc (by omega))
  rw [npArgmin_unique hc fun d hd hdc => by linarith [hbeat d hd hdc], npArgmin_unique (l := l') (c := c) (by omega) fun d hd hdc => by
    have h1 := abs_le.1 (hget c hc (by omega))
    have h2 := abs_le.1 (hget d (by omega) hd)
    linarith [hbeat d (by omega) hdc]]

/-! ### Filling empty clusters -/

omit [Field κ] [LinearOrder κ] [IsStrictOrderedRing κ] in
theorem dset_near {R : κ → κ → Prop} {d d' : Dict Nat κ} (h : List.Forall₂ (fun a b => b.1 = a.1 ∧ R a.2 b.2) d d') {p : Nat} {v v' : κ} (hv : R v v') :
    List.Forall₂ (fun a b => b.1 = a.1 ∧ R a.2 b.2) (dset d p v) (dset d' p v') := by
  induction h with
  | nil => exact .cons ⟨rfl, hv⟩ .nil
  | @cons a b l l' h1 h2 ih =>
    obtain ⟨a1, a2⟩ := a
    obtain ⟨b1, b2⟩ := b
    obtain ⟨rfl, hR⟩ := h1
    unfold dset
    by_cases hp : b1 = p
    · simp only [hp, if_true]
      exact .cons ⟨rfl, hv⟩ h2
    · simp only [hp, if_false]
      exact .cons ⟨rfl, hR⟩ ih

omit [Field κ] [LinearOrder κ] [IsStrictOrderedRing κ] in
theorem dofList_near {R : κ → κ → Prop} {l l' : List (Nat × κ)} (h : List.Forall₂ (fun a b => b.1 = a.1 ∧ R a.2 b.2) l l') :
    List.Forall₂ (fun a b => b.1 = a.1 ∧ R a.2 b.2) (dofList l) (dofList l') := by
  unfold dofList
  have key : ∀ (l l' : List (Nat × κ)), List.Forall₂ (fun a b => b.1 = a.1 ∧ R a.2 b.2) l l' → ∀ d d' : Dict Nat κ,
      List.Forall₂ (fun a b => b.1 = a.1 ∧ R a.2 b.2) d d' →
      List.Forall₂ (fun a b => b.1 = a.1 ∧ R a.2 b.2) (l.foldl (fun d p => dset d p.1 p.2) d) (l'.foldl (fun d p => dset d p.1 p.2) d') := by
    intro l l' h
    induction h with
    | nil => exact fun d d' h => h
    | cons h1 _ ih =>
      intro d d' hd
      rw [List.foldl_cons, List.foldl_cons, h1.1]
      exact ih _ _ (dset_near hd h1.2)
  exact key l l' h [] [] .nil

theorem donor_near {δ : κ} {d d' : Dict Nat κ} (h : List.Forall₂ (fun a b => b.1 = a.1 ∧ |b.2 - a.2| ≤ δ) d d') (hm : DonorMargin δ d)
    {q : Nat × κ} (hq : pyMaxBy Prod.snd d = some q) : ∃ q', pyMaxBy Prod.snd d' = some q' ∧ q'.1 = q.1 := by
  obtain ⟨t, ht, hbeat⟩ := hm
  obtain ⟨hqm, hqmax⟩ := pyMaxBy_spec hq
  have hδ : 0 ≤ δ := by
    obtain ⟨b, -, hb⟩ := forall₂_mem_left h ht
    exact le_trans (abs_nonneg _) hb.2
  have hqt : q.1 = t.1 := by
    by_contra hne
    linarith [hbeat q hqm hne, hqmax t ht]
  obtain ⟨q', hq'⟩ := pyMaxBy_isSome (key := Prod.snd) (l := d') (by
    rintro rfl
    cases h
    cases ht)
  refine ⟨q', hq', ?_⟩
  obtain ⟨hm', hmax'⟩ := pyMaxBy_spec hq'
  obtain ⟨r, hr, h1, h2⟩ := forall₂_mem_right h hm'
  obtain ⟨t', ht', -, h4⟩ := forall₂_mem_left h ht
  by_contra hne
  have := hbeat r hr (by rw [← h1, ← hqt]; exact hne)
  have h5 := hmax' t' ht'
  have h6 := abs_le.1 h2
  have h7 := abs_le.1 h4
  linarith

theorem mpcRepair_near {δ : κ} {dist dist' : Nat → Nat → Except PyErr κ} (h : ∀ p c, Follows (fun a b => |b - a| ≤ δ) (dist p c) (dist' p c))
    {nb : Nat} {labels : List Int}
    (hm : ∀ counts ∈ (bincount labels nb).toOption, FillMargin δ dist (emptyClusters counts) (labels, counts)) :
    Follows (fun L L' => L' = L) (mpcRepair dist nb labels) (mpcRepair dist' nb labels) := by
  have hstep : ∀ s c, (∀ donors ∈ (mpcDonors dist s.1 s.2).toOption, DonorMargin δ donors) →
      Follows (fun t t' => t' = t) (mpcFillStep dist s c) (mpcFillStep dist' s c) := by
    intro s c hd
    unfold mpcFillStep
    have hdon : Follows (List.Forall₂ fun a b => b.1 = a.1 ∧ |b.2 - a.2| ≤ δ) (mpcDonors dist s.1 s.2) (mpcDonors dist' s.1 s.2) := by
      unfold mpcDonors
      refine (Follows.mapM (R := fun a b => b.1 = a.1 ∧ |b.2 - a.2| ≤ δ) fun q _ => ?_).bind fun b b' _ hb => Follows.pure (dofList_near (R := fun a b => |b - a| ≤ δ) hb)
      exact (h q.1 q.2).bind fun v v' _ hv => Follows.pure ⟨rfl, hv⟩
    refine hdon.bind fun d d' hok hdd => ?_
    have hmar := hd d (by rw [hok]; rfl)
    cases hq : pyMaxBy Prod.snd d with
    | none => intro b hb; cases hb
    | some q =>
      obtain ⟨q', hq', e⟩ := donor_near hdd hmar hq
      rw [hq']
      simp only [e]
      exact Follows.refl _
  unfold mpcRepair
  refine (Follows.refl (bincount labels nb)).bind ?_
  rintro _ counts hc rfl
  have hfill := hm counts (by rw [hc]; rfl)
  have hfold : ∀ (cs : List Nat) s, FillMargin δ dist cs s → Follows (fun t t' => t' = t) (cs.foldlM (mpcFillStep dist) s) (cs.foldlM (mpcFillStep dist') s) := by
    intro cs
    induction cs with
    | nil => exact fun s _ => Follows.refl _
    | cons c cs ih =>
      intro s hs
      rw [List.foldlM_cons, List.foldlM_cons]
      refine (hstep s c hs.1).bind ?_
      rintro t _ ht rfl
      have h2 := hs.2
      rw [ht] at h2
      exact ih _ h2
  refine (hfold _ _ hfill).bind ?_
  rintro s _ - rfl
  exact Follows.refl _

/-! ### One pass -/

variable {V V' θ θ' : Type} {env : MpcEnv V κ θ} {env' : MpcEnv V' κ θ'} {RV : V → V' → Prop} {Rθ : θ → θ' → Prop} {ρ δ ε : κ} {n : Nat}
  {safe : List V → List V → Prop}

theorem mpcFarPair_near (hn : MpcNear env env' RV Rθ ρ δ ε n safe) {A : θ} {A' : θ'} (hA : Rθ A A') {X : List V} {X' : List V'}
    (hX : List.Forall₂ RV X X') (hm : ∀ far, mpcFarPair env A X = .ok far → FarMargin δ env A X far) :
    Follows (fun f f' => f'.1 = f.1 ∧ f'.2.1 = f.2.1 ∧ |f'.2.2 - f.2.2| ≤ δ) (mpcFarPair env A X) (mpcFarPair env' A' X') := by
  intro far hfar
  obtain ⟨hz, hbeat⟩ := hm far hfar
  have hf : ∀ p : Nat × Nat, Follows (fun a b => |b - a| ≤ δ) (do return env.mdist A (← lget X p.1) (← lget X p.2) : Except PyErr κ)
      (do return env'.mdist A' (← lget X' p.1) (← lget X' p.2)) := fun p =>
    (Follows.lget hX p.1).bind fun x x' _ hx => (Follows.lget hX p.2).bind fun y y' _ hy => Follows.pure (hn.mdist A A' x x' y y' hA hx hy)
  have hk : ∀ (s : κ × Option (Nat × Nat × κ)) p, mpcPairStep env A X s p =
      do let d ← (do return env.mdist A (← lget X p.1) (← lget X p.2) : Except PyErr κ); if s.1 < d then return (d, some (p.1, p.2, d)) else return s := by
    intro s p
    unfold mpcPairStep
    cases lget X p.1 <;> cases lget X p.2 <;> rfl
  have hk' : ∀ (s : κ × Option (Nat × Nat × κ)) p, mpcPairStep env' A' X' s p =
      do let d ← (do return env'.mdist A' (← lget X' p.1) (← lget X' p.2) : Except PyErr κ); if s.1 < d then return (d, some (p.1, p.2, d)) else return s := by
    intro s p
    unfold mpcPairStep
    cases lget X' p.1 <;> cases lget X' p.2 <;> rfl
  unfold mpcFarPair at hfar ⊢
  dsimp only at hfar ⊢
  rw [← hX.length_eq, hn.zero]
  generalize hL : ((List.range X.length).flatMap fun i => (List.range i).map fun j => (i, j)) = L at hfar ⊢
  have hpairs : ∀ p ∈ L, p.1 < X.length ∧ p.2 < p.1 := by
    rintro ⟨i, j⟩ hp
    rw [← hL] at hp
    simp only [List.mem_flatMap, List.mem_map, List.mem_range, Prod.mk.injEq] at hp
    obtain ⟨a, ha, b, hb, rfl, rfl⟩ := hp
    exact ⟨ha, hb⟩
  cases hs : L.foldlM (mpcPairStep env A X) (env.zero, none) with
  | error e => rw [hs] at hfar; cases hfar
  | ok s =>
    rw [hs] at hfar
    obtain ⟨b, o⟩ := s
    cases o with
    | none => cases hfar
    | some t =>
      cases hfar
      obtain ⟨hall, q, hq, hqb, rfl⟩ := best_mem (g := fun p d => (p.1, p.2, d)) hk hs
      obtain ⟨v, hv, hvb⟩ := hf q b hqb
      have hvb' := abs_le.1 hvb
      have := best_near (g := fun p d => (p.1, p.2, d)) hk' hq hv (z := env.zero) (by simp only at hz; linarith) fun p hp hpq => by
        obtain ⟨w, hw⟩ := hall p hp
        obtain ⟨w', hw', hww⟩ := hf p w hw
        refine ⟨w', hw', ?_⟩
        have hlt := hpairs p hp
        obtain ⟨x, ex, hx⟩ := lget_lt (l := X) (i := p.1) hlt.1
        obtain ⟨y, ey, hy⟩ := lget_lt (l := X) (i := p.2) (by omega)
        rw [ex, ey] at hw
        cases hw
        have h1 := hbeat p.1 hlt.1 p.2 hlt.2 hpq x hx y hy
        have h2 := abs_le.1 hww
        simp only at h1
        linarith
      rw [this]
      exact ⟨_, rfl, rfl, rfl, hvb⟩

theorem mpcObjective_near (hn : MpcNear env env' RV Rθ ρ δ ε n safe) {A : θ} {A' : θ'} (hA : Rθ A A') {far far' : κ} (hfar : |far' - far| ≤ δ)
    {X : List V} {X' : List V'} (hX : List.Forall₂ RV X X') {centers : List V} {centers' : List V'} (hc : List.Forall₂ RV centers centers')
    {ml cl : Graph} (labels : List Int) (i c : Nat) (hml : ∀ s, dget ml i = .ok s → (env.enum s).length ≤ n)
    (hcl : ∀ s, dget cl i = .ok s → (env.enum s).length ≤ n) :
    Follows (fun a b => |b - a| ≤ ε) (mpcObjective env A far X centers ml cl labels i c) (mpcObjective env' A' far' X' centers' ml cl labels i c) := by
  have hfold : ∀ {T : V → κ} {T' : V' → κ} (step : κ → Nat → Except PyErr κ) (step' : κ → Nat → Except PyErr κ),
      (∀ t t' j, step t j = .ok t ∧ step' t' j = .ok t' ∨ (∃ e, step t j = .error e) ∨
        ∃ z z', RV z z' ∧ step t j = .ok (env.add t (T z)) ∧ step' t' j = .ok (env'.add t' (T' z'))) → ∀ l : List Nat,
      Follows (fun a b => ∃ ms ms', List.Forall₂ RV ms ms' ∧ ms.length ≤ l.length ∧ a = ms.foldl (fun t z => env.add t (T z)) env.zero ∧
        b = ms'.foldl (fun t z => env'.add t (T' z)) env.zero) (l.foldlM step env.zero) (l.foldlM step' env.zero) := by
    intro T T' step step' hst l
    have key : ∀ (l : List Nat) (ms : List V) (ms' : List V') (N : Nat), List.Forall₂ RV ms ms' → ms.length ≤ N →
        Follows (fun a b => ∃ ms ms', List.Forall₂ RV ms ms' ∧ ms.length ≤ N + l.length ∧ a = ms.foldl (fun t z => env.add t (T z)) env.zero ∧
          b = ms'.foldl (fun t z => env'.add t (T' z)) env.zero)
          (l.foldlM step (ms.foldl (fun t z => env.add t (T z)) env.zero)) (l.foldlM step' (ms'.foldl (fun t z => env'.add t (T' z)) env.zero)) := by
      intro l
      induction l with
      | nil => exact fun ms ms' N h1 h2 => Follows.pure ⟨ms, ms', h1, h2, rfl, rfl⟩
      | cons j l ih =>
        intro ms ms' N h1 h2
        rw [List.foldlM_cons, List.foldlM_cons]
        have hlen : N + (j :: l).length = N + 1 + l.length := by rw [List.length_cons]; omega
        rw [hlen]
        rcases hst (ms.foldl (fun t z => env.add t (T z)) env.zero) (ms'.foldl (fun t z => env'.add t (T' z)) env.zero) j with
          ⟨e1, e2⟩ | ⟨e, e1⟩ | ⟨z, z', hz, e1, e2⟩
        · rw [e1, e2]
          exact ih ms ms' (N + 1) h1 (by omega)
        · rw [e1]
          intro b hb
          cases hb
        · rw [e1, e2]
          have := ih (ms ++ [z]) (ms' ++ [z']) (N + 1) (List.rel_append h1 (.cons hz .nil)) (by simpa using h2)
          rw [List.foldl_append, List.foldl_append] at this
          exact this
    have := key l [] [] 0 .nil le_rfl
    rw [Nat.zero_add] at this
    exact this
  unfold mpcObjective
  rw [hn.enum, hn.zero]
  refine (Follows.lget hX i).bind_both fun x x' hx hx' hxx => (Follows.lget hc c).bind fun y y' _ hyy => ?_
  refine (Follows.refl (dget ml i)).bind ?_
  rintro _ s1 es1 rfl
  refine (hfold (T := env.termM A x) (T' := env'.termM A' x') _ _ ?_ _).bind ?_
  · intro t t' j
    unfold mpcTermM
    cases hl : lget labels j with
    | error e => exact .inr (.inl ⟨e, rfl⟩)
    | ok l =>
      by_cases hp : 0 ≤ l ∧ l ≠ (c : Int)
      · cases hz : lget X j with
        | error e =>
          refine .inr (.inl ⟨e, ?_⟩)
          simp only [bind, Except.bind, if_pos hp, hx]
        | ok z =>
          obtain ⟨z', hz', hzz⟩ := Follows.lget hX j z hz
          refine .inr (.inr ⟨z, z', hzz, ?_, ?_⟩)
          · simp only [bind, Except.bind, if_pos hp, hx]
            rfl
          · simp only [bind, Except.bind, if_pos hp, hx', hz']
            rfl
      · refine .inl ⟨?_, ?_⟩ <;> simp only [bind, Except.bind, if_neg hp] <;> rfl
  · rintro tm tm' - ⟨ms, ms', hms, hlm, rfl, rfl⟩
    refine (Follows.refl (dget cl i)).bind ?_
    rintro _ s2 es2 rfl
    refine (hfold (T := env.termC A far x) (T' := env'.termC A' far' x') _ _ ?_ _).bind ?_
    · intro t t' j
      unfold mpcTermC
      cases hl : lget labels j with
      | error e => exact .inr (.inl ⟨e, rfl⟩)
      | ok l =>
        by_cases hp : l = (c : Int)
        · cases hz : lget X j with
          | error e =>
            refine .inr (.inl ⟨e, ?_⟩)
            simp only [bind, Except.bind, if_pos hp, hx]
          | ok z =>
            obtain ⟨z', hz', hzz⟩ := Follows.lget hX j z hz
            refine .inr (.inr ⟨z, z', hzz, ?_, ?_⟩)
            · simp only [bind, Except.bind, if_pos hp, hx]
              rfl
            · simp only [bind, Except.bind, if_pos hp, hx', hz']
              rfl
        · refine .inl ⟨?_, ?_⟩ <;> simp only [bind, Except.bind, if_neg hp] <;> rfl
    · rintro tc tc' - ⟨cs, cs', hcs, hlc, rfl, rfl⟩
      have := hn.objective A A' far far' x x' y y' ms ms' cs cs' hA hfar hxx hyy hms hcs (hlm.trans (hml _ es1)) (hlc.trans (hcl _ es2))
      unfold objectiveOf at this
      rw [hn.zero] at this
      exact Follows.pure this

theorem mpcAssign_near (hn : MpcNear env env' RV Rθ ρ δ ε n safe) {A : θ} {A' : θ'} (hA : Rθ A A') {far far' : κ} (hfar : |far' - far| ≤ δ)
    {X : List V} {X' : List V'} (hX : List.Forall₂ RV X X') {centers : List V} {centers' : List V'} (hc : List.Forall₂ RV centers centers')
    {ml cl : Graph} (hml : ∀ i s, dget ml i = .ok s → (env.enum s).length ≤ n) (hcl : ∀ i s, dget cl i = .ok s → (env.enum s).length ≤ n)
    {nb it : Nat} (hm : PassMargin δ ε env A far X centers ml cl nb it) :
    Follows (fun L L' => L' = L) (mpcAssign env A far X centers ml cl nb it) (mpcAssign env' A' far' X' centers' ml cl nb it) := by
  have hfold : ∀ (is : List Nat) (L : List Int), AssignMargin ε env A far X centers ml cl is L →
      Follows (fun L L' => L' = L) (is.foldlM (mpcAssignStep env A far X centers ml cl) L) (is.foldlM (mpcAssignStep env' A' far' X' centers' ml cl) L) := by
    intro is
    induction is with
    | nil => exact fun L _ => Follows.refl _
    | cons i is ih =>
      intro L hL
      rw [List.foldlM_cons, List.foldlM_cons]
      have hstep : Follows (fun L L' => L' = L) (mpcAssignStep env A far X centers ml cl L i) (mpcAssignStep env' A' far' X' centers' ml cl L i) := by
        unfold mpcAssignStep
        rw [← hc.length_eq]
        refine (Follows.mapM fun c _ => mpcObjective_near hn hA hfar hX hc L i c (hml i) (hcl i)).bind fun v v' hv hvv => ?_
        rw [npArgmin_near hvv (hL.1 v (by rw [hv]; rfl))]
        exact Follows.refl _
      refine hstep.bind ?_
      rintro _ L' hL' rfl
      have h2 := hL.2
      rw [hL'] at h2
      exact ih _ h2
  unfold mpcAssign
  rw [hn.shuffle, ← hX.length_eq]
  refine (hfold _ _ hm.1).bind ?_
  rintro _ L hL rfl
  refine mpcRepair_near (δ := δ) (fun p c => ?_) (hm.2 L (by rw [hL]; rfl))
  exact (Follows.lget hX p).bind fun x x' _ hx => (Follows.lget hc c).bind fun y y' _ hy => Follows.pure (hn.mdist A A' x x' y y' hA hx hy)

theorem mpcCenters_near (hn : MpcNear env env' RV Rθ ρ δ ε n safe) {N nb : Nat} {X : List V} {X' : List V'} (hX : List.Forall₂ RV X X')
    (hlen : X.length = N) {L : List Int} (hL : GoodLabels N nb L) :
    List.Forall₂ RV (mpcCenters env X L nb) (mpcCenters env' X' L nb) := by
  unfold mpcCenters
  rw [List.forall₂_map_left_iff, List.forall₂_map_right_iff, List.forall₂_same]
  intro k hk
  refine hn.mean _ _ ?_ ?_
  · obtain ⟨i, hi⟩ := List.mem_iff_getElem?.1 (hL.2.2 k (List.mem_range.1 hk))
    have hlt : i < X.length := by
      rw [hlen, ← hL.1]
      exact (List.getElem?_eq_some_iff.1 hi).1
    refine List.ne_nil_of_mem (a := X[i]) (List.mem_filterMap.2 ⟨(X[i], (k : Int)), ?_, by simp⟩)
    refine List.mem_of_getElem? (i := i) ?_
    rw [List.getElem?_zip_eq_some]
    exact ⟨List.getElem?_eq_getElem hlt, hi⟩
  · clear hL hlen
    induction hX generalizing L with
    | nil => exact .nil
    | @cons a b l l' h1 _ ih =>
      cases L with
      | nil => exact .nil
      | cons c L =>
        rw [List.zip_cons_cons, List.zip_cons_cons, List.filterMap_cons, List.filterMap_cons]
        by_cases hc : c = (k : Int)
        · simp only [hc, if_true]
          exact .cons h1 ih
        · simp only [hc, if_false]
          exact ih

/-! ### Start -/

theorem mpcSetDist_near (hn : MpcNear env env' RV Rθ ρ δ ε n safe) {points : List V} {points' : List V'} (hp : List.Forall₂ RV points points')
    (i : Nat) (S : List Nat) : Follows (fun a b => |b - a| ≤ ρ) (mpcSetDist env points i S) (mpcSetDist env' points' i S) := by
  unfold mpcSetDist
  refine (Follows.mapM (R := fun a b => |b - a| ≤ ρ) fun j _ => ?_).bind fun ds ds' _ hd => ?_
  · exact (Follows.lget hp i).bind fun x x' _ hx => (Follows.lget hp j).bind fun y y' _ hy => Follows.pure (hn.dist x x' y y' hx hy)
  · cases hm : ds.min? with
    | none => intro b hb; cases hb
    | some a =>
      cases hm' : ds'.min? with
      | none =>
        rw [List.min?_eq_none_iff] at hm'
        subst hm'
        cases hd
        cases hm
      | some b =>
        refine Follows.pure (R := fun a b => |b - a| ≤ ρ) ?_
        obtain ⟨h1, h2⟩ := List.min?_eq_some_iff.1 hm
        obtain ⟨h3, h4⟩ := List.min?_eq_some_iff.1 hm'
        obtain ⟨a', ha', haa⟩ := forall₂_mem_left hd h1
        obtain ⟨b', hb', hbb⟩ := forall₂_mem_right hd h3
        have e1 := h4 a' ha'
        have e2 := h2 b' hb'
        have e3 := abs_le.1 haa
        have e4 := abs_le.1 hbb
        exact abs_le.2 ⟨by linarith, by linarith⟩

theorem mpcFarthest_near (hn : MpcNear env env' RV Rθ ρ δ ε n safe) {points : List V} {points' : List V'} (hp : List.Forall₂ RV points points')
    {sizes tr t : List Nat} (ht : mpcFarthest env points sizes tr = .ok t) (hm : ∀ j ∈ t.getLast?, TraversalStep δ env points sizes tr j) :
    mpcFarthest env' points' sizes tr = .ok t := by
  have hf : ∀ j, Follows (fun a b => |b - a| ≤ δ) (weighted env points sizes tr j) (weighted env' points' sizes tr j) := by
    intro j
    unfold weighted
    refine (Follows.refl (lget sizes j)).bind ?_
    rintro _ sz hsz rfl
    have hle : sz ≤ sizes.sum := List.le_sum_of_mem (List.mem_of_getElem? (lget_ok.1 hsz))
    exact (mpcSetDist_near hn hp j tr).bind fun d d' _ hd => Follows.pure (hn.weigh _ _ d d' hle hd)
  have hk : ∀ {W Θ : Type} (e : MpcEnv W κ Θ) (P : List W) (l : List Nat) (s : κ × Option Nat),
      l.foldlM (mpcFarStep e P sizes tr) s = (l.filter fun j => decide (j ∉ tr)).foldlM
        (fun s j => do let d ← weighted e P sizes tr j; if s.1 < d then return (d, some j) else return s) s := by
    intro W Θ e P l
    induction l with
    | nil => exact fun s => rfl
    | cons j l ih =>
      intro s
      by_cases hj : j ∈ tr
      · rw [List.filter_cons_of_neg (by simpa using hj), List.foldlM_cons, ← ih]
        unfold mpcFarStep
        rw [if_pos hj]
        rfl
      · rw [List.filter_cons_of_pos (by simpa using hj), List.foldlM_cons, List.foldlM_cons]
        have hstep : mpcFarStep e P sizes tr s j = do let d ← weighted e P sizes tr j; if s.1 < d then return (d, some j) else return s := by
          unfold mpcFarStep weighted
          rw [if_neg hj]
          cases lget sizes j with
          | error e => rfl
          | ok a => cases mpcSetDist e P j tr <;> rfl
        rw [hstep]
        refine congrArg _ ?_
        funext s
        exact ih s
  unfold mpcFarthest at ht ⊢
  rw [hk] at ht ⊢
  rw [← hp.length_eq, hn.zero]
  generalize hL : ((List.range points.length).filter fun j => decide (j ∉ tr)) = L at ht ⊢
  cases hs : L.foldlM (fun (s : κ × Option Nat) j => do let d ← weighted env points sizes tr j; if s.1 < d then return (d, some j) else return s) (env.zero, none) with
  | error e => rw [hs] at ht; cases ht
  | ok s =>
    rw [hs] at ht
    obtain ⟨b, o⟩ := s
    cases o with
    | none => cases ht
    | some j =>
      cases ht
      obtain ⟨hall, q, hq, hqb, hjq⟩ := best_mem (f := weighted env points sizes tr) (g := fun j _ => j) (fun s p => rfl) hs
      replace hjq : j = q := hjq
      subst hjq
      obtain ⟨v, hv, hvb⟩ := hf j b hqb
      have hvb' := abs_le.1 hvb
      obtain ⟨hz, hbeat⟩ := hm j (by simp) b (by rw [hqb]; rfl)
      rw [best_near (f' := weighted env' points' sizes tr) (g := fun j _ => j) (fun s p => rfl) hq hv (z := env.zero) (by linarith) fun p hp' hpq => by
        obtain ⟨w, hw⟩ := hall p hp'
        obtain ⟨w', hw', hww⟩ := hf p w hw
        rw [← hL, List.mem_filter, List.mem_range, decide_eq_true_eq] at hp'
        refine ⟨w', hw', ?_⟩
        have h1 := hbeat p hp'.1 hp'.2 hpq w (by rw [hw]; rfl)
        have h2 := abs_le.1 hww
        linarith]
      rfl

theorem mpcTraversal_near (hn : MpcNear env env' RV Rθ ρ δ ε n safe) {points : List V} {points' : List V'} (hp : List.Forall₂ RV points points')
    {sizes : List Nat} {k : Nat} (hm : TraversalMargin δ env points sizes (k - 1) [env.pick sizes]) :
    Follows (fun t t' => t' = t) (mpcTraversal env points sizes k) (mpcTraversal env' points' sizes k) := by
  unfold mpcTraversal
  rw [hn.pick]
  have key : ∀ (l : List Nat) (tr : List Nat), TraversalMargin δ env points sizes l.length tr →
      Follows (fun t t' => t' = t) (l.foldlM (fun traversed _ => mpcFarthest env points sizes traversed) tr)
        (l.foldlM (fun traversed _ => mpcFarthest env' points' sizes traversed) tr) := by
    intro l
    induction l with
    | nil => exact fun tr _ => Follows.refl _
    | cons a l ih =>
      intro tr h
      rw [List.foldlM_cons, List.foldlM_cons]
      rw [List.length_cons] at h
      unfold TraversalMargin at h
      cases ht : mpcFarthest env points sizes tr with
      | error e => intro b hb; cases hb
      | ok t =>
        rw [ht] at h
        rw [mpcFarthest_near hn hp ht h.1]
        exact ih t h.2
  exact key _ _ (by rw [List.length_range]; exact hm)

theorem mpcInit_near (hn : MpcNear env env' RV Rθ ρ δ ε n safe) {X : List V} {X' : List V'} (hX : List.Forall₂ RV X X') {nbhs : List (List Nat)}
    (hne : ∀ P ∈ nbhs, P ≠ []) {nb : Nat}
    (hm : ∀ means, (nbhs.mapM fun P => do return env.mean (← P.mapM fun i => lget X i)) = .ok means → nb < nbhs.length →
      TraversalMargin δ env means (nbhs.map List.length) (nb - 1) [env.pick (nbhs.map List.length)]) :
    Follows (List.Forall₂ RV) (mpcInit env X nbhs nb) (mpcInit env' X' nbhs nb) := by
  have hget : ∀ {P : List V} {P' : List V'}, List.Forall₂ RV P P' → ∀ l : List Nat, Follows (List.Forall₂ RV) (l.mapM fun i => lget P i) (l.mapM fun i => lget P' i) :=
    fun h l => Follows.mapM fun i _ => Follows.lget h i
  unfold mpcInit
  refine (Follows.mapM (R := RV) fun P hP => ?_).bind fun cs cs' hcs hcc => ?_
  · refine (hget hX P).bind fun l l' hl hll => Follows.pure (hn.mean l l' ?_ hll)
    rintro rfl
    have := (mapM_ok_iff.1 hl).length_eq
    exact hne P hP (List.eq_nil_of_length_eq_zero this)
  · by_cases hlt : nb < nbhs.length
    · rw [if_pos hlt, if_pos hlt]
      refine (mpcTraversal_near hn hcc (hm cs hcs hlt)).bind ?_
      rintro _ t - rfl
      exact hget hcc t
    · rw [if_neg hlt, if_neg hlt]
      have hnil : X' = [] ↔ X = [] := by
        rw [← List.length_eq_zero_iff, ← List.length_eq_zero_iff, hX.length_eq]
      simp only [hnil, ← hX.length_eq, hn.choice]
      split
      · intro b hb; cases hb
      · split
        · split
          · intro b hb; cases hb
          · exact (hget hX _).bind fun l l' _ hl => Follows.pure (List.rel_append hcc hl)
        · exact Follows.pure hcc

/-! ### The loop -/

theorem mpcLoop_near (ha : MpcAssumptions env) (hn : MpcNear env env' RV Rθ ρ δ ε n safe) {R S : Nat → Nat → Prop} {X : List V} {X' : List V'}
    {ml cl : Graph} (hr : MpcReady n X ml cl R S) (hX : List.Forall₂ RV X X') {nb : Nat} (hnb : 1 ≤ nb)
    (hml : ∀ i s, dget ml i = .ok s → (env.enum s).length ≤ n) (hcl : ∀ i s, dget cl i = .ok s → (env.enum s).length ≤ n)
    (left it : Nat) {centers : List V} {centers' : List V'} (hc : List.Forall₂ RV centers centers') (hl : centers.length = nb) {A : θ} {A' : θ'}
    (hA : Rθ A A') (labels : List Int) (hm : LoopMargin δ ε safe env X ml cl nb left it centers A) :
    Follows (fun L L' => L' = L) (mpcLoop env X ml cl nb left it centers A labels) (mpcLoop env' X' ml cl nb left it centers' A' labels) := by
  induction left generalizing it centers centers' A A' labels with
  | zero => exact Follows.refl _
  | succ left ih =>
    unfold LoopMargin at hm
    unfold mpcLoop
    refine (mpcFarPair_near hn hA hX fun far hf => ?_).bind fun far far' hf hff => ?_
    · rw [hf] at hm
      exact hm.1
    · rw [hf] at hm
      obtain ⟨-, h2, h3⟩ := hm
      refine (mpcAssign_near hn hA hff.2.2 hX hc hml hcl h2).bind ?_
      rintro _ L hL rfl
      rw [hL] at h3
      have hg := assign_good ha hr hl hnb hL
      have hcen := mpcCenters_near hn hX hr.len hg
      have hclose := hn.close _ _ _ _ hc hcen h3.1
      dsimp only
      rw [hclose]
      split
      · exact Follows.refl _
      · rename_i hno
        refine ih (it + 1) hcen (mpcCenters_length ..) ?_ L (h3.2 (Bool.eq_false_iff.2 hno))
        obtain ⟨i, j, d⟩ := far
        obtain ⟨i', j', d'⟩ := far'
        obtain ⟨rfl, rfl, hd⟩ := hff
        exact hn.metric X X' L _ _ _ _ d d' ml cl hX hcen hd

/-! ### A whole call -/

theorem enum_length (ha : MpcAssumptions env) {g : Graph} {R : Nat → Nat → Prop} (hg : GraphOf n g R) (hlt : ∀ i j, R i j → j < n) (i : Nat) (s : List Nat)
    (hs : dget g i = .ok s) : (env.enum s).length ≤ n := by
  have hs' : dget? g i = some s := by
    cases e : dget? g i with
    | none => unfold dget at hs; rw [e] at hs; cases hs
    | some t => rw [dget_of_dget? e] at hs; cases hs; rfl
  have hsub : env.enum s ⊆ List.range n := by
    intro j hj
    rw [(ha.enum s).2] at hj
    exact List.mem_range.2 (hlt i j (((hg.2 i s hs').2 j).1 hj))
  simpa using (List.subperm_of_subset (ha.enum s).1 hsub).length_le

end

end Verif
