import Verif.Model.Heap
import Verif.Py.DictLemmas
import Mathlib.Data.List.Basic

/-
The manager with objects (`Verif/Model/Heap.lean`) behaves as the manager with values
(`Verif/Model/Constraints.lean`): simulation of the transitivity table.
-/

namespace Verif

/-! ### Simulation of one program by another -/

section
variable {σ τ β γ β' γ' : Type}

theorem stepOk {s s' : σ} {p : EStateM PyErr σ β} {b : β} (hp : p s = .ok b s') (f : β → EStateM PyErr σ β') :
    (p >>= f) s = f b s' := by
  simp only [Bind.bind, EStateM.bind, hp]

theorem stepErr {s s' : σ} {p : EStateM PyErr σ β} {e : PyErr} (hp : p s = .error e s') (f : β → EStateM PyErr σ β') :
    (p >>= f) s = .error e s' := by
  simp only [Bind.bind, EStateM.bind, hp]

/-- The two programs end the same way, in related states; `X` relates the first and last state. -/
def Sim (I : σ → τ → Prop) (X : σ → σ → Prop) (s : σ) (t : τ) (p : EStateM PyErr σ β) (q : EStateM PyErr τ γ)
    (R : σ → β → γ → Prop) : Prop :=
  match p s, q t with
  | .ok b s', .ok c t' => I s' t' ∧ X s s' ∧ R s' b c
  | .error e s', .error e' t' => e = e' ∧ I s' t' ∧ X s s'
  | _, _ => False

theorem Sim.ok {I : σ → τ → Prop} {X : σ → σ → Prop} {s s' : σ} {t t' : τ} {p : EStateM PyErr σ β}
    {q : EStateM PyErr τ γ} {R : σ → β → γ → Prop} {b : β} {c : γ} (hp : p s = .ok b s') (hq : q t = .ok c t')
    (hI : I s' t') (hX : X s s') (hR : R s' b c) : Sim I X s t p q R := by
  unfold Sim; rw [hp, hq]; exact ⟨hI, hX, hR⟩

theorem Sim.err {I : σ → τ → Prop} {X : σ → σ → Prop} {s s' : σ} {t t' : τ} {p : EStateM PyErr σ β}
    {q : EStateM PyErr τ γ} {R : σ → β → γ → Prop} {e : PyErr} (hp : p s = .error e s') (hq : q t = .error e t')
    (hI : I s' t') (hX : X s s') : Sim I X s t p q R := by
  unfold Sim; rw [hp, hq]; exact ⟨rfl, hI, hX⟩

/-- One step in both programs. -/
theorem Sim.bind {I : σ → τ → Prop} {X : σ → σ → Prop} (trans : ∀ a b c, X a b → X b c → X a c) {s : σ} {t : τ}
    {p : EStateM PyErr σ β} {q : EStateM PyErr τ γ} {R : σ → β → γ → Prop} (h : Sim I X s t p q R)
    {f : β → EStateM PyErr σ β'} {g : γ → EStateM PyErr τ γ'} {R' : σ → β' → γ' → Prop}
    (hf : ∀ b c s' t', I s' t' → X s s' → R s' b c → Sim I X s' t' (f b) (g c) R') :
    Sim I X s t (p >>= f) (q >>= g) R' := by
  unfold Sim at h ⊢
  cases hp : p s with
  | ok b s' =>
    cases hq : q t with
    | ok c t' =>
      rw [hp, hq] at h
      rw [stepOk hp, stepOk hq]
      have := hf b c s' t' h.1 h.2.1 h.2.2
      unfold Sim at this
      revert this
      cases f b s' <;> cases g c t' <;> simp only <;> intro k
      · exact ⟨k.1, trans _ _ _ h.2.1 k.2.1, k.2.2⟩
      · exact k
      · exact k
      · exact ⟨k.1, k.2.1, trans _ _ _ h.2.1 k.2.2⟩
    | error e t' => rw [hp, hq] at h; exact h.elim
  | error e s' =>
    cases hq : q t with
    | ok c t' => rw [hp, hq] at h; exact h.elim
    | error e' t' => rw [hp, hq] at h; rw [stepErr hp, stepErr hq]; exact h

/-- One step in the first program only. -/
theorem Sim.left {I : σ → τ → Prop} {X : σ → σ → Prop} (trans : ∀ a b c, X a b → X b c → X a c) {s s' : σ} {t : τ}
    {p : EStateM PyErr σ β} {b : β} (hp : p s = .ok b s') (hX : X s s') {f : β → EStateM PyErr σ β'}
    {q : EStateM PyErr τ γ} {R : σ → β' → γ → Prop} (h : Sim I X s' t (f b) q R) : Sim I X s t (p >>= f) q R := by
  unfold Sim at h ⊢
  rw [stepOk hp]
  revert h
  cases f b s' <;> cases q t <;> simp only <;> intro k
  · exact ⟨k.1, trans _ _ _ hX k.2.1, k.2.2⟩
  · exact k
  · exact k
  · exact ⟨k.1, k.2.1, trans _ _ _ hX k.2.2⟩

/-- One step in both programs, with known results. -/
theorem Sim.step {I : σ → τ → Prop} {X : σ → σ → Prop} (trans : ∀ a b c, X a b → X b c → X a c) {s : σ} {t : τ}
    {p : EStateM PyErr σ β} {q : EStateM PyErr τ γ} {f : β → EStateM PyErr σ β'} {g : γ → EStateM PyErr τ γ'}
    {R : σ → β' → γ' → Prop} (s' : σ) (t' : τ) (b : β) (c : γ) (hp : p s = .ok b s') (hq : q t = .ok c t') (hX : X s s')
    (h : Sim I X s' t' (f b) (g c) R) : Sim I X s t (p >>= f) (q >>= g) R := by
  refine Sim.left trans hp hX ?_
  unfold Sim at h ⊢
  rw [stepOk hq]
  exact h

theorem Sim.pure {I : σ → τ → Prop} {X : σ → σ → Prop} (refl : ∀ a, X a a) {s : σ} {t : τ} (hI : I s t) {b : β} {c : γ}
    {R : σ → β → γ → Prop} (hR : R s b c) : Sim I X s t (Pure.pure b) (Pure.pure c) R :=
  Sim.ok rfl rfl hI (refl s) hR

theorem Sim.throw {I : σ → τ → Prop} {X : σ → σ → Prop} (refl : ∀ a, X a a) {s : σ} {t : τ} (hI : I s t) {e : PyErr}
    {R : σ → β → γ → Prop} : Sim I X s t (MonadExcept.throw e) (MonadExcept.throw e) R :=
  Sim.err rfl rfl hI (refl s)

theorem Sim.mono {I : σ → τ → Prop} {X : σ → σ → Prop} {s : σ} {t : τ} {p : EStateM PyErr σ β} {q : EStateM PyErr τ γ}
    {R R' : σ → β → γ → Prop} (h : Sim I X s t p q R) (hR : ∀ s b c, R s b c → R' s b c) : Sim I X s t p q R' := by
  unfold Sim at h ⊢
  revert h
  cases p s <;> cases q t <;> simp only <;> intro k
  · exact ⟨k.1, k.2.1, hR _ _ _ k.2.2⟩
  · exact k
  · exact k
  · exact k

/-- Loops over lists whose items correspond. -/
theorem Sim.forM {ι κ : Type} {I : σ → τ → Prop} {X : σ → σ → Prop} (refl : ∀ a, X a a)
    (trans : ∀ a b c, X a b → X b c → X a c) {l : List ι} {l' : List κ} {P : ι → κ → Prop} (hl : List.Forall₂ P l l')
    {f : ι → EStateM PyErr σ PUnit} {g : κ → EStateM PyErr τ PUnit} {s : σ} {t : τ} (hI : I s t)
    (h : ∀ a b s' t', P a b → I s' t' → X s s' → Sim I X s' t' (f a) (g b) (fun _ _ _ => True)) :
    Sim I X s t (l.forM f) (l'.forM g) (fun _ _ _ => True) := by
  induction hl generalizing s t with
  | nil => exact Sim.pure refl hI trivial
  | cons hab _ ih =>
    refine Sim.bind trans (h _ _ _ _ hab hI (refl s)) fun _ _ s' t' hI' hX' _ => ?_
    exact ih hI' fun a b s'' t'' hP hI'' hX'' => h a b s'' t'' hP hI'' (trans _ _ _ hX' hX'')

end

/-! ### The transitivity table -/

section
variable {α : Type} [LinearOrder α]

/-- The object at address `a` is the set `s`. -/
def IsSet (t : THeap α) (a : Nat) (s : List α) : Prop := t.sets[a]? = some s

/-- The entry object at address `e` has the content `E`. -/
def IsEntry (t : THeap α) (e : Nat) (E : TEntry α) : Prop :=
  ∃ p, t.entries[e]? = some p ∧ IsSet t p.1 E.ml ∧ IsSet t p.2 E.cl

/-- The table of objects `t` has the content `T`, and no two IDs have the same entry object. -/
structure RelT (t : THeap α) (T : Dict α (TEntry α)) : Prop where
  keys : dkeys t.table = dkeys T
  nodup : (dkeys T).Nodup
  entry : ∀ x e, dget? t.table x = some e → ∃ E, dget? T x = some E ∧ IsEntry t e E
  inj : ∀ x y e, dget? t.table x = some e → dget? t.table y = some e → x = y

/-- The set objects of `t` are still there, unchanged, in `t'`. -/
def SetsKept (t t' : THeap α) : Prop := t.sets <+: t'.sets

theorem SetsKept.refl (t : THeap α) : SetsKept t t := List.prefix_rfl

theorem SetsKept.trans (a b c : THeap α) (h : SetsKept a b) (h' : SetsKept b c) : SetsKept a c := List.IsPrefix.trans h h'

theorem IsSet.kept {t t' : THeap α} {a : Nat} {s : List α} (h : IsSet t a s) (hk : SetsKept t t') : IsSet t' a s := by
  obtain ⟨r, hr⟩ := hk
  unfold IsSet at h ⊢
  rw [← hr, List.getElem?_append_left ((List.getElem?_eq_some_iff.mp h).1), h]

theorem setAt_of {t : THeap α} {a : Nat} {s : List α} (h : IsSet t a s) : setAt a t = .ok s t := by
  unfold setAt; rw [h]

theorem RelT.withSets {t : THeap α} {T : Dict α (TEntry α)} (h : RelT t T) (s : List α) :
    RelT { t with sets := t.sets ++ [s] } T := by
  refine ⟨h.keys, h.nodup, fun x e hx => ?_, h.inj⟩
  obtain ⟨E, hE, p, hp, h1, h2⟩ := h.entry x e hx
  have hk : SetsKept t { t with sets := t.sets ++ [s] } := List.prefix_append _ _
  exact ⟨E, hE, p, hp, h1.kept hk, h2.kept hk⟩

/-- Creating a set. -/
theorem newSet_spec {t : THeap α} {T : Dict α (TEntry α)} (h : RelT t T) (s : List α) :
    ∃ t', newSet s t = .ok t.sets.length t' ∧ RelT t' T ∧ SetsKept t t' ∧ IsSet t' t.sets.length s :=
  ⟨_, rfl, h.withSets s, List.prefix_append _ _, by simp [IsSet]⟩

theorem mergedSet_spec {t : THeap α} {T : Dict α (TEntry α)} (h : RelT t T) {a b : Nat} {s s' : List α}
    (ha : IsSet t a s) (hb : IsSet t b s') :
    ∃ n t', mergedSet a b t = .ok n t' ∧ RelT t' T ∧ SetsKept t t' ∧ IsSet t' n (ounion s s') := by
  obtain ⟨t', h1, h2, h3, h4⟩ := newSet_spec h (ounion s s')
  refine ⟨_, t', ?_, h2, h3, h4⟩
  unfold mergedSet
  rw [stepOk (setAt_of ha), stepOk (setAt_of hb)]
  exact h1

theorem sim_heapML {t : THeap α} {T : Dict α (TEntry α)} (h : RelT t T) (x : α) :
    Sim RelT SetsKept t T (heapML x) (readT x) (fun t' a E => IsSet t' a E.ml) := by
  cases hx : dget? t.table x with
  | none =>
    have hT : dget? T x = none := by
      rw [dget?_eq_none_iff] at hx ⊢; rwa [← h.keys]
    exact Sim.err (e := .keyError) (by unfold heapML; rw [hx]) (by unfold readT; rw [hT]) h (SetsKept.refl t)
  | some e =>
    obtain ⟨E, hE, p, hp, h1, h2⟩ := h.entry x e hx
    exact Sim.ok (b := p.1) (c := E) (by unfold heapML; rw [hx]; simp only; rw [hp]) (by unfold readT; rw [hE]) h
      (SetsKept.refl t) h1

theorem sim_heapCL {t : THeap α} {T : Dict α (TEntry α)} (h : RelT t T) (x : α) :
    Sim RelT SetsKept t T (heapCL x) (readT x) (fun t' a E => IsSet t' a E.cl) := by
  cases hx : dget? t.table x with
  | none =>
    have hT : dget? T x = none := by
      rw [dget?_eq_none_iff] at hx ⊢; rwa [← h.keys]
    exact Sim.err (e := .keyError) (by unfold heapCL; rw [hx]) (by unfold readT; rw [hT]) h (SetsKept.refl t)
  | some e =>
    obtain ⟨E, hE, p, hp, h1, h2⟩ := h.entry x e hx
    exact Sim.ok (b := p.2) (c := E) (by unfold heapCL; rw [hx]; simp only; rw [hp]) (by unfold readT; rw [hE]) h
      (SetsKept.refl t) h2

/-- Changing the entry object of `x` changes the entry of `x` and no other. -/
theorem RelT.setEntry {t : THeap α} {T : Dict α (TEntry α)} (h : RelT t T) {x : α} {e : Nat} {p : Nat × Nat}
    {E : TEntry α} (hx : dget? t.table x = some e) (h1 : IsSet t p.1 E.ml) (h2 : IsSet t p.2 E.cl) :
    RelT { t with entries := t.entries.set e p } (dset T x E) := by
  have hmem : x ∈ dkeys T := h.keys ▸ mem_dkeys_of_dget? hx
  refine ⟨?_, nodup_dkeys_dset x E h.nodup, fun y f hy => ?_, h.inj⟩
  · show dkeys t.table = _
    rw [dkeys_dset_of_mem E hmem, h.keys]
  · change dget? t.table y = some f at hy
    rw [dget?_dset]
    obtain ⟨F, hF, q, hq, k1, k2⟩ := h.entry y f hy
    by_cases hxy : x = y
    · subst hxy
      rw [hx, Option.some.injEq] at hy
      subst hy
      refine ⟨E, by simp, p, ?_, h1, h2⟩
      show (t.entries.set e p)[e]? = some p
      rw [List.getElem?_set_self ((List.getElem?_eq_some_iff.mp hq).1)]
    · refine ⟨F, by simp [hxy, hF], q, ?_, k1, k2⟩
      show (t.entries.set e p)[f]? = some q
      rw [List.getElem?_set_ne (fun hef => hxy (h.inj x y e hx (by rw [hef]; exact hy))), hq]

theorem sim_assignML {t : THeap α} {T : Dict α (TEntry α)} (h : RelT t T) (x : α) {a : Nat} {s : List α}
    (ha : IsSet t a s) : Sim RelT SetsKept t T (assignML x a) (setML x s) (fun _ _ _ => True) := by
  cases hx : dget? t.table x with
  | none =>
    have hT : dget? T x = none := by
      rw [dget?_eq_none_iff] at hx ⊢; rwa [← h.keys]
    exact Sim.err (e := .keyError) (by unfold assignML; rw [hx]) (by unfold setML; rw [hT]) h (SetsKept.refl t)
  | some e =>
    obtain ⟨E, hE, p, hp, h1, h2⟩ := h.entry x e hx
    exact Sim.ok (b := ()) (c := ()) (by unfold assignML; rw [hx]; simp only; rw [hp]) (by unfold setML; rw [hE])
      (h.setEntry (p := (a, p.2)) (E := { E with ml := s }) hx ha h2) List.prefix_rfl trivial

theorem sim_assignCL {t : THeap α} {T : Dict α (TEntry α)} (h : RelT t T) (x : α) {a : Nat} {s : List α}
    (ha : IsSet t a s) : Sim RelT SetsKept t T (assignCL x a) (setCL x s) (fun _ _ _ => True) := by
  cases hx : dget? t.table x with
  | none =>
    have hT : dget? T x = none := by
      rw [dget?_eq_none_iff] at hx ⊢; rwa [← h.keys]
    exact Sim.err (e := .keyError) (by unfold assignCL; rw [hx]) (by unfold setCL; rw [hT]) h (SetsKept.refl t)
  | some e =>
    obtain ⟨E, hE, p, hp, h1, h2⟩ := h.entry x e hx
    exact Sim.ok (b := ()) (c := ()) (by unfold assignCL; rw [hx]; simp only; rw [hp]) (by unfold setCL; rw [hE])
      (h.setEntry (p := (p.1, a)) (E := { E with cl := s }) hx h1 ha) List.prefix_rfl trivial

/-- The loop over a set object goes over the set it was at the start. -/
theorem sim_liveSteps {a n : Nat} {s : List α} (hn : s.length = n) {body : α → THeapM α Unit}
    {body' : α → EStateM PyErr (Dict α (TEntry α)) Unit} {k i : Nat} {t : THeap α} {T : Dict α (TEntry α)}
    (h : RelT t T) (ha : IsSet t a s) (hk : i + k = n)
    (hb : ∀ z t' T', RelT t' T' → SetsKept t t' → Sim RelT SetsKept t' T' (body z) (body' z) (fun _ _ _ => True)) :
    Sim RelT SetsKept t T (liveSteps a n body k i) ((s.drop i).forM body') (fun _ _ _ => True) := by
  induction k generalizing i t T with
  | zero =>
    have hd : s.drop i = [] := List.drop_eq_nil_of_le (by omega)
    rw [hd]
    unfold liveSteps
    refine Sim.left SetsKept.trans (setAt_of ha) (SetsKept.refl t) ?_
    simp only [hn, ne_eq, not_true_eq_false, if_false]
    exact Sim.pure SetsKept.refl h trivial
  | succ k ih =>
    have hi : i < s.length := by omega
    have hd : s.drop i = s[i] :: s.drop (i + 1) := List.drop_eq_getElem_cons hi
    rw [hd]
    unfold liveSteps
    refine Sim.left SetsKept.trans (setAt_of ha) (SetsKept.refl t) ?_
    simp only [hn, ne_eq, not_true_eq_false, if_false, List.getElem?_eq_getElem hi]
    refine Sim.bind SetsKept.trans (hb _ t T h (SetsKept.refl t)) fun _ _ t' T' h' hX _ => ?_
    exact ih h' (ha.kept hX) (by omega) fun z t'' T'' h'' hX' => hb z t'' T'' h'' (SetsKept.trans _ _ _ hX hX')

theorem sim_forLive {a : Nat} {s : List α} {body : α → THeapM α Unit}
    {body' : α → EStateM PyErr (Dict α (TEntry α)) Unit} {t : THeap α} {T : Dict α (TEntry α)}
    (h : RelT t T) (ha : IsSet t a s)
    (hb : ∀ z t' T', RelT t' T' → SetsKept t t' → Sim RelT SetsKept t' T' (body z) (body' z) (fun _ _ _ => True)) :
    Sim RelT SetsKept t T (forLive a body) (s.forM body') (fun _ _ _ => True) := by
  unfold forLive
  refine Sim.left SetsKept.trans (setAt_of ha) (SetsKept.refl t) ?_
  exact sim_liveSteps rfl h ha (by omega) hb

/-- `_add_constraint_transitivity` on objects and on values. -/
theorem sim_addTrans {t : THeap α} {T : Dict α (TEntry α)} (h : RelT t T) (x y : α) (c : CType) :
    Sim RelT SetsKept t T (addTransH x y c) (addTrans x y c) (fun _ b b' => b = b') := by
  cases c with
  | mustLink =>
    unfold addTransH addTrans
    refine Sim.bind SetsKept.trans (sim_heapML h x) fun a1 E1 t1 T1 h1 k1 s1 => ?_
    refine Sim.bind SetsKept.trans (sim_heapML h1 y) fun a2 E2 t2 T2 h2 k2 s2 => ?_
    obtain ⟨n, t3, e3, h3, k3, s3⟩ := mergedSet_spec h2 (s1.kept k2) s2
    refine Sim.left SetsKept.trans e3 k3 ?_
    refine Sim.bind SetsKept.trans (sim_heapCL h3 x) fun a4 E4 t4 T4 h4 k4 s4 => ?_
    refine Sim.bind SetsKept.trans (sim_heapCL h4 y) fun a5 E5 t5 T5 h5 k5 s5 => ?_
    obtain ⟨n', t6, e6, h6, k6, s6⟩ := mergedSet_spec h5 (s4.kept k5) s5
    refine Sim.left SetsKept.trans e6 k6 ?_
    have s7 := ((s3.kept k4).kept k5).kept k6
    refine Sim.bind SetsKept.trans (sim_forLive h6 s7 fun z t' T' h' k' => ?_) fun _ _ t8 T8 h8 k8 _ => ?_
    · refine Sim.bind SetsKept.trans (sim_assignML h' z (s7.kept k')) fun _ _ t9 T9 h9 k9 _ => ?_
      exact sim_assignCL h9 z ((s6.kept k').kept k9)
    refine Sim.bind SetsKept.trans (sim_forLive h8 (s6.kept k8) fun z t' T' h' k' => ?_) fun _ _ t9 T9 h9 k9 _ => ?_
    · refine Sim.bind SetsKept.trans (sim_heapCL h' z) fun a E u U hu ku su => ?_
      obtain ⟨m, v, ev, hv, kv, sv⟩ := mergedSet_spec hu su (((s7.kept k8).kept k').kept ku)
      refine Sim.left SetsKept.trans ev kv ?_
      exact sim_assignCL hv z sv
    exact Sim.pure SetsKept.refl h9 rfl
  | cannotLink =>
    unfold addTransH addTrans
    refine Sim.bind SetsKept.trans (sim_heapCL h x) fun a1 E1 t1 T1 h1 k1 s1 => ?_
    refine Sim.bind SetsKept.trans (sim_heapML h1 y) fun a2 E2 t2 T2 h2 k2 s2 => ?_
    obtain ⟨n, t3, e3, h3, k3, s3⟩ := mergedSet_spec h2 (s1.kept k2) s2
    refine Sim.left SetsKept.trans e3 k3 ?_
    refine Sim.bind SetsKept.trans (sim_heapCL h3 y) fun a4 E4 t4 T4 h4 k4 s4 => ?_
    refine Sim.bind SetsKept.trans (sim_heapML h4 x) fun a5 E5 t5 T5 h5 k5 s5 => ?_
    obtain ⟨n', t6, e6, h6, k6, s6⟩ := mergedSet_spec h5 (s4.kept k5) s5
    refine Sim.left SetsKept.trans e6 k6 ?_
    have s7 := ((s3.kept k4).kept k5).kept k6
    refine Sim.bind SetsKept.trans (sim_heapML h6 x) fun a8 E8 t8 T8 h8 k8 s8 => ?_
    refine Sim.bind SetsKept.trans (sim_forLive h8 s8 fun z t' T' h' k' => ?_) fun _ _ t9 T9 h9 k9 _ => ?_
    · exact sim_assignCL h' z ((s7.kept k8).kept k')
    refine Sim.bind SetsKept.trans (sim_heapML h9 y) fun a10 E10 t10 T10 h10 k10 s10 => ?_
    refine Sim.bind SetsKept.trans (sim_forLive h10 s10 fun z t' T' h' k' => ?_) fun _ _ t11 T11 h11 k11 _ => ?_
    · exact sim_assignCL h' z ((((s6.kept k8).kept k9).kept k10).kept k')
    exact Sim.pure SetsKept.refl h11 rfl

end

end Verif
