import Verif.Spec.Names
import Verif.Props.Manager
import Verif.Props.Rename

/-
Lemmas for C86, first part: the manager under other names of the IDs.
-/

namespace Verif

variable {α β : Type} [LinearOrder α] [LinearOrder β] {f : α → β}

/-! ### The abstract store -/

/-- Two stores that correspond under `f`. -/
structure StoreMap (f : α → β) (s : Store α) (s' : Store β) : Prop where
  ids : s'.ids = s.ids.map f
  rel : ∀ x y, s'.rel (f x) (f y) = s.rel x y
  range : ∀ u v, s'.rel u v ≠ none → (∃ x, f x = u) ∧ ∃ y, f y = v

theorem StoreMap.chain {s : Store α} {s' : Store β} (h : StoreMap f s s') {x : α} {u : β} (hc : s'.ML (f x) u) :
    ∃ y, f y = u ∧ s.ML x y := by
  induction hc with
  | refl => exact ⟨x, rfl, .refl⟩
  | @tail b c _ hbc ih =>
    obtain ⟨y, rfl, hy⟩ := ih
    obtain ⟨-, z, rfl⟩ := h.range (f y) c (by rw [hbc]; simp)
    exact ⟨z, rfl, hy.tail (by rw [h.rel] at hbc; exact hbc)⟩

theorem StoreMap.ml {s : Store α} {s' : Store β} (h : StoreMap f s s') (hf : f.Injective) (x y : α) :
    s'.ML (f x) (f y) ↔ s.ML x y := by
  constructor
  · intro hc
    obtain ⟨z, hz, hm⟩ := h.chain hc
    rw [← hf hz]; exact hm
  · intro hc
    exact hc.lift f fun a b hab => (h.rel a b).trans hab

theorem StoreMap.cl {s : Store α} {s' : Store β} (h : StoreMap f s s') (hf : f.Injective) (x y : α) :
    s'.CL (f x) (f y) ↔ s.CL x y := by
  constructor
  · rintro ⟨u, v, h1, h2, h3⟩
    obtain ⟨u', rfl, h1'⟩ := h.chain h1
    obtain ⟨-, v', rfl⟩ := h.range _ v (by rw [h2]; simp)
    exact ⟨u', v', h1', by rw [h.rel] at h2; exact h2, (h.ml hf v' y).1 h3⟩
  · rintro ⟨u, v, h1, h2, h3⟩
    exact ⟨f u, f v, (h.ml hf x u).2 h1, (h.rel u v).trans h2, (h.ml hf v y).2 h3⟩

theorem foldl_addNew_map (hf : f.Injective) (l acc : List α) :
    (l.map f).foldl addNew (acc.map f) = (l.foldl addNew acc).map f := by
  induction l generalizing acc with
  | nil => rfl
  | cons a l ih =>
    have : addNew (acc.map f) (f a) = (addNew acc a).map f := by
      unfold addNew
      simp only [List.mem_map_of_injective hf]
      split <;> simp
    rw [List.map_cons, List.foldl_cons, this, ih, List.foldl_cons]

theorem StoreMap.init (hf : f.Injective) (ids : List α) : StoreMap f (Store.init ids) (Store.init (ids.map f)) where
  ids := foldl_addNew_map hf ids []
  rel x y := by
    show (if f x = f y ∧ f x ∈ ids.map f then _ else _) = if x = y ∧ x ∈ ids then _ else _
    simp only [hf.eq_iff, List.mem_map_of_injective hf]
  range u v huv := by
    have : u = v ∧ u ∈ ids.map f := by
      by_contra hc
      exact huv (if_neg hc)
    obtain ⟨rfl, h2⟩ := this
    obtain ⟨x, -, hx⟩ := List.mem_map.1 h2
    exact ⟨⟨x, hx⟩, x, hx⟩

theorem StoreMap.annotate {s : Store α} {s' : Store β} (h : StoreMap f s s') (hf : f.Injective) (x y : α) (o : Option CType) :
    StoreMap f (s.annotate x y o) (s'.annotate (f x) (f y) o) where
  ids := h.ids
  rel u v := by
    show (if (f u = f x ∧ f v = f y) ∨ (f u = f y ∧ f v = f x) then o else s'.rel (f u) (f v)) = _
    simp only [hf.eq_iff, h.rel]
    rfl
  range u v huv := by
    by_cases hc : (u = f x ∧ v = f y) ∨ (u = f y ∧ v = f x)
    · rcases hc with ⟨rfl, rfl⟩ | ⟨rfl, rfl⟩
      · exact ⟨⟨x, rfl⟩, y, rfl⟩
      · exact ⟨⟨y, rfl⟩, x, rfl⟩
    · exact h.range u v (by
        have : (s'.annotate (f x) (f y) o).rel u v = s'.rel u v := if_neg hc
        rwa [this] at huv)

theorem StoreMap.contradicts {s : Store α} {s' : Store β} (h : StoreMap f s s') (hf : f.Injective) (x y : α) (t : CType) :
    s'.Contradicts (f x) (f y) t ↔ s.Contradicts x y t := by
  cases t with
  | mustLink => exact h.cl hf x y
  | cannotLink => exact h.ml hf x y

theorem StoreMap.step {s : Store α} {s' : Store β} (h : StoreMap f s s') (hf : f.Injective) (op : Op α) :
    (s'.step (op.mapIds f)).1 = (s.step op).1 ∧ StoreMap f (s.step op).2 (s'.step (op.mapIds f)).2 := by
  have hmem : ∀ x, f x ∈ s'.ids ↔ x ∈ s.ids := fun x => by rw [h.ids, List.mem_map_of_injective hf]
  cases op with
  | addDataID x =>
    simp only [Op.mapIds, Store.step, hmem]
    split
    · exact ⟨rfl, h⟩
    · refine ⟨rfl, ⟨by simp [h.ids], fun u v => ?_, fun u v huv => ?_⟩⟩
      · show (if f u = f x ∧ f v = f x then _ else s'.rel (f u) (f v)) = _
        simp only [hf.eq_iff, h.rel]
      · by_cases hc : u = f x ∧ v = f x
        · exact ⟨⟨x, hc.1.symm⟩, x, hc.2.symm⟩
        · exact h.range u v (by simpa [hc] using huv)
  | deleteDataID x =>
    simp only [Op.mapIds, Store.step, hmem]
    split
    · exact ⟨rfl, h⟩
    · refine ⟨rfl, ⟨?_, fun u v => ?_, fun u v huv => ?_⟩⟩
      · simp only [h.ids, List.filter_map]
        congr 1
        apply List.filter_congr
        intro a _
        simp [hf.eq_iff]
      · show (if f u = f x ∨ f v = f x then _ else s'.rel (f u) (f v)) = _
        simp only [hf.eq_iff, h.rel]
      · by_cases hc : u = f x ∨ v = f x
        · simp [hc] at huv
        · exact h.range u v (by simpa [hc] using huv)
  | addConstraint x y ty v =>
    classical
    have hc := fun t => h.contradicts hf x y t
    have key : ∀ t, (if s'.Contradicts (f x) (f y) t then ((.error (.valueError "conflict") : Except PyErr Bool), s')
          else (.ok true, if s'.rel (f x) (f y) = none then s'.annotate (f x) (f y) (some t) else s')).1 =
        (if s.Contradicts x y t then ((.error (.valueError "conflict") : Except PyErr Bool), s)
          else (.ok true, if s.rel x y = none then s.annotate x y (some t) else s)).1 ∧
        StoreMap f (if s.Contradicts x y t then ((.error (.valueError "conflict") : Except PyErr Bool), s)
          else (.ok true, if s.rel x y = none then s.annotate x y (some t) else s)).2
          (if s'.Contradicts (f x) (f y) t then ((.error (.valueError "conflict") : Except PyErr Bool), s')
          else (.ok true, if s'.rel (f x) (f y) = none then s'.annotate (f x) (f y) (some t) else s')).2 := by
      intro t
      by_cases h1 : s.Contradicts x y t
      · rw [if_pos h1, if_pos ((hc t).2 h1)]
        exact ⟨rfl, h⟩
      · rw [if_neg h1, if_neg fun h2 => h1 ((hc t).1 h2), h.rel]
        refine ⟨rfl, ?_⟩
        show StoreMap f (if _ then _ else _) (if _ then _ else _)
        split
        · exact h.annotate hf x y _
        · exact h
    simp only [Op.mapIds, Store.step, hmem]
    split
    · exact ⟨rfl, h⟩
    · split
      · exact ⟨rfl, h⟩
      · split
        · exact key .mustLink
        · split
          · exact key .cannotLink
          · exact ⟨rfl, h⟩
  | deleteConstraint x y =>
    simp only [Op.mapIds, Store.step, hmem]
    split
    · exact ⟨rfl, h⟩
    · split
      · exact ⟨rfl, h⟩
      · exact ⟨rfl, h.annotate hf x y none⟩

theorem StoreMap.run {s : Store α} {s' : Store β} (h : StoreMap f s s') (hf : f.Injective) (ops : List (Op α)) :
    (s'.run (ops.map (Op.mapIds f))).1 = (s.run ops).1 ∧ StoreMap f (s.run ops).2 (s'.run (ops.map (Op.mapIds f))).2 := by
  induction ops generalizing s s' with
  | nil => exact ⟨rfl, h⟩
  | cons op ops ih =>
    obtain ⟨h1, h2⟩ := h.step hf op
    obtain ⟨h3, h4⟩ := ih h2
    exact ⟨by simp only [List.map_cons, Store.run, h1, h3], h4⟩

/-! ### The manager -/

theorem components_renamed {m : Manager α} {m' : Manager β} (h : Inv m) (h' : Inv m') (hf : f.Injective)
    (hm : m'.managed = m.managed.map f) (hml : ∀ x ∈ m.managed, ∀ y ∈ m.managed, (MustLinked m' (f x) (f y) ↔ MustLinked m x y)) :
    List.Forall₂ (fun c c' => c'.Perm (c.map f)) m.components m'.components := by
  have hsub : ∀ c' ∈ m'.components, ∀ y ∈ c', ∃ x ∈ m.managed, f x = y := by
    intro c' hc' y hy
    have := (mem_component_iff h' hc' hy).1
    rw [hm] at this
    exact List.mem_map.1 this
  -- two components with one common ID
  have hone : ∀ c ∈ m.components, ∀ c' ∈ m'.components, ∀ x ∈ c, f x ∈ c' → c'.Perm (c.map f) := by
    intro c hc c' hc' x hx hx'
    refine (List.perm_ext_iff_of_nodup (component_nodup h' hc') ((component_nodup h hc).map hf)).2 fun y => ?_
    obtain ⟨hxm, hxc⟩ := mem_component_iff h hc hx
    obtain ⟨-, hxc'⟩ := mem_component_iff h' hc' hx'
    constructor
    · intro hy
      obtain ⟨z, hz, rfl⟩ := hsub c' hc' y hy
      exact List.mem_map_of_mem ((hxc z).2 ((hml x hxm z hz).1 ((hxc' _).1 hy)))
    · intro hy
      obtain ⟨z, hz, rfl⟩ := List.mem_map.1 hy
      exact (hxc' _).2 ((hml x hxm z (mem_component_iff h hc hz).1).2 ((hxc z).1 hz))
  let k : List α → Nat := fun c => m.managed.findIdx (fun x => decide (x ∈ c))
  let k' : List β → Nat := fun c => m.managed.findIdx (fun x => decide (f x ∈ c))
  have hk : ∀ (c : List α) (c' : List β), c'.Perm (c.map f) → k c = k' c' := by
    intro c c' hp
    simp only [k, k', hp.mem_iff, List.mem_map_of_injective hf]
  have s1 : (m.components.map k).Pairwise (· < ·) := by
    rw [List.pairwise_map]; exact components_order h
  have s2 : (m'.components.map k').Pairwise (· < ·) := by
    rw [List.pairwise_map]
    have := components_order h'
    rw [hm] at this
    simpa only [List.findIdx_map, Function.comp_def] using this
  have heq : m.components.map k = m'.components.map k' := by
    have n1 : (m.components.map k).Nodup := s1.imp (fun h => ne_of_lt h)
    have n2 : (m'.components.map k').Nodup := s2.imp (fun h => ne_of_lt h)
    have hp : (m.components.map k).Perm (m'.components.map k') := by
      refine (List.perm_ext_iff_of_nodup n1 n2).2 ?_
      intro v
      simp only [List.mem_map]
      constructor
      · rintro ⟨c, hc, rfl⟩
        obtain ⟨x, hx⟩ := List.exists_mem_of_ne_nil c (component_ne_nil h hc)
        obtain ⟨c', hc', hx'⟩ := exists_component h' (x := f x) (by
          rw [hm]; exact List.mem_map_of_mem (mem_component_iff h hc hx).1)
        exact ⟨c', hc', (hk _ _ (hone c hc c' hc' x hx hx')).symm⟩
      · rintro ⟨c', hc', rfl⟩
        obtain ⟨y, hy⟩ := List.exists_mem_of_ne_nil c' (component_ne_nil h' hc')
        obtain ⟨x, hx, rfl⟩ := hsub c' hc' y hy
        obtain ⟨c, hc, hx'⟩ := exists_component h hx
        exact ⟨c, hc, hk _ _ (hone c hc c' hc' x hx' hy)⟩
    exact hp.eq_of_pairwise (fun a b _ _ h1 h2 => absurd h1 (lt_asymm h2)) s1 s2
  have f1 : List.Forall₂ (fun a b => k a = k' b) m.components m'.components := by
    have : List.Forall₂ Eq (m.components.map k) (m'.components.map k') := by
      rw [heq]; exact List.forall₂_refl _
    rwa [List.forall₂_map_left_iff, List.forall₂_map_right_iff] at this
  have f2 : List.Forall₂ (fun a b => (a ∈ m.components ∧ b ∈ m'.components) ∧ k a = k' b)
      m.components m'.components := by
    rw [List.forall₂_iff_zip] at f1 ⊢
    exact ⟨f1.1, fun hab => ⟨⟨(List.of_mem_zip hab).1, (List.of_mem_zip hab).2⟩, f1.2 hab⟩⟩
  refine f2.imp ?_
  rintro c c' ⟨⟨hc, hc'⟩, hkk⟩
  obtain ⟨x, hx⟩ := List.exists_mem_of_ne_nil c (component_ne_nil h hc)
  have hlt : k c < m.managed.length :=
    List.findIdx_lt_length_of_exists ⟨x, (mem_component_iff h hc hx).1, by simpa using hx⟩
  have e1 := List.findIdx_getElem (w := hlt)
  have hlt' : k' c' < m.managed.length := hkk ▸ hlt
  have e2 := List.findIdx_getElem (w := hlt')
  simp only [decide_eq_true_eq] at e1 e2
  have e3 : m.managed[k c] = m.managed[k' c'] := by simp only [hkk]
  exact hone c hc c' hc' _ e1 (e3 ▸ e2)

theorem getInferred_inv {m : Manager α} (h : Inv m) (x y : α) :
    m.getInferred x y = if x ∉ m.managed then .error (.valueError "data_ID1")
      else if y ∉ m.managed then .error (.valueError "data_ID2") else m.getInferred x y := by
  have hk : dkeys m.trans = m.managed := h.t.keys
  split
  · rename_i hx
    unfold Manager.getInferred
    rw [hk, if_pos hx]
    rfl
  · split
    · rename_i hx hy
      unfold Manager.getInferred
      rw [hk, if_neg hx, if_pos hy]
      rfl
    · rfl

/-- Lists and getters that correspond on the managed IDs. -/
theorem renamed_of_getters {m : Manager α} {m' : Manager β} (hf : f.Injective) (h : Reachable m) (h' : Reachable m')
    (hm : m'.managed = m.managed.map f)
    (ha : ∀ x ∈ m.managed, ∀ y ∈ m.managed, m'.getAdded (f x) (f y) = m.getAdded x y)
    (hi : ∀ x ∈ m.managed, ∀ y ∈ m.managed, ∀ t, m'.getInferred (f x) (f y) = .ok (some t) ↔ m.getInferred x y = .ok (some t)) :
    Renamed f m m' := by
  have hmem : ∀ x, f x ∈ m'.managed ↔ x ∈ m.managed := fun x => by rw [hm, List.mem_map_of_injective hf]
  have hi' : ∀ x y, m'.getInferred (f x) (f y) = m.getInferred x y := by
    intro x y
    rw [getInferred_inv h.inv, getInferred_inv h'.inv]
    simp only [hmem]
    split
    · rfl
    · split
      · rfl
      · rename_i hx hy
        rw [not_not] at hx hy
        obtain ⟨r, hr, -⟩ := getInferred_spec h.inv hx hy
        obtain ⟨r', hr', -⟩ := getInferred_spec h'.inv ((hmem x).2 hx) ((hmem y).2 hy)
        have := hi x hx y hy
        rw [hr, hr'] at this ⊢
        simp only [Except.ok.injEq] at this ⊢
        ext t
        exact this t
  refine ⟨hm, fun x y => ?_, hi', ?_, ?_⟩
  · by_cases hxy : x ∈ m.managed ∧ y ∈ m.managed
    · exact ha x hxy.1 y hxy.2
    · rw [getAdded_inv h.inv, getAdded_inv h'.inv]
      simp only [hmem]
      split
      · rfl
      · split
        · rfl
        · rename_i hx hy
          exact absurd ⟨not_not.1 hx, not_not.1 hy⟩ hxy
  · rw [Bool.eq_iff_iff, C13_completude_exact h', C13_completude_exact h, hm]
    simp only [List.forall_mem_map, hi']
  · refine components_renamed h.inv h'.inv hf hm fun x hx y hy => ?_
    rw [← inferred_ml_iff h.inv hx hy, ← inferred_ml_iff h'.inv ((hmem x).2 hx) ((hmem y).2 hy), hi']

theorem renamed_runOps (hf : f.Injective) (ids : List α) (ops : List (Op α)) :
    runResults (Manager.init (ids.map f)) (ops.map (Op.mapIds f)) = runResults (Manager.init ids) ops ∧
      Renamed f (runOps (Manager.init ids) ops) (runOps (Manager.init (ids.map f)) (ops.map (Op.mapIds f))) := by
  obtain ⟨h1, h2, h3⟩ := manager_refines_store ids ops
  obtain ⟨h1', h2', h3'⟩ := manager_refines_store (ids.map f) (ops.map (Op.mapIds f))
  obtain ⟨g1, g2⟩ := (StoreMap.init hf ids).run hf ops
  have hm : (runOps (Manager.init (ids.map f)) (ops.map (Op.mapIds f))).managed = (runOps (Manager.init ids) ops).managed.map f := by
    rw [h2', g2.ids, h2]
  refine ⟨by rw [h1', g1, h1], ?_⟩
  have hin : ∀ x ∈ (runOps (Manager.init ids) ops).managed, f x ∈ ((Store.init (ids.map f)).run (ops.map (Op.mapIds f))).2.ids :=
    fun x hx => by rw [g2.ids, ← h2]; exact List.mem_map_of_mem hx
  refine renamed_of_getters hf ⟨_, _, rfl⟩ ⟨_, _, rfl⟩ hm (fun x hx y hy => ?_) fun x hx y hy t => ?_
  · rw [(h3 x (h2 ▸ hx) y (h2 ▸ hy)).1, (h3' _ (hin x hx) _ (hin y hy)).1, g2.rel]
  · cases t with
    | mustLink => rw [(h3 x (h2 ▸ hx) y (h2 ▸ hy)).2.1, (h3' _ (hin x hx) _ (hin y hy)).2.1, g2.ml hf]
    | cannotLink => rw [(h3 x (h2 ▸ hx) y (h2 ▸ hy)).2.2, (h3' _ (hin x hx) _ (hin y hy)).2.2, g2.cl hf]

end Verif
