import Verif.Proofs.Names

/-
Lemmas for C86, second part: dictionaries under other names; when the component lists are exactly the same.
-/

namespace Verif

/-! ### Dictionaries -/

section
variable {κ κ' ν ν' : Type} [DecidableEq κ] [DecidableEq κ'] {f : κ → κ'}

/-- Other keys and other values. -/
def dmap (f : κ → κ') (g : ν → ν') (d : Dict κ ν) : Dict κ' ν' := d.map fun p => (f p.1, g p.2)

omit [DecidableEq κ] [DecidableEq κ'] in
theorem dkeys_dmap (g : ν → ν') (d : Dict κ ν) : dkeys (dmap f g d) = (dkeys d).map f := by
  simp [dkeys, dmap]

omit [DecidableEq κ] [DecidableEq κ'] in
theorem dvals_dmap (g : ν → ν') (d : Dict κ ν) : dvals (dmap f g d) = (dvals d).map g := by
  simp [dvals, dmap]

theorem dget?_dmap (hf : f.Injective) (g : ν → ν') (d : Dict κ ν) (x : κ) : dget? (dmap f g d) (f x) = (dget? d x).map g := by
  induction d with
  | nil => rfl
  | cons p d ih =>
    obtain ⟨k, v⟩ := p
    show dget? ((f k, g v) :: dmap f g d) (f x) = _
    unfold dget?
    by_cases h : k = x
    · rw [if_pos h, if_pos (by rw [h])]; rfl
    · rw [if_neg h, if_neg fun h' => h (hf h')]; exact ih

theorem dget_dmap (hf : f.Injective) (g : ν → ν') (d : Dict κ ν) (x : κ) : dget (dmap f g d) (f x) = (dget d x).map g := by
  unfold dget
  rw [dget?_dmap hf]
  cases dget? d x <;> rfl

theorem dset_dmap (hf : f.Injective) (g : ν → ν') (d : Dict κ ν) (x : κ) (v : ν) :
    dset (dmap f g d) (f x) (g v) = dmap f g (dset d x v) := by
  induction d with
  | nil => rfl
  | cons p d ih =>
    obtain ⟨k, w⟩ := p
    show dset ((f k, g w) :: dmap f g d) (f x) (g v) = _
    unfold dset
    by_cases h : k = x
    · rw [if_pos h, if_pos (by rw [h])]; rfl
    · rw [if_neg h, if_neg fun h' => h (hf h'), ih]; rfl

theorem dpop_dmap (hf : f.Injective) (g : ν → ν') (d : Dict κ ν) (x : κ) : dpop (dmap f g d) (f x) = dmap f g (dpop d x) := by
  unfold dpop dmap
  rw [List.filter_map]
  congr 1
  apply List.filter_congr
  intro p _
  simp [hf.eq_iff]

theorem dofList_dmap (hf : f.Injective) (g : ν → ν') (l : List (κ × ν)) :
    dofList (l.map fun p => (f p.1, g p.2)) = dmap f g (dofList l) := by
  unfold dofList
  have key : ∀ (l : List (κ × ν)) (d : Dict κ ν), (l.map fun p => (f p.1, g p.2)).foldl (fun d p => dset d p.1 p.2) (dmap f g d) =
      dmap f g (l.foldl (fun d p => dset d p.1 p.2) d) := by
    intro l
    induction l with
    | nil => exact fun d => rfl
    | cons p l ih =>
      intro d
      rw [List.map_cons, List.foldl_cons, List.foldl_cons, dset_dmap hf, ih]
  exact key l []

theorem oinsert_map (hf : f.Injective) (s : List κ) (k : κ) : oinsert (s.map f) (f k) = (oinsert s k).map f := by
  unfold oinsert
  simp only [List.mem_map_of_injective hf]
  split <;> simp

theorem ounion_map (hf : f.Injective) (a b : List κ) : ounion (a.map f) (b.map f) = (ounion a b).map f := by
  unfold ounion
  induction b generalizing a with
  | nil => rfl
  | cons k b ih => rw [List.map_cons, List.foldl_cons, List.foldl_cons, oinsert_map hf, ih]

end

/-! ### Two runs of methods -/

section
variable {σ σ' β β' γ γ' ι ι' : Type}

/-- `a'` does from `φ s` what `a` does from `s`. -/
def NameSim (φ : σ → σ') (ψ : β → β') (a : EStateM PyErr σ β) (a' : EStateM PyErr σ' β') : Prop :=
  ∀ s, a' (φ s) = match a s with
    | .ok b t => .ok (ψ b) (φ t)
    | .error e t => .error e (φ t)

theorem NameSim.bind {φ : σ → σ'} {ψ : β → β'} {χ : γ → γ'} {a : EStateM PyErr σ β} {a' : EStateM PyErr σ' β'}
    {k : β → EStateM PyErr σ γ} {k' : β' → EStateM PyErr σ' γ'} (h : NameSim φ ψ a a') (hk : ∀ b, NameSim φ χ (k b) (k' (ψ b))) :
    NameSim φ χ (a >>= k) (a' >>= k') := by
  intro s
  show EStateM.bind a' k' (φ s) = match EStateM.bind a k s with | .ok b t => .ok (χ b) (φ t) | .error e t => .error e (φ t)
  unfold EStateM.bind
  rw [h s]
  cases a s with
  | ok b t => exact hk b t
  | error e t => rfl

theorem NameSim.pure {φ : σ → σ'} {ψ : β → β'} (b : β) : NameSim φ ψ (Pure.pure b) (Pure.pure (ψ b)) := fun _ => rfl

theorem NameSim.throw {φ : σ → σ'} {ψ : β → β'} (e : PyErr) : NameSim φ ψ (throw e) (throw e) := fun _ => rfl

theorem NameSim.get {φ : σ → σ'} : NameSim φ φ get get := fun _ => rfl

theorem NameSim.modify {φ : σ → σ'} {g : σ → σ} {g' : σ' → σ'} (h : ∀ s, g' (φ s) = φ (g s)) : NameSim φ id (modify g) (modify g') := by
  intro s
  show EStateM.Result.ok () (g' (φ s)) = .ok () (φ (g s))
  rw [h s]

theorem NameSim.forM {φ : σ → σ'} {F : ι → ι'} {k : ι → EStateM PyErr σ Unit} {k' : ι' → EStateM PyErr σ' Unit} {l : List ι}
    (h : ∀ x ∈ l, NameSim φ id (k x) (k' (F x))) : NameSim φ id (l.forM k) ((l.map F).forM k') := by
  induction l with
  | nil => exact NameSim.pure ()
  | cons x l ih =>
    exact NameSim.bind (h x List.mem_cons_self) fun _ => ih fun y hy => h y (List.mem_cons_of_mem _ hy)

theorem NameSim.ite {φ : σ → σ'} {ψ : β → β'} {p p' : Prop} [Decidable p] [Decidable p'] {a b : EStateM PyErr σ β} {a' b' : EStateM PyErr σ' β'}
    (hp : p' ↔ p) (ha : NameSim φ ψ a a') (hb : NameSim φ ψ b b') : NameSim φ ψ (if p then a else b) (if p' then a' else b') := by
  by_cases h : p
  · rw [if_pos h, if_pos (hp.2 h)]; exact ha
  · rw [if_neg h, if_neg fun h' => h (hp.1 h')]; exact hb

end

/-- A check that raises, then the rest. -/
theorem NameSim.guard {σ σ' γ γ' : Type} {φ : σ → σ'} {χ : γ → γ'} {p p' : Prop} [Decidable p] [Decidable p'] {e : PyErr}
    {k : PUnit → EStateM PyErr σ γ} {k' : PUnit → EStateM PyErr σ' γ'} (hp : p' ↔ p) (hk : NameSim φ χ (k ⟨⟩) (k' ⟨⟩)) :
    NameSim φ χ (if p then MonadExcept.throw e >>= k else k ⟨⟩) (if p' then MonadExcept.throw e >>= k' else k' ⟨⟩) :=
  NameSim.ite hp (fun _ => rfl) hk

/-- A choice of two steps, then the rest. -/
theorem NameSim.choice {σ σ' γ γ' : Type} {φ : σ → σ'} {χ : γ → γ'} {p p' : Prop} [Decidable p] [Decidable p']
    {a b : EStateM PyErr σ PUnit} {a' b' : EStateM PyErr σ' PUnit}
    {k : PUnit → EStateM PyErr σ γ} {k' : PUnit → EStateM PyErr σ' γ'} (hp : p' ↔ p) (ha : NameSim φ id a a') (hb : NameSim φ id b b')
    (hk : ∀ u, NameSim φ χ (k u) (k' u)) :
    NameSim φ χ (if p then a >>= k else b >>= k) (if p' then a' >>= k' else b' >>= k') :=
  NameSim.ite hp (NameSim.bind ha hk) (NameSim.bind hb hk)

/-! ### The table of the closure -/

variable {α β : Type} [LinearOrder α] [LinearOrder β] {f : α → β}

def TEntry.mapIds (f : α → β) (e : TEntry α) : TEntry β := ⟨e.ml.map f, e.cl.map f⟩

abbrev mapTrans (f : α → β) (T : Dict α (TEntry α)) : Dict β (TEntry β) := dmap f (TEntry.mapIds f) T

theorem setML_sim (hf : f.Injective) (x : α) (l : List α) : NameSim (mapTrans f) id (setML x l) (setML (f x) (l.map f)) := by
  intro T
  unfold setML
  rw [dget?_dmap hf]
  cases dget? T x with
  | none => rfl
  | some e => exact congrArg (EStateM.Result.ok ()) (dset_dmap hf (TEntry.mapIds f) T x { e with ml := l })

theorem setCL_sim (hf : f.Injective) (x : α) (l : List α) : NameSim (mapTrans f) id (setCL x l) (setCL (f x) (l.map f)) := by
  intro T
  unfold setCL
  rw [dget?_dmap hf]
  cases dget? T x with
  | none => rfl
  | some e => exact congrArg (EStateM.Result.ok ()) (dset_dmap hf (TEntry.mapIds f) T x { e with cl := l })

theorem readT_sim (hf : f.Injective) (x : α) : NameSim (mapTrans f) (TEntry.mapIds f) (readT x) (readT (f x)) := by
  intro T
  unfold readT
  rw [dget?_dmap hf]
  cases dget? T x <;> rfl

theorem addTrans_sim (hf : f.Injective) (x y : α) (t : CType) : NameSim (mapTrans f) id (addTrans x y t) (addTrans (f x) (f y) t) := by
  cases t with
  | mustLink =>
    unfold addTrans
    refine NameSim.bind (readT_sim hf x) fun e1 => NameSim.bind (readT_sim hf y) fun e2 =>
      NameSim.bind (readT_sim hf x) fun e3 => NameSim.bind (readT_sim hf y) fun e4 => ?_
    simp only [TEntry.mapIds, ounion_map hf]
    refine NameSim.bind (NameSim.forM fun z _ => NameSim.bind (setML_sim hf z _) fun _ => setCL_sim hf z _) fun _ =>
      NameSim.bind (NameSim.forM fun z _ => NameSim.bind (readT_sim hf z) fun e => ?_) fun _ => NameSim.pure true
    rw [show (TEntry.mapIds f e).cl = e.cl.map f from rfl, ounion_map hf]
    exact setCL_sim hf z _
  | cannotLink =>
    unfold addTrans
    refine NameSim.bind (readT_sim hf x) fun e1 => NameSim.bind (readT_sim hf y) fun e2 =>
      NameSim.bind (readT_sim hf y) fun e3 => NameSim.bind (readT_sim hf x) fun e4 => ?_
    simp only [TEntry.mapIds, ounion_map hf]
    exact NameSim.bind (readT_sim hf x) fun e5 => NameSim.bind (NameSim.forM fun z _ => setCL_sim hf z _) fun _ =>
      NameSim.bind (readT_sim hf y) fun e6 => NameSim.bind (NameSim.forM fun z _ => setCL_sim hf z _) fun _ => NameSim.pure true

/-! ### The whole manager, when the order of the names is the same -/

/-- The same manager with other names. -/
def Manager.mapIds (f : α → β) (m : Manager α) : Manager β := ⟨dmap f (dmap f id) m.dict, mapTrans f m.trans⟩

theorem onTrans_sim {γ : Type} {act : EStateM PyErr (Dict α (TEntry α)) γ} {act' : EStateM PyErr (Dict β (TEntry β)) γ}
    (h : NameSim (mapTrans f) id act act') : NameSim (Manager.mapIds f) id (onTrans act) (onTrans act') := by
  intro m
  unfold onTrans
  have := h m.trans
  show (match act' (mapTrans f m.trans) with | .ok b T => _ | .error e T => _) = _
  rw [this]
  cases act m.trans <;> rfl

theorem mapIds_managed (m : Manager α) : (m.mapIds f).managed = m.managed.map f := dkeys_dmap _ _

theorem fresh_mapIds (x : α) : TEntry.fresh (f x) = (TEntry.fresh x).mapIds f := rfl

theorem init_mapIds (hf : StrictMono f) (ids : List α) : Manager.init (ids.map f) = (Manager.init ids).mapIds f := by
  have hi := hf.injective
  unfold Manager.init Manager.mapIds
  congr 1
  · rw [← dofList_dmap hi, List.map_map, List.map_map]
    congr 1
    refine List.map_congr_left fun x _ => ?_
    simp only [Function.comp_apply, Prod.mk.injEq, true_and]
    rw [List.filter_map, List.map_map, ← dofList_dmap hi, List.map_map]
    congr 1
    have : (fun y => decide (f x ≤ y)) ∘ f = fun y => decide (x ≤ y) := by
      funext y
      simp [hf.le_iff_le]
    rw [this]
    refine List.map_congr_left fun y _ => ?_
    simp [hi.eq_iff]
  · rw [mapTrans, ← dofList_dmap hi, List.map_map, List.map_map]
    rfl

theorem regenerate_sim (hf : f.Injective) : NameSim (Manager.mapIds f) id (Manager.regenerate (α := α)) (Manager.regenerate (α := β)) := by
  unfold Manager.regenerate
  refine NameSim.bind (NameSim.modify fun m => ?_) fun _ => NameSim.bind NameSim.get fun m => ?_
  · unfold Manager.mapIds
    congr 1
    show dofList ((dkeys (dmap f (dmap f id) m.dict)).map _) = dmap f (TEntry.mapIds f) (dofList ((dkeys m.dict).map _))
    rw [← dofList_dmap hf, dkeys_dmap, List.map_map, List.map_map]
    rfl
  · refine NameSim.forM (F := fun p : α × Dict α (Option Stored) => (f p.1, dmap f id p.2)) fun row _ => ?_
    refine NameSim.forM (F := fun p : α × Option Stored => (f p.1, id p.2)) fun cell _ => ?_
    obtain ⟨y, o⟩ := cell
    cases o with
    | none => exact NameSim.pure ()
    | some c => exact NameSim.bind (onTrans_sim (addTrans_sim hf row.1 y c.1)) fun _ => NameSim.pure ()

theorem mapIds_dset (hf : f.Injective) (m : Manager α) (x : α) (row : Dict α (Option Stored)) :
    Manager.mapIds f { m with dict := dset m.dict x row } = { m.mapIds f with dict := dset (m.mapIds f).dict (f x) (dmap f id row) } := by
  unfold Manager.mapIds
  simp only [dset_dmap hf]

theorem setCell_sim (hf : f.Injective) (x y : α) (v : Option Stored) :
    NameSim (Manager.mapIds f) id (setCell x y v) (setCell (f x) (f y) v) := by
  intro m
  unfold setCell
  rw [show (m.mapIds f).dict = dmap f (dmap f id) m.dict from rfl, dget?_dmap hf]
  cases dget? m.dict x with
  | none => rfl
  | some row =>
    show EStateM.Result.ok () _ = .ok () _
    rw [mapIds_dset hf]
    rw [← dset_dmap hf id row y v]
    rfl

theorem addIdStep_sim (hf : StrictMono f) (x y : α) : NameSim (Manager.mapIds f) id (addIdStep x y) (addIdStep (f x) (f y)) := by
  have hi := hf.injective
  have key : ∀ (a b : α) (v : Option Stored), NameSim (Manager.mapIds f) id (setCell a b v) (setCell (f a) (f b) v) := setCell_sim hi
  intro m
  unfold addIdStep
  by_cases h1 : x = y
  · rw [if_pos h1, if_pos (by rw [h1])]
    exact key x x (some (.mustLink, 1)) m
  · rw [if_neg h1, if_neg fun h => h1 (hi h)]
    by_cases h2 : x < y
    · rw [if_pos h2, if_pos (hf.lt_iff_lt.2 h2)]
      exact key x y none m
    · rw [if_neg h2, if_neg fun h => h2 (hf.lt_iff_lt.1 h)]
      exact key y x none m

theorem mem_mapIds (hf : f.Injective) (m : Manager α) (x : α) : f x ∈ dkeys (m.mapIds f).dict ↔ x ∈ dkeys m.dict := by
  rw [show (m.mapIds f).dict = dmap f (dmap f id) m.dict from rfl, dkeys_dmap, List.mem_map_of_injective hf]

theorem addDataID_sim (hf : StrictMono f) (x : α) : NameSim (Manager.mapIds f) id (Manager.addDataID x) (Manager.addDataID (f x)) := by
  have hi := hf.injective
  unfold Manager.addDataID
  dsimp only
  refine NameSim.bind NameSim.get fun m => ?_
  refine NameSim.guard (mem_mapIds hi m x) ?_
  refine NameSim.bind (NameSim.modify fun m => (mapIds_dset hi m x []).symm) fun _ => NameSim.bind NameSim.get fun m => ?_
  rw [show dkeys (m.mapIds f).dict = (dkeys m.dict).map f from dkeys_dmap _ _]
  refine NameSim.bind (NameSim.forM fun y _ => addIdStep_sim hf x y) fun _ => NameSim.bind (NameSim.modify fun m => ?_) fun _ => NameSim.pure true
  unfold Manager.mapIds
  simp only [fresh_mapIds, mapTrans, dset_dmap hi]

theorem deleteDataID_sim (hf : f.Injective) (x : α) : NameSim (Manager.mapIds f) id (Manager.deleteDataID x) (Manager.deleteDataID (f x)) := by
  unfold Manager.deleteDataID
  dsimp only
  refine NameSim.bind NameSim.get fun m => ?_
  refine NameSim.guard (not_congr (mem_mapIds hf m x)) ?_
  refine NameSim.bind (NameSim.modify fun m => ?_) fun _ => NameSim.bind (NameSim.modify fun m => ?_) fun _ =>
    NameSim.bind (regenerate_sim hf) fun _ => NameSim.pure true
  · unfold Manager.mapIds
    simp only [dpop_dmap hf]
  · unfold Manager.mapIds
    congr 1
    simp only [dmap, List.map_map]
    refine List.map_congr_left fun row _ => ?_
    simp only [Function.comp_apply, Prod.mk.injEq, true_and]
    exact dpop_dmap hf id row.2 x

theorem getInferred_mapTrans (hf : f.Injective) {m : Manager α} {m' : Manager β} (h : m'.trans = mapTrans f m.trans) (x y : α) :
    m'.getInferred (f x) (f y) = m.getInferred x y := by
  unfold Manager.getInferred
  rw [h, mapTrans, dget_dmap hf, dkeys_dmap]
  simp only [List.mem_map_of_injective hf]
  simp only [bind, Except.bind]
  cases dget m.trans y with
  | error e => rfl
  | ok e =>
    simp only [Except.map, TEntry.mapIds, List.mem_map_of_injective hf]

theorem getAdded_mapIds (hf : StrictMono f) (m : Manager α) (x y : α) : (m.mapIds f).getAdded (f x) (f y) = m.getAdded x y := by
  have hi := hf.injective
  unfold Manager.getAdded
  have hd : ∀ a b, (dget (m.mapIds f).dict (f a) >>= fun row => dget row (f b)) = (dget m.dict a >>= fun row => dget row b) := by
    intro a b
    rw [show (m.mapIds f).dict = dmap f (dmap f id) m.dict from rfl, dget_dmap hi]
    simp only [bind, Except.bind]
    cases dget m.dict a with
    | error e => rfl
    | ok row =>
      show dget (dmap f id row) (f b) = dget row b
      rw [dget_dmap hi]
      cases dget row b <;> rfl
  simp only [mem_mapIds hi, hf.le_iff_le, hd]

theorem liftGet_sim {γ : Type} {g : Manager α → Except PyErr γ} {g' : Manager β → Except PyErr γ}
    (h : ∀ m, g' (m.mapIds f) = g m) : NameSim (Manager.mapIds f) id (liftGet g) (liftGet g') := by
  intro m
  unfold liftGet
  rw [h]
  cases g m <;> rfl

theorem addConstraint_sim (hf : StrictMono f) (x y : α) (ty : String) (v : Rat) :
    NameSim (Manager.mapIds f) id (Manager.addConstraint x y ty v) (Manager.addConstraint (f x) (f y) ty v) := by
  have hi := hf.injective
  unfold Manager.addConstraint
  dsimp only
  refine NameSim.bind NameSim.get fun m => ?_
  refine NameSim.guard (not_congr (mem_mapIds hi m x)) ?_
  refine NameSim.bind NameSim.get fun m => ?_
  refine NameSim.guard (not_congr (mem_mapIds hi m y)) ?_
  cases CType.parse? ty with
  | none => exact NameSim.throw _
  | some t =>
    refine NameSim.bind (liftGet_sim fun m => getInferred_mapTrans hi rfl x y) fun inferred => ?_
    refine NameSim.guard Iff.rfl ?_
    refine NameSim.bind (liftGet_sim fun m => getAdded_mapIds hf m x y) fun added => ?_
    refine NameSim.ite Iff.rfl (NameSim.pure true) ?_
    refine NameSim.choice hf.le_iff_le (setCell_sim hi x y _) (setCell_sim hi y x _) fun _ => ?_
    exact NameSim.bind (onTrans_sim (addTrans_sim hi x y t)) fun _ => NameSim.pure true

theorem deleteConstraint_sim (hf : StrictMono f) (x y : α) :
    NameSim (Manager.mapIds f) id (Manager.deleteConstraint x y) (Manager.deleteConstraint (f x) (f y)) := by
  have hi := hf.injective
  unfold Manager.deleteConstraint
  dsimp only
  refine NameSim.bind NameSim.get fun m => ?_
  refine NameSim.guard (not_congr (mem_mapIds hi m x)) ?_
  refine NameSim.bind NameSim.get fun m => ?_
  refine NameSim.guard (not_congr (mem_mapIds hi m y)) ?_
  refine NameSim.choice hf.le_iff_le (setCell_sim hi x y _) (setCell_sim hi y x _) fun _ => ?_
  exact NameSim.bind (regenerate_sim hi) fun _ => NameSim.pure true

theorem call_sim (hf : StrictMono f) (op : Op α) : NameSim (Manager.mapIds f) id op.call (op.mapIds f).call := by
  cases op with
  | addDataID x => exact addDataID_sim hf x
  | deleteDataID x => exact deleteDataID_sim hf.injective x
  | addConstraint x y ty v => exact addConstraint_sim hf x y ty v
  | deleteConstraint x y => exact deleteConstraint_sim hf x y

theorem runOps_mapIds (hf : StrictMono f) (m : Manager α) (ops : List (Op α)) :
    runOps (m.mapIds f) (ops.map (Op.mapIds f)) = (runOps m ops).mapIds f := by
  induction ops generalizing m with
  | nil => rfl
  | cons op ops ih =>
    have : resState ((op.mapIds f).call (m.mapIds f)) = (resState (op.call m)).mapIds f := by
      rw [call_sim hf op m]
      cases op.call m <;> rfl
    rw [List.map_cons, runOps, this, ih, runOps]

theorem components_mapTrans (hf : f.Injective) {m : Manager α} {m' : Manager β} (h : m'.trans = mapTrans f m.trans) :
    m'.components = m.components.map (List.map f) := by
  rw [components_eq, components_eq, h, ← ounion_map (List.map_injective_iff.2 hf)]
  simp only [mapTrans, dmap, List.map_map, List.map_nil]
  rfl

/-! ### The table of the closure for any order, when nothing is deleted -/

theorem addConstraint_new_trans {m : Manager α} (h : Inv m) {x y : α} {ty : String} {t : CType} {v : Rat}
    (hx : x ∈ dkeys m.dict) (hy : y ∈ dkeys m.dict) (hty : CType.parse? ty = some t)
    (hinf : m.getInferred x y = .ok none ∨ m.getInferred x y = .ok (some t)) (hadd : known m.dict x y = none) :
    (resState (Manager.addConstraint x y ty v m)).trans = resState (addTrans x y t m.trans) := by
  obtain ⟨d', h1, -, -, -⟩ := setCell_pair_ok h.d hx hy (some (t, 1)) (by rintro s ⟨⟩; rfl)
  have hga : m.getAdded x y = .ok none := by rw [getAdded_eq h.d hx hy, hadd]
  have key : ∀ r, m.getInferred x y = .ok r → ¬ (r.isSome = true ∧ r ≠ some t) →
      (resState (Manager.addConstraint x y ty v m)).trans = resState (addTrans x y t m.trans) := by
    intro r hgi hnc
    unfold Manager.addConstraint
    by_cases hxy : x ≤ y
    · simp only [hxy, if_true] at h1
      simp only [bind, EStateM.bind, get, getThe, MonadStateOf.get, EStateM.get, hx, hy, pure, EStateM.pure, not_true_eq_false, if_false,
        hxy, h1, hty, liftGet, hgi, hnc, hga, onTrans, if_true, Option.isSome_none, Bool.false_eq_true]
      cases addTrans x y t m.trans <;> rfl
    · simp only [hxy, if_false] at h1
      simp only [bind, EStateM.bind, get, getThe, MonadStateOf.get, EStateM.get, hx, hy, pure, EStateM.pure, not_true_eq_false, if_false,
        hxy, h1, hty, liftGet, hgi, hnc, hga, onTrans, Option.isSome_none, Bool.false_eq_true]
      cases addTrans x y t m.trans <;> rfl
  rcases hinf with hi | hi
  · exact key _ hi (by simp)
  · exact key _ hi (by simp)

theorem call_trans (hf : f.Injective) {m : Manager α} {m' : Manager β} (h : Inv m) (h' : Inv m') (hr : Renamed f m m')
    (ht : m'.trans = mapTrans f m.trans) {op : Op α} (hop : op.deletes = false) :
    (resState ((op.mapIds f).call m')).trans = mapTrans f (resState (op.call m)).trans := by
  have hmem : ∀ x, f x ∈ dkeys m'.dict ↔ x ∈ dkeys m.dict := fun x => by
    show f x ∈ m'.managed ↔ x ∈ m.managed
    rw [hr.managed, List.mem_map_of_injective hf]
  cases op with
  | deleteDataID x => cases hop
  | deleteConstraint x y => cases hop
  | addDataID x =>
    show (resState (Manager.addDataID (f x) m')).trans = mapTrans f (resState (Manager.addDataID x m)).trans
    by_cases hx : x ∈ dkeys m.dict
    · rw [addDataID_err hx, addDataID_err ((hmem x).2 hx)]; exact ht
    · obtain ⟨m1, e1, -, -, t1, -⟩ := addDataID_ok h hx
      obtain ⟨m2, e2, -, -, t2, -⟩ := addDataID_ok h' (fun hx' => hx ((hmem x).1 hx'))
      rw [e1, e2]
      show m2.trans = mapTrans f m1.trans
      rw [t1, t2, ht]
      simp [mapTrans, dmap, fresh_mapIds]
  | addConstraint x y ty v =>
    show (resState (Manager.addConstraint (f x) (f y) ty v m')).trans = mapTrans f (resState (Manager.addConstraint x y ty v m)).trans
    by_cases hx : x ∈ dkeys m.dict
    swap
    · rw [addConstraint_err1 hx, addConstraint_err1 (fun hx' => hx ((hmem x).1 hx'))]; exact ht
    by_cases hy : y ∈ dkeys m.dict
    swap
    · rw [addConstraint_err2 hx hy, addConstraint_err2 ((hmem x).2 hx) (fun hy' => hy ((hmem y).1 hy'))]; exact ht
    have hx' := (hmem x).2 hx
    have hy' := (hmem y).2 hy
    cases hty : CType.parse? ty with
    | none => rw [addConstraint_err3 hx hy hty, addConstraint_err3 hx' hy' hty]; exact ht
    | some t =>
      have hk : known m'.dict (f x) (f y) = known m.dict x y := by
        have := hr.added x y
        rw [getAdded_eq h.d hx hy, getAdded_eq h'.d hx' hy'] at this
        exact Except.ok.inj this
      obtain ⟨r, hgi, -⟩ := getInferred_spec h hx hy
      have hgi' : m'.getInferred (f x) (f y) = .ok r := by rw [hr.inferred]; exact hgi
      by_cases hc : ∃ t', r = some t' ∧ t' ≠ t
      · obtain ⟨t', rfl, hne⟩ := hc
        rw [addConstraint_conflict hx hy hty hgi hne, addConstraint_conflict hx' hy' hty hgi' hne]; exact ht
      · have hinf : r = none ∨ r = some t := by
          cases r with
          | none => exact .inl rfl
          | some t' =>
            by_cases e : t' = t
            · exact .inr (by rw [e])
            · exact absurd ⟨t', rfl, e⟩ hc
        have hi : m.getInferred x y = .ok none ∨ m.getInferred x y = .ok (some t) := by
          rcases hinf with rfl | rfl
          · exact .inl hgi
          · exact .inr hgi
        have hi' : m'.getInferred (f x) (f y) = .ok none ∨ m'.getInferred (f x) (f y) = .ok (some t) := by
          rw [hr.inferred]; exact hi
        cases hkn : known m.dict x y with
        | some s =>
          rw [addConstraint_known h hx hy hty hi hkn, addConstraint_known h' hx' hy' hty hi' (hk.trans hkn)]
          exact ht
        | none =>
          rw [addConstraint_new_trans h hx hy hty hi hkn, addConstraint_new_trans h' hx' hy' hty hi' (hk.trans hkn), ht,
            addTrans_sim hf x y t m.trans]
          cases addTrans x y t m.trans <;> rfl

theorem init_trans (hf : f.Injective) (ids : List α) : (Manager.init (ids.map f)).trans = mapTrans f (Manager.init ids).trans := by
  show dofList ((ids.map f).map _) = dmap f (TEntry.mapIds f) (dofList (ids.map _))
  rw [← dofList_dmap hf, List.map_map, List.map_map]
  rfl

theorem runOps_trans (hf : f.Injective) (ids : List α) (ops : List (Op α)) (h : ∀ op ∈ ops, op.deletes = false) :
    (runOps (Manager.init (ids.map f)) (ops.map (Op.mapIds f))).trans = mapTrans f (runOps (Manager.init ids) ops).trans := by
  induction ops using List.reverseRecOn with
  | nil => exact init_trans hf ids
  | append_singleton ops op ih =>
    rw [List.map_append, runOps_append, runOps_append]
    exact call_trans hf (Reachable.inv ⟨_, _, rfl⟩) (Reachable.inv ⟨_, _, rfl⟩) (renamed_runOps hf ids ops).2
      (ih fun o ho => h o (List.mem_append_left _ ho)) (h op (by simp))

/-- The lists of `get_connected_components` are exactly the lists with the other names. -/
theorem components_runOps (hf : f.Injective) (ids : List α) (ops : List (Op α))
    (h : StrictMono f ∨ ∀ op ∈ ops, op.deletes = false) :
    (runOps (Manager.init (ids.map f)) (ops.map (Op.mapIds f))).components = (runOps (Manager.init ids) ops).components.map (List.map f) := by
  refine components_mapTrans hf ?_
  rcases h with h | h
  · rw [init_mapIds h, runOps_mapIds h]
    rfl
  · exact runOps_trans hf ids ops h

end Verif
