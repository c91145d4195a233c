import Verif.Proofs.JsonValue
import Verif.Props.Serialize

/-
Property C23: the text of the file written by `to_json`.
-/

namespace Verif

/-- The code points of a Lean string (a sequence of unicode scalar values). -/
theorem unicode_of_scalars {s : PyStr} (h : ∀ c ∈ s, c < 0xd800 ∨ (0xe000 ≤ c ∧ c < 0x110000)) : Unicode s := by
  refine ⟨fun c hc => by have := h c hc; omega, ?_⟩
  induction s with
  | nil => exact .nil
  | cons a s ih =>
    cases s with
    | nil => exact .singleton _
    | cons b s =>
      rw [List.isChain_cons_cons]
      refine ⟨?_, ih (fun c hc => h c (by simp [hc]))⟩
      have := h a (by simp)
      unfold High
      omega

theorem unicode_lit (s : String) : Unicode (lit s) := by
  apply unicode_of_scalars
  intro c hc
  obtain ⟨x, -, rfl⟩ := List.mem_map.1 hc
  have := x.valid
  unfold UInt32.isValidChar Nat.isValidChar at this
  show x.val.toNat < _ ∨ _ ≤ x.val.toNat ∧ x.val.toNat < _
  omega

theorem wfItems_of {l : List JVal} (h : ∀ v ∈ l, v.WF) : JVal.WFItems l := by
  induction l with
  | nil => simp [JVal.WFItems]
  | cons v l ih =>
    rw [JVal.WFItems]
    exact ⟨h v (by simp), ih (fun w hw => h w (by simp [hw]))⟩

theorem toJVal_wf {s : Saved PyStr} (h1 : ∀ x ∈ s.ids, Unicode x)
    (h2 : ∀ c ∈ s.constraints, Unicode c.id1 ∧ Unicode c.id2) : s.toJVal.WF := by
  simp only [Saved.toJVal, JVal.WF, JVal.WFPairs]
  refine ⟨⟨unicode_lit _, ?_, unicode_lit _, ?_, trivial⟩,
    by show ([lit "list_of_managed_data_IDs", lit "list_of_added_constraints"] : List PyStr).Nodup; decide⟩
  · apply wfItems_of
    intro v hv
    obtain ⟨x, hx, rfl⟩ := List.mem_map.1 hv
    rw [JVal.WF]
    exact h1 x hx
  · apply wfItems_of
    intro v hv
    obtain ⟨c, hc, rfl⟩ := List.mem_map.1 hv
    simp only [JVal.WF, JVal.WFPairs]
    exact ⟨⟨unicode_lit _, (h2 c hc).1, unicode_lit _, (h2 c hc).2, unicode_lit _, unicode_lit _, unicode_lit _, by decide, trivial⟩,
      by show ([lit "data_ID1", lit "data_ID2", lit "constraint_type", lit "constraints_value"] : List PyStr).Nodup; decide⟩

theorem mapM_asStr (l : List PyStr) : (l.map JVal.str).mapM JVal.asStr = .ok l := by
  induction l with
  | nil => rfl
  | cons x l ih => rw [List.map_cons, List.mapM_cons, ih]; rfl

/-- An entry written by `to_json` is handed to `add_constraint` as it is. -/
theorem addEntry_saved (m : Manager PyStr) {c : SavedConstraint PyStr} (ht : ∃ t : CType, c.type = t.toStr) :
    addEntry m (JVal.obj [(lit "data_ID1", .str c.id1), (lit "data_ID2", .str c.id2),
        (lit "constraint_type", .str (lit c.type)), (lit "constraints_value", .num (lit "1.0"))]) =
      match Manager.addConstraint c.id1 c.id2 c.type 1 m with
      | .ok _ m' => .ok m'
      | .error e _ => .error e := by
  have e : typeText (lit c.type) = c.type := by
    obtain ⟨t, ht⟩ := ht
    rw [ht]; cases t <;> decide
  have : addEntry m (JVal.obj [(lit "data_ID1", .str c.id1), (lit "data_ID2", .str c.id2),
        (lit "constraint_type", .str (lit c.type)), (lit "constraints_value", .num (lit "1.0"))]) =
      (JVal.asManaged "data_ID1" m (.str c.id1)).bind fun id1 =>
      (JVal.asManaged "data_ID2" m (.str c.id2)).bind fun id2 =>
      match Manager.addConstraint id1 id2 (typeText (lit c.type)) 1 m with
      | .ok _ m' => .ok m'
      | .error e _ => .error e := rfl
  rw [this, e]
  unfold JVal.asManaged
  by_cases h1 : c.id1 ∈ m.managed
  · by_cases h2 : c.id2 ∈ m.managed
    · simp only [if_pos h1, if_pos h2, Except.bind]
    · simp only [if_pos h1, if_neg h2, Except.bind, addConstraint_err2 h1 h2]
  · simp only [if_neg h1, Except.bind, addConstraint_err1 h1]

theorem foldlM_addEntry (l : List (SavedConstraint PyStr)) (h : ∀ c ∈ l, ∃ t : CType, c.type = t.toStr)
    (m : Manager PyStr) :
    (l.map fun c => JVal.obj [(lit "data_ID1", .str c.id1), (lit "data_ID2", .str c.id2),
        (lit "constraint_type", .str (lit c.type)), (lit "constraints_value", .num (lit "1.0"))]).foldlM addEntry m =
      l.foldlM (fun m c =>
        match Manager.addConstraint c.id1 c.id2 c.type 1 m with
        | .ok _ m' => .ok m'
        | .error e _ => .error e) m := by
  induction l generalizing m with
  | nil => rfl
  | cons c l ih =>
    rw [List.map_cons, List.foldlM_cons, List.foldlM_cons, addEntry_saved m (h c (by simp))]
    congr 1
    funext m'
    exact ih (fun c hc => h c (by simp [hc])) m'

theorem saved_ok {m : Manager PyStr} (hm : Reachable m) (hids : ∀ x ∈ m.managed, Unicode x) :
    m.save.toJVal.WF ∧ ∀ c ∈ m.save.constraints, (∃ t : CType, c.type = t.toStr) ∧ c.value = 1 := by
  constructor
  · apply toJVal_wf hids
    intro c hc
    rw [save_constraints] at hc
    obtain ⟨⟨x, y, t⟩, he, rfl⟩ := List.mem_map.1 hc
    obtain ⟨hx, hy⟩ := edgesOf_mem_keys hm.inv.d _ _ _ he
    exact ⟨hids x hx, hids y hy⟩
  · intro c hc
    rw [save_constraints] at hc
    obtain ⟨⟨x, y, t⟩, he, rfl⟩ := List.mem_map.1 hc
    exact ⟨⟨t, rfl⟩, rfl⟩

/-- The file loads exactly as the saved document. -/
theorem loadText_toJson {m : Manager PyStr} (hm : Reachable m) (hids : ∀ x ∈ m.managed, Unicode x) :
    loadText m.toJson = loadManager m.save := by
  obtain ⟨h1, h2⟩ := saved_ok hm hids
  unfold loadText Manager.toJson
  rw [decode_enc h1]
  have e1 : m.save.toJVal.getKey "list_of_managed_data_IDs" = .ok (.arr (m.save.ids.map .str)) := rfl
  have e2 : m.save.toJVal.getKey "list_of_added_constraints" =
    .ok (.arr (m.save.constraints.map fun c => JVal.obj [(lit "data_ID1", .str c.id1), (lit "data_ID2", .str c.id2),
        (lit "constraint_type", .str (lit c.type)), (lit "constraints_value", .num (lit "1.0"))])) := rfl
  simp only [e1, e2, bind, Except.bind, JVal.iter]
  rw [mapM_asStr]
  simp only
  rw [foldlM_addEntry _ fun c hc => (h2 c hc).1, loadManager]
  congr 1
  funext m c
  cases Manager.addConstraint c.id1 c.id2 c.type 1 m <;> rfl

/-- C23. The text of the file decodes to exactly the managed IDs and constraints of the manager,
for IDs made of arbitrary unicode characters: reading it back never raises and gives a manager with
the same managed list, added constraints (between distinct IDs), inferences, completeness and
components. -/
theorem C23_text_round_trip {m : Manager PyStr} (hm : Reachable m) (hids : ∀ x ∈ m.managed, Unicode x) :
    ∃ m', loadText m.toJson = .ok m' ∧ Reachable m' ∧
      m'.managed = m.managed ∧
      (∀ x y, x ≠ y → m'.getAdded x y = m.getAdded x y) ∧
      (∀ x y, m'.getInferred x y = m.getInferred x y) ∧
      m'.complete = m.complete ∧
      List.Forall₂ List.Perm m.components m'.components := by
  obtain ⟨m', h1, h2, h3, h4, -, h5, h6, h7⟩ := C18_save_load hm
  exact ⟨m', (loadText_toJson hm hids).trans h1, h2, h3, h4, h5, h6, h7⟩

/-- C23. A file cut at any earlier point is refused with `JSONDecodeError`, whatever the cut. -/
theorem C23_truncated_refused {m : Manager PyStr} (hm : Reachable m) (hids : ∀ x ∈ m.managed, Unicode x)
    {p q : PyStr} (hcut : m.toJson = p ++ q) (hq : q ≠ []) :
    loadText p = .error (.valueError "JSONDecodeError") := by
  obtain ⟨h1, -⟩ := saved_ok hm hids
  have hd : decode p = none := by
    obtain ⟨f, hf⟩ := enc_parses _ 0 [] h1 (fun _ => fun c r he => by cases he)
    rw [List.append_nil] at hf
    have e : m.save.toJVal.enc 0 = p ++ q := hcut
    rw [e] at hf
    have h2 := (parse_enough f).1 _ _ _ (hf f (Nat.le_refl _))
    obtain ⟨t, ht⟩ : ∃ t, p ++ q = 123 :: t := by
      rw [← e]
      exact ⟨_, rfl⟩
    exact decode_prefix (pVal_mono h2 (by omega)) ht (by decide) (.inr (.inl rfl)) hq
  unfold loadText
  rw [hd]

/-- Demo: IDs with a quote, a line break, an accent, an emoji and a lone surrogate. -/
def demoJ : Manager PyStr :=
  runOps (Manager.init [[34, 97, 10], [0xe9, 0x1F600], [0xd800]]) [.addConstraint [34, 97, 10] [0xd800] "CANNOT_LINK" 1]

example : Reachable demoJ ∧ (∀ x ∈ demoJ.managed, Unicode x) ∧ demoJ.managed.length = 3 ∧
    demoJ.getAdded [34, 97, 10] [0xd800] = .ok (some (.cannotLink, 1)) := by
  refine ⟨⟨_, _, rfl⟩, ?_, by decide, by decide⟩
  have : demoJ.managed = [[34, 97, 10], [0xe9, 0x1F600], [0xd800]] := by decide
  rw [this]
  intro x hx
  simp only [List.mem_cons, List.not_mem_nil, or_false] at hx
  rcases hx with rfl | rfl | rfl
  · exact unicode_of_scalars (by decide)
  · exact unicode_of_scalars (by decide)
  · exact ⟨by decide, .singleton _⟩

/-- C23. The restriction on IDs is needed: an ID made of a lone high surrogate followed by a lone
low surrogate (not unicode text) comes back as another ID. -/
theorem C23_surrogate_exception :
    ∃ m m' : Manager PyStr, Reachable m ∧ loadText m.toJson = .ok m' ∧ m'.managed ≠ m.managed := by
  refine ⟨Manager.init [[0xd83d, 0xde00]], Manager.init [[0x1f600]], ⟨_, [], rfl⟩, ?_, by decide⟩
  have e : (Manager.init ([[0xd83d, 0xde00]] : List PyStr)).toJson = (Manager.init ([[0x1f600]] : List PyStr)).toJson := by
    decide +kernel
  rw [e, loadText_toJson (Reachable.init _) ?_]
  · decide
  · intro x hx
    have hman : (Manager.init ([[0x1f600]] : List PyStr)).managed = [[0x1f600]] := by decide
    rw [hman, List.mem_singleton] at hx
    subst hx
    exact unicode_of_scalars (by decide)

/-! ### Each theorem applied to a concrete case -/

theorem demoJ_unicode : ∀ x ∈ demoJ.managed, Unicode x := by
  have : demoJ.managed = [[34, 97, 10], [0xe9, 0x1F600], [0xd800]] := by decide
  rw [this]
  intro x hx
  simp only [List.mem_cons, List.not_mem_nil, or_false] at hx
  rcases hx with rfl | rfl | rfl
  · exact unicode_of_scalars (by decide)
  · exact unicode_of_scalars (by decide)
  · exact ⟨by decide, .singleton _⟩

example := C23_text_round_trip (m := demoJ) ⟨_, _, rfl⟩ demoJ_unicode

example := C23_truncated_refused (m := demoJ) ⟨_, _, rfl⟩ demoJ_unicode (p := demoJ.toJson.take 20) (q := demoJ.toJson.drop 20)
  (List.take_append_drop _ _).symm (by decide +kernel)

end Verif
