import Verif.Model.Matrix
import Verif.Proofs.Clustering

/-
Lemmas on two-dimensional arrays and indexed loops.
-/

namespace Verif

section
variable {κ : Type}

theorem lget_ok {ι : Type} {l : List ι} {i : Nat} {x : ι} : lget l i = .ok x ↔ l[i]? = some x := by
  unfold lget
  cases l[i]? <;> simp

theorem lget_lt {ι : Type} {l : List ι} {i : Nat} (h : i < l.length) : ∃ x, lget l i = .ok x ∧ l[i]? = some x :=
  ⟨l[i], lget_ok.2 (List.getElem?_eq_getElem h), List.getElem?_eq_getElem h⟩

theorem lset_lt {ι : Type} {l : List ι} {i : Nat} (h : i < l.length) (v : ι) : lset l i v = .ok (l.set i v) := if_pos h

/-- `M` is an `n × n` array with the entries `f`. -/
def Entries (n : Nat) (M : Mat κ) (f : Nat → Nat → κ) : Prop :=
  ∀ i j, mget? M i j = if i < n ∧ j < n then some (f i j) else none

theorem entries_mset {n : Nat} {M : Mat κ} {f : Nat → Nat → κ} (h : Entries n M f) {i j : Nat} (hi : i < n) (hj : j < n)
    (v : κ) : ∃ M', mset M i j v = .ok M' ∧ Entries n M' (fun a b => if a = i ∧ b = j then v else f a b) := by
  have h0 := h i j
  rw [if_pos ⟨hi, hj⟩] at h0
  unfold mset
  rw [h0]
  refine ⟨_, rfl, fun a b => ?_⟩
  have hab := h a b
  unfold mget? at hab h0 ⊢
  rw [List.getElem?_modify]
  by_cases hai : i = a
  · subst hai
    cases e : M[i]? with
    | none => rw [e] at h0; cases h0
    | some row =>
      rw [e] at hab h0
      simp only [Option.bind_some] at hab h0
      have hlen : j < row.length := (List.getElem?_eq_some_iff.1 h0).1
      simp only [Option.map_eq_map, Option.map_some, Option.bind_some, List.getElem?_set, if_true]
      by_cases hbj : j = b
      · subst hbj; simp [hlen, hi, hj]
      · rw [if_neg hbj, hab]
        simp [Ne.symm hbj]
  · have : (if i = a then fun (row : List κ) => row.set j v else id) = id := if_neg hai
    simp only [hai, if_false]
    simp only [Option.map_eq_map, Option.map_id_fun', id] 
    rw [hab]
    simp [Ne.symm hai]

theorem entries_of_rows {V : Type} (rows : List V) (k : V → V → κ) (d : κ) :
    Entries rows.length (rows.map fun v => rows.map fun w => k v w)
      (fun i j => match rows[i]?, rows[j]? with
        | some v, some w => k v w
        | _, _ => d) := by
  intro i j
  unfold mget?
  rw [List.getElem?_map]
  by_cases hi : i < rows.length
  · rw [List.getElem?_eq_getElem hi]
    simp only [Option.map_some, Option.bind_some, List.getElem?_map]
    by_cases hj : j < rows.length
    · rw [List.getElem?_eq_getElem hj]; simp [hi, hj]
    · rw [List.getElem?_eq_none (by omega)]; simp [hj]
  · rw [List.getElem?_eq_none (by omega)]; simp [hi]

end

/-- Invariant of a loop over `enumerate(l)`. -/
theorem foldlM_zipIdx_inv {ι σ : Type} {l : List ι} {f : σ → ι × Nat → Except PyErr σ} (P : Nat → σ → Prop) {s : σ}
    (h0 : P 0 s) (hstep : ∀ i x s, l[i]? = some x → P i s → ∃ s', f s (x, i) = .ok s' ∧ P (i + 1) s') :
    ∃ s', l.zipIdx.foldlM f s = .ok s' ∧ P l.length s' := by
  have key : ∀ (k : Nat) (t : List ι) (s : σ), l.drop k = t → P k s →
      ∃ s', (t.zipIdx k).foldlM f s = .ok s' ∧ P (k + t.length) s' := by
    intro k t
    induction t generalizing k with
    | nil => intro s _ hp; exact ⟨s, rfl, by simpa using hp⟩
    | cons x t ih =>
      intro s hd hp
      have hx : l[k]? = some x := by
        have := congrArg (fun l => l[0]?) hd
        simpa using this
      obtain ⟨s1, e1, h1⟩ := hstep k x s hx hp
      have hd' : l.drop (k + 1) = t := by
        rw [← List.drop_drop, hd]; rfl
      obtain ⟨s2, e2, h2⟩ := ih (k + 1) s1 hd' h1
      refine ⟨s2, ?_, by simpa [Nat.add_comm, Nat.add_left_comm, Nat.add_assoc] using h2⟩
      rw [List.zipIdx_cons, List.foldlM_cons, e1]
      exact e2
  obtain ⟨s', e, h⟩ := key 0 l s rfl h0
  exact ⟨s', e, by simpa using h⟩

section
variable {α V : Type} [LinearOrder α]

theorem stackRows_ok {m : Manager α} {vectors : Dict α V} {rows : List V} (h : stackRows m vectors = .ok rows) :
    List.Forall₂ (fun x v => dget? vectors x = some v) m.managed rows ∧ m.managed ≠ [] := by
  unfold stackRows at h
  cases e : (m.managed.mapM fun x => dget vectors x : Except PyErr (List V)) with
  | error _ => rw [e] at h; cases h
  | ok rs =>
    rw [e] at h
    simp only [bind, Except.bind] at h
    split at h
    · cases h
    · rename_i hne
      cases h
      have h2 := (mapM_ok_iff.1 e).imp fun a b hab => dget_eq_ok.1 hab
      refine ⟨h2, ?_⟩
      rintro hm
      rw [hm] at h2
      cases h2
      simp at hne

theorem stackRows_total {m : Manager α} {vectors : Dict α V} (hv : HasVectors m vectors) (hne : m.managed ≠ []) :
    ∃ rows, stackRows m vectors = .ok rows := by
  obtain ⟨rows, e, h⟩ := mapM_dget (d := vectors) (l := m.managed) fun x hx => by
    obtain ⟨v, hv⟩ := hv x hx
    exact mem_dkeys_of_dget? hv
  unfold stackRows
  rw [e]
  have : rows ≠ [] := by
    rintro rfl
    cases hm : m.managed with
    | nil => exact hne hm
    | cons a l => rw [hm] at h; cases h
  cases rows with
  | nil => exact absurd rfl this
  | cons a l => exact ⟨_, rfl⟩

theorem stackRows_missing {m : Manager α} {vectors : Dict α V} {x : α} (hx : x ∈ m.managed) (hv : dget? vectors x = none) :
    stackRows m vectors = .error .keyError := by
  have key : ∀ l : List α, x ∈ l → (l.mapM fun x => dget vectors x : Except PyErr (List V)) = .error .keyError := by
    intro l
    induction l with
    | nil => intro h; cases h
    | cons a l ih =>
      intro h
      rw [List.mapM_cons]
      cases ea : dget? vectors a with
      | none => simp [dget, ea, bind, Except.bind]
      | some v =>
        have : x ∈ l := by
          rcases List.mem_cons.1 h with rfl | h
          · rw [hv] at ea; cases ea
          · exact h
        rw [ih this]
        simp [dget, ea, bind, Except.bind]
  unfold stackRows
  rw [key _ hx]
  rfl

end

end Verif
