import Verif.Py.Basic
import Mathlib.Data.List.Nodup

/-
Lemmas about python dictionaries (`Dict`) and ordered sets.
-/

namespace Verif

section
variable {κ ν : Type} [DecidableEq κ]

omit [DecidableEq κ] in
@[simp] theorem dkeys_nil : dkeys ([] : Dict κ ν) = [] := rfl
omit [DecidableEq κ] in
@[simp] theorem dkeys_cons (p : κ × ν) (d : Dict κ ν) : dkeys (p :: d) = p.1 :: dkeys d := rfl

omit [DecidableEq κ] in
theorem mem_dkeys {d : Dict κ ν} {k : κ} : k ∈ dkeys d ↔ ∃ v, (k, v) ∈ d := by
  simp [dkeys]

omit [DecidableEq κ] in
theorem mem_dkeys_of_mem {d : Dict κ ν} {k : κ} {v : ν} (h : (k, v) ∈ d) : k ∈ dkeys d :=
  mem_dkeys.2 ⟨v, h⟩

theorem dget?_eq_none_iff {d : Dict κ ν} {k : κ} : dget? d k = none ↔ k ∉ dkeys d := by
  induction d with
  | nil => simp [dget?]
  | cons p d ih =>
    obtain ⟨k', v⟩ := p
    by_cases h : k' = k
    · simp [dget?, h]
    · simp [dget?, h, ih, Ne.symm h]

theorem exists_dget?_iff {d : Dict κ ν} {k : κ} : (∃ v, dget? d k = some v) ↔ k ∈ dkeys d := by
  have := @dget?_eq_none_iff κ ν _ d k
  cases h : dget? d k with
  | none => simp_all
  | some v => simp_all

theorem dget?_isSome_of_mem {d : Dict κ ν} {k : κ} (h : k ∈ dkeys d) : ∃ v, dget? d k = some v :=
  exists_dget?_iff.2 h

theorem mem_dkeys_of_dget? {d : Dict κ ν} {k : κ} {v : ν} (h : dget? d k = some v) : k ∈ dkeys d :=
  exists_dget?_iff.1 ⟨v, h⟩

theorem mem_of_dget? {d : Dict κ ν} {k : κ} {v : ν} (h : dget? d k = some v) : (k, v) ∈ d := by
  induction d with
  | nil => simp [dget?] at h
  | cons p d ih =>
    obtain ⟨k', v'⟩ := p
    by_cases hk : k' = k
    · simp [dget?, hk] at h; simp [hk, h]
    · simp [dget?, hk] at h; simp [ih h]

theorem dget?_of_mem {d : Dict κ ν} {k : κ} {v : ν} (hn : (dkeys d).Nodup) (h : (k, v) ∈ d) :
    dget? d k = some v := by
  induction d with
  | nil => simp at h
  | cons p d ih =>
    obtain ⟨k', v'⟩ := p
    simp only [dkeys_cons, List.nodup_cons] at hn
    rcases List.mem_cons.1 h with h | h
    · cases h; simp [dget?]
    · have hne : k' ≠ k := fun e => hn.1 (e ▸ mem_dkeys_of_mem h)
      simp [dget?, hne, ih hn.2 h]

theorem mem_iff_dget? {d : Dict κ ν} {k : κ} {v : ν} (hn : (dkeys d).Nodup) :
    (k, v) ∈ d ↔ dget? d k = some v := ⟨dget?_of_mem hn, mem_of_dget?⟩

theorem dkeys_dset (d : Dict κ ν) (k : κ) (v : ν) :
    dkeys (dset d k v) = if k ∈ dkeys d then dkeys d else dkeys d ++ [k] := by
  induction d with
  | nil => simp [dset]
  | cons p d ih =>
    obtain ⟨k', v'⟩ := p
    by_cases h : k' = k
    · simp [dset, h]
    · simp only [dset, h, if_false, dkeys_cons, ih, List.mem_cons, Ne.symm h, false_or]
      split <;> simp

theorem dkeys_dset_of_mem {d : Dict κ ν} {k : κ} (v : ν) (h : k ∈ dkeys d) :
    dkeys (dset d k v) = dkeys d := by simp [dkeys_dset, h]

theorem mem_dkeys_dset {d : Dict κ ν} {k k' : κ} {v : ν} :
    k' ∈ dkeys (dset d k v) ↔ k' = k ∨ k' ∈ dkeys d := by
  rw [dkeys_dset]; split
  · constructor
    · exact Or.inr
    · rintro (rfl | h) <;> assumption
  · simp [or_comm]

theorem dget?_dset (d : Dict κ ν) (k : κ) (v : ν) (k' : κ) :
    dget? (dset d k v) k' = if k = k' then some v else dget? d k' := by
  induction d with
  | nil => simp [dset, dget?]
  | cons p d ih =>
    obtain ⟨k₀, v₀⟩ := p
    by_cases h : k₀ = k
    · by_cases h' : k = k' <;> simp [dset, dget?, h, h']
    · by_cases h' : k = k'
      · subst h'; simp [dset, dget?, h, ih]
      · simp [dset, dget?, h, h', ih]

theorem nodup_dkeys_dset {d : Dict κ ν} (k : κ) (v : ν) (h : (dkeys d).Nodup) :
    (dkeys (dset d k v)).Nodup := by
  rw [dkeys_dset]; split
  · exact h
  · rename_i hk
    rw [List.nodup_append]
    exact ⟨h, by simp, by simp; exact fun a ha e => hk (e ▸ ha)⟩

theorem dset_of_notMem {d : Dict κ ν} {k : κ} (v : ν) (h : k ∉ dkeys d) :
    dset d k v = d ++ [(k, v)] := by
  induction d with
  | nil => simp [dset]
  | cons p d ih =>
    simp only [dkeys_cons, List.mem_cons, not_or] at h
    simp [dset, Ne.symm h.1, ih h.2]

theorem dset_of_mem {d : Dict κ ν} {k : κ} (v : ν) (hn : (dkeys d).Nodup) (h : k ∈ dkeys d) :
    dset d k v = d.map fun p => if p.1 = k then (k, v) else p := by
  induction d with
  | nil => simp at h
  | cons p d ih =>
    obtain ⟨k', v'⟩ := p
    simp only [dkeys_cons, List.nodup_cons] at hn
    by_cases hk : k' = k
    · subst hk
      have hm : d.map (fun p => if p.1 = k' then (k', v) else p) = d := by
        conv_rhs => rw [← List.map_id d]
        apply List.map_congr_left
        intro q hq
        have : q.1 ≠ k' := fun e => hn.1 (e ▸ List.mem_map_of_mem hq)
        simp [this]
      simp [dset, hm]
    · have : k ∈ dkeys d := by simpa [Ne.symm hk] using h
      simp [dset, hk, ih hn.2 this]

theorem dkeys_dpop (d : Dict κ ν) (k : κ) : dkeys (dpop d k) = (dkeys d).filter (· ≠ k) := by
  simp [dkeys, dpop, List.filter_map, Function.comp_def]

theorem mem_dkeys_dpop {d : Dict κ ν} {k k' : κ} :
    k' ∈ dkeys (dpop d k) ↔ k' ∈ dkeys d ∧ k' ≠ k := by
  simp [dkeys_dpop]

theorem nodup_dkeys_dpop {d : Dict κ ν} (k : κ) (h : (dkeys d).Nodup) :
    (dkeys (dpop d k)).Nodup := by rw [dkeys_dpop]; exact h.filter _

theorem dget?_dpop (d : Dict κ ν) (k k' : κ) :
    dget? (dpop d k) k' = if k' = k then none else dget? d k' := by
  induction d with
  | nil => simp [dpop, dget?]
  | cons p d ih =>
    obtain ⟨k₀, v₀⟩ := p
    have e : dpop ((k₀, v₀) :: d) k = if k₀ = k then dpop d k else (k₀, v₀) :: dpop d k := by
      by_cases h : k₀ = k <;> simp [dpop, h]
    rw [e]
    by_cases h : k₀ = k
    · subst h
      simp only [if_true, ih, dget?]
      by_cases h' : k' = k₀
      · simp [h']
      · simp [h', Ne.symm h']
    · simp only [h, if_false, dget?, ih]
      by_cases h' : k₀ = k'
      · subst h'; simp [h]
      · simp [h']

omit [DecidableEq κ] in
/-- Mapping the values keeps keys. -/
theorem dkeys_map_snd {ν' : Type} (d : Dict κ ν) (f : κ × ν → ν') :
    dkeys (d.map fun p => (p.1, f p)) = dkeys d := by
  simp [dkeys, Function.comp_def]

theorem dget?_map_snd {ν' : Type} (d : Dict κ ν) (f : ν → ν') (k : κ) :
    dget? (d.map fun p => (p.1, f p.2)) k = (dget? d k).map f := by
  induction d with
  | nil => simp [dget?]
  | cons p d ih =>
    obtain ⟨k', v⟩ := p
    by_cases h : k' = k <;> simp [dget?, h, ih]

/-- Two dictionaries with the same key list and the same look-ups are equal. -/
theorem dict_ext {d d' : Dict κ ν} (hn : (dkeys d).Nodup) (hk : dkeys d = dkeys d')
    (h : ∀ k, dget? d k = dget? d' k) : d = d' := by
  induction d generalizing d' with
  | nil => cases d' with
    | nil => rfl
    | cons p d' => simp at hk
  | cons p d ih =>
    cases d' with
    | nil => simp at hk
    | cons p' d' =>
      obtain ⟨k, v⟩ := p; obtain ⟨k', v'⟩ := p'
      simp only [dkeys_cons, List.cons.injEq] at hk
      obtain ⟨rfl, hk⟩ := hk
      have h0 := h k
      simp [dget?] at h0
      subst h0
      simp only [dkeys_cons, List.nodup_cons] at hn
      congr 1
      apply ih hn.2 hk
      intro k''
      by_cases e : k = k''
      · subst e
        rw [dget?_eq_none_iff.2 hn.1, dget?_eq_none_iff.2 (hk ▸ hn.1)]
      · simpa [dget?, e] using h k''

/-! ### ordered sets -/

theorem mem_oinsert {s : List κ} {k x : κ} : x ∈ oinsert s k ↔ x ∈ s ∨ x = k := by
  unfold oinsert; split
  · constructor
    · exact Or.inl
    · rintro (h | rfl) <;> assumption
  · simp

theorem nodup_oinsert {s : List κ} {k : κ} (h : s.Nodup) : (oinsert s k).Nodup := by
  unfold oinsert; split
  · exact h
  · rename_i hk
    rw [List.nodup_append]
    exact ⟨h, by simp, by simp; exact fun a ha e => hk (e ▸ ha)⟩

theorem mem_ounion {a b : List κ} {x : κ} : x ∈ ounion a b ↔ x ∈ a ∨ x ∈ b := by
  unfold ounion
  induction b generalizing a with
  | nil => simp
  | cons y b ih => simp [ih, mem_oinsert, or_assoc]

theorem nodup_ounion {a b : List κ} (h : a.Nodup) : (ounion a b).Nodup := by
  unfold ounion
  induction b generalizing a with
  | nil => simpa
  | cons y b ih => exact ih (nodup_oinsert h)

theorem ounion_of_subset {a b : List κ} (h : ∀ x ∈ b, x ∈ a) : ounion a b = a := by
  unfold ounion
  induction b generalizing a with
  | nil => rfl
  | cons y b ih =>
    have : oinsert a y = a := by simp [oinsert, h y (by simp)]
    simp [this]
    exact ih fun x hx => h x (by simp [hx])

theorem ounion_nil_of_nodup {b : List κ} (h : b.Nodup) : ounion [] b = b := by
  have : ∀ a : List κ, (a ++ b).Nodup → ounion a b = a ++ b := by
    unfold ounion
    clear h
    induction b with
    | nil => simp
    | cons y b ih =>
      intro a ha
      have hy : y ∉ a := by
        intro hy
        rw [List.nodup_append] at ha
        exact ha.2.2 y hy y (by simp) rfl
      simp only [List.foldl_cons, oinsert, hy, if_false]
      rw [ih]
      · simp
      · simpa using ha
  simpa using this [] (by simpa using h)

theorem ounion_nil_length_le (b : List κ) : (ounion [] b).length ≤ b.length := by
  have : ∀ a : List κ, (ounion a b).length ≤ a.length + b.length := by
    unfold ounion
    induction b with
    | nil => simp
    | cons y b ih =>
      intro a
      simp only [List.foldl_cons, List.length_cons]
      have h1 := ih (oinsert a y)
      have : (oinsert a y).length ≤ a.length + 1 := by unfold oinsert; split <;> simp
      omega
  simpa using this []

/-! ### dict comprehensions -/

theorem dkeys_foldl_dset (l : List (κ × ν)) (d : Dict κ ν) :
    dkeys (l.foldl (fun d p => dset d p.1 p.2) d) = ounion (dkeys d) (l.map Prod.fst) := by
  induction l generalizing d with
  | nil => rfl
  | cons p l ih =>
    simp only [List.foldl_cons, List.map_cons, ih]
    unfold ounion
    simp only [List.foldl_cons, oinsert, dkeys_dset]

theorem dkeys_dofList (l : List (κ × ν)) : dkeys (dofList l) = ounion [] (l.map Prod.fst) := by
  simpa [dofList] using dkeys_foldl_dset l []

theorem nodup_dkeys_dofList (l : List (κ × ν)) : (dkeys (dofList l)).Nodup := by
  rw [dkeys_dofList]; exact nodup_ounion List.nodup_nil

theorem dget?_foldl_dset_map (l : List κ) (f : κ → ν) (d : Dict κ ν) (k : κ) :
    dget? ((l.map fun x => (x, f x)).foldl (fun d p => dset d p.1 p.2) d) k =
      if k ∈ l then some (f k) else dget? d k := by
  induction l generalizing d with
  | nil => simp
  | cons x l ih =>
    simp only [List.map_cons, List.foldl_cons, ih, dget?_dset, List.mem_cons]
    by_cases h : k ∈ l
    · simp [h]
    · by_cases h' : x = k
      · subst h'; simp [h]
      · simp [h, h', Ne.symm h']

/-- Comprehension `{x: f(x) for x in l}`. -/
theorem dget?_dofList_map (l : List κ) (f : κ → ν) (k : κ) :
    dget? (dofList (l.map fun x => (x, f x))) k = if k ∈ l then some (f k) else none := by
  simpa [dofList, dget?] using dget?_foldl_dset_map l f [] k

theorem mem_dkeys_dofList_map (l : List κ) (f : κ → ν) (k : κ) :
    k ∈ dkeys (dofList (l.map fun x => (x, f x))) ↔ k ∈ l := by
  rw [← exists_dget?_iff, dget?_dofList_map]
  split <;> simp_all

theorem dkeys_dofList_map (l : List κ) (f : κ → ν) :
    dkeys (dofList (l.map fun x => (x, f x))) = ounion [] l := by
  rw [dkeys_dofList]; simp [Function.comp_def]

/-- A comprehension over distinct keys is the list of its items. -/
theorem dofList_of_nodup {l : List (κ × ν)} (h : (l.map Prod.fst).Nodup) : dofList l = l := by
  have key : ∀ d : Dict κ ν, (dkeys d ++ l.map Prod.fst).Nodup →
      l.foldl (fun d p => dset d p.1 p.2) d = d ++ l := by
    induction l with
    | nil => intro d _; simp
    | cons p l ih =>
      intro d hd
      have hp : p.1 ∉ dkeys d := by
        intro hp
        exact (List.nodup_append.1 hd).2.2 p.1 hp p.1 (by simp) rfl
      rw [List.foldl_cons, dset_of_notMem _ hp, ih (List.nodup_cons.1 h).2]
      · simp
      · simpa [dkeys] using hd
  simpa [dofList] using key [] (by simpa using h)

theorem dget_eq_ok {d : Dict κ ν} {k : κ} {v : ν} : dget d k = .ok v ↔ dget? d k = some v := by
  unfold dget; split <;> simp_all

theorem dget_of_dget? {d : Dict κ ν} {k : κ} {v : ν} (h : dget? d k = some v) : dget d k = .ok v :=
  dget_eq_ok.2 h

end

end Verif
