import Mathlib.Data.Rat.Defs
import Mathlib.Algebra.Order.Field.Rat
import Mathlib.Algebra.Order.Field.Basic
import Mathlib.Algebra.Order.BigOperators.Group.List
import Mathlib.Algebra.BigOperators.Group.List.Basic
import Mathlib.Tactic.FieldSimp
import Mathlib.Tactic.Positivity
import Mathlib.Tactic.Ring
import Verif.Model.Frequency
import Verif.Py.DictLemmas
import Verif.Proofs.Sampling
import Verif.Proofs.Clustering
import Verif.Spec.Frequency

/-
C50: the cluster frequencies form a distribution over the used labels.
-/

namespace Verif

section
variable {α : Type} [DecidableEq α]

theorem filterM_pure {p : α → Except PyErr Bool} {q : α → Bool} {l : List α} (h : ∀ x ∈ l, p x = .ok (q x)) :
    l.filterM p = .ok (l.filter q) := by
  have key : ∀ (l : List α) (acc : List α), (∀ x ∈ l, p x = .ok (q x)) →
      List.filterAuxM p l acc = .ok ((l.filter q).reverse ++ acc) := by
    intro l
    induction l with
    | nil => intro acc _; rfl
    | cons a t ih =>
      intro acc h
      simp only [List.filterAuxM, h a (by simp), bind, Except.bind]
      rw [ih _ fun x hx => h x (by simp [hx])]
      cases hq : q a <;> simp [hq]
  simp [List.filterM, key l [] h, bind, Except.bind, pure, Except.pure]

theorem mapM_pure' {ι κ : Type} {f : ι → Except PyErr κ} {g : ι → κ} {l : List ι} (h : ∀ x ∈ l, f x = .ok (g x)) :
    l.mapM f = .ok (l.map g) := by
  induction l with
  | nil => rfl
  | cons a t ih =>
    rw [List.mapM_cons, h a (by simp), ih fun x hx => h x (by simp [hx])]
    rfl

theorem mapM_dget_dkeys {ν : Type} {d : Dict α ν} (hn : (dkeys d).Nodup) : (dkeys d).mapM (dget d) = .ok (dvals d) := by
  have key : ∀ l : List (α × ν), (∀ p ∈ l, dget d p.1 = .ok p.2) → (l.map Prod.fst).mapM (dget d) = .ok (l.map Prod.snd) := by
    intro l
    induction l with
    | nil => intro _; rfl
    | cons a t ih =>
      intro h
      rw [List.map_cons, List.mapM_cons, h a (by simp), ih fun x hx => h x (by simp [hx])]
      rfl
  exact key d fun p hp => dget_of_dget? (dget?_of_mem hn hp)

/-- The number of keys with value `c`. -/
theorem length_members {d : Dict α Int} (hn : (dkeys d).Nodup) (c : Int) :
    ((dkeys d).filter fun x => decide (dget? d x = some c)).length = (dvals d).count c := by
  have key : ∀ l : List (α × Int), (∀ p ∈ l, dget? d p.1 = some p.2) →
      ((l.map Prod.fst).filter fun x => decide (dget? d x = some c)).length = (l.map Prod.snd).count c := by
    intro l
    induction l with
    | nil => intro _; rfl
    | cons a t ih =>
      intro h
      have h1 := h a (by simp)
      have h2 := ih fun x hx => h x (by simp [hx])
      by_cases hc : a.2 = c
      · simp [h1, hc, h2]
      · simp [h1, hc, h2]
  exact key d fun p hp => dget?_of_mem hn hp

theorem dict_ext_values {κ ν : Type} [DecidableEq κ] {f g : Dict κ ν} (hk : dkeys f = dkeys g) (hn : (dkeys f).Nodup)
    (hv : ∀ c q q', dget? f c = some q → dget? g c = some q' → q = q') : f = g := by
  have hgn : (dkeys g).Nodup := hk ▸ hn
  have hl : f.length = g.length := by
    have := congrArg List.length hk
    simpa [dkeys] using this
  refine List.ext_getElem hl fun i h1 h2 => ?_
  have hki : f[i].1 = g[i].1 := by
    have h : (dkeys f)[i]'(by simpa [dkeys] using h1) = (dkeys g)[i]'(by simpa [dkeys] using h2) := by
      simp only [hk]
    simpa [dkeys] using h
  have ef : dget? f f[i].1 = some f[i].2 := dget?_of_mem hn (List.getElem_mem h1)
  have eg : dget? g g[i].1 = some g[i].2 := dget?_of_mem hgn (List.getElem_mem h2)
  exact Prod.ext hki (hv _ _ _ ef (hki ▸ eg))

/-- Closed form of `compute_clusters_frequency`. -/
theorem clustersFrequency_eq {d : Dict α Int} (hn : (dkeys d).Nodup) (hne : d ≠ []) :
    clustersFrequency d = .ok (((dvals d).dedup.insertionSort (· ≤ ·)).map fun c =>
      (c, (((dvals d).count c : Nat) : Rat) / ((d.length : Nat) : Rat))) := by
  have hlen : (dkeys d).length = d.length := by simp [dkeys]
  have h0 : ¬ (dkeys d).length = 0 := by rw [hlen]; simpa using hne
  unfold clustersFrequency
  simp only [h0, if_false, mapM_dget_dkeys hn]
  have hm : ((dvals d).dedup.insertionSort (· ≤ ·)).mapM (fun c => do
      let members ← (dkeys d).filterM fun x => do return decide ((← dget d x) = c)
      return (c, (members.length : Rat) / ((dkeys d).length : Rat)) : Int → Except PyErr (Int × Rat)) =
      .ok (((dvals d).dedup.insertionSort (· ≤ ·)).map fun c => (c, (((dvals d).count c : Nat) : Rat) / ((d.length : Nat) : Rat))) := by
    apply mapM_pure'
    intro c _
    rw [filterM_pure (q := fun x => decide (dget? d x = some c))]
    · simp only [bind, Except.bind, pure, Except.pure, length_members hn, hlen]
    · intro x hx
      obtain ⟨v, hv⟩ := dget?_isSome_of_mem hx
      simp [dget_of_dget? hv, hv, bind, Except.bind, pure, Except.pure]
  simp only [bind, Except.bind, pure, Except.pure] at hm ⊢
  rw [hm]
  simp only
  rw [dofList_of_nodup]
  rw [List.map_map]
  have : (Prod.fst ∘ fun c : Int => (c, (((dvals d).count c : Nat) : Rat) / ((d.length : Nat) : Rat))) = id := rfl
  rw [this, List.map_id]
  exact (List.perm_insertionSort _ _).nodup_iff.2 (List.nodup_dedup _)

/-- Frequencies of the labels of a clustering: exactly the used labels, in increasing order, each with the
positive quotient of its number of members by the number of IDs; the frequencies sum to 1. -/
theorem C50_frequencies {d : Dict α Int} (hn : (dkeys d).Nodup) (hne : d ≠ []) :
    ∃ f, clustersFrequency d = .ok f ∧ FrequenciesOf d f := by
  refine ⟨_, clustersFrequency_eq hn hne, ?_⟩
  set P := (dvals d).dedup.insertionSort (· ≤ ·) with hP
  have hperm : P.Perm (dvals d).dedup := List.perm_insertionSort _ _
  have hPn : P.Nodup := hperm.nodup_iff.2 (List.nodup_dedup _)
  have hkeys : dkeys (P.map fun c => (c, (((dvals d).count c : Nat) : Rat) / ((d.length : Nat) : Rat))) = P := by
    simp [dkeys, List.map_map, Function.comp_def]
  have hmem : ∀ c, c ∈ P ↔ ∃ x, dget? d x = some c := fun c => by
    rw [hperm.mem_iff, List.mem_dedup, mem_dvals hn]
  have hpos : (0 : Rat) < (d.length : Nat) := by
    have : 0 < d.length := List.length_pos_iff.2 hne
    exact_mod_cast this
  refine ⟨?_, ?_, ?_, ?_⟩
  · rw [hkeys]
    have hs : P.Pairwise (· ≤ ·) := List.pairwise_insertionSort _ _
    refine (hs.and hPn).imp ?_
    intro a b hab
    exact lt_of_le_of_ne hab.1 hab.2
  · intro c; rw [hkeys]; exact hmem c
  · intro c q hq
    have hin := mem_of_dget? hq
    obtain ⟨c', hc', e⟩ := List.mem_map.1 hin
    cases e
    obtain ⟨x, hx⟩ := (hmem c).1 hc'
    have hcount : 0 < (dvals d).count c := List.count_pos_iff.2 ((mem_dvals hn).2 ⟨x, hx⟩)
    refine ⟨div_pos (by exact_mod_cast hcount) hpos, (dkeys d).filter fun x => decide (dget? d x = some c), hn.filter _, ?_, ?_⟩
    · intro y
      simp only [List.mem_filter, decide_eq_true_eq]
      exact ⟨fun h => h.2, fun h => ⟨mem_dkeys_of_dget? h, h⟩⟩
    · rw [length_members hn]
      field_simp
  · have h1 : dvals (P.map fun c => (c, (((dvals d).count c : Nat) : Rat) / ((d.length : Nat) : Rat))) =
        P.map fun c => (((dvals d).count c : Nat) : Rat) / ((d.length : Nat) : Rat) := by
      simp [dvals, List.map_map, Function.comp_def]
    rw [h1]
    have h2 : (P.map fun c => (dvals d).count c).sum = d.length := by
      rw [(hperm.map _).sum_eq, List.sum_map_count_dedup_eq_length]
      simp [dvals]
    have h3 : ∀ l : List Int, (l.map fun c => (((dvals d).count c : Nat) : Rat) / ((d.length : Nat) : Rat)).sum =
        (((l.map fun c => (dvals d).count c).sum : Nat) : Rat) / ((d.length : Nat) : Rat) := by
      intro l
      induction l with
      | nil => simp
      | cons a t ih => simp only [List.map_cons, List.sum_cons, ih]; push_cast; ring
    rw [h3, h2]
    field_simp

example : ∃ f, clustersFrequency [("a", 3), ("b", -1), ("c", 3), ("d", 0)] = .ok f ∧
    FrequenciesOf [("a", (3 : Int)), ("b", -1), ("c", 3), ("d", 0)] f := C50_frequencies (by decide) (by decide)

/-- No ID, no label. -/
theorem C50_empty : clustersFrequency ([] : Dict α Int) = .ok [] := rfl

/-- The result is determined: two dictionaries with the properties of `FrequenciesOf` are equal. -/
theorem FrequenciesOf.unique {d : Dict α Int} {f g : Dict Int Rat} (hne : d ≠ []) (hf : FrequenciesOf d f)
    (hg : FrequenciesOf d g) : f = g := by
  have hfn : (dkeys f).Nodup := hf.sorted.imp fun h => h.ne
  have hgn : (dkeys g).Nodup := hg.sorted.imp fun h => h.ne
  have hk : dkeys f = dkeys g := by
    refine List.Perm.eq_of_pairwise (le := (· < ·)) (fun a b _ _ h h' => absurd (h.trans h') (lt_irrefl _)) hf.sorted hg.sorted ?_
    rw [List.perm_ext_iff_of_nodup hfn hgn]
    intro c
    rw [hf.keys, hg.keys]
  have hv : ∀ c q q', dget? f c = some q → dget? g c = some q' → q = q' := by
    intro c q q' hq hq'
    obtain ⟨-, S, hS, hSm, e⟩ := hf.quotient c q hq
    obtain ⟨-, S', hS', hSm', e'⟩ := hg.quotient c q' hq'
    have hp : S.Perm S' := (List.perm_ext_iff_of_nodup hS hS').2 fun x => by rw [hSm, hSm']
    have hpos : (d.length : Rat) ≠ 0 := by
      have : d.length ≠ 0 := by simpa using hne
      exact_mod_cast this
    rw [hp.length_eq, ← e'] at e
    exact mul_right_cancel₀ hpos e
  exact dict_ext_values hk hfn hv

/-- For the labels `0, …, k - 1` returned by the clustering algorithms, the frequencies are listed in the order
`0, …, k - 1`. -/
theorem C50_labels {d : Dict α Int} (hn : (dkeys d).Nodup) (hne : d ≠ []) {k : Nat} (hk : LabelsAre (dvals d) k) :
    ∃ f, clustersFrequency d = .ok f ∧ dkeys f = (List.range k).map fun (i : Nat) => (i : Int) := by
  obtain ⟨f, hf, h⟩ := C50_frequencies hn hne
  refine ⟨f, hf, ?_⟩
  have h1 : ((List.range k).map fun (i : Nat) => (i : Int)).Pairwise (· < ·) := by
    rw [List.pairwise_map]
    exact List.pairwise_lt_range.imp fun h => by exact_mod_cast h
  refine List.Perm.eq_of_pairwise (le := (· < ·)) (fun a b _ _ h h' => absurd (h.trans h') (lt_irrefl _)) h.sorted h1 ?_
  rw [List.perm_ext_iff_of_nodup (h.sorted.imp fun h => h.ne) (h1.imp fun h => h.ne)]
  intro c
  rw [h.keys, ← mem_dvals hn, hk c]
  simp only [List.mem_map, List.mem_range]
  constructor
  · rintro ⟨h0, h1⟩; exact ⟨c.toNat, by omega, by omega⟩
  · rintro ⟨i, hi, rfl⟩; omega

example : LabelsAre (dvals [("a", (1 : Int)), ("b", 0), ("c", 1)]) 2 := by
  intro c; simp [dvals]; omega

end

end Verif
