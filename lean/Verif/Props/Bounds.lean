import Verif.Proofs.Bounds
import Verif.Props.Manager

/-
Properties C14–C16: `get_min_and_max_number_of_clusters`.

`orders` are the visiting orders of the five greedy colourings; the theorems hold for every
choice that enumerates the nodes of the graph (`Orders.Valid`).
-/

set_option linter.unusedSectionVars false

namespace Verif

variable {α : Type} [LinearOrder α]

/-- Visiting orders used in the examples: the order of insertion. -/
def plainOrders : List (α ⊕ Nat) → (α ⊕ Nat → α ⊕ Nat → Bool) → Orders α :=
  fun nodes _ => ⟨nodes, nodes.reverse, nodes, nodes.reverse, nodes⟩

theorem plainOrders_valid (nodes : List (α ⊕ Nat)) (adj : α ⊕ Nat → α ⊕ Nat → Bool) :
    (plainOrders nodes adj).Valid nodes :=
  ⟨.refl _, List.reverse_perm _, .refl _, List.reverse_perm _, .refl _⟩

/-- Demo manager with a triangle of cannot-links, a pendant component and a free one. -/
def demoB : Manager Nat := runOps (Manager.init [1, 2, 3, 4, 5, 6])
  [.addConstraint 1 2 "CANNOT_LINK" 1, .addConstraint 2 3 "CANNOT_LINK" 1,
   .addConstraint 1 3 "CANNOT_LINK" 1, .addConstraint 4 1 "CANNOT_LINK" 1,
   .addConstraint 5 2 "MUST_LINK" 1]

/-- C14. The reported maximum is the largest number of clusters of any assignment that violates
no inferred constraint, and it is reached. -/
theorem C14_max_is_tight {m : Manager α} (hm : Reachable m) (hne : m.managed ≠ [])
    {orders : List (α ⊕ Nat) → (α ⊕ Nat → α ⊕ Nat → Bool) → Orders α}
    (ho : ∀ nodes adj, (orders nodes adj).Valid nodes) :
    ∃ lo hi, m.minMax orders = .ok (lo, hi) ∧
      (∀ f, Respects m f → clusterCount m.managed f ≤ hi) ∧
      (∃ f, Respects m f ∧ clusterCount m.managed f = hi) := by
  obtain ⟨lo, h1, -, -, -, f, hf, -⟩ := minMax_ok hm.inv hne ho
  exact ⟨lo, _, h1, fun f hf => clusterCount_le hm.inv hf,
    clusterCount_reach hm.inv hf (clusterCount_le hm.inv hf) (le_refl _)⟩

example : demoB.managed ≠ [] ∧ demoB.minMax plainOrders = .ok (3, 5) := by decide

/-- C15. With at least two components, `2 ≤ min ≤ max`, and every number of clusters from min
to max is used by some assignment that violates no inferred constraint. -/
theorem C15_range_feasible {m : Manager α} (hm : Reachable m) (h2 : 2 ≤ m.components.length)
    {orders : List (α ⊕ Nat) → (α ⊕ Nat → α ⊕ Nat → Bool) → Orders α}
    (ho : ∀ nodes adj, (orders nodes adj).Valid nodes) :
    ∃ lo hi, m.minMax orders = .ok (lo, hi) ∧ 2 ≤ lo ∧ lo ≤ hi ∧
      ∀ k, lo ≤ k → k ≤ hi → ∃ f, Respects m f ∧ clusterCount m.managed f = k := by
  have hne : m.managed ≠ [] := by
    intro hnil
    have hp := components_flatten_perm hm.inv
    rw [hnil] at hp
    have hcs := List.flatten_eq_nil_iff.1 hp.eq_nil
    match hc : m.components, h2 with
    | c :: cs, _ =>
      have hmem : c ∈ m.components := by rw [hc]; simp
      exact component_ne_nil hm.inv hmem (hcs c hmem)
  obtain ⟨lo, h1, h3, h4, -, f, hf, hb⟩ := minMax_ok hm.inv hne ho
  refine ⟨lo, _, h1, h3, h4 h2, ?_⟩
  intro k hk1 hk2
  refine clusterCount_reach hm.inv hf (le_trans ?_ hk1) hk2
  rw [clusterCount_eq_card]
  have : (m.managed.map f).toFinset ⊆ (List.range lo).toFinset := by
    intro v hv
    rw [List.mem_toFinset, List.mem_map] at hv
    obtain ⟨x, -, rfl⟩ := hv
    rw [List.mem_toFinset, List.mem_range]
    exact hb x
  refine le_trans (Finset.card_le_card this) ?_
  rw [List.toFinset_card_of_nodup List.nodup_range, List.length_range]

example : 2 ≤ demoB.components.length ∧ Reachable demoB := ⟨by decide, ⟨_, _, rfl⟩⟩

/-- C16. Degenerate managers: with one component the reported pair is (2, 1), with no managed ID
the call raises `ValueError`. -/
theorem C16_degenerate {m : Manager α} (hm : Reachable m)
    {orders : List (α ⊕ Nat) → (α ⊕ Nat → α ⊕ Nat → Bool) → Orders α}
    (ho : ∀ nodes adj, (orders nodes adj).Valid nodes) :
    (m.components.length = 1 → m.minMax orders = .ok (2, 1)) ∧
    (m.managed = [] → ∃ msg, m.minMax orders = .error (.valueError msg)) := by
  constructor
  · intro h1
    have hne : m.managed ≠ [] := by
      intro hnil
      have hp := components_flatten_perm hm.inv
      rw [hnil] at hp
      have hcs := List.flatten_eq_nil_iff.1 hp.eq_nil
      match hc : m.components, h1 with
      | c :: cs, _ =>
        have hmem : c ∈ m.components := by rw [hc]; simp
        exact component_ne_nil hm.inv hmem (hcs c hmem)
    obtain ⟨lo, h2, -, -, h5, -⟩ := minMax_ok hm.inv hne ho
    rw [h2, h5 h1, h1]
  · intro hnil
    have htr : m.trans = [] := by
      have := hm.inv.t.keys
      rw [show dkeys m.dict = [] from hnil] at this
      simpa [dkeys] using this
    have hcomp : m.components = [] := by rw [Manager.components, htr]; rfl
    have e1 : m.componentIds = .ok [] := by rw [Manager.componentIds, hcomp]; rfl
    have hv := (ho (graphNodes ([] : List α) (m.linkedEdges [])) (graphAdj (m.linkedEdges []))).1
    have hnodes : graphNodes ([] : List α) (m.linkedEdges []) = [] := rfl
    rw [hnodes] at hv
    refine ⟨"max() arg is an empty sequence", ?_⟩
    unfold Manager.minMax
    simp only [bind, Except.bind, e1]
    have e2 : m.linkedIds [] = .ok [] := rfl
    simp only [e2, hnodes, hv.eq_nil]
    rfl

/-- C16. The reported minimum is not a lower bound: some manager has an assignment with one
cluster that violates nothing, while the reported minimum is 2 (for any visiting orders). -/
theorem C16_min_not_a_lower_bound :
    ∃ m : Manager Nat, Reachable m ∧ 2 ≤ m.components.length ∧
      (∃ f, Respects m f ∧ clusterCount m.managed f = 1) ∧
      ∀ orders : List (Nat ⊕ Nat) → (Nat ⊕ Nat → Nat ⊕ Nat → Bool) → Orders Nat,
        (∀ nodes adj, (orders nodes adj).Valid nodes) → ∃ hi, m.minMax orders = .ok (2, hi) := by
  refine ⟨Manager.init [1, 2], ⟨_, [], rfl⟩, by decide, ⟨fun _ => 0, ?_, by decide⟩, ?_⟩
  · intro x hx y hy
    refine ⟨fun _ => rfl, fun hc => ?_⟩
    exfalso
    revert hc
    revert x y
    decide
  · intro orders ho
    obtain ⟨lo, h1, h2, h3, -⟩ := minMax_ok (init_inv [1, 2]) (by decide) ho
    have hlo : lo = 2 := le_antisymm (h3 (by decide)) h2
    exact ⟨_, by rw [h1, hlo]⟩

end Verif
