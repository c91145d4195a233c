import Verif.Model.Constraints

/-
Model of `get_min_and_max_number_of_clusters`,
/repo/src/cognitivefactory/interactive_clustering/constraints/binary.py, lines 501-575,
and of the networkx function `greedy_color` it calls.
-/

namespace Verif

/-- Smallest natural number not in the list: the inner loop of networkx `greedy_color`
(`for color in itertools.count(): if color not in neighbour_colors: break`). -/
def mex (l : List Nat) : Nat := ((List.range (l.length + 1)).find? (fun c => decide (c ∉ l))).getD 0

section
variable {ν : Type} [DecidableEq ν]

/-- One step of networkx `greedy_color`: colour `u` with the first colour not used by its already
coloured neighbours. -/
def greedyStep (adj : ν → ν → Bool) (colors : Dict ν Nat) (u : ν) : Dict ν Nat :=
  dset colors u (mex ((colors.filter fun p => adj u p.1).map Prod.snd))

/-- networkx `greedy_color(G, strategy)` (library code, not in /repo). The strategy only chooses
the order in which the nodes are visited, so it is a parameter: the properties hold for every
order, whatever "largest_first", "smallest_last" or a random order are. -/
def greedyColor (adj : ν → ν → Bool) (order : List ν) : Dict ν Nat :=
  order.foldl (greedyStep adj) []

end

/-- python `max(l)`, raising `ValueError` on an empty sequence (lines 560-564). -/
def pyMax (l : List Nat) : Except PyErr Nat :=
  match l with
  | [] => .error (.valueError "max() arg is an empty sequence")
  | x :: xs => .ok (xs.foldl max x)

section
variable {α : Type} [LinearOrder α]

/-- Lines 527-535: first ID of each component; `component[0]` raises `IndexError` on an empty
list. -/
def Manager.componentIds (m : Manager α) : Except PyErr (List α) :=
  m.components.mapM fun c => match c with
    | [] => .error .indexError
    | x :: _ => .ok x

/-- Lines 530-534: keep the components with more than one cannot-linked *ID*. -/
def Manager.linkedIds (m : Manager α) (ids : List α) : Except PyErr (List α) :=
  do
    let l ← ids.mapM fun x => do return (x, ← dget m.trans x)
    return (l.filter fun p => decide (1 < p.2.cl.length)).map Prod.fst

/-- Lines 537-545: pairs of *positions* `(i1, i2)` in the filtered list. Modelled as a filter on
all pairs; the lookup cannot fail as the IDs were already looked up in lines 530-534. -/
def Manager.linkedEdges (m : Manager α) (linked : List α) : List (Nat × Nat) :=
  (linked.zipIdx.flatMap fun p => linked.zipIdx.map fun q => (p, q)).filterMap fun (p, q) =>
    if p.2 < q.2 ∧ q.1 ∈ ((dget? m.trans p.1).map TEntry.cl).getD [] then some (p.2, q.2) else none

/-- Lines 548-552: nodes of the networkx graph. The component IDs are strings, the endpoints of
the edges are integers, so the graph has both (`Sum.inl` for strings, `Sum.inr` for integers). -/
def graphNodes (ids : List α) (edges : List (Nat × Nat)) : List (α ⊕ Nat) :=
  ids.map Sum.inl ++ (ounion [] (edges.flatMap fun e => [e.1, e.2])).map Sum.inr

/-- Adjacency of the networkx graph: only the integer nodes have edges. -/
def graphAdj (edges : List (Nat × Nat)) : α ⊕ Nat → α ⊕ Nat → Bool
  | .inr i, .inr j => decide ((i, j) ∈ edges ∨ (j, i) ∈ edges)
  | _, _ => false

/-- The five orders in which the five `greedy_color` calls visit the nodes. networkx guarantees
that each strategy enumerates the nodes of the graph once. -/
structure Orders (α : Type) where
  largestFirst : List (α ⊕ Nat)
  smallestLast : List (α ⊕ Nat)
  random1 : List (α ⊕ Nat)
  random2 : List (α ⊕ Nat)
  random3 : List (α ⊕ Nat)

/-- Lines 501-575. `orders` gives the visiting orders from the list of nodes. -/
def Manager.minMax (m : Manager α)
    (orders : List (α ⊕ Nat) → (α ⊕ Nat → α ⊕ Nat → Bool) → Orders α) :
    Except PyErr (Nat × Nat) := do
  let ids ← m.componentIds
  let linked ← m.linkedIds ids
  let edges := m.linkedEdges linked
  let adj := graphAdj (α := α) edges
  let o := orders (graphNodes ids edges) adj
  -- lines 556-566
  let a ← pyMax (dvals (greedyColor adj o.largestFirst))
  let b ← pyMax (dvals (greedyColor adj o.smallestLast))
  let c ← pyMax (dvals (greedyColor adj o.random1))
  let d ← pyMax (dvals (greedyColor adj o.random2))
  let e ← pyMax (dvals (greedyColor adj o.random3))
  let lo := max 2 (1 + min a (min b (min c (min d e))))
  -- line 572
  return (lo, m.components.length)

end

end Verif
