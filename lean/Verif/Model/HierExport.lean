import Verif.Model.Hierarchical

/-
Model of the methods `add_new_children` and `to_dict` of the class `Cluster`.
All line numbers refer to
/repo/src/cognitivefactory/interactive_clustering/clustering/hierarchical.py

Simplifications:
* As in `Model/Hierarchical.lean`, a reference to a `Cluster` is its `cluster_ID`, the key of the object in the
  storage. `new_child not in self.children` (line 763) compares objects by identity, hence by ID.
* `to_dict` calls itself once per child (line 818); Python stops with a `RecursionError` when too many calls are
  nested. The number of nested `to_dict` calls that are available is an argument of the model. It depends on the
  recursion limit, on the depth of the caller and on the version of Python (a list comprehension may count as a call).
* The list `members` of the dictionary is the list of the cluster itself (line 822), not a copy.
-/

namespace Verif

/-- The dictionary of lines 810-822, its keys being the fields in the same order. -/
inductive HTree (α : Type)
  | node (id iteration : Nat) (children : List (HTree α)) (depth : Nat) (members : List α)

section
variable {α V δ : Type} [LinearOrder α]

/-- `to_dict`, lines 801-824, with at most `k` nested calls. -/
def hToDict (st : Dict Nat (HCluster α V)) : Nat → Nat → Except PyErr (HTree α)
  | 0, _ => .error .recursionError
  | k + 1, i => do
    let n ← dget st i
    let children ← n.children.mapM fun c => hToDict st k c
    return .node i n.iteration children n.depth n.members

/-- `add_new_children`, lines 746-772, of the cluster `i`: the clusters after the call and its result. -/
def hAddChildren (env : HierEnv V δ) (vectors : Dict α V) (st : Dict Nat (HCluster α V)) (i : Nat) (new : List Nat)
    (iteration : Nat) : Dict Nat (HCluster α V) × Except PyErr Unit :=
  match dget? st i with
  | none => (st, .error .keyError)
  | some n =>
    -- lines 760-763
    let n1 := { n with iteration := iteration, children := n.children ++ new.filter fun c => decide (c ∉ n.children) }
    let st1 := dset st i n1
    match n1.children.mapM fun c => dget st1 c with
    | .error e => (st1, .error e)
    | .ok nodes =>
      -- line 766
      match (nodes.map fun c => c.depth).max? with
      | none => (st1, .error (.valueError "max"))
      | some d =>
        -- lines 766-769
        let n2 := { n1 with depth := d + 1, members := nodes.flatMap fun c => c.members }
        -- line 772
        match hCentroid env vectors n2.members with
        | .error e => (dset st i n2, .error e)
        | .ok v => (dset st i { n2 with centroid := v }, .ok ())

end

end Verif
