import Verif.Model.HierHeap

/-
Calls of a client of the hierarchical clustering, for the model with objects and for the model with values, and what an
exported dictionary contains. Nothing of `cluster` is used here.
-/

namespace Verif

section
variable {α V δ : Type} [LinearOrder α] [LinearOrder δ]

mutual
/-- An exported dictionary, each list being replaced by its content in the heap. -/
def HTreeH.read (lists : Lists α) : HTreeH → HTree α
  | .node id iteration children depth members =>
    .node id iteration (HTreeH.readAll lists children) depth (lists[members]?.getD [])
def HTreeH.readAll (lists : Lists α) : List HTreeH → List (HTree α)
  | [] => []
  | t :: ts => HTreeH.read lists t :: HTreeH.readAll lists ts
end

mutual
/-- The lists of an exported dictionary, with the ID of their cluster. -/
def HTreeH.shared : HTreeH → List (Nat × Nat)
  | .node id _ children _ members => (id, members) :: HTreeH.sharedAll children
def HTreeH.sharedAll : List HTreeH → List (Nat × Nat)
  | [] => []
  | t :: ts => t.shared ++ HTreeH.sharedAll ts
end

/-- A call of the client. -/
inductive HCall (α V δ : Type)
  | cluster (env : HierEnv V δ) (m : Manager α) (vectors : Option (Dict α V)) (nb : Option Int)
  | cut (nb : Int) (by_ : CutBy)
  | export (k : Nat)

/-- The result of a call: labels, or an exported dictionary. -/
inductive HResult (α τ : Type)
  | labels (r : Except PyErr (Dict α Int))
  | tree (r : Except PyErr τ)

/-- `clustering_root.to_dict()` with values. -/
def HObject.export (o : HObject α V) (k : Nat) : Except PyErr (HTree α) :=
  match o.root with
  | none => .error .attributeError
  | some root => hToDict o.storage k root

/-- A call, with values. -/
def HObject.call (o : HObject α V) : HCall α V δ → HObject α V × HResult α (HTree α)
  | .cluster env m vectors nb => ((o.cluster env m vectors nb).1, .labels (o.cluster env m vectors nb).2)
  | .cut nb by_ => (o, .labels (o.cut nb by_))
  | .export k => (o, .tree (o.export k))

/-- A call, with objects. -/
def HObjectH.call (o : HObjectH α V) : HCall α V δ → HObjectH α V × HResult α HTreeH
  | .cluster env m vectors nb => ((o.cluster env m vectors nb).1, .labels (o.cluster env m vectors nb).2)
  | .cut nb by_ => (o, .labels (o.cut nb by_))
  | .export k => (o, .tree (o.export k))

/-- The object after some calls, and their results, with values. -/
def HObject.run (o : HObject α V) : List (HCall α V δ) → HObject α V × List (HResult α (HTree α))
  | [] => (o, [])
  | c :: cs => (((o.call c).1.run cs).1, (o.call c).2 :: ((o.call c).1.run cs).2)

/-- The object after some calls, and their results, with objects. -/
def HObjectH.run (o : HObjectH α V) : List (HCall α V δ) → HObjectH α V × List (HResult α HTreeH)
  | [] => (o, [])
  | c :: cs => (((o.call c).1.run cs).1, (o.call c).2 :: ((o.call c).1.run cs).2)

/-- A result seen when the lists are `lists`. -/
def HResult.read (lists : Lists α) : HResult α HTreeH → HResult α (HTree α)
  | .labels r => .labels r
  | .tree r => .tree (r.map (HTreeH.read lists))

/-- The client changes the content of the list at address `a` to `l`. -/
def HObjectH.change (o : HObjectH α V) (a : Nat) (l : List α) : HObjectH α V :=
  { o with heap := { o.heap with lists := o.heap.lists.set a l } }

/-- The members of one cluster are changed. -/
def HObject.change (o : HObject α V) (k : Nat) (l : List α) : HObject α V :=
  { o with storage := o.storage.map fun c => if c.1 = k then (c.1, { c.2 with members := l }) else c }

end

/-- Every second element. -/
def everyOther {ι : Type} : List ι → List ι
  | [] => []
  | [_] => []
  | _ :: y :: l => y :: everyOther l

end Verif
