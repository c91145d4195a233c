import Verif.Model.Heap

/-
What the objects of a manager contain, read off the heap: every address is replaced by the content of the
object. Nothing of the methods is used here. An address without object would be read as an empty
dictionary; `NoDangling` says that there is none.
-/

namespace Verif

section
variable {α : Type}

/-- Content of the set object at address `a`. -/
def THeap.readSet (t : THeap α) (a : Nat) : List α := t.sets[a]?.getD []

/-- Content of the entry object at address `e`. -/
def THeap.readEntry (t : THeap α) (e : Nat) : TEntry α :=
  match t.entries[e]? with
  | some p => ⟨t.readSet p.1, t.readSet p.2⟩
  | none => ⟨[], []⟩

/-- Content of the manager. -/
def HeapManager.read (h : HeapManager α) : Manager α where
  dict := h.dict.map fun p => (p.1, h.rows[p.2]?.getD [])
  trans := h.trans.table.map fun p => (p.1, h.trans.readEntry p.2)

/-- Every address that can be reached from the two attributes is the address of an object. -/
def NoDangling (h : HeapManager α) : Prop :=
  (∀ p ∈ h.dict, p.2 < h.rows.length) ∧
  ∀ p ∈ h.trans.table, ∃ e, h.trans.entries[p.2]? = some e ∧
    e.1 < h.trans.sets.length ∧ e.2 < h.trans.sets.length

/-- No two IDs have the same row object, and no two have the same entry object: an assignment for one ID
cannot change another. (Set objects are shared.) -/
def Unshared (h : HeapManager α) : Prop := (dvals h.dict).Nodup ∧ (dvals h.trans.table).Nodup

end

section
variable {α : Type} [LinearOrder α]

/-- The manager built by `__init__`. -/
def builtH (ids : List α) : HeapManager α := resState (HeapManager.init ids)

end

end Verif
