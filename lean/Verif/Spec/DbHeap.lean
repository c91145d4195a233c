import Verif.Model.DbHeap

/-
What the objects of a C-DBScan run contain, read off the heap: every address is replaced by the content of the list.
Nothing of `cluster` is used here. An address without object would be read as an empty list; `ValidLists` says that
there is none.
-/

namespace Verif

section
variable {α : Type}

/-- A dictionary of addresses with the contents of the lists. -/
def readLists (h : Lists α) (d : Dict α Nat) : Dict α (List α) := d.map fun c => (c.1, h[c.2]?.getD [])

/-- The attributes, with the lists as values. -/
def DbHeapObject.read (o : DbHeapObject α) : DbObject α where
  predicted := o.predicted
  labels := o.labels
  locals := readLists o.lists o.locals
  cores := readLists o.lists o.cores
  regular := o.regular
  single := o.single
  total := o.total

/-- The addresses of all lists stored in the two dictionaries. -/
def DbHeapObject.addresses (o : DbHeapObject α) : List Nat := dvals o.locals ++ dvals o.cores

/-- Every stored address is the address of a list object. -/
def ValidLists (o : DbHeapObject α) : Prop := ∀ a ∈ o.addresses, a < o.lists.length

/-- The same attributes seen later, when the list objects are `h`. -/
def DbHeapObject.later (o : DbHeapObject α) (h : Lists α) : DbHeapObject α := { o with lists := h }

end

end Verif
