import Verif.Proofs.HeapManager
import Verif.Spec.Heap
import Verif.Props.Manager

/-
Property C73: sharing and in-place changes of dictionaries are invisible. The manager with objects
(`Verif/Model/Heap.lean`) and the manager with values (`Verif/Model/Constraints.lean`), about which the other
properties are proved, are the same for every history of calls.
-/

namespace Verif

section
variable {α : Type} [LinearOrder α]

theorem RelM.read {h : HeapManager α} {m : Manager α} (r : RelM h m) : h.read = m := by
  have e1 : h.read.dict = m.dict := by
    refine dict_ext ?_ ?_ fun x => ?_
    · show (dkeys (h.dict.map _)).Nodup
      rw [dkeys_map_snd, r.keys]; exact r.nodup
    · show dkeys (h.dict.map _) = _
      rw [dkeys_map_snd, r.keys]
    · show dget? (h.dict.map fun p => (p.1, (fun a => h.rows[a]?.getD []) p.2)) x = _
      rw [dget?_map_snd h.dict (fun a => h.rows[a]?.getD [])]
      rcases r.get x with ⟨h1, h2⟩ | ⟨a, w, h1, h2, h3⟩
      · rw [h1, h2]; rfl
      · rw [h1, h2]; simp [h3]
  have e2 : h.read.trans = m.trans := by
    refine dict_ext ?_ ?_ fun x => ?_
    · show (dkeys (h.trans.table.map _)).Nodup
      rw [dkeys_map_snd, r.trans.keys]; exact r.trans.nodup
    · show dkeys (h.trans.table.map _) = _
      rw [dkeys_map_snd, r.trans.keys]
    · show dget? (h.trans.table.map fun p => (p.1, h.trans.readEntry p.2)) x = _
      rw [dget?_map_snd]
      cases hx : dget? h.trans.table x with
      | none =>
        rw [dget?_eq_none_iff, r.trans.keys, ← dget?_eq_none_iff] at hx
        rw [hx]; rfl
      | some e =>
        obtain ⟨E, hE, p, hp, h1, h2⟩ := r.trans.entry x e hx
        unfold IsSet at h1 h2
        rw [hE]
        simp [THeap.readEntry, THeap.readSet, hp, h1, h2]
  calc h.read = ⟨h.read.dict, h.read.trans⟩ := rfl
    _ = ⟨m.dict, m.trans⟩ := by rw [e1, e2]

theorem nodup_dvals {d : Dict α Nat} (hn : (dkeys d).Nodup)
    (h : ∀ x y a, dget? d x = some a → dget? d y = some a → x = y) : (dvals d).Nodup := by
  unfold dvals
  have hd : d.Nodup := List.Nodup.of_map _ hn
  refine List.Nodup.map_on (fun p hp q hq hpq => ?_) hd
  have h1 := dget?_of_mem (k := p.1) (v := p.2) hn hp
  have h2 := dget?_of_mem (k := q.1) (v := q.2) hn hq
  exact Prod.ext (h p.1 q.1 p.2 h1 (hpq ▸ h2)) hpq

theorem built_rel (ids : List α) (ops : List (Op α)) :
    RelM (runOpsH (builtH ids) ops) (runOps (Manager.init ids) ops) := by
  obtain ⟨h, e, r⟩ := heap_init ids
  have : builtH ids = h := by unfold builtH; rw [e]; rfl
  rw [this]
  exact (heap_runOps r ops).1

/-- C73. For every list of IDs and every history of calls (raising calls included), the objects of the manager
contain what the manager with values is, and any further call returns or raises the same. -/
theorem C73_objects_refine_values (ids : List α) (ops : List (Op α)) :
    resVal (HeapManager.init ids) = .ok () ∧
    (runOpsH (builtH ids) ops).read = runOps (Manager.init ids) ops ∧
    ∀ op : Op α, resVal (op.callH (runOpsH (builtH ids) ops)) = resVal (op.call (runOps (Manager.init ids) ops)) := by
  refine ⟨?_, (built_rel ids ops).read, fun op => (heap_call (built_rel ids ops) op).2.2⟩
  obtain ⟨h, e, _⟩ := heap_init ids
  rw [e]; rfl

/-- C73. The getters return or raise the same on objects as on values, and change no object. -/
theorem C73_getters (ids : List α) (ops : List (Op α)) :
    let h := runOpsH (builtH ids) ops
    let m := runOps (Manager.init ids) ops
    dkeys h.dict = m.managed ∧
    HeapManager.components h = .ok m.components h ∧
    HeapManager.complete h = .ok m.complete h ∧
    ∀ x y, (resVal (HeapManager.getAdded x y h) = m.getAdded x y ∧ resState (HeapManager.getAdded x y h) = h) ∧
      resVal (HeapManager.getInferred x y h) = m.getInferred x y ∧ resState (HeapManager.getInferred x y h) = h := by
  have r := built_rel ids ops
  refine ⟨r.keys, heap_components r, heap_complete r, fun x y => ?_⟩
  rw [heap_getAdded r, heap_getInferred r]
  unfold asIs
  constructor
  · cases (runOps (Manager.init ids) ops).getAdded x y <;> exact ⟨rfl, rfl⟩
  · cases (runOps (Manager.init ids) ops).getInferred x y <;> exact ⟨rfl, rfl⟩

/-- C73. Set objects are shared between IDs, yet harmless: a set object is never changed once created, by any
later history. Entries and rows are changed in place, and never shared. No address dangles. -/
theorem C73_sharing_is_safe (ids : List α) (ops later : List (Op α)) :
    let h := runOpsH (builtH ids) ops
    (∀ (a : Nat) (s : List α), h.trans.sets[a]? = some s → (runOpsH h later).trans.sets[a]? = some s) ∧ Unshared h ∧ NoDangling h := by
  have r := built_rel ids ops
  refine ⟨fun a s hs => ?_, ⟨?_, ?_⟩, fun p hp => ?_, fun p hp => ?_⟩
  · exact IsSet.kept hs (heap_runOps r later).2
  · exact nodup_dvals (by rw [r.keys]; exact r.nodup) r.inj
  · exact nodup_dvals (by rw [r.trans.keys]; exact r.trans.nodup) r.trans.inj
  · obtain ⟨w, _, h2⟩ := r.row p.1 p.2 (dget?_of_mem (by rw [r.keys]; exact r.nodup) hp)
    exact (List.getElem?_eq_some_iff.mp h2).1
  · obtain ⟨E, _, q, hq, h1, h2⟩ := r.trans.entry p.1 p.2 (dget?_of_mem (by rw [r.trans.keys]; exact r.trans.nodup) hp)
    exact ⟨q, hq, (List.getElem?_eq_some_iff.mp h1).1, (List.getElem?_eq_some_iff.mp h2).1⟩

/-- C73. No call ever fails because a dictionary changed while it was iterated over, nor with a dangling
address, nor with a `KeyError`: the only exception is `ValueError`. -/
theorem C73_only_value_errors (ids : List α) (ops : List (Op α)) (op : Op α) {e : PyErr}
    (h : resVal (op.callH (runOpsH (builtH ids) ops)) = .error e) : ∃ tag, e = .valueError tag := by
  rw [(C73_objects_refine_values ids ops).2.2 op] at h
  obtain ⟨h1, h2, h3, h4, _⟩ := C21_only_documented_exceptions (m := runOps (Manager.init ids) ops) ⟨ids, ops, rfl⟩
  cases op with
  | addDataID x =>
    rw [show Op.call (.addDataID x) = Manager.addDataID x from rfl, h1 x] at h
    split at h
    · exact ⟨_, (Except.error.inj h).symm⟩
    · cases h
  | deleteDataID x =>
    rw [show Op.call (.deleteDataID x) = Manager.deleteDataID x from rfl, h2 x] at h
    split at h
    · cases h
    · exact ⟨_, (Except.error.inj h).symm⟩
  | addConstraint x y ty v =>
    rw [show Op.call (.addConstraint x y ty v) = Manager.addConstraint x y ty v from rfl, h4 x y ty v] at h
    repeat' split at h
    all_goals first | exact ⟨_, (Except.error.inj h).symm⟩ | cases h
  | deleteConstraint x y =>
    rw [show Op.call (.deleteConstraint x y) = Manager.deleteConstraint x y from rfl, h3 x y] at h
    repeat' split at h
    all_goals first | exact ⟨_, (Except.error.inj h).symm⟩ | cases h

/- The demo history on objects: same content; IDs 1 and 2, must-linked, share their two set objects. -/
example : (runOpsH (builtH [3, 1, 2, 3, 4]) demoOps).read = demo := by decide +kernel

example : let h := runOpsH (builtH [3, 1, 2, 3, 4]) demoOps
    resVal (heapML 1 h.trans) = resVal (heapML 2 h.trans) ∧ resVal (heapCL 1 h.trans) = resVal (heapCL 2 h.trans) ∧
    resVal (heapML 1 h.trans) ≠ resVal (heapML 3 h.trans) := by decide +kernel

/- Hypothesis of `C73_only_value_errors`. -/
example : resVal ((Op.addConstraint 1 3 "MUST_LINK" 1).callH (runOpsH (builtH [3, 1, 2, 3, 4]) demoOps)) =
    .error (.valueError "conflict") := by decide +kernel

end

end Verif
