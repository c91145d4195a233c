import Verif.Proofs.DbHeap
import Verif.Spec.DbHeap
import Verif.Props.DBScan

/-
Property C106: sharing and in-place changes of lists are invisible in C-DBScan. The run with list objects
(`Verif/Model/DbHeap.lean`) and the run with lists as values (`Verif/Model/DBScan.lean`), about which the other properties
are proved, are the same.
-/

namespace Verif

section
variable {α V δ : Type} [LinearOrder α] [LinearOrder δ]

omit [LinearOrder α] in
theorem ReadsAs.readLists {h : Lists α} {d : Dict α Nat} {v : Dict α (List α)} (r : ReadsAs h d v) : readLists h d = v := by
  unfold Verif.readLists
  induction r with
  | nil => rfl
  | @cons p q d v e _ ih =>
    rw [List.map_cons, ih, e.2, ← e.1]
    rfl

theorem ObjectAs.read {h0 : Lists α} {o : DbHeapObject α} {o' : DbObject α} (r : ObjectAs h0 o o') : o.read = o' := by
  obtain ⟨p', l', lo', co', re', si', to'⟩ := o'
  obtain ⟨h1, h2, h3, h4, h5, h6, h7, -, -, -⟩ := r
  simp only at h1 h2 h3 h4 h5 h6 h7
  subst h1 h2 h3 h4 h5
  unfold DbHeapObject.read
  rw [h6.readLists, h7.readLists]

/-- C106. For every manager, all vectors and parameters, and whatever list objects exist before the call, the run with
list objects raises the exception of the run with values, or returns and the objects contain its attributes. -/
theorem C106_objects_refine_values (env : DbEnv α V δ) (p : DbParams δ) (m : Manager α) (vectors : Option (Dict α V))
    (nb : Option Int) (h0 : Lists α) :
    (dbClusterH env p m vectors nb h0).map DbHeapObject.read = dbCluster env p m vectors nb := by
  have := dbClusterH_same env p m vectors nb h0
  revert this
  cases dbClusterH env p m vectors nb h0 with
  | error e => cases dbCluster env p m vectors nb with
    | error e' => intro h; cases h; rfl
    | ok o' => exact fun h => h.elim
  | ok o => cases dbCluster env p m vectors nb with
    | error e' => exact fun h => h.elim
    | ok o' => intro h; exact congrArg Except.ok h.read

/-- C106. After the call, no list is stored twice, all stored lists were created by this call, no address dangles, and the
list objects that existed before the call have their old content. -/
theorem C106_unshared (env : DbEnv α V δ) (p : DbParams δ) (m : Manager α) (vectors : Option (Dict α V)) (nb : Option Int)
    (h0 : Lists α) {o : DbHeapObject α} (h : dbClusterH env p m vectors nb h0 = .ok o) :
    o.addresses.Nodup ∧ (∀ a ∈ o.addresses, h0.length ≤ a) ∧ ValidLists o ∧
    ∀ (a : Nat) (l : List α), h0[a]? = some l → o.lists[a]? = some l := by
  have := dbClusterH_same env p m vectors nb h0
  rw [h] at this
  revert this
  cases dbCluster env p m vectors nb with
  | error e' => exact fun h => h.elim
  | ok o' =>
    intro r
    refine ⟨r.nodup, r.fresh, fun a ha => ?_, fun a l e => ?_⟩
    · rcases List.mem_append.1 ha with ha | ha
      · exact r.locals.lt a ha
      · exact r.cores.lt a ha
    · obtain ⟨t, ht⟩ := r.kept
      rw [← ht]
      exact getElem?_append_of e

/-- C106. What was kept from one call is not changed by a later call, with any manager, vectors and parameters. -/
theorem C106_later_call (env env' : DbEnv α V δ) (p p' : DbParams δ) (m m' : Manager α) (vectors vectors' : Option (Dict α V))
    (nb nb' : Option Int) (h0 : Lists α) {o o' : DbHeapObject α} (h : dbClusterH env p m vectors nb h0 = .ok o)
    (h' : dbClusterH env' p' m' vectors' nb' o.lists = .ok o') :
    (o.later o'.lists).read = o.read ∧ ∀ a ∈ o.addresses, a ∉ o'.addresses := by
  obtain ⟨-, -, hv, -⟩ := C106_unshared env p m vectors nb h0 h
  obtain ⟨-, hf, -, hk⟩ := C106_unshared env' p' m' vectors' nb' o.lists h'
  have key : ∀ d : Dict α Nat, (∀ a ∈ dvals d, a < o.lists.length) → readLists o'.lists d = readLists o.lists d := by
    intro d hd
    unfold readLists
    refine List.map_congr_left fun c hc => ?_
    have := hd c.2 (List.mem_map.2 ⟨c, hc, rfl⟩)
    rw [hk c.2 _ (List.getElem?_eq_getElem this), List.getElem?_eq_getElem this]
  refine ⟨?_, fun a ha ha' => absurd (hf a ha') (not_le.2 (hv a ha))⟩
  unfold DbHeapObject.later DbHeapObject.read
  simp only
  rw [key o.locals fun a ha => hv a (List.mem_append_left _ ha), key o.cores fun a ha => hv a (List.mem_append_right _ ha)]

/-! ### Examples -/

def dbShrink : Manager Nat := runOps (Manager.init [5, 2, 6, 1, 3, 4]) [.addConstraint 5 2 "CANNOT_LINK" 1]

def dbShrinkVectors : Dict Nat Int := [(1, 2), (2, 11), (3, 13), (4, 2), (5, 7), (6, 4)]

/-- A run in which line 522 empties four list objects, those at the addresses 1, 2, 4 and 5; the object 0 is older. -/
def dbShrunk : DbHeapObject Nat where
  predicted := some [(1, 0), (2, 1), (3, 1), (4, 0), (6, 0), (5, -1)]
  labels := [(5, .noise), (2, .core), (6, .core), (1, .core), (3, .core), (4, .core)]
  locals := [(2, 1), (6, 2), (3, 4), (4, 5)]
  cores := [(2, 15), (6, 24)]
  regular := 2
  single := 1
  total := 3
  lists := [[7], [], [], [6, 1, 4], [], [], [], [], [], [], [], [], [5], [5], [2], [3, 2], [6], [1, 4, 6], [1], [1], [3], [3],
    [4], [4], [6, 1, 4]]

theorem dbShrunk_call : dbClusterH dbDemoEnv (dbNatParams 2 2) dbShrink (some dbShrinkVectors) none [[7]] = .ok dbShrunk := by
  decide +kernel

/- Hypotheses of `C106_unshared`, and its conclusion on the example. -/
example : dbShrunk.addresses = [1, 2, 4, 5, 15, 24] ∧ dbShrunk.lists[0]? = some [7] := by decide +kernel

/- Hypotheses of `C106_later_call`: a second call, with another manager. -/
example : ∃ o', dbClusterH dbDemoEnv (dbNatParams 2 3) dbDemo (some dbDemoVectors) none dbShrunk.lists = .ok o' ∧
    (dbShrunk.later o'.lists).read = dbShrunk.read := by
  have e : (dbClusterH dbDemoEnv (dbNatParams 2 3) dbDemo (some dbDemoVectors) none dbShrunk.lists).isOk = true := by decide +kernel
  cases h : dbClusterH dbDemoEnv (dbNatParams 2 3) dbDemo (some dbDemoVectors) none dbShrunk.lists with
  | error e' => rw [h] at e; cases e
  | ok o' => exact ⟨o', rfl, (C106_later_call _ _ _ _ _ _ _ _ _ _ _ dbShrunk_call h).1⟩

/- Sharing would matter: were the object `[1, 2]` stored under two keys, removing 2 for one of them would remove it for the
other, which the model with values does not do. -/
example : (dbRemoveH [(1, 0), (2, 0)] 1 [[1, 2]] 2).map (fun h => readLists h [(1, 0), (2, 0)]) = .ok [(1, [1]), (2, [1])] := by
  decide +kernel

end

end Verif
