import Verif.Proofs.DBOrder
import Verif.Props.DBConnect

/-
C84: the result of C-DBScan does not depend on the order of python sets.
-/

namespace Verif

variable {α V δ : Type} [LinearOrder α] [LinearOrder δ]

/-- Whatever the two orders in which sets are listed, and whatever the strings for "not assigned" as long as they are the
same managed ID or no managed IDs: two calls with the same arguments both raise the same error or both return; then the
objects are the same, except that the lists of the core clusters may be permuted. -/
theorem C84_set_order {env env' : DbEnv α V δ} {p : DbParams δ} (ha : DbAssumptions env p) (ha' : DbAssumptions env' p)
    (hmetric : env.metric = env'.metric) {m : Manager α} (h : Reachable m)
    (hnone : ∀ x ∈ m.managed, env.none = x ↔ env'.none = x)
    (vectors : Option (Dict α V)) (nb : Option Int) :
    (∃ e, dbCluster env p m vectors nb = .error e ∧ dbCluster env' p m vectors nb = .error e) ∨
      ∃ o o', dbCluster env p m vectors nb = .ok o ∧ dbCluster env' p m vectors nb = .ok o' ∧
        o'.predicted = o.predicted ∧ o'.labels = o.labels ∧ o'.locals = o.locals ∧ o'.regular = o.regular ∧
        o'.single = o.single ∧ o'.total = o.total ∧
        List.Forall₂ (fun a b => a.1 = b.1 ∧ a.2.Perm b.2) o.cores o'.cores := by
  cases vectors with
  | none => exact .inl ⟨_, rfl, rfl⟩
  | some vs =>
    cases nb with
    | some n => exact .inl ⟨_, rfl, rfl⟩
    | none =>
      unfold dbCluster
      simp only [bind, Except.bind, ← hmetric]
      cases et : distanceTable m vs env.metric with
      | error e => exact .inl ⟨e, rfl, rfl⟩
      | ok table =>
        right
        have hT : DbTable p m table := dbTable_of_ok ha et
        obtain ⟨⟨labels, locals⟩, e1, hL⟩ := dbLocals_ok h.inv hT
        have hlocals : Locals m locals := ⟨hL.nodup, fun c pts hc => by
          have := hL.pts c pts hc
          exact ⟨List.ne_nil_of_mem this.1, this.2⟩⟩
        have run : ∀ env0 : DbEnv α V δ, DbAssumptions env0 p → ∃ core s o, dbCores env0 m m.managed labels locals = .ok core ∧
            (∀ c pts, dget? core c = some pts → ∀ x ∈ pts, x ∈ m.managed) ∧
            dbMergeAll env0 p m table core locals = .ok s ∧ dbFinish p m.managed labels s.1 s.2 = .ok o := by
          intro env0 ha0
          obtain ⟨core, e2, hcn, hcore⟩ := dbCores_ok (env := env0) ha0.enum h.inv hL
          have hcl : ∀ x pts, dget? core x = some pts → Cluster m pts := fun x pts hx => by
            obtain ⟨h1, h2, h3, -⟩ := hcore x pts hx
            exact ⟨by rintro rfl; simp at h3, h2.good h.inv hL h1⟩
          obtain ⟨s, e3, hk, hcores, hrest, -⟩ := dbMergeAll_ok ha0.enum h.inv hT hcn hcl hlocals
          obtain ⟨o, -, -, -, e4, -⟩ := dbFinish_ok (p := p) h.inv (labels := labels) (cores := s.1) (locals := s.2) (fun pts hp => by
            obtain ⟨q, hq, rfl⟩ := List.mem_map.1 hp
            exact hcores q.1 q.2 (dget?_of_mem (by rw [hk]; exact hcn) hq)) hrest
          exact ⟨core, s, o, e2, fun c pts hc => (hcl c pts hc).2.1, e3, e4⟩
        have hlk : ∀ c ∈ dkeys locals, c ∈ m.managed := fun c hc => by
          obtain ⟨pts, hp⟩ := dget?_isSome_of_mem hc
          have := hL.pts c pts hp
          exact this.2.1 c this.1
        obtain ⟨core, s, o, e2, hcm, e3, e4⟩ := run env ha
        obtain ⟨core', s', o', e2', -, e3', e4'⟩ := run env' ha'
        have hcore := dbCores_two ha.enum ha'.enum hnone hlk e2 e2'
        obtain ⟨hs1, hs2⟩ := dbMergeAll_two ha.enum ha'.enum h.inv hcore hcm (fun c pts hc => (hlocals.pts c pts hc).2.1) e3 e3'
        obtain ⟨ho, hoc⟩ := dbFinish_two (p := p) (ids := m.managed) (labels := labels) (rest := s.2) hs1 e4 (by rw [hs2]; exact e4')
        refine ⟨o, o', ?_, ?_, ?_, ?_, ?_, ?_, ?_, ?_, hoc.forall₂⟩
        · simp only [e1, e2, e3, e4]
        · simp only [e1, e2', e3', e4']
        all_goals rw [ho]

/-! Data of the example and of the witness: four IDs on a line. -/

def dbOrderEnv (enum : List Nat → List Nat) (none : Nat) : DbEnv Nat Int Nat where
  metric a b := (a - b).natAbs
  enum := enum
  none := none

theorem dbOrderEnv_ok {enum : List Nat → List Nat} (he : SetOrder enum) (none n k : Nat) :
    DbAssumptions (dbOrderEnv enum none) (dbNatParams n k) where
  enum := he
  self v := by show (v - v).natAbs ≤ n; simp

theorem dedup_setOrder : SetOrder (List.dedup (α := Nat)) := fun l => ⟨List.nodup_dedup l, fun _ => List.mem_dedup⟩

theorem reverse_setOrder : SetOrder fun l : List Nat => l.dedup.reverse :=
  fun l => ⟨List.nodup_reverse.2 (List.nodup_dedup l), fun _ => by rw [List.mem_reverse, List.mem_dedup]⟩

def dbOrderObject (cores : Dict Nat (List Nat)) : DbObject Nat where
  predicted := some [(1, 0), (2, 1), (3, 1), (5, 1), (6, 0), (7, 0), (8, -1), (9, -2)]
  labels := [(5, .core), (1, .core), (2, .core), (3, .core), (6, .singleCore), (7, .singleCore), (8, .singleCore), (9, .noise)]
  locals := [(8, [8])]
  cores := cores
  regular := 2
  single := 2
  total := 4

/- With constraints, two set orders and two strings: the lists of the core clusters are other ones. -/
example : DbAssumptions (dbOrderEnv List.dedup 0) (dbNatParams 2 3) ∧
    DbAssumptions (dbOrderEnv (fun l => l.dedup.reverse) 100) (dbNatParams 2 3) ∧ Reachable dbDemo ∧
    (∀ x ∈ dbDemo.managed, 0 = x ↔ 100 = x) ∧
    dbCluster (dbOrderEnv List.dedup 0) (dbNatParams 2 3) dbDemo (some dbDemoVectors) none =
      .ok (dbOrderObject [(5, [1, 5, 2, 3]), (1, [1, 6, 7])]) ∧
    dbCluster (dbOrderEnv (fun l => l.dedup.reverse) 100) (dbNatParams 2 3) dbDemo (some dbDemoVectors) none =
      .ok (dbOrderObject [(5, [3, 2, 5, 1]), (1, [7, 1, 6])]) :=
  ⟨dbOrderEnv_ok dedup_setOrder _ _ _, dbOrderEnv_ok reverse_setOrder _ _ _, ⟨_, _, rfl⟩, by decide +kernel,
    by decide +kernel, by decide +kernel⟩

/-- The name of an ID matters: when one of the IDs is the string `"NONE"` (here 2), the clusters can be other ones than
with a string that is no ID (here 0). -/
theorem C84_none_id : ∃ (m : Manager Nat) (vectors : Dict Nat Int) (o o' : DbObject Nat) (d d' : Dict Nat Int), Reachable m ∧
    DbAssumptions (dbOrderEnv List.dedup 0) (dbNatParams 2 2) ∧ DbAssumptions (dbOrderEnv List.dedup 2) (dbNatParams 2 2) ∧
    0 ∉ m.managed ∧ 2 ∈ m.managed ∧
    dbCluster (dbOrderEnv List.dedup 0) (dbNatParams 2 2) m (some vectors) none = .ok o ∧ o.predicted = some d ∧
    dbCluster (dbOrderEnv List.dedup 2) (dbNatParams 2 2) m (some vectors) none = .ok o' ∧ o'.predicted = some d' ∧
    dget? d 2 = dget? d 3 ∧ dget? d' 2 ≠ dget? d' 3 :=
  ⟨Manager.init [1, 2, 3, 4], [(1, 4), (2, 2), (3, 0), (4, 0)],
    ⟨some [(1, 0), (2, 0), (3, 0), (4, 0)], [(1, .core), (2, .core), (3, .core), (4, .core)], [], [(1, [1, 2, 3, 4])], 1, 0, 1⟩,
    ⟨some [(1, 0), (2, 0), (3, 1), (4, 1)], [(1, .core), (2, .core), (3, .core), (4, .core)], [],
      [(1, [1, 2, 3, 4]), (3, [4, 3])], 2, 0, 2⟩, _, _, Reachable.init _,
    dbOrderEnv_ok dedup_setOrder _ _ _, dbOrderEnv_ok dedup_setOrder _ _ _, by decide +kernel, by decide +kernel,
    by decide +kernel, rfl, by decide +kernel, rfl, by decide +kernel, by decide +kernel⟩

end Verif
