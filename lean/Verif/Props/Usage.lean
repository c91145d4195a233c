import Verif.Spec.Usage
import Verif.Props.EndToEnd
import Verif.Props.Bounds

/-
Property C72: the program of the documentation. Specification vocabulary: `Verif/Spec/Usage.lean`.
-/

namespace Verif

variable {α V δ : Type} [LinearOrder α] [LinearOrder δ]

/-- One annotation of any annotator. -/
theorem annotateTry_one {m : Manager α} (hm : Reachable m) {x y : α} (hx : x ∈ m.managed) (hy : y ∈ m.managed) (t : CType) :
    ∃ m', (Manager.addConstraint x y t.toStr 1 m = .ok true m' ∨
        Manager.addConstraint x y t.toStr 1 m = .error (.valueError "conflict") m') ∧ Reachable m' ∧ KnowsMore m m' ∧
      (∃ t', m'.getInferred x y = .ok (some t')) ∧
      ∀ truth : α → Nat, Satisfies m truth → Agrees truth x y t → Satisfies m' truth := by
  have hI := hm.inv
  rcases addConstraint_cases (v := 1) hI hx hy (parse_eq_some (t := t).2 rfl) with ⟨-, h2⟩ | ⟨t', hne, hinf, hc⟩
  · obtain ⟨m', hc⟩ : ∃ m', Manager.addConstraint x y t.toStr 1 m = .ok true m' := by
      rcases h2 with ⟨s, -, h⟩ | ⟨-, m', h, -⟩
      · exact ⟨m, h⟩
      · exact ⟨m', h⟩
    have hm' : Reachable m' := by
      have := hm.call (.addConstraint x y t.toStr 1)
      simpa only [Op.call, hc, resState] using this
    obtain ⟨-, ⟨t2, ht2, ha1, ha2⟩, hman, hframe, -⟩ := C06_add_constraint_frame hm hc
    have ht2' : t2 = t := by
      have h1 := parse_eq_some.2 ht2
      rw [parse_eq_some.2 rfl] at h1; exact (Option.some.inj h1).symm
    subst ht2'
    refine ⟨m', .inl hc, hm', ⟨hman, (C20_monotone hm (a := x) (b := y)).1 _ _ _ hc⟩, ?_, ?_⟩
    · have hx' : x ∈ m'.managed := hman ▸ hx
      have hy' : y ∈ m'.managed := hman ▸ hy
      cases t2 with
      | mustLink => exact ⟨_, (inferred_ml_iff hm'.inv hx' hy').2 (Chain.single ⟨1, ha1⟩)⟩
      | cannotLink => exact ⟨_, (inferred_cl_iff hm'.inv hx' hy').2 ⟨x, y, .refl, ⟨1, ha1⟩, .refl⟩⟩
    · intro truth hs hag u w
      by_cases hu1 : u = x ∧ w = y
      · obtain ⟨rfl, rfl⟩ := hu1
        constructor
        · rintro ⟨v, hv⟩; rw [ha1] at hv; cases hv; exact hag
        · rintro ⟨v, hv⟩; rw [ha1] at hv; cases hv; exact hag
      · by_cases hu2 : u = y ∧ w = x
        · obtain ⟨rfl, rfl⟩ := hu2
          constructor
          · rintro ⟨v, hv⟩; rw [ha2] at hv; cases hv; exact hag.symm
          · rintro ⟨v, hv⟩; rw [ha2] at hv; cases hv; exact fun h => hag h.symm
        · unfold AddedAs
          rw [hframe u w hu1 hu2]
          exact hs u w
  · exact ⟨m, .inr hc, hm, .refl m, ⟨t', hinf⟩, fun _ hs _ => hs⟩

theorem annotateTry_batch (answer : Manager α → α → α → CType) {m : Manager α} (hm : Reachable m)
    {batch : List (α × α)} (hb : ∀ p ∈ batch, p.1 ∈ m.managed ∧ p.2 ∈ m.managed) :
    ∃ m', annotateTry answer m batch = .ok m' ∧ Reachable m' ∧ KnowsMore m m' ∧
      (∀ p ∈ batch, ∃ t, m'.getInferred p.1 p.2 = .ok (some t)) ∧
      ∀ truth : α → Nat, Satisfies m truth → (∀ m x y, Agrees truth x y (answer m x y)) → Satisfies m' truth := by
  induction batch generalizing m with
  | nil => exact ⟨m, rfl, hm, .refl m, by simp, fun _ hs _ => hs⟩
  | cons p batch ih =>
    obtain ⟨hx, hy⟩ := hb p (by simp)
    obtain ⟨m1, h1, h2, h3, ⟨t, h4⟩, h5⟩ := annotateTry_one hm hx hy (answer m p.1 p.2)
    obtain ⟨m2, g1, g2, g3, g4, g5⟩ := ih h2 (fun q hq => by rw [h3.1]; exact hb q (by simp [hq]))
    refine ⟨m2, ?_, g2, h3.trans g3, ?_, fun truth hs hag => g5 truth (h5 truth hs (hag _ _ _)) hag⟩
    · unfold annotateTry at g1 ⊢
      rw [List.foldlM_cons]
      rcases h1 with h1 | h1 <;> rw [h1] <;> exact g1
    · intro q hq
      rcases List.mem_cons.1 hq with rfl | hq
      · exact ⟨t, g3.2 _ _ _ h4⟩
      · exact g4 q hq

theorem default_init : kmInit "COP" 150 false = .ok 150 := rfl

/-- The outcome of the loop. -/
structure UsageEnd (answer : Manager α → α → α → CType) (m m' : Manager α) : Prop where
  reachable : Reachable m'
  complete : m'.complete = true
  knows : KnowsMore m m'
  truth : ∀ truth : α → Nat, Satisfies m truth → (∀ m x y, Agrees truth x y (answer m x y)) → Satisfies m' truth

theorem mustLinked_of_single {m : Manager α} (h : Inv m) (h1 : m.components.length = 1) {x y : α} (hx : x ∈ m.managed)
    (hy : y ∈ m.managed) : MustLinked m x y := by
  match hcs : m.components, h1 with
  | [d], _ =>
    obtain ⟨d1, hd1, hxd⟩ := exists_component h hx
    obtain ⟨d2, hd2, hyd⟩ := exists_component h hy
    rw [hcs, List.mem_singleton] at hd1 hd2
    subst hd1; subst hd2
    exact ((mem_component_iff h (by rw [hcs]; simp) hxd).2 y).1 hyd

theorem usageLoop_ok {vectors : Dict α V} (answer : Manager α → α → α → CType) {m : Manager α} (hm : Reachable m)
    (hne : m.managed ≠ []) (hv : HasVectors m vectors) {chances : List (Chance α V δ)} (hc : ∀ c ∈ chances, c.Ok)
    {labels : Dict α Int} {a : Algo α V δ} (ha : a.Ok) {nb : Int} (hr : a.run m vectors nb = .ok labels)
    (hlen : (unknownPairs m).length ≤ chances.length) :
    ∃ m', UsageEnd answer m m' ∧
      ((∃ r, usageLoop vectors answer chances m labels = .ok (m', r) ∧ (m' = m ∨ 2 ≤ m'.components.length) ∧
          ∃ (a : Algo α V δ) (nb : Int), a.Ok ∧ a.run m' vectors nb = .ok r) ∨
        (m'.components.length = 1 ∧ usageLoop vectors answer chances m labels = .error (.valueError "nb_clusters"))) := by
  induction chances generalizing m labels a nb with
  | nil =>
    have hcomp : m.complete = true := by
      rw [complete_iff_unknown hm, ← List.length_eq_zero_iff]
      simpa using hlen
    exact ⟨m, ⟨hm, hcomp, .refl m, fun _ hs _ => hs⟩, .inl ⟨labels, by unfold usageLoop; rw [if_pos hcomp], .inl rfl, a, nb, ha, hr⟩⟩
  | cons c chances ih =>
    by_cases hcomp : m.complete = true
    · exact ⟨m, ⟨hm, hcomp, .refl m, fun _ hs _ => hs⟩, .inl ⟨labels, by unfold usageLoop; rw [if_pos hcomp], .inl rfl, a, nb, ha, hr⟩⟩
    · obtain ⟨henv, hpick, hord⟩ := hc c (by simp)
      have hin : InputsGiven defaultSampler m none (none : Option (Dict α V)) :=
        ⟨fun h => absurd rfl h, fun h => absurd rfl h⟩
      obtain ⟨batch, hb⟩ := sample_total (n := 3) hm.inv hin c.env.metric c.pick
      obtain ⟨-, -, -, b2, -⟩ := sample_facts hm.inv hpick hb
      obtain ⟨m1, g1, g2, g3, g4, g5⟩ := annotateTry_batch answer hm (batch := batch)
        (fun p hp => ⟨(b2 p hp).left, (b2 p hp).right⟩)
      have hne1 : m1.managed ≠ [] := by rw [g3.1]; exact hne
      have hv1 : HasVectors m1 vectors := by unfold HasVectors; rw [g3.1]; exact hv
      have hlt : (unknownPairs m1).length < (unknownPairs m).length := by
        have hbne : batch ≠ [] := fun h => hcomp ((sample_nil_iff hm rfl rfl (by decide) hpick hb).1 h)
        obtain ⟨p, hp⟩ := List.exists_mem_of_ne_nil _ hbne
        obtain ⟨t, ht⟩ := g4 p hp
        exact unknown_lt hm.inv g2.inv g3 ((eligible_iff_unknown hm.inv rfl rfl none p).1 (b2 p hp)) ht
      obtain ⟨lo, hmm, hlo, hlo2, hlo1, -⟩ := minMax_ok g2.inv hne1 hord
      have hstep : usageLoop vectors answer (c :: chances) m labels =
          (kmCluster c.env 150 m1 (some vectors) (some (((lo + m1.components.length) / 2 : Nat) : Int))).bind
            fun result => usageLoop vectors answer chances m1 result.1 := by
        conv_lhs => unfold usageLoop
        rw [if_neg hcomp]
        show Except.bind (defaultSampler.sample m (some 3) none (none : Option (Dict α V)) c.env.metric c.pick) _ = _
        rw [show defaultSampler.sample m (some 3) none (none : Option (Dict α V)) c.env.metric c.pick = .ok batch from hb]
        show Except.bind (annotateTry answer m batch) _ = _
        rw [g1]
        show Except.bind (m1.minMax c.orders) _ = _
        rw [hmm]
        rfl
      by_cases h1 : m1.components.length = 1
      · refine ⟨m1, ⟨g2, ?_, g3, g5⟩, .inr ⟨h1, ?_⟩⟩
        · rw [C13_completude_exact g2]
          intro x hx y hy
          exact ⟨.mustLink, (inferred_ml_iff g2.inv hx hy).2 (mustLinked_of_single g2.inv h1 hx hy)⟩
        · rw [hstep, h1, hlo1 h1]
          rfl
      · have h2 : 2 ≤ m1.components.length := by
          obtain ⟨x, hx⟩ := List.exists_mem_of_ne_nil _ hne1
          obtain ⟨d, hd, -⟩ := exists_component g2.inv hx
          have := List.length_pos_of_mem hd
          omega
        obtain ⟨r, cs, hk⟩ := C33_no_failure henv g2 hv1 hne1 default_init
          (nb := (((lo + m1.components.length) / 2 : Nat) : Int)) (by have := hlo2 h2; omega)
        rw [hk] at hstep
        obtain ⟨m', hE, hrest⟩ := ih g2 hne1 hv1 (fun c' hc' => hc c' (by simp [hc'])) (labels := r)
          (a := .kmeans c.env 150) (nb := (((lo + m1.components.length) / 2 : Nat) : Int)) ⟨henv, "COP", 150, false, rfl⟩ (by simp only [Algo.run, hk]; rfl)
          (by rw [List.length_cons] at hlen; omega)
        refine ⟨m', ⟨hE.reachable, hE.complete, g3.trans hE.knows, fun truth hs hag => hE.truth truth (g5 truth hs hag) hag⟩, ?_⟩
        rw [hstep]
        rcases hrest with ⟨r', e1, e2, e3⟩ | ⟨e1, e2⟩
        · exact .inl ⟨r', e1, .inr (by rcases e2 with rfl | h; exacts [h2, h]), e3⟩
        · exact .inr ⟨e1, e2⟩

/-- What the documented program does with any annotator, answers that contradict each other included:
after at most `n(n-1)/2` iterations the constraints are complete, and it returns their must-link
classes; except that it fails with a `ValueError` when all IDs (two or more) end up must-linked. -/
theorem C72_documented_program {ids : List α} (hids : ids ≠ []) {vectors : Dict α V}
    (hv : ∀ x ∈ ids, ∃ v, dget? vectors x = some v) (answer : Manager α → α → α → CType) {first : KMeansEnv α V δ}
    (hf : first.Ok) {chances : List (Chance α V δ)} (hc : ∀ c ∈ chances, c.Ok)
    (hlen : ids.length * (ids.length - 1) / 2 ≤ chances.length) :
    ∃ m, Reachable m ∧ m.complete = true ∧ (∀ x, x ∈ m.managed ↔ x ∈ ids) ∧
      (∀ truth : α → Nat, (∀ m x y, Agrees truth x y (answer m x y)) → Satisfies m truth) ∧
      ((∃ r, usage ids vectors answer first chances = .ok (m, r) ∧ (∀ x, x ∈ dkeys r ↔ x ∈ ids) ∧
          (m.components.length = 1 → ∀ x ∈ ids, ∀ y ∈ ids, x = y) ∧
          ∀ x ∈ ids, ∀ y ∈ ids, (dget? r x = dget? r y ↔ m.getInferred x y = .ok (some .mustLink))) ∨
        (m.components.length = 1 ∧ usage ids vectors answer first chances = .error (.valueError "nb_clusters"))) := by
  have hm := Reachable.init (α := α) ids
  have hkeys : (Manager.init ids).managed = ounion [] ids := init_keys ids
  have hmem : ∀ x, x ∈ (Manager.init ids).managed ↔ x ∈ ids := by
    intro x; rw [hkeys, mem_ounion]; simp
  have hne : (Manager.init ids).managed ≠ [] := by
    obtain ⟨x, hx⟩ := List.exists_mem_of_ne_nil _ hids
    exact List.ne_nil_of_mem ((hmem x).2 hx)
  have hle : (Manager.init ids).managed.length ≤ ids.length := by rw [hkeys]; exact ounion_nil_length_le ids
  have hv' : HasVectors (Manager.init ids) vectors := fun x hx => hv x ((hmem x).1 hx)
  obtain ⟨r, cs, hk⟩ := C33_no_failure hf hm hv' hne default_init (nb := 2) (by decide)
  have hstep : usage ids vectors answer first chances = usageLoop vectors answer chances (Manager.init ids) r := by
    unfold usage
    show Except.bind (kmCluster first 150 (Manager.init ids) (some vectors) (some 2)) _ = _
    rw [hk]; rfl
  obtain ⟨m, hE, hend⟩ := usageLoop_ok answer hm hne hv' hc (labels := r) (a := .kmeans first 150) (nb := 2)
    ⟨hf, "COP", 150, false, rfl⟩ (by simp only [Algo.run, hk]; rfl) (by
      have hb := unknown_bound hm.inv
      have := Nat.mul_le_mul hle (show (Manager.init ids).managed.length - 1 ≤ ids.length - 1 by omega)
      omega)
  have hmem' : ∀ x, x ∈ m.managed ↔ x ∈ ids := fun x => by rw [hE.knows.1, hmem]
  refine ⟨m, hE.reachable, hE.complete, hmem', fun truth hag => hE.truth truth (init_satisfies ids truth) hag, ?_⟩
  rw [hstep]
  rcases hend with ⟨r', e1, e2, a, nb, ha, hr'⟩ | h
  · have hv2 : HasVectors m vectors := by unfold HasVectors; rw [hE.knows.1]; exact hv'
    obtain ⟨-, hk', -⟩ := Algo.labels ha hE.reachable hv2 hr'
    refine .inl ⟨r', e1, fun x => by rw [hk', List.mem_insertionSort, hmem'], fun h1 x hx y hy => ?_, fun x hx y hy =>
      C69_complete_forces_partition ha hE.reachable hE.complete hv2 hr' ((hmem' x).2 hx) ((hmem' y).2 hy)⟩
    rcases e2 with rfl | h2
    · have hl := mustLinked_of_single hm.inv h1 ((hmem x).2 hx) ((hmem y).2 hy)
      have := satisfies_chain (init_satisfies ids fun z => if z = x then 0 else 1) hl
      by_contra hxy
      simp [Ne.symm hxy] at this
    · omega
  · exact .inr h

/-- With a truthful annotator and a truth of two classes or more, the result is the truth. -/
theorem C72_truthful {ids : List α} {vectors : Dict α V} (hv : ∀ x ∈ ids, ∃ v, dget? vectors x = some v)
    {answer : Manager α → α → α → CType} {truth : α → Nat} (hans : ∀ m x y, Agrees truth x y (answer m x y))
    (htwo : ∃ x ∈ ids, ∃ y ∈ ids, truth x ≠ truth y) {first : KMeansEnv α V δ} (hf : first.Ok)
    {chances : List (Chance α V δ)} (hc : ∀ c ∈ chances, c.Ok) (hlen : ids.length * (ids.length - 1) / 2 ≤ chances.length) :
    ∃ m r, usage ids vectors answer first chances = .ok (m, r) ∧ (∀ x, x ∈ dkeys r ↔ x ∈ ids) ∧
      ∀ x ∈ ids, ∀ y ∈ ids, (dget? r x = dget? r y ↔ truth x = truth y) := by
  obtain ⟨a, ha, b, hb, hab⟩ := htwo
  obtain ⟨m, h1, h2, h3, h4, h5⟩ := C72_documented_program (List.ne_nil_of_mem ha) hv answer hf hc hlen
  have hs := h4 truth hans
  rcases h5 with ⟨r, e1, e2, -, e3⟩ | ⟨e1, -⟩
  · refine ⟨m, r, e1, e2, fun x hx y hy => ?_⟩
    have hx' := (h3 x).2 hx
    have hy' := (h3 y).2 hy
    rw [e3 x hx y hy, inferred_ml_iff h1.inv hx' hy']
    constructor
    · exact satisfies_chain hs
    · intro he
      rcases (complete_iff h1.inv).1 h2 x hx' y hy' with hl | hl
      · exact hl
      · exact absurd he (satisfies_sep hs hl)
  · exact absurd (satisfies_chain hs (mustLinked_of_single h1.inv e1 ((h3 a).2 ha) ((h3 b).2 hb))) hab

/-- Finding: when all IDs belong together, the program fails with a `ValueError` instead of
returning one cluster: the range of the number of clusters is (2, 1), whose middle is 1. -/
theorem C72_single_class_fails {ids : List α} {vectors : Dict α V} (hv : ∀ x ∈ ids, ∃ v, dget? vectors x = some v)
    {answer : Manager α → α → α → CType} (hans : ∀ m x y, answer m x y = .mustLink) (htwo : ∃ x ∈ ids, ∃ y ∈ ids, x ≠ y)
    {first : KMeansEnv α V δ} (hf : first.Ok) {chances : List (Chance α V δ)} (hc : ∀ c ∈ chances, c.Ok)
    (hlen : ids.length * (ids.length - 1) / 2 ≤ chances.length) :
    usage ids vectors answer first chances = .error (.valueError "nb_clusters") := by
  obtain ⟨a, ha, b, hb, hab⟩ := htwo
  obtain ⟨m, h1, h2, h3, h4, h5⟩ := C72_documented_program (List.ne_nil_of_mem ha) hv answer hf hc hlen
  have hs := h4 (fun _ => 0) (fun m x y => by rw [hans]; rfl)
  have hone : m.components.length = 1 := by
    have hml : ∀ x ∈ m.managed, ∀ y ∈ m.managed, MustLinked m x y := fun x hx y hy => by
      rcases (complete_iff h1.inv).1 h2 x hx y hy with hl | hl
      · exact hl
      · exact absurd rfl (satisfies_sep hs hl)
    obtain ⟨c, hc, hac⟩ := exists_component h1.inv ((h3 a).2 ha)
    have hall : ∀ d ∈ m.components, d = c := by
      intro d hd
      obtain ⟨z, hz⟩ := List.exists_mem_of_ne_nil _ (component_ne_nil h1.inv hd)
      have hzm := (mem_component_iff h1.inv hd hz).1
      exact component_unique h1.inv hd hc hz
        (((mem_component_iff h1.inv hc hac).2 z).2 (hml a ((h3 a).2 ha) z hzm))
    have hn := components_nodup m
    match hcs : m.components with
    | [] => rw [hcs] at hc; exact absurd hc (by simp)
    | [_] => rfl
    | d :: d' :: l =>
      rw [hcs] at hn hall
      have e1 := hall d (by simp)
      have e2 := hall d' (by simp)
      rw [e1, e2] at hn
      simp at hn
  rcases h5 with ⟨r, -, -, e2, -⟩ | ⟨-, e⟩
  · exact absurd (e2 hone a ha b hb) hab
  · exact e

def usageDemo : List (Chance Nat Int Nat) := List.replicate 6 ⟨kmDemoEnv, fun l k => l.reverse.take k, plainOrders⟩

theorem usageDemo_ok : ∀ c ∈ usageDemo, c.Ok := by
  intro c hc
  rw [List.eq_of_mem_replicate hc]
  exact ⟨kmDemoEnv_ok, takeLast_randomSample, plainOrders_valid⟩

def usageTruth (truth : Nat → Nat) : Manager Nat → Nat → Nat → CType := fun _ x y => if truth x = truth y then .mustLink else .cannotLink

example (truth : Nat → Nat) : ∀ m x y, Agrees truth x y (usageTruth truth m x y) := by
  intro m x y
  unfold usageTruth
  split <;> assumption

example : (usage [5, 1, 2, 4] [(5, 100), (1, 0), (2, 1), (4, 99)] (usageTruth fun x => x % 2) kmDemoEnv usageDemo).map Prod.snd =
    .ok [(1, 0), (2, 1), (4, 1), (5, 0)] := by decide +kernel

example : (usage [5, 1, 3] [(5, 100), (1, 0), (3, 1)] (fun _ _ _ => .mustLink) kmDemoEnv usageDemo).map Prod.snd =
    .error (.valueError "nb_clusters") := by decide +kernel

/-- An annotator whose answers contradict each other: 1 ~ 5, 1 ≁ 3, 3 ~ 5. -/
example : (usage [5, 1, 3] [(5, 100), (1, 0), (3, 1)] (fun _ x y => if x = 5 ∨ y = 5 then .mustLink else .cannotLink) kmDemoEnv usageDemo).map
    Prod.snd = .ok [(1, 0), (3, 1), (5, 1)] := by decide +kernel

end Verif
