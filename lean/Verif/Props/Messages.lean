import Verif.Proofs.MessagesExact
import Verif.Props.Affinity

/-
Properties C76, C77 and C78: affinity propagation in exact arithmetic. Specification vocabulary:
`Verif/Spec/Messages.lean`, `Verif/Spec/Affinity.lean`.
-/

namespace Verif

section
variable {α V κ : Type} [LinearOrder α] [Field κ] [LinearOrder κ] [IsStrictOrderedRing κ]
  {dist : V → V → κ} {eps tiny : κ} {z : Nat → Nat → κ} {p : ApParams} {m : Manager α} {vectors : Dict α V}
  {nb : Option Int} {r : Dict α Int}

/-- For at least two points, one pass through lines 386-417 computes from the messages `A`, `R` the
damped messages of Frey & Dueck, and `E` says which points have a positive sum of self-availability
and self-responsibility. -/
theorem C76_messages {n : Nat} (hn : 2 ≤ n) {Sp : Mat κ} (hS : Square n Sp) (s : ApMessages κ) :
    ∃ s' E, (apExact dist eps tiny z).update Sp s = (s', E) ∧ Square n s'.avail ∧ Square n s'.resp ∧ E.length = n ∧
      FreyDueck n (entry Sp) (entry s.avail) (entry s.resp) (entry s'.avail) (entry s'.resp) ∧
      ∀ k < n, (E[k]? = some true ↔ 0 < entry s'.avail k k + entry s'.resp k k) := by
  obtain ⟨h1, h2, h3, h4⟩ := apUpdate_ok hn hS s
  refine ⟨_, _, rfl, h1, h2, (apExact_ok dist eps tiny z).update n Sp s hS, h3, fun k hk => ?_⟩
  show (apUpdate Sp s).2[k]? = some true ↔ _
  rw [h4 k hk, Option.some.injEq, decide_eq_true_iff]
  exact Iff.rfl

/-- In exact arithmetic everything the other theorems assume of numpy holds, for any random numbers
and any distance for which no vector is closer to another one than to itself. -/
theorem C76_assumptions (hd : ∀ v w, dist v v ≤ dist v w) :
    ApAssumptions (apExact dist eps tiny z) ∧ ApDistance (apExact dist eps tiny z) :=
  ⟨apExact_ok dist eps tiny z, apExact_distance hd eps tiny z⟩

/-- In exact arithmetic the refinement chooses in every group the member to which the sum of the
similarities of all members is greatest. -/
theorem C76_refinement {Sp : Mat κ} {I I' : List Nat} (h : RefinedExemplars ((apExact dist eps tiny z).colsum Sp) Sp I I') :
    ∃ c : List Nat, c.length = Sp.length ∧ (∀ k e : Nat, I[k]? = some e → c[e]? = some k) ∧
      ∀ k e' : Nat, I'[k]? = some e' → c[e']? = some k ∧ ∀ e : Nat, c[e]? = some k →
        ∑ i ∈ (Finset.range Sp.length).filter (fun i => c[i]? = some k), entry Sp i e ≤
          ∑ i ∈ (Finset.range Sp.length).filter (fun i => c[i]? = some k), entry Sp i e' := by
  obtain ⟨c, hlen, hown, -, hbest⟩ := h.best
  refine ⟨c, hlen, hown, fun k e' hk => ?_⟩
  obtain ⟨ii, j, a, hpw, hmem, hj, ha, hmax⟩ := hbest k e' hk
  have hsum : ∀ e, (ii.map fun i => entry Sp i e).sum =
      ∑ i ∈ (Finset.range Sp.length).filter (fun i => c[i]? = some k), entry Sp i e := by
    intro e
    rw [← List.sum_toFinset _ (hpw.imp fun h => Nat.ne_of_lt h)]
    refine Finset.sum_congr ?_ fun _ _ => rfl
    ext i
    rw [List.mem_toFinset, hmem, Finset.mem_filter, Finset.mem_range, iff_and_self]
    exact fun hi => by rw [← hlen]; exact (List.getElem?_eq_some_iff.1 hi).1
  refine ⟨(hmem e').1 (List.mem_of_getElem? hj), fun e he => ?_⟩
  have hcol : (apExact dist eps tiny z).colsum Sp ii = ii.map fun e => (ii.map fun i => entry Sp i e).sum := rfl
  rw [hcol] at ha hmax
  rw [List.getElem?_map, hj] at ha
  cases ha
  rw [← hsum, ← hsum]
  exact hmax _ (List.mem_map.2 ⟨e, (hmem e).2 he, rfl⟩)

/-- The run in absolute mode, described on the closures. -/
theorem exact_run (hp : p.absolute = true) (h : Reachable m)
    (hr : apCluster (apExact dist eps tiny z) p m (some vectors) nb = .ok r)
    (heq : ¬ Equidistant (apExact dist eps tiny z) m vectors) (h1 : m.managed.length ≠ 1) :
    ∃ W M cls, (∀ c ∈ cls, c.1 < m.managed.length ∧ c.2 < m.managed.length) ∧ Square m.components.length W ∧
      (∀ (a b : Nat) (c d : List α), m.components[a]? = some c → m.components[b]? = some d →
        GroupSimilarity dist eps tiny z m vectors c d (entry W a b)) ∧
      Square m.components.length M ∧
      (∀ a < m.components.length, ∀ b < m.components.length, entry M a b = if a = b then npMedian W else entry W a b) ∧
      ((apLoop (apExact dist eps tiny z) p M m.managed.length cls p.maxIteration 0
          (apInit (apExact dist eps tiny z) p m.components.length cls) = none ∧ LabelsAre (dvals r) 1) ∨
        ∃ E labels I₀ I, apLoop (apExact dist eps tiny z) p M m.managed.length cls p.maxIteration 0
            (apInit (apExact dist eps tiny z) p m.components.length cls) = some (E, M) ∧
          I₀.Nodup ∧ (∀ i, i ∈ I₀ ↔ E[i]? = some true) ∧ RefinedExemplars (apColsum M) M I₀ I ∧
          I.length = E.countP (fun b => b) ∧ LabelsAre (dvals r) (E.countP fun b => b) ∧
          labels.length = m.components.length ∧ ExemplarLabels M I labels ∧
          ∀ (a b : Nat) (c d : List α) (x y : α), m.components[a]? = some c → m.components[b]? = some d → x ∈ c → y ∈ d →
            (dget? r x = dget? r y ↔ labels[a]? = labels[b]?)) := by
  obtain ⟨rows, mls, M, cls, hf, hcls, hml, hmem, ⟨W, hW, hM, hoff, hdiag⟩, hcase⟩ :=
    C61_exemplars (apExact_ok dist eps tiny z) hp h hr heq h1
  rw [hml] at hcase hM hdiag
  have hWs := hW.square
  rw [hml] at hWs
  obtain ⟨cls', e', hcls'⟩ := apCannotLinks_ok h.inv
  rw [hcls] at e'
  cases e'
  refine ⟨W, M, cls, hcls', hWs, ?_, hM, ?_, hcase⟩
  · intro a b c d hc hd
    have ha : a < mls.length := by rw [hml]; exact (List.getElem?_eq_some_iff.1 hc).1
    have hb : b < mls.length := by rw [hml]; exact (List.getElem?_eq_some_iff.1 hd).1
    have hP := List.getElem?_eq_getElem ha
    have hQ := List.getElem?_eq_getElem hb
    obtain ⟨⟨i, hi, j, hj, hv⟩, hub⟩ := hW.entry a b _ _ _ hP hQ (hW.square.entry ha hb)
    have sim : ∀ i j v, mget? ((apExact dist eps tiny z).noise (rows.map fun v => rows.map fun w =>
        (apExact dist eps tiny z).neg ((apExact dist eps tiny z).dist v w))) i j = some v →
        ∃ x y, m.managed[i]? = some x ∧ m.managed[j]? = some y ∧ NoisySimilarity dist eps tiny z m vectors x y v := by
      intro i j v hv
      have hv' : (mget? (rows.map fun v => rows.map fun w =>
        (apExact dist eps tiny z).neg ((apExact dist eps tiny z).dist v w)) i j).map
          (fun s => s + (eps * s + tiny * 100) * z i j) = some v := by
        rw [← mget?_apNoise]; exact hv
      rw [Option.map_eq_some_iff] at hv'
      obtain ⟨s, hs, rfl⟩ := hv'
      obtain ⟨x, y, v, w, hx, hy, hxv, hyw, rfl⟩ := (simRows hf).1 hs
      exact ⟨x, y, hx, hy, i, j, v, w, hx, hy, hxv, hyw, rfl⟩
    constructor
    · obtain ⟨x, hx, hxi⟩ := (hmem a _ c hP hc i).1 hi
      obtain ⟨y, hy, hyj⟩ := (hmem b _ d hQ hd j).1 hj
      obtain ⟨x', y', hx', hy', hs⟩ := sim i j _ hv
      rw [hxi] at hx'
      rw [hyj] at hy'
      cases hx'
      cases hy'
      exact ⟨x, hx, y, hy, hs⟩
    · rintro s ⟨x, hx, y, hy, i, j, v, w, hxi, hyj, hxv, hyw, rfl⟩
      refine hub i ((hmem a _ c hP hc i).2 ⟨x, hx, hxi⟩) j ((hmem b _ d hQ hd j).2 ⟨y, hy, hyj⟩) _ ?_
      have : mget? (rows.map fun v => rows.map fun w =>
        (apExact dist eps tiny z).neg ((apExact dist eps tiny z).dist v w)) i j = some (-dist v w) :=
        (simRows hf).2 ⟨x, y, v, w, hxi, hyj, hxv, hyw, rfl⟩
      show mget? (apNoise eps tiny z _) i j = _
      rw [mget?_apNoise, this]
      rfl
  · intro a ha b hb
    by_cases hab : a = b
    · subst hab
      rw [if_pos rfl]
      exact entry_eq (hdiag a ha)
    · rw [if_neg hab]
      refine entry_eq ?_
      rw [hoff a b hab, hWs.entry ha hb]

/-- Two components have members apart. -/
theorem managed_ne_one (h : Inv m) {c d : List α} (hc : c ∈ m.components) (hd : d ∈ m.components) (hcd : c ≠ d) :
    m.managed.length ≠ 1 := by
  intro h1
  obtain ⟨x, hx⟩ := List.exists_mem_of_ne_nil _ (component_ne_nil h hc)
  obtain ⟨y, hy⟩ := List.exists_mem_of_ne_nil _ (component_ne_nil h hd)
  have hxm := (mem_component_iff h hc hx).1
  have hym := (mem_component_iff h hd hy).1
  obtain ⟨a, ha⟩ := List.length_eq_one_iff.1 h1
  rw [ha, List.mem_singleton] at hxm hym
  subst hxm
  subst hym
  exact hcd (component_unique h hc hd hx hy)

/-- With two closures the result of affinity propagation in absolute mode is known: if every ID is more
similar to itself than any two IDs of different closures are to each other, and there are more
iterations than are needed to converge, then the clusters are exactly the two closures. -/
theorem C77_two_closures (hp : p.absolute = true) (hc : 0 < p.convergenceIteration)
    (hcm : p.convergenceIteration < p.maxIteration) (h : Reachable m)
    (hr : apCluster (apExact dist eps tiny z) p m (some vectors) nb = .ok r)
    (heq : ¬ Equidistant (apExact dist eps tiny z) m vectors) (h2 : m.components.length = 2)
    (hgap : ∀ x y x' s s', m.getInferred x y ≠ .ok (some .mustLink) → NoisySimilarity dist eps tiny z m vectors x y s →
      NoisySimilarity dist eps tiny z m vectors x' x' s' → s < s') :
    ∀ x ∈ m.managed, ∀ y ∈ m.managed, (dget? r x = dget? r y ↔ m.getInferred x y = .ok (some .mustLink)) := by
  have hcomp : ∀ a < 2, ∃ c, m.components[a]? = some c := fun a ha =>
    ⟨_, List.getElem?_eq_getElem (show a < m.components.length by omega)⟩
  have hinj : ∀ (a b : Nat) (c : List α), m.components[a]? = some c → m.components[b]? = some c → a = b := by
    intro a b c ha hb
    obtain ⟨p1, q1⟩ := List.getElem?_eq_some_iff.1 ha
    obtain ⟨p2, q2⟩ := List.getElem?_eq_some_iff.1 hb
    exact (List.Nodup.getElem_inj_iff (components_nodup m)).1 (q1.trans q2.symm)
  have h1 : m.managed.length ≠ 1 := by
    obtain ⟨c, hc⟩ := hcomp 0 (by omega)
    obtain ⟨d, hd⟩ := hcomp 1 (by omega)
    refine managed_ne_one h.inv (List.mem_of_getElem? hc) (List.mem_of_getElem? hd) ?_
    rintro rfl
    exact absurd (hinj 0 1 c hc hd) (by omega)
  obtain ⟨W, M, cls, hcls, hW, hsim, hM, hent, hcase⟩ := exact_run hp h hr heq h1
  rw [h2] at hW hM hent hcase
  have hlt : ∀ i < 2, ∀ a b, a < 2 → b < 2 → a ≠ b → entry W a b < entry W i i := by
    intro i hi a b ha hb hab
    obtain ⟨c, hc⟩ := hcomp a ha
    obtain ⟨d, hd⟩ := hcomp b hb
    obtain ⟨e, he⟩ := hcomp i hi
    obtain ⟨⟨x, hx, y, hy, hs⟩, -⟩ := hsim a b c d hc hd
    obtain ⟨⟨x', hx', y', hy', i', j', v, w, hi', -, hv, -, -⟩, hub⟩ := hsim i i e e he he
    have hxm := (mem_component_iff h.inv (List.mem_of_getElem? hc) hx).1
    have hym := (mem_component_iff h.inv (List.mem_of_getElem? hd) hy).1
    have hself : NoisySimilarity dist eps tiny z m vectors x' x'
        (-dist v v + (eps * -dist v v + tiny * 100) * z i' i') := ⟨i', i', v, v, hi', hi', hv, hv, rfl⟩
    refine lt_of_lt_of_le (hgap x y x' _ _ ?_ hs hself) (hub ⟨x', hx', x', hx', hself⟩)
    intro hml
    have hcd := ((mem_component_iff h.inv (List.mem_of_getElem? hc) hx).2 y).2 ((inferred_ml_iff h.inv hxm hym).1 hml)
    have := component_unique h.inv (List.mem_of_getElem? hc) (List.mem_of_getElem? hd) hcd hy
    subst this
    exact hab (hinj a b c hc hd)
  have hmed := median_two hW hlt
  have hloop := apLoop_two (dist := dist) (eps := eps) (tiny := tiny) (z := z) hp hc hcm (le_refl 2) hM (by
    intro k hk j hj hjk
    rw [hent k hk j hj, hent k hk k hk, if_neg (Ne.symm hjk), if_pos rfl]
    exact hmed k j hk hj (Ne.symm hjk)) m.managed.length cls
  rcases hcase with ⟨e, -⟩ | ⟨E, labels, I₀, I, e, -, -, -, hIl, -, hll, hex, hpair⟩
  · rw [hloop] at e; cases e
  · rw [hloop] at e
    cases e
    have hIlen : I.length = 2 := by rw [hIl]; rfl
    have hIlt : ∀ i ∈ I, i < 2 := fun i hi => by
      have := (List.getElem?_eq_some_iff.1 (hex.own i hi)).1
      omega
    have hall : ∀ a < 2, labels[a]? = some a := by
      intro a ha
      refine hex.own a ?_
      match I, hIlen with
      | [u, v], _ =>
        have h3 := hIlt u (by simp)
        have h4 := hIlt v (by simp)
        have h5 := hex.nodup
        simp only [List.nodup_cons, List.mem_singleton] at h5
        have : a = u ∨ a = v := by omega
        simpa using this
    intro x hx y hy
    obtain ⟨c, hcm', hxc⟩ := exists_component h.inv hx
    obtain ⟨d, hdm, hyd⟩ := exists_component h.inv hy
    obtain ⟨a, ha⟩ := List.mem_iff_getElem?.1 hcm'
    obtain ⟨b, hb⟩ := List.mem_iff_getElem?.1 hdm
    have ha2 : a < 2 := by have := (List.getElem?_eq_some_iff.1 ha).1; omega
    have hb2 : b < 2 := by have := (List.getElem?_eq_some_iff.1 hb).1; omega
    rw [hpair a b c d x y ha hb hxc hyd, hall a ha2, hall b hb2, Option.some.injEq, inferred_ml_iff h.inv hx hy,
      ← (mem_component_iff h.inv hcm' hxc).2 y]
    constructor
    · rintro rfl
      rw [ha] at hb
      cases hb
      exact hyd
    · intro hyc
      have := component_unique h.inv hcm' hdm hyc hyd
      subst this
      exact hinj a b c ha hb

/-- In absolute mode a closure is isolated when its similarity to every other closure is smaller than the
preference. If the messages converge there are at least as many clusters as isolated closures;
otherwise there is a single cluster. -/
theorem C77_isolated (hp : p.absolute = true) (h : Reachable m)
    (hr : apCluster (apExact dist eps tiny z) p m (some vectors) nb = .ok r)
    (heq : ¬ Equidistant (apExact dist eps tiny z) m vectors) (h1 : m.managed.length ≠ 1) {u : κ}
    (hu : ClosurePreference dist eps tiny z m vectors u) {I : List (List α)} (hI : I.Nodup)
    (hiso : ∀ c ∈ I, c ∈ m.components ∧ ∀ d ∈ m.components, d ≠ c → ∀ s, GroupSimilarity dist eps tiny z m vectors c d s → s < u) :
    ∃ k, LabelsAre (dvals r) k ∧ (k = 1 ∨ I.length ≤ k) := by
  obtain ⟨W, M, cls, hcls, hW, hsim, hM, hent, hcase⟩ := exact_run hp h hr heq h1
  have hWu : npMedian W = u := by
    obtain ⟨W', hW', hsim', hmed⟩ := hu
    rw [← npMedian_unique hmed]
    congr 1
    have hg : ∀ a b, mget? W a b = mget? W' a b := by
      intro a b
      by_cases hab : a < m.components.length ∧ b < m.components.length
      · obtain ⟨ha, hb⟩ := hab
        obtain ⟨s, hs, hs'⟩ := hsim' a b _ _ (List.getElem?_eq_getElem ha) (List.getElem?_eq_getElem hb)
        have := hsim a b _ _ (List.getElem?_eq_getElem ha) (List.getElem?_eq_getElem hb)
        rw [hs, hW.entry ha hb, this.unique hs']
      · cases e : mget? W a b with
        | some v => exact absurd (hW.lt e) hab
        | none =>
          cases e' : mget? W' a b with
          | some v => exact absurd (hW'.lt e') hab
          | none => rfl
    apply List.ext_getElem (by rw [hW.1, hW'.1])
    intro a ha ha'
    apply List.ext_getElem?
    intro b
    have := hg a b
    unfold mget? at this
    rw [List.getElem?_eq_getElem ha, List.getElem?_eq_getElem ha'] at this
    exact this
  rcases hcase with ⟨-, hla⟩ | ⟨E, labels, I₀, I', e, hnd0, hI0, href, hIl, hla, -⟩
  · exact ⟨1, hla, .inl rfl⟩
  · refine ⟨_, hla, .inr ?_⟩
    rw [← hIl, ← href.kept.length_eq]
    -- the positions of the isolated closures are exemplars
    have hpos : ∀ c ∈ I, ∃ k, m.components[k]? = some c ∧ k ∈ I₀ := by
      intro c hc
      obtain ⟨hcm, hfar⟩ := hiso c hc
      obtain ⟨k, hk⟩ := List.mem_iff_getElem?.1 hcm
      have hk' := (List.getElem?_eq_some_iff.1 hk).1
      refine ⟨k, hk, (hI0 k).2 ?_⟩
      by_cases h2 : 2 ≤ m.components.length
      · refine apLoop_isolated hp h2 hM hk' ?_ e
        intro j hj hjk
        rw [hent k hk' j hj, hent k hk' k hk', if_neg (Ne.symm hjk), if_pos rfl, hWu]
        have hd := List.getElem?_eq_getElem hj
        refine hfar _ (List.getElem_mem hj) ?_ _ (hsim k j _ _ hk hd)
        intro hdc
        rw [hdc, ← hk] at hd
        exact hjk ((List.getElem?_inj hj (components_nodup m)).1 hd)
      · -- a single closure never becomes an exemplar
        exfalso
        have := apLoop_result (T := fun E : List Bool => E.countP (fun b => b) = 0) hp (fun _ => True) (fun s _ => ⟨trivial, by
          show (apUpdate M s).2.countP _ = 0
          unfold apUpdate
          rw [hM.1, if_pos (by omega), List.countP_replicate]
          simp⟩) trivial e
        obtain ⟨-, -, hpos, -⟩ := apLoop_some (apExact_ok dist eps tiny z) p hM (n := m.managed.length) (cls := cls) hcls e
        omega
    choose! g hg1 hg2 using hpos
    have hmap : (I.map g).Nodup := by
      refine List.Nodup.map_on (fun a ha b hb hab => ?_) hI
      have h1 := hg1 a ha
      rw [hab, hg1 b hb] at h1
      exact (Option.some.inj h1).symm
    have hsub : I.map g ⊆ I₀ := by
      intro k hk
      obtain ⟨c, hc, rfl⟩ := List.mem_map.1 hk
      exact hg2 c hc
    have := (hmap.subperm hsub).length_le
    simpa using this

/-! ### Three closures -/

/-- The positions and the matrix of three closures. -/
theorem three_matrix (h : Reachable m) {A B C : List α} {u q : κ} (hg : ClosestGroups dist eps tiny z m vectors A B C u q)
    {W M : Mat κ} (hW : Square 3 W) (hsim : ∀ (a b : Nat) (c d : List α), m.components[a]? = some c → m.components[b]? = some d →
      GroupSimilarity dist eps tiny z m vectors c d (entry W a b))
    (hent : ∀ a < 3, ∀ b < 3, entry M a b = if a = b then npMedian W else entry W a b) :
    ∃ k l t, m.components[k]? = some A ∧ m.components[l]? = some B ∧ m.components[t]? = some C ∧
      ClosestPair (entry M) k l t ∧ entry M k k = u ∧ entry M l k = q := by
  have hlen : m.components.length = 3 := by rw [hg.perm.length_eq]; rfl
  have hnd := hg.perm.nodup_iff.1 (components_nodup m)
  simp only [List.nodup_cons, List.mem_cons, List.not_mem_nil, or_false, not_or] at hnd
  obtain ⟨⟨hAB, hAC⟩, hBC, -⟩ := hnd
  obtain ⟨k, hk⟩ := List.mem_iff_getElem?.1 (hg.perm.mem_iff.2 (show A ∈ [A, B, C] by simp))
  obtain ⟨l, hl⟩ := List.mem_iff_getElem?.1 (hg.perm.mem_iff.2 (show B ∈ [A, B, C] by simp))
  obtain ⟨t, ht⟩ := List.mem_iff_getElem?.1 (hg.perm.mem_iff.2 (show C ∈ [A, B, C] by simp))
  have hk3 : k < 3 := by have := (List.getElem?_eq_some_iff.1 hk).1; omega
  have hl3 : l < 3 := by have := (List.getElem?_eq_some_iff.1 hl).1; omega
  have ht3 : t < 3 := by have := (List.getElem?_eq_some_iff.1 ht).1; omega
  have hkl : k ≠ l := by rintro rfl; rw [hk] at hl; cases hl; exact hAB rfl
  have hkt : k ≠ t := by rintro rfl; rw [hk] at ht; cases ht; exact hAC rfl
  have hlt : l ≠ t := by rintro rfl; rw [hl] at ht; cases ht; exact hBC rfl
  have e1 : entry W k l = u := (hsim k l A B hk hl).unique hg.forth
  have e2 : entry W l k = q := (hsim l k B A hl hk).unique hg.back
  have f1 : entry W k t < u := hg.far _ (.inl (hsim k t A C hk ht))
  have f2 : entry W t k < u := hg.far _ (.inr (.inl (hsim t k C A ht hk)))
  have f3 : entry W l t < u := hg.far _ (.inr (.inr (.inl (hsim l t B C hl ht))))
  have f4 : entry W t l < u := hg.far _ (.inr (.inr (.inr (hsim t l C B ht hl))))
  have n1 : q < entry W k k := hg.near A (by simp) _ (hsim k k A A hk hk)
  have n2 : q < entry W l l := hg.near B (by simp) _ (hsim l l B B hl hl)
  have n3 : q < entry W t t := hg.near C (by simp) _ (hsim t t C C ht ht)
  have hmed : npMedian W = u := by
    rw [← e1]
    refine median_three hW hk3 hl3 ht3 hkl hkt hlt ?_ ?_ ?_ ?_ ?_ ?_
    · rw [e1, e2]; exact hg.le
    · rw [e1]; exact f1
    · rw [e1]; exact f2
    · rw [e1]; exact f3
    · rw [e1]; exact f4
    · intro i hi
      rw [e2]
      rcases (show i = k ∨ i = l ∨ i = t by omega) with rfl | rfl | rfl <;> assumption
  rw [hmed] at hent
  have dd : ∀ a < 3, entry M a a = u := fun a ha => by rw [hent a ha a ha, if_pos rfl]
  have oo : ∀ a b, a < 3 → b < 3 → a ≠ b → entry M a b = entry W a b := fun a b ha hb hab => by
    rw [hent a ha b hb, if_neg hab]
  refine ⟨k, l, t, hk, hl, ht, ⟨hk3, hl3, ht3, hkl, hkt, hlt, ?_, ?_, ?_, ?_, ?_, ?_, ?_, ?_⟩, dd k hk3, ?_⟩
  · rw [dd l hl3, dd k hk3]
  · rw [dd t ht3, dd k hk3]
  · rw [oo k l hk3 hl3 hkl, dd k hk3, e1]
  · rw [oo l k hl3 hk3 hkl.symm, dd k hk3, e2]; exact hg.le
  · rw [oo k t hk3 ht3 hkt, dd k hk3]; exact f1
  · rw [oo t k ht3 hk3 hkt.symm, dd k hk3]; exact f2
  · rw [oo l t hl3 ht3 hlt, dd k hk3]; exact f3
  · rw [oo t l ht3 hl3 hlt.symm, dd k hk3]; exact f4
  · rw [oo l k hl3 hk3 hkl.symm, e2]

theorem three_apart (h : Reachable m) {A B C : List α} {u q : κ} (hg : ClosestGroups dist eps tiny z m vectors A B C u q) :
    m.managed.length ≠ 1 := by
  have hnd := hg.perm.nodup_iff.1 (components_nodup m)
  refine managed_ne_one h.inv (hg.perm.mem_iff.2 (show A ∈ [A, B, C] by simp)) (hg.perm.mem_iff.2 (show B ∈ [A, B, C] by simp)) ?_
  rintro rfl
  simp at hnd

/-- With three closures, of which two are closest to each other, affinity propagation in absolute mode
makes two clusters when the noise has told apart the two similarities of that pair: the closest pair
and the third closure. -/
theorem C78_three_closures (hp : p.absolute = true) (hc : 0 < p.convergenceIteration)
    (hcm : p.convergenceIteration < p.maxIteration) (h : Reachable m)
    (hr : apCluster (apExact dist eps tiny z) p m (some vectors) nb = .ok r)
    (heq : ¬ Equidistant (apExact dist eps tiny z) m vectors) {A B C : List α} {u q : κ}
    (hg : ClosestGroups dist eps tiny z m vectors A B C u q) (huq : u < q) :
    LabelsAre (dvals r) 2 ∧ ∀ x ∈ m.managed, ∀ y ∈ m.managed, (dget? r x = dget? r y ↔ (x ∈ C ↔ y ∈ C)) := by
  have hlen : m.components.length = 3 := by rw [hg.perm.length_eq]; rfl
  obtain ⟨W, M, cls, hcls, hW, hsim, hM, hent, hcase⟩ := exact_run hp h hr heq (three_apart h hg)
  rw [hlen] at hW hM hent hcase
  obtain ⟨k, l, t, hk, hl, ht, hcl, e1, e2⟩ := three_matrix h hg hW hsim hent
  have hloop := apLoop_pair (dist := dist) (eps := eps) (tiny := tiny) (z := z) hp hc hcm hM hcl (by rw [e1, e2]; exact huq)
    m.managed.length cls
  obtain ⟨hk3, hl3, ht3, hkl, hkt, hlt, selfL, selfT, pref, back, farKT, farTK, farLT, farTL⟩ := hcl
  rcases hcase with ⟨e, -⟩ | ⟨E, labels, I₀, I, e, hnd0, hI0, href, hIl, hla, hll, hex, hpair⟩
  · rw [hloop] at e; cases e
  rw [hloop] at e
  cases e
  have hcount : ((List.range 3).map fun i => decide (i ≠ l)).countP (fun b => b) = 2 := by
    interval_cases l <;> rfl
  rw [hcount] at hla hIl
  have hmem0 : ∀ i, i ∈ I₀ ↔ i = k ∨ i = t := by
    intro i
    rw [hI0]
    by_cases hi : i < 3
    · rw [List.getElem?_map, List.getElem?_range hi]
      simp only [Option.map_some, Option.some.injEq, decide_eq_true_eq]
      omega
    · rw [List.getElem?_eq_none (by simpa using hi)]
      simp only [reduceCtorEq, false_iff]
      omega
  have cmp : ∀ i x y, i < 3 → x < 3 → y < 3 → (∃ a b, mget? M i x = some a ∧ mget? M i y = some b ∧ a ≤ b) → entry M i x ≤ entry M i y := by
    rintro i x y - - - ⟨a, b, ha, hb, hab⟩
    rw [entry_eq ha, entry_eq hb]
    exact hab
  have hlen0 : I₀.length = 2 := by rw [href.kept.length_eq, hIl]
  have hIlt : ∀ i ∈ I, i < 3 := fun i hi => by
    have := (List.getElem?_eq_some_iff.1 (hex.own i hi)).1
    omega
  -- `t` is kept, `k` is kept or replaced by `l`
  have ht' : t ∈ I := by
    obtain ⟨e', he', hrel⟩ := forall₂_mem_left href.kept ((hmem0 t).2 (.inr rfl))
    rcases hrel with rfl | ⟨hne, hmax⟩
    · exact he'
    · exfalso
      have he3 := hIlt e' he'
      have : e' = l := by
        have : ¬ (e' = k ∨ e' = t) := fun c => hne ((hmem0 e').2 c)
        omega
      subst this
      have := cmp e' k t hl3 hk3 ht3 (hmax k ((hmem0 k).2 (.inl rfl)))
      linarith
  have hk' : k ∈ I ∨ l ∈ I := by
    obtain ⟨e', he', hrel⟩ := forall₂_mem_left href.kept ((hmem0 k).2 (.inl rfl))
    rcases hrel with rfl | ⟨hne, -⟩
    · exact .inl he'
    · have he3 := hIlt e' he'
      have : e' = l := by
        have : ¬ (e' = k ∨ e' = t) := fun c => hne ((hmem0 e').2 c)
        omega
      subst this
      exact .inr he'
  have hlabt : labels[t]? = some t := hex.own t ht'
  have hI2 : ∀ {w : Nat}, w ∈ I → w ≠ t → ∀ i ∈ I, i = w ∨ i = t := by
    intro w hw hwt i hi
    match I, hIl with
    | [a, b], _ =>
      have := hex.nodup
      simp only [List.nodup_cons, List.mem_cons, List.not_mem_nil, or_false] at this hw hi ht'
      omega
  have hlab : ∃ w, w ≠ t ∧ labels[k]? = some w ∧ labels[l]? = some w := by
    have hlk : k < labels.length := by omega
    have hll' : l < labels.length := by omega
    by_cases hkI : k ∈ I
    · refine ⟨k, hkt, hex.own k hkI, ?_⟩
      have hv := List.getElem?_eq_getElem hll'
      have hlI : l ∉ I := fun c => by
        rcases hI2 hkI hkt l c with h | h
        · exact hkl h.symm
        · exact hlt h
      rcases hI2 hkI hkt _ (hex.mem l _ hv) with h | h
      · rw [hv, h]
      · exfalso
        have := cmp l k _ hl3 hk3 (by rw [h]; exact ht3) (hex.nearest l _ hv hlI k hkI)
        rw [h] at this
        linarith
    · have hlI : l ∈ I := hk'.resolve_left hkI
      refine ⟨l, hlt, ?_, hex.own l hlI⟩
      have hv := List.getElem?_eq_getElem hlk
      rcases hI2 hlI hlt _ (hex.mem k _ hv) with h | h
      · rw [hv, h]
      · exfalso
        have := cmp k l _ hk3 hl3 (by rw [h]; exact ht3) (hex.nearest k _ hv hkI l hlI)
        rw [h] at this
        linarith
  obtain ⟨w, hwt, hwk, hwl⟩ := hlab
  refine ⟨hla, fun x hx y hy => ?_⟩
  have side : ∀ x ∈ m.managed, ∃ (a : Nat) (c : List α) (v : Nat), m.components[a]? = some c ∧ x ∈ c ∧ labels[a]? = some v ∧ (v = t ∨ v = w) ∧ (x ∈ C ↔ v = t) := by
    intro x hx
    obtain ⟨c, hcm', hxc⟩ := exists_component h.inv hx
    have hCm : C ∈ m.components := List.mem_of_getElem? ht
    have := hg.perm.mem_iff.1 hcm'
    simp only [List.mem_cons, List.not_mem_nil, or_false] at this
    have hnC : ∀ c', c' ∈ m.components → x ∈ c' → c' ≠ C → x ∉ C := fun c' h1 h2 h3 h4 =>
      h3 (component_unique h.inv h1 hCm h2 h4)
    rcases this with rfl | rfl | rfl
    · refine ⟨k, c, w, hk, hxc, hwk, .inr rfl, ?_⟩
      refine ⟨fun hxC => absurd hxC (hnC c hcm' hxc ?_), fun e => absurd e hwt⟩
      rintro rfl
      rw [← ht] at hk
      exact hkt ((List.getElem?_inj (by omega) (components_nodup m)).1 hk)
    · refine ⟨l, c, w, hl, hxc, hwl, .inr rfl, ?_⟩
      refine ⟨fun hxC => absurd hxC (hnC c hcm' hxc ?_), fun e => absurd e hwt⟩
      rintro rfl
      rw [← ht] at hl
      exact hlt ((List.getElem?_inj (by omega) (components_nodup m)).1 hl)
    · exact ⟨t, c, t, ht, hxc, hlabt, .inl rfl, iff_of_true hxc rfl⟩
  obtain ⟨a, c, v, ha, hxc, hva, hv, hxC⟩ := side x hx
  obtain ⟨b, d, v', hb, hyd, hvb, hv', hyC⟩ := side y hy
  rw [hpair a b c d x y ha hb hxc hyd, hva, hvb, Option.some.injEq, hxC, hyC]
  omega

/-- When the noise leaves the two similarities of the closest pair equal, three closures are put into
a single cluster. -/
theorem C78_three_closures_tie (hp : p.absolute = true) (hc : 0 < p.convergenceIteration)
    (hcm : p.convergenceIteration < p.maxIteration) (h : Reachable m)
    (hr : apCluster (apExact dist eps tiny z) p m (some vectors) nb = .ok r)
    (heq : ¬ Equidistant (apExact dist eps tiny z) m vectors) {A B C : List α} {u : κ}
    (hg : ClosestGroups dist eps tiny z m vectors A B C u u) : LabelsAre (dvals r) 1 := by
  have hlen : m.components.length = 3 := by rw [hg.perm.length_eq]; rfl
  obtain ⟨W, M, cls, hcls, hW, hsim, hM, hent, hcase⟩ := exact_run hp h hr heq (three_apart h hg)
  rw [hlen] at hW hM hent hcase
  obtain ⟨k, l, t, hk, hl, ht, hcl, e1, e2⟩ := three_matrix h hg hW hsim hent
  have hloop := apLoop_tie (dist := dist) (eps := eps) (tiny := tiny) (z := z) hp hc hcm hM hcl (by rw [e1, e2])
    m.managed.length cls
  have ht3 := hcl.ht
  rcases hcase with ⟨e, -⟩ | ⟨E, labels, I₀, I, e, hnd0, hI0, href, hIl, hla, hll, hex, hpair⟩
  · rw [hloop] at e; cases e
  · rw [hloop] at e
    cases e
    have hcount : ((List.range 3).map fun i => decide (i = t)).countP (fun b => b) = 1 := by
      interval_cases t <;> rfl
    rw [hcount] at hla
    exact hla

end

/-! ### Examples: rational numbers on a line -/

def lineDist (a b : Rat) : Rat := if a ≤ b then b - a else a - b

theorem lineDist_self (v w : Rat) : lineDist v v ≤ lineDist v w := by
  unfold lineDist
  rw [if_pos (le_refl v), sub_self]
  split <;> linarith

/-- Random numbers that lower the similarities above the diagonal. -/
def skew (i j : Nat) : Rat := if i < j then 1 else 0

/-- Affinity propagation on the line; the noise is one thousandth. -/
def apLine (z : Nat → Nat → Rat) : ApEnv Rat Rat (ApMessages Rat) (Nat × List (Mat Rat × Mat Rat)) :=
  apExact lineDist (1 / 1000) 0 z

def apPoints : Manager Nat := Manager.init [1, 2, 3]

def apPointVectors : Dict Nat Rat := [(1, 0), (2, 1), (3, 10)]

theorem apPoints_reachable : Reachable apPoints := ⟨[1, 2, 3], [], rfl⟩

theorem apPoints_not_equidistant (z : Nat → Nat → Rat) : ¬ Equidistant (apLine z) apPoints apPointVectors := by
  rintro ⟨s, hs⟩
  have h1 := hs 1 (by decide +kernel) 2 (by decide +kernel) (by decide) 0 1 (by decide +kernel) (by decide +kernel)
  have h2 := hs 1 (by decide +kernel) 3 (by decide +kernel) (by decide) 0 10 (by decide +kernel) (by decide +kernel)
  rw [← h2] at h1
  revert h1
  show ¬ (-lineDist 0 1 = -lineDist 0 10)
  decide +kernel

/-- The similarity of two managed IDs is unique. -/
theorem NoisySimilarity.unique {α V κ : Type} [LinearOrder α] [Field κ] [LinearOrder κ] {dist : V → V → κ} {eps tiny : κ}
    {z : Nat → Nat → κ} {m : Manager α} (h : Inv m) {vectors : Dict α V} {x y : α} {s s' : κ}
    (hs : NoisySimilarity dist eps tiny z m vectors x y s) (hs' : NoisySimilarity dist eps tiny z m vectors x y s') : s = s' := by
  obtain ⟨i, j, v, w, h1, h2, h3, h4, rfl⟩ := hs
  obtain ⟨i', j', v', w', h1', h2', h3', h4', rfl⟩ := hs'
  have hnd : m.managed.Nodup := h.d.nodup
  have := getElem?_inj_of_nodup hnd h1 h1'
  have := getElem?_inj_of_nodup hnd h2 h2'
  subst i' j'
  rw [h3] at h3'
  rw [h4] at h4'
  cases h3'
  cases h4'
  rfl

theorem group_singletons {α V κ : Type} [LinearOrder α] [Field κ] [LinearOrder κ] {dist : V → V → κ} {eps tiny : κ}
    {z : Nat → Nat → κ} {m : Manager α} (h : Inv m) {vectors : Dict α V} {x y : α} {s : κ}
    (hs : NoisySimilarity dist eps tiny z m vectors x y s) : GroupSimilarity dist eps tiny z m vectors [x] [y] s := by
  refine ⟨⟨x, by simp, y, by simp, hs⟩, ?_⟩
  rintro t ⟨x', hx, y', hy, ht⟩
  rw [List.mem_singleton] at hx hy
  subst x' y'
  exact (ht.unique h hs).le

/-- The similarities of the three points. -/
theorem apPoints_similarity (z : Nat → Nat → Rat) (i j : Nat) (v w : Rat) (x y : Nat) (hx : apPoints.managed[i]? = some x)
    (hy : apPoints.managed[j]? = some y) (hv : dget? apPointVectors x = some v) (hw : dget? apPointVectors y = some w) :
    GroupSimilarity lineDist (1 / 1000) 0 z apPoints apPointVectors [x] [y]
      (-lineDist v w + (1 / 1000 * -lineDist v w + 0 * 100) * z i j) :=
  group_singletons apPoints_reachable.inv ⟨i, j, v, w, hx, hy, hv, hw, rfl⟩

theorem apPoints_closest {z : Nat → Nat → Rat} {u q : Rat} (hu : u = -1 + 1 / 1000 * -1 * z 0 1) (hq : q = -1 + 1 / 1000 * -1 * z 1 0)
    (huq : u ≤ q) (hq0 : q < 0) (h02 : -10 + 1 / 1000 * -10 * z 0 2 < u) (h20 : -10 + 1 / 1000 * -10 * z 2 0 < u)
    (h12 : -9 + 1 / 1000 * -9 * z 1 2 < u) (h21 : -9 + 1 / 1000 * -9 * z 2 1 < u) :
    ClosestGroups lineDist (1 / 1000) 0 z apPoints apPointVectors [1] [2] [3] u q := by
  have sim := apPoints_similarity z
  have d01 : lineDist 0 1 = 1 := by decide +kernel
  have d10 : lineDist 1 0 = 1 := by decide +kernel
  have d02 : lineDist 0 10 = 10 := by decide +kernel
  have d20 : lineDist 10 0 = 10 := by decide +kernel
  have d12 : lineDist 1 10 = 9 := by decide +kernel
  have d21 : lineDist 10 1 = 9 := by decide +kernel
  have s01 := sim 0 1 0 1 1 2 (by decide +kernel) (by decide +kernel) (by decide +kernel) (by decide +kernel)
  have s10 := sim 1 0 1 0 2 1 (by decide +kernel) (by decide +kernel) (by decide +kernel) (by decide +kernel)
  have s02 := sim 0 2 0 10 1 3 (by decide +kernel) (by decide +kernel) (by decide +kernel) (by decide +kernel)
  have s20 := sim 2 0 10 0 3 1 (by decide +kernel) (by decide +kernel) (by decide +kernel) (by decide +kernel)
  have s12 := sim 1 2 1 10 2 3 (by decide +kernel) (by decide +kernel) (by decide +kernel) (by decide +kernel)
  have s21 := sim 2 1 10 1 3 2 (by decide +kernel) (by decide +kernel) (by decide +kernel) (by decide +kernel)
  have s00 := sim 0 0 0 0 1 1 (by decide +kernel) (by decide +kernel) (by decide +kernel) (by decide +kernel)
  have s11 := sim 1 1 1 1 2 2 (by decide +kernel) (by decide +kernel) (by decide +kernel) (by decide +kernel)
  have s22 := sim 2 2 10 10 3 3 (by decide +kernel) (by decide +kernel) (by decide +kernel) (by decide +kernel)
  rw [d01] at s01
  rw [d10] at s10
  rw [d02] at s02
  rw [d20] at s20
  rw [d12] at s12
  rw [d21] at s21
  refine ⟨by decide +kernel, ?_, ?_, huq, ?_, ?_⟩
  · convert s01 using 1; rw [hu]; ring
  · convert s10 using 1; rw [hq]; ring
  · rintro s (hs | hs | hs | hs)
    · rw [hs.unique s02]; linarith
    · rw [hs.unique s20]; linarith
    · rw [hs.unique s12]; linarith
    · rw [hs.unique s21]; linarith
  · have z0 : ∀ a : Rat, lineDist a a = 0 := fun a => by simp [lineDist]
    rw [z0] at s00 s11 s22
    intro X hX s hs
    simp only [List.mem_cons, List.not_mem_nil, or_false] at hX
    rcases hX with rfl | rfl | rfl
    · rw [hs.unique s00]; linarith
    · rw [hs.unique s11]; linarith
    · rw [hs.unique s22]; linarith

/-- Three points without constraints: with the skewed noise 1 and 2 are together and 3 is apart;
without noise all three are in one cluster. The hypotheses of both theorems are met. -/
example : ClosestGroups lineDist (1 / 1000) 0 skew apPoints apPointVectors [1] [2] [3] (-1001 / 1000) (-1) ∧
    apCluster (apLine skew) ⟨150, 10, true⟩ apPoints (some apPointVectors) none = .ok [(1, 0), (2, 0), (3, 1)] :=
  ⟨apPoints_closest (by decide +kernel) (by decide +kernel) (by decide +kernel) (by decide +kernel) (by decide +kernel)
    (by decide +kernel) (by decide +kernel) (by decide +kernel), by decide +kernel⟩

example : ClosestGroups lineDist (1 / 1000) 0 (fun _ _ => 0) apPoints apPointVectors [1] [2] [3] (-1) (-1) ∧
    apCluster (apLine fun _ _ => 0) ⟨150, 10, true⟩ apPoints (some apPointVectors) none = .ok [(1, 0), (2, 0), (3, 0)] :=
  ⟨apPoints_closest (by decide +kernel) (by decide +kernel) (by decide +kernel) (by decide +kernel) (by decide +kernel)
    (by decide +kernel) (by decide +kernel) (by decide +kernel), by decide +kernel⟩

/-- Two closures: 1 and 2 are must-linked. -/
def apPairs : Manager Nat := runOps (Manager.init [1, 2, 3]) [.addConstraint 1 2 "MUST_LINK" 1]

example : Reachable apPairs ∧ apPairs.components.length = 2 ∧
    (∀ x y x' s s', apPairs.getInferred x y ≠ .ok (some .mustLink) →
      NoisySimilarity lineDist (1 / 1000) 0 skew apPairs [(1, 0), (2, 9), (3, 10)] x y s →
      NoisySimilarity lineDist (1 / 1000) 0 skew apPairs [(1, 0), (2, 9), (3, 10)] x' x' s' → s < s') ∧
    apCluster (apLine skew) ⟨150, 10, true⟩ apPairs (some [(1, 0), (2, 9), (3, 10)]) none = .ok [(1, 0), (2, 0), (3, 1)] := by
  refine ⟨⟨_, _, rfl⟩, by decide +kernel, ?_, by decide +kernel⟩
  have hm : apPairs.managed = [1, 2, 3] := by decide +kernel
  rintro x y x' s s' hne ⟨i, j, v, w, hx, hy, hv, hw, rfl⟩ ⟨i', j', v', w', hx', hy', hv', hw', rfl⟩
  have e : v' = w' := by rw [hv'] at hw'; exact Option.some.inj hw'
  subst e
  have z0 : lineDist v' v' = 0 := by simp [lineDist]
  rw [z0]
  rw [hm] at hx hy
  have hi : i < 3 := (List.getElem?_eq_some_iff.1 hx).1
  have hj : j < 3 := (List.getElem?_eq_some_iff.1 hy).1
  have h11 : apPairs.getInferred 1 1 = .ok (some .mustLink) := by decide +kernel
  have h22 : apPairs.getInferred 2 2 = .ok (some .mustLink) := by decide +kernel
  have h33 : apPairs.getInferred 3 3 = .ok (some .mustLink) := by decide +kernel
  have h12 : apPairs.getInferred 1 2 = .ok (some .mustLink) := by decide +kernel
  have h21 : apPairs.getInferred 2 1 = .ok (some .mustLink) := by decide +kernel
  have d1 : lineDist 0 10 = 10 := by decide +kernel
  have d2 : lineDist 10 0 = 10 := by decide +kernel
  have d3 : lineDist 9 10 = 1 := by decide +kernel
  have d4 : lineDist 10 9 = 1 := by decide +kernel
  interval_cases i <;> interval_cases j <;> simp at hx hy <;> subst hx <;> subst hy <;>
    first | exact absurd h11 hne | exact absurd h22 hne | exact absurd h33 hne | exact absurd h12 hne | exact absurd h21 hne |
      (simp [dget?] at hv hw; subst hv; subst hw; simp only [d1, d2, d3, d4, skew]; norm_num)

/-- An isolated closure: 3 is farther from the others than the preference. -/
example : ClosurePreference lineDist (1 / 1000) 0 skew apPoints apPointVectors (-1001 / 1000) ∧
    ∀ d ∈ apPoints.components, d ≠ [3] → ∀ s, GroupSimilarity lineDist (1 / 1000) 0 skew apPoints apPointVectors [3] d s →
      s < -1001 / 1000 := by
  have sim := apPoints_similarity skew
  have hc : apPoints.components = [[1], [2], [3]] := by decide +kernel
  refine ⟨⟨[[0, -1001 / 1000, -1001 / 100], [-1, 0, -9009 / 1000], [-10, -9, 0]], by rw [hc]; exact ⟨rfl, by decide⟩, ?_,
    [-1001 / 100, -10, -9009 / 1000, -9, -1001 / 1000, -1, 0, 0, 0], by decide +kernel, by decide +kernel,
    -1001 / 1000, -1001 / 1000, by decide +kernel⟩, ?_⟩
  · rw [hc]
    intro a b c d ha hb
    have ha3 : a < 3 := (List.getElem?_eq_some_iff.1 ha).1
    have hb3 : b < 3 := (List.getElem?_eq_some_iff.1 hb).1
    have hval : ∀ s, mget? [[0, -1001 / 1000, -1001 / 100], [-1, 0, -9009 / 1000], [-10, -9, (0 : Rat)]] a b = some s →
        GroupSimilarity lineDist (1 / 1000) 0 skew apPoints apPointVectors c d s →
        ∃ s, mget? [[0, -1001 / 1000, -1001 / 100], [-1, 0, -9009 / 1000], [-10, -9, (0 : Rat)]] a b = some s ∧
          GroupSimilarity lineDist (1 / 1000) 0 skew apPoints apPointVectors c d s := fun s h1 h2 => ⟨s, h1, h2⟩
    have hvec : ∀ k < 3, ∃ x v, apPoints.managed[k]? = some x ∧ dget? apPointVectors x = some v ∧
        [[1], [2], [3]][k]? = some [x] := by
      intro k hk
      interval_cases k
      · exact ⟨1, 0, by decide +kernel⟩
      · exact ⟨2, 1, by decide +kernel⟩
      · exact ⟨3, 10, by decide +kernel⟩
    obtain ⟨x, v, hx, hv, hxc⟩ := hvec a ha3
    obtain ⟨y, w, hy, hw, hyd⟩ := hvec b hb3
    rw [hxc] at ha
    rw [hyd] at hb
    cases ha
    cases hb
    refine ⟨_, ?_, sim a b v w x y hx hy hv hw⟩
    clear hval hxc hyd
    have hpm : apPoints.managed = [1, 2, 3] := by decide +kernel
    rw [hpm] at hx hy
    interval_cases a <;> interval_cases b <;> simp at hx hy <;> subst hx <;> subst hy <;>
      simp [dget?, apPointVectors] at hv hw <;> subst hv <;> subst hw <;> decide +kernel
  · rw [hc]
    intro d hd hne s hs
    simp only [List.mem_cons, List.not_mem_nil, or_false] at hd
    rcases hd with rfl | rfl | rfl
    · have h := sim 2 0 10 0 3 1 (by decide +kernel) (by decide +kernel) (by decide +kernel) (by decide +kernel)
      rw [hs.unique h]
      decide +kernel
    · have h := sim 2 1 10 1 3 2 (by decide +kernel) (by decide +kernel) (by decide +kernel) (by decide +kernel)
      rw [hs.unique h]
      decide +kernel
    · exact absurd rfl hne

/-- The messages of a first pass over three points. -/
example : Square 3 [[-1, -1, -10], [-1, -1, -9], [-10, -9, (-1 : Rat)]] ∧
    ((apLine skew).update [[-1, -1, -10], [-1, -1, -9], [-10, -9, -1]] ((apLine skew).initM 3)).2 = [false, false, true] :=
  ⟨⟨rfl, by decide⟩, by decide +kernel⟩

/-- Three points in a row with the first one as exemplar: the refinement moves to the middle. -/
example : (∃ I', RefinedExemplars ((apLine skew).colsum [[0, -1, -2], [-1, 0, -1], [-2, -1, 0]])
      [[0, -1, -2], [-1, 0, -1], [-2, -1, 0]] [0] I') ∧
    apLabels (apLine skew) [[0, -1, -2], [-1, 0, -1], [-2, -1, 0]] [[0, -1, -2], [-1, 0, -1], [-2, -1, 0]] [0] = .ok [1, 1, 1] := by
  refine ⟨?_, by decide +kernel⟩
  obtain ⟨-, I', -, -, -, -, h, -⟩ := apLabels_ok (apExact_ok lineDist (1 / 1000) 0 skew) [[0, -1, -2], [-1, 0, -1], [-2, -1, 0]]
    (Sp := [[0, -1, -2], [-1, 0, -1], [-2, -1, 0]]) (n := 3) ⟨rfl, by decide⟩ (I := [0]) (by simp) (by simp) (by simp)
  exact ⟨I', h⟩

/-! ### Must-links when they are not absolute -/

/-- Two groups of three points on a line; 1 and 4 are must-linked across the groups. -/
def apTwoGroups : Manager Nat := runOps (Manager.init [1, 2, 3, 4, 5, 6]) [.addConstraint 1 4 "MUST_LINK" 1]

/-- With `absolute_must_links=False` a must-link is only a similarity between points and meta-points: in
exact arithmetic, with the default numbers of iterations, the messages converge and the must-linked 1
and 4 are put into different clusters. -/
theorem finding_relative_must_link : Reachable apTwoGroups ∧ apTwoGroups.getInferred 1 4 = .ok (some .mustLink) ∧
    apCluster (apExact lineDist 0 0 fun _ _ => 0) ⟨150, 10, false⟩ apTwoGroups
      (some [(1, 0), (2, 1), (3, 1 / 2), (4, 11), (5, 12), (6, 13)]) none =
      .ok [(1, 0), (2, 0), (3, 0), (4, 1), (5, 1), (6, 1)] :=
  ⟨⟨_, _, rfl⟩, by decide +kernel, by decide +kernel⟩

end Verif
