import Verif.Proofs.LabelCount
import Verif.Proofs.MpcAssign

/-
MPC-KMeans: assignment, initial centres, the loop and the whole call.
-/

namespace Verif

section
variable {V κ θ : Type} [LinearOrder κ]

theorem npArgmin_ok {l : List κ} (h : l ≠ []) :
    ∃ k, npArgmin l = .ok k ∧ k < l.length ∧ ∃ a, l[k]? = some a ∧ (∀ (d : Nat) (b : κ), l[d]? = some b → a ≤ b) ∧
      ∀ (d : Nat) (b : κ), d < k → l[d]? = some b → a < b := by
  unfold npArgmin
  obtain ⟨p, e⟩ := pyMinBy_isSome (key := Prod.fst) (l := l.zipIdx) (by simpa using h)
  rw [e]
  obtain ⟨a, k⟩ := p
  obtain ⟨hm, hle⟩ := pyMinBy_spec e
  obtain ⟨P, S, hPS, h1, h2⟩ := pyMinBy_first e
  have hk : l[k]? = some a := (List.mk_mem_zipIdx_iff_getElem?).1 hm
  refine ⟨k, rfl, (List.getElem?_eq_some_iff.1 hk).1, a, hk, fun d b hb => ?_, fun d b hd hb => ?_⟩
  · exact hle (b, d) ((List.mk_mem_zipIdx_iff_getElem?).2 hb)
  · have hP : P.length = k := by
      have : (l.zipIdx)[P.length]? = some (a, k) := by
        rw [hPS, List.getElem?_append_right (Nat.le_refl _)]
        simp
      rw [List.getElem?_zipIdx] at this
      cases hl : l[P.length]? with
      | none => rw [hl] at this; cases this
      | some z => rw [hl] at this; simp at this; exact this.2
    have hin : (b, d) ∈ P := by
      have hz : (l.zipIdx)[d]? = some (b, d) := by
        rw [List.getElem?_zipIdx, hb]; simp
      rw [hPS, List.getElem?_append_left (by omega)] at hz
      exact List.mem_of_getElem? hz
    exact h1 _ hin

omit [LinearOrder κ] in
/-- A step of the loops of `_objective_fn`, without the look-ups. -/
theorem foldlM_term {f : κ → Nat → Except PyErr κ} {add : κ → κ → κ} {P : Nat → Prop} [DecidablePred P] {w : Nat → κ}
    {l : List Nat} (h : ∀ t, ∀ j ∈ l, f t j = .ok (if P j then add t (w j) else t)) (t : κ) :
    l.foldlM f t = .ok (l.foldl (fun t j => if P j then add t (w j) else t) t) := by
  induction l generalizing t with
  | nil => rfl
  | cons j l ih =>
    rw [List.foldlM_cons, h t j (by simp), List.foldl_cons]
    exact ih (fun t j hj => h t j (by simp [hj])) _

/-- The data of the assignment: `n` points, graphs on the positions below `n`. -/
structure MpcReady (n : Nat) (X : List V) (ml cl : Graph) (R S : Nat → Nat → Prop) : Prop where
  len : X.length = n
  ml : GraphOf n ml R
  cl : GraphOf n cl S
  ltR : ∀ i j, R i j → j < n
  ltS : ∀ i j, S i j → j < n

/-- The value of the objective. -/
theorem mpcObjective_ok {env : MpcEnv V κ θ} (henum : SetOrder env.enum) {n : Nat} {X : List V} {ml cl : Graph}
    {R S : Nat → Nat → Prop} (hr : MpcReady n X ml cl R S) (A : θ) (far : κ) {centers : List V} {labels : List Int}
    (hl : labels.length = n) {i c : Nat} (hi : i < n) (hc : c < centers.length) :
    ∃ (x y : V) (M C : List Nat), X[i]? = some x ∧ centers[c]? = some y ∧ M.Nodup ∧ C.Nodup ∧ (∀ j, j ∈ M ↔ R i j) ∧ (∀ j, j ∈ C ↔ S i j) ∧
      ∀ (d : V), mpcObjective env A far X centers ml cl labels i c = .ok (env.add (env.add (env.termD A x y)
        (M.foldl (fun t j => if 0 ≤ (labels[j]?).getD (-1) ∧ (labels[j]?).getD (-1) ≠ (c : Int) then
          env.add t (env.termM A x ((X[j]?).getD d)) else t) env.zero))
        (C.foldl (fun t j => if (labels[j]?).getD (-1) = (c : Int) then env.add t (env.termC A far x ((X[j]?).getD d)) else t) env.zero)) := by
  obtain ⟨x, ex, hx⟩ := lget_lt (l := X) (i := i) (by rw [hr.len]; exact hi)
  obtain ⟨y, ey, hy⟩ := lget_lt (l := centers) (i := c) hc
  obtain ⟨s1, e1, -, -, m1⟩ := hr.ml.get hi
  obtain ⟨s2, e2, -, -, m2⟩ := hr.cl.get hi
  refine ⟨x, y, env.enum s1, env.enum s2, hx, hy, (henum s1).1, (henum s2).1, fun j => ?_, fun j => ?_, fun d => ?_⟩
  · rw [(henum s1).2, m1]
  · rw [(henum s2).2, m2]
  · unfold mpcObjective
    simp only [bind, Except.bind, ex, ey, e1, e2]
    rw [foldlM_term (add := env.add) (P := fun j => 0 ≤ (labels[j]?).getD (-1) ∧ (labels[j]?).getD (-1) ≠ (c : Int))
      (w := fun j => env.termM A x ((X[j]?).getD d))]
    · simp only
      rw [foldlM_term (add := env.add) (P := fun j => (labels[j]?).getD (-1) = (c : Int))
        (w := fun j => env.termC A far x ((X[j]?).getD d))]
      · rfl
      · intro t j hj
        have hjn : j < n := hr.ltS i j ((m2 j).1 (((henum s2).2 j).1 hj))
        obtain ⟨l, el, hl'⟩ := lget_lt (l := labels) (i := j) (by rw [hl]; exact hjn)
        obtain ⟨z, ez, hz⟩ := lget_lt (l := X) (i := j) (by rw [hr.len]; exact hjn)
        unfold mpcTermC
        simp only [bind, Except.bind, el, hl', hz, ez, ex, Option.getD_some]
        split <;> rfl
    · intro t j hj
      have hjn : j < n := hr.ltR i j ((m1 j).1 (((henum s1).2 j).1 hj))
      obtain ⟨l, el, hl'⟩ := lget_lt (l := labels) (i := j) (by rw [hl]; exact hjn)
      obtain ⟨z, ez, hz⟩ := lget_lt (l := X) (i := j) (by rw [hr.len]; exact hjn)
      unfold mpcTermM
      simp only [bind, Except.bind, el, hl', hz, ez, ex, Option.getD_some]
      split <;> rfl

/-- One point: the first cluster with the smallest objective. -/
theorem mpcAssignStep_ok {env : MpcEnv V κ θ} (henum : SetOrder env.enum) {n : Nat} {X : List V} {ml cl : Graph}
    {R S : Nat → Nat → Prop} (hr : MpcReady n X ml cl R S) (A : θ) (far : κ) {centers : List V} (hne : centers ≠ [])
    {labels : List Int} (hl : labels.length = n) {i : Nat} (hi : i < n) :
    ∃ c : Nat, c < centers.length ∧ mpcAssignStep env A far X centers ml cl labels i = .ok (labels.set i (c : Int)) ∧
      ∃ a, mpcObjective env A far X centers ml cl labels i c = .ok a ∧
        ∀ d < centers.length, ∃ b, mpcObjective env A far X centers ml cl labels i d = .ok b ∧ a ≤ b ∧ (d < c → a < b) := by
  obtain ⟨values, ev⟩ := mapM_total (f := mpcObjective env A far X centers ml cl labels i) (l := List.range centers.length) (by
    intro c hc
    obtain ⟨x, _, _, _, -, -, -, -, -, -, h⟩ := mpcObjective_ok henum hr A far hl hi (List.mem_range.1 hc)
    exact ⟨_, h x⟩)
  have hf := mapM_ok_iff.1 ev
  have hlen : values.length = centers.length := by rw [← hf.length_eq, List.length_range]
  have hvals : ∀ d < centers.length, ∃ b, values[d]? = some b ∧ mpcObjective env A far X centers ml cl labels i d = .ok b := by
    intro d hd
    have := (List.forall₂_iff_get.1 hf).2 d (by simpa using hd) (by omega)
    simp only [List.get_eq_getElem, List.getElem_range] at this
    exact ⟨_, List.getElem?_eq_getElem (by omega), this⟩
  obtain ⟨c, ec, hc, a, ha, hmin, hfirst⟩ := npArgmin_ok (l := values) (by
    intro h
    rw [h] at hlen
    exact hne (List.eq_nil_of_length_eq_zero hlen.symm))
  rw [hlen] at hc
  refine ⟨c, hc, ?_, a, ?_, fun d hd => ?_⟩
  · unfold mpcAssignStep
    simp only [bind, Except.bind, ev, ec]
    exact lset_lt (by omega) _
  · obtain ⟨b, h1, h2⟩ := hvals c hc
    rw [ha] at h1
    cases h1
    exact h2
  · obtain ⟨b, h1, h2⟩ := hvals d hd
    exact ⟨b, h2, hmin d b h1, fun hdc => hfirst d b hdc h1⟩

/-- The loop over the points: every point is given the first cluster with the smallest objective, in
the state of the labels reached by the points before it. -/
theorem mpcAssignLoop_ok {env : MpcEnv V κ θ} (henum : SetOrder env.enum) {n : Nat} {X : List V} {ml cl : Graph}
    {R S : Nat → Nat → Prop} (hr : MpcReady n X ml cl R S) (A : θ) (far : κ) {centers : List V} (hne : centers ≠ [])
    {o : List Nat} (ho : o.Nodup) (hon : ∀ i ∈ o, i < n) {s : List Int} (hs : s.length = n) :
    ∃ t : List Int, o.foldlM (mpcAssignStep env A far X centers ml cl) s = .ok t ∧ t.length = n ∧
      (∀ j, j ∉ o → t[j]? = s[j]?) ∧
      ∀ p i q, o = p ++ i :: q → ∃ L : List Int, L.length = n ∧ (∀ j, L[j]? = if j ∈ p then t[j]? else s[j]?) ∧
        ∃ c : Nat, t[i]? = some (c : Int) ∧ c < centers.length ∧ ∃ a, mpcObjective env A far X centers ml cl L i c = .ok a ∧
          ∀ d < centers.length, ∃ b, mpcObjective env A far X centers ml cl L i d = .ok b ∧ a ≤ b ∧ (d < c → a < b) := by
  induction o generalizing s with
  | nil => exact ⟨s, rfl, hs, fun _ _ => rfl, by simp⟩
  | cons i o ih =>
    have hi : i < n := hon i (by simp)
    obtain ⟨hio, hon'⟩ := List.nodup_cons.1 ho
    obtain ⟨c, hc, e1, a, ha, hmin⟩ := mpcAssignStep_ok henum hr A far hne hs hi
    obtain ⟨t, e2, ht, hout, hsplit⟩ := ih hon' (fun j hj => hon j (by simp [hj])) (s := s.set i (c : Int)) (by simpa using hs)
    have hti : t[i]? = some (c : Int) := by
      rw [hout i hio, List.getElem?_set_self (by omega)]
    refine ⟨t, by rw [List.foldlM_cons, e1]; exact e2, ht, fun j hj => ?_, fun p k q hpq => ?_⟩
    · rw [List.mem_cons, not_or] at hj
      rw [hout j hj.2, List.getElem?_set_ne (Ne.symm hj.1)]
    · cases p with
      | nil =>
        rw [List.nil_append, List.cons.injEq] at hpq
        obtain ⟨rfl, rfl⟩ := hpq
        exact ⟨s, hs, by simp, c, hti, hc, a, ha, hmin⟩
      | cons i' p =>
        rw [List.cons_append, List.cons.injEq] at hpq
        obtain ⟨rfl, rfl⟩ := hpq
        obtain ⟨L, hL, hLj, hrest⟩ := hsplit p k q rfl
        refine ⟨L, hL, fun j => ?_, hrest⟩
        rw [hLj j]
        by_cases hjp : j ∈ p
        · simp [hjp]
        · by_cases hji : j = i
          · subst hji
            rw [if_neg hjp, if_pos (by simp), hti, List.getElem?_set_self (by omega)]
          · rw [if_neg hjp, if_neg (by simp [hjp, hji]), List.getElem?_set_ne (Ne.symm hji)]

/-- The labels before the repair. -/
theorem mpcAssignLoop_below {env : MpcEnv V κ θ} (ha : MpcAssumptions env) {n : Nat} {X : List V} {ml cl : Graph}
    {R S : Nat → Nat → Prop} (hr : MpcReady n X ml cl R S) (A : θ) (far : κ) {centers : List V} (hne : centers ≠ []) (it : Nat) :
    ∃ t : List Int, (env.shuffle it X.length).foldlM (mpcAssignStep env A far X centers ml cl) (List.replicate X.length (-1)) = .ok t ∧
      t.length = n ∧ LabelsBelow centers.length t := by
  have hp := ha.shuffle it X.length
  obtain ⟨t, e, hl, -, hsplit⟩ := mpcAssignLoop_ok ha.enum hr A far hne (o := env.shuffle it X.length)
    (hp.nodup_iff.2 List.nodup_range) (fun i hi => by
      rw [← hr.len]; exact List.mem_range.1 (hp.mem_iff.1 hi)) (s := List.replicate X.length (-1)) (by simp [hr.len])
  refine ⟨t, e, hl, fun l hlm => ?_⟩
  obtain ⟨i, hi⟩ := List.mem_iff_getElem?.1 hlm
  have hin : i ∈ env.shuffle it X.length := hp.mem_iff.2 (List.mem_range.2 (by
    rw [hr.len, ← hl]; exact (List.getElem?_eq_some_iff.1 hi).1))
  obtain ⟨p, q, hpq⟩ := List.append_of_mem hin
  obtain ⟨-, -, -, c, hc, hcl, -⟩ := hsplit p i q hpq
  rw [hi] at hc
  cases hc
  omega

omit [LinearOrder κ] in
theorem mpcDist_on {env : MpcEnv V κ θ} (A : θ) (X centers : List V) :
    DistOn (fun p c => do return env.mdist A (← lget X p) (← lget centers c)) X.length centers.length := by
  intro p hp c hc
  obtain ⟨x, ex, -⟩ := lget_lt hp
  obtain ⟨y, ey, -⟩ := lget_lt hc
  exact ⟨env.mdist A x y, by simp only [bind, Except.bind, ex, ey]; rfl⟩

/-- `_assign_clusters`: what is returned. -/
theorem mpcAssign_cases {env : MpcEnv V κ θ} (ha : MpcAssumptions env) {n : Nat} {X : List V} {ml cl : Graph}
    {R S : Nat → Nat → Prop} (hr : MpcReady n X ml cl R S) (A : θ) (far : κ) {centers : List V} (hne : centers ≠ []) (it : Nat) :
    ∃ t : List Int, (env.shuffle it X.length).foldlM (mpcAssignStep env A far X centers ml cl) (List.replicate X.length (-1)) = .ok t ∧
      t.length = n ∧ LabelsBelow centers.length t ∧
      (AllUsed centers.length t → mpcAssign env A far X centers ml cl centers.length it = .ok t) ∧
      (¬ AllUsed centers.length t → centers.length < 10 →
        ∃ w, mpcAssign env A far X centers ml cl centers.length it = .error (.valueError w)) ∧
      (¬ AllUsed centers.length t → 10 ≤ centers.length →
        (∃ w, mpcAssign env A far X centers ml cl centers.length it = .error (.valueError w) ∧ n < centers.length) ∨
        ∃ r, mpcAssign env A far X centers ml cl centers.length it = .ok r ∧ r.length = n ∧ LabelsBelow centers.length r ∧
          AllUsed centers.length r) := by
  obtain ⟨t, e, hl, hb⟩ := mpcAssignLoop_below ha hr A far hne it
  have hrep := mpcRepair_ok (dist := fun p c => do return env.mdist A (← lget X p) (← lget centers c)) (nb := centers.length)
    (labels := t) (by rw [hl, ← hr.len]; exact mpcDist_on A X centers) hb
  refine ⟨t, e, hl, hb, ?_⟩
  unfold mpcAssign
  rw [e]
  rw [hl] at hrep
  exact hrep

end

end Verif
