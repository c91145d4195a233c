import Mathlib.Algebra.Order.Floor.Ring
import Mathlib.Data.Rat.Floor
import Verif.Proofs.MpcMargin
import Verif.Props.MpcMove

/-
C127: MPC-KMeans with rounding errors.
-/

namespace Verif

section
variable {V V' κ θ θ' : Type} [Field κ] [LinearOrder κ] [IsStrictOrderedRing κ]
variable {α : Type} [LinearOrder α]

/-- If every choice of the exact run has a margin, the run with rounding errors returns the same clusters. -/
theorem C127_same {m : Manager α} (h : Reachable m) {env : MpcEnv V κ θ} {env' : MpcEnv V' κ θ'} (ha : MpcAssumptions env)
    {RV : V → V' → Prop} {Rθ : θ → θ' → Prop} {ρ δ ε : κ} {safe : List V → List V → Prop}
    (hn : MpcNear env env' RV Rθ ρ δ ε m.managed.length safe) {vectors : Dict α V} {vectors' : Dict α V'}
    (hv : List.Forall₂ (fun p q => q.1 = p.1 ∧ RV p.2 q.2) vectors vectors') (hlen : vectors.length = m.managed.length) (p : MpcParams) {nb : Int}
    (hm : MpcMargin δ ε safe env p.maxIteration m (dvals vectors) nb) {r : Dict α Int} (hr : mpcCluster env p m (some vectors) (some nb) = .ok r) :
    mpcCluster env' p m (some vectors') (some nb) = .ok r := by
  have hX : List.Forall₂ RV (dvals vectors) (dvals vectors') := by
    unfold dvals
    rw [List.forall₂_map_left_iff, List.forall₂_map_right_iff]
    exact hv.imp fun _ _ h => h.2
  have hkeys : dkeys vectors' = dkeys vectors := by
    unfold dkeys
    clear hX hr hm hlen
    induction hv with
    | nil => rfl
    | cons h1 _ ih => rw [List.map_cons, List.map_cons, h1.1, ih]
  have hXlen : (dvals vectors).length = m.managed.length := by simpa [dvals] using hlen
  have hfol : Follows (fun r r' => r' = r) (mpcCluster env p m (some vectors) (some nb)) (mpcCluster env' p m (some vectors') (some nb)) := by
    unfold mpcCluster
    simp only [hkeys]
    by_cases hk : nb < 2
    · simp only [if_pos hk]
      exact fun b hb => by cases hb
    · simp only [if_neg hk]
      obtain ⟨ml, cl, em, ec, h3, h4⟩ := mpcPreprocess_manager ha.enum h.inv env.depth
      simp only [em, ec]
      have key : Follows (fun L L' => L' = L) (mpcLabels env p m.managed.length (min nb.toNat m.managed.length) ml cl (dvals vectors))
          (mpcLabels env' p m.managed.length (min nb.toNat m.managed.length) ml cl (dvals vectors')) := by
        unfold mpcLabels
        rw [hn.enum, hn.depth]
        by_cases hd : ∀ c ∈ m.components, c.length ≤ env.depth
        · obtain ⟨mlg, clg, nbhs, h5, hmlg, hclg, hN⟩ := h3 hd
          rw [h5]
          obtain ⟨hm1, hm2⟩ := hm ml cl mlg clg nbhs em ec h5
          refine (Follows.refl _).bind ?_
          rintro _ g hg rfl
          cases hg
          refine Follows.bind (mpcInit_near hn hX (fun P hP => nbhs_ne_nil h.inv hN hP) hm1) fun start start' hi hss => ?_
          have hn1 : 1 ≤ m.managed.length := by
            by_contra h0
            have hX : dvals vectors = [] := List.eq_nil_of_length_eq_zero (by omega)
            have hnb0 : nbhs = [] := by
              by_contra hne
              obtain ⟨P, hP⟩ := List.exists_mem_of_ne_nil _ hne
              obtain ⟨i, hi⟩ := List.exists_mem_of_ne_nil _ (nbhs_ne_nil h.inv hN hP)
              have := nbhs_lt hN hP hi
              omega
            unfold mpcInit at hi
            rw [hX, hnb0] at hi
            simp at hi
          have hr : MpcReady m.managed.length (dvals vectors) mlg clg (InferredAt m .mustLink) (InferredAt m .cannotLink) :=
            ⟨hXlen, hmlg, hclg, fun i j hij => hij.lt.2, fun i j hij => hij.lt.2⟩
          have hsl : start.length = min nb.toNat m.managed.length := by
            obtain ⟨hin, -⟩ := mpcInit_ok ha (X := dvals vectors) (nbhs := nbhs) (fun P hP i hi => by rw [hXlen]; exact nbhs_lt hN hP hi)
              (nb := min nb.toNat m.managed.length) (by omega) (by omega)
            rcases hin with ⟨c', e', hl'⟩ | ⟨e', -⟩
            · rw [hi] at e'
              cases e'
              exact hl'
            · rw [hi] at e'
              cases e'
          exact mpcLoop_near ha hn hr hX (by omega) (enum_length ha hmlg hr.ltR) (enum_length ha hclg hr.ltS) p.maxIteration 0 hss hsl hn.identity []
            (hm2 start hi)
        · have hbig : ∃ c ∈ m.components, env.depth < c.length := by
            by_contra hno
            apply hd
            intro c hc
            by_contra hcon
            exact hno ⟨c, hc, by omega⟩
          rw [h4 hbig]
          exact fun b hb => by cases hb
      refine (Follows.refl _).bind ?_
      rintro _ ml' hml rfl
      cases hml
      refine (Follows.refl _).bind ?_
      rintro _ cl' hcl rfl
      cases hcl
      refine Follows.bind key ?_
      rintro _ L - rfl
      exact Follows.refl _
  obtain ⟨r', e, rfl⟩ := hfol r hr
  exact e

omit [LinearOrder α] in
/-- A sum with rounding errors. -/
theorem foldl_near {ι ι' : Type} {T : ι → κ} {T' : ι' → κ} {add : κ → κ → κ} {u t B : κ} (hu : 0 ≤ u)
    (hadd : ∀ a b, |a| ≤ B → |b| ≤ B → |add a b - (a + b)| ≤ u) {l : List ι} {l' : List ι'}
    (h : List.Forall₂ (fun z z' => |T' z' - T z| ≤ u ∧ |T z| ≤ t) l l') (k : Nat) {a a' : κ} (hB : ((k : κ) + l.length) * (t + 2 * u) ≤ B)
    (h1 : |a'| ≤ k * (t + 2 * u)) (h2 : |a' - a| ≤ k * (2 * u)) :
    |l'.foldl (fun s z => add s (T' z)) a'| ≤ ((k : κ) + l.length) * (t + 2 * u) ∧
      |l'.foldl (fun s z => add s (T' z)) a' - l.foldl (fun s z => s + T z) a| ≤ ((k : κ) + l.length) * (2 * u) := by
  induction h generalizing k a a' with
  | nil => simpa using ⟨h1, h2⟩
  | @cons z z' l l' hz hl ih =>
    obtain ⟨e1, e2⟩ := hz
    have ht : 0 ≤ t := le_trans (abs_nonneg _) e2
    have hlen : (0 : κ) ≤ (l.length : κ) := Nat.cast_nonneg _
    have hk : (0 : κ) ≤ (k : κ) := Nat.cast_nonneg _
    rw [List.length_cons, Nat.cast_add, Nat.cast_one] at hB ⊢
    have p1 : 0 ≤ (l.length : κ) * (t + 2 * u) := mul_nonneg hlen (by linarith)
    have p2 : 0 ≤ (k : κ) * (t + 2 * u) := mul_nonneg hk (by linarith)
    have e3 : |T' z'| ≤ t + u := by
      have := abs_le.1 e1
      have := abs_le.1 e2
      exact abs_le.2 ⟨by linarith, by linarith⟩
    have hr := abs_le.1 (hadd a' (T' z') (by nlinarith) (by nlinarith))
    have q1 := abs_le.1 h1
    have q2 := abs_le.1 h2
    have q3 := abs_le.1 e1
    have q4 := abs_le.1 e3
    have := ih (k + 1) (a := a + T z) (a' := add a' (T' z')) (by push_cast; linarith)
      (abs_le.2 ⟨by push_cast; linarith, by push_cast; linarith⟩) (abs_le.2 ⟨by push_cast; linarith, by push_cast; linarith⟩)
    push_cast at this
    rw [List.foldl_cons, List.foldl_cons, show (k : κ) + (l.length + 1) = k + 1 + l.length by ring]
    exact this

omit [LinearOrder α] in
/-- The error of the objective, when the terms and the additions have errors of at most `u`: at most `3 + 4 n` of these errors,
with at most `n` must-linked and `n` cannot-linked points. The additions have small errors only as long as the numbers are at
most `B`; the exact terms are at most `t`. -/
theorem C127_objective {env : MpcEnv V κ θ} {env' : MpcEnv V' κ θ'} (hadd : ∀ a b, env.add a b = a + b) (hz : env.zero = 0) (hz' : env'.zero = 0)
    {u t B : κ} (hround : ∀ a b, |a| ≤ B → |b| ≤ B → |env'.add a b - (a + b)| ≤ u) {A : θ} {A' : θ'} {far far' : κ} {x y : V} {x' y' : V'}
    {ms cs : List V} {ms' cs' : List V'} (hD : |env'.termD A' x' y' - env.termD A x y| ≤ u ∧ |env.termD A x y| ≤ t)
    (hM : List.Forall₂ (fun z z' => |env'.termM A' x' z' - env.termM A x z| ≤ u ∧ |env.termM A x z| ≤ t) ms ms')
    (hC : List.Forall₂ (fun z z' => |env'.termC A' far' x' z' - env.termC A far x z| ≤ u ∧ |env.termC A far x z| ≤ t) cs cs')
    {n : Nat} (hm : ms.length ≤ n) (hc : cs.length ≤ n) (hB : ((n : κ) + 1) * (t + 2 * u) ≤ B) :
    |objectiveOf env' A' far' x' y' ms' cs' - objectiveOf env A far x y ms cs| ≤ (3 + 4 * n) * u := by
  obtain ⟨d1, d2⟩ := hD
  have hu : 0 ≤ u := le_trans (abs_nonneg _) d1
  have ht : 0 ≤ t := le_trans (abs_nonneg _) d2
  have hn : (0 : κ) ≤ (n : κ) := Nat.cast_nonneg _
  have hm' : (ms.length : κ) ≤ n := by exact_mod_cast hm
  have hc' : (cs.length : κ) ≤ n := by exact_mod_cast hc
  have s1 : (ms.length : κ) * (t + 2 * u) ≤ n * (t + 2 * u) := mul_le_mul_of_nonneg_right hm' (by linarith)
  have s2 : (cs.length : κ) * (t + 2 * u) ≤ n * (t + 2 * u) := mul_le_mul_of_nonneg_right hc' (by linarith)
  have s3 : (ms.length : κ) * (2 * u) ≤ n * (2 * u) := mul_le_mul_of_nonneg_right hm' (by linarith)
  have s4 : (cs.length : κ) * (2 * u) ≤ n * (2 * u) := mul_le_mul_of_nonneg_right hc' (by linarith)
  have s5 : 0 ≤ (n : κ) * (t + 2 * u) := mul_nonneg hn (by linarith)
  obtain ⟨m1, m2⟩ := foldl_near (T := env.termM A x) (T' := env'.termM A' x') hu hround hM 0 (a := 0) (a' := 0) (by push_cast; linarith) (by simp) (by simp)
  obtain ⟨c1, c2⟩ := foldl_near (T := env.termC A far x) (T' := env'.termC A' far' x') hu hround hC 0 (a := 0) (a' := 0) (by push_cast; linarith) (by simp) (by simp)
  unfold objectiveOf
  simp only [hadd, hz, hz']
  rw [Nat.cast_zero, zero_add] at m1 m2 c1 c2
  generalize ms'.foldl (fun s z => env'.add s (env'.termM A' x' z)) 0 = M' at m1 m2
  generalize ms.foldl (fun s z => s + env.termM A x z) 0 = M at m2
  generalize cs'.foldl (fun s z => env'.add s (env'.termC A' far' x' z)) 0 = C' at c1 c2
  generalize cs.foldl (fun s z => s + env.termC A far x z) 0 = C at c2
  have a1 := abs_le.1 d1
  have a2 := abs_le.1 d2
  have b1 := abs_le.1 m1
  have b2 := abs_le.1 m2
  have b3 := abs_le.1 c1
  have b4 := abs_le.1 c2
  have r1 := abs_le.1 (hround (env'.termD A' x' y') M' (abs_le.2 ⟨by linarith, by linarith⟩) (abs_le.2 ⟨by linarith, by linarith⟩))
  have r2 := abs_le.1 (hround (env'.add (env'.termD A' x' y') M') C' (abs_le.2 ⟨by linarith, by linarith⟩) (abs_le.2 ⟨by linarith, by linarith⟩))
  exact abs_le.2 ⟨by linarith, by linarith⟩

end

/-! ### Each theorem applied to a concrete case -/

/-! ### Rounding the distances -/

section
variable {κ : Type} [Field κ] [LinearOrder κ] [IsStrictOrderedRing κ] {D : Nat}

/-- MPC-KMeans when every distance, every weighted distance, every term of the objective and every addition is rounded by `fl`;
the means and the update of the metric are exact. -/
def mpcRounded (fl : κ → κ) (ch : MpcChoices κ D) (w : κ) : MpcEnv (Fin D → κ) κ (Fin D → κ) :=
  { mpcExact ch w with
    add := fun a b => fl (a + b)
    dist := fun x y => fl ((mpcExact ch w).dist x y)
    weigh := fun size total d => fl ((size : κ) / total * d)
    mdist := fun A x y => fl (mpcDist A x y)
    termD := fun A x y => fl (mpcDist A x y - ch.logDet A)
    termM := fun A x y => fl (2 * w * mpcDist A x y)
    termC := fun A far x y => fl (2 * w * (far - mpcDist A x y)) }

/-- Rounding with errors of at most `u`: the distances have errors of at most `2 u` and the objective of at most
`(3 + 4 n) (1 + 4 |w|) u`. -/
theorem C127_rounded {fl : κ → κ} {u : κ} (hfl : ∀ v, |fl v - v| ≤ u) (ch : MpcChoices κ D) (w : κ) (n : Nat) :
    MpcNear (mpcExact ch w) (mpcRounded fl ch w) (fun x x' => x' = x) (fun A A' => A' = A) u (2 * u) ((3 + 4 * n) * ((1 + 4 * |w|) * u)) n
      (fun _ _ => True) := by
  have hu : 0 ≤ u := le_trans (abs_nonneg _) (hfl 0)
  have hw := mul_nonneg (abs_nonneg w) hu
  have hall : ∀ l l' : List (Fin D → κ), List.Forall₂ (fun x x' => x' = x) l l' → l' = l := by
    intro l l' h
    induction h with
    | nil => rfl
    | cons h1 _ ih => rw [h1, ih]
  refine ⟨rfl, rfl, rfl, rfl, rfl, rfl, ?_, ?_, ?_, rfl, ?_, ?_, ?_, ?_⟩
  · intro l l' _ h
    rw [hall l l' h]
    rfl
  · rintro x _ y _ rfl rfl
    exact hfl _
  · intro s t d d' hst hd
    have h1 := abs_le.1 (hfl ((s : κ) / t * d'))
    have h2 : |(s : κ) / t * d' - (s : κ) / t * d| ≤ u := by
      rw [← mul_sub, abs_mul, abs_of_nonneg (div_nonneg (Nat.cast_nonneg _) (Nat.cast_nonneg _))]
      have hle : (s : κ) / t ≤ 1 := div_le_one_of_le₀ (by exact_mod_cast hst) (Nat.cast_nonneg _)
      calc (s : κ) / t * |d' - d| ≤ 1 * |d' - d| := mul_le_mul_of_nonneg_right hle (abs_nonneg _)
        _ ≤ u := by rw [one_mul]; exact hd
    have h3 := abs_le.1 h2
    show |fl ((s : κ) / t * d') - (s : κ) / t * d| ≤ 2 * u
    exact abs_le.2 ⟨by linarith, by linarith⟩
  · rintro _ A _ x _ y rfl rfl rfl
    have h1 := abs_le.1 (hfl (mpcDist A x y))
    show |fl (mpcDist A x y) - mpcDist A x y| ≤ 2 * u
    exact abs_le.2 ⟨by linarith, by linarith⟩
  · rintro _ A far far' _ x _ y ms ms' cs cs' rfl hfar rfl rfl hms hcs hm hc
    rw [hall _ _ hms, hall _ _ hcs]
    have hbound : ∀ (f : (Fin D → κ) → κ) (l : List (Fin D → κ)), ∃ t, ∀ z ∈ l, |f z| ≤ t := by
      intro f l
      induction l with
      | nil => exact ⟨0, fun z hz => (List.not_mem_nil hz).elim⟩
      | cons a l ih =>
        obtain ⟨t, ht⟩ := ih
        refine ⟨max |f a| t, fun z hz => ?_⟩
        rcases List.mem_cons.1 hz with rfl | hz
        · exact le_max_left _ _
        · exact le_max_of_le_right (ht z hz)
    obtain ⟨t1, ht1⟩ := hbound ((mpcExact ch w).termM A x) ms
    obtain ⟨t2, ht2⟩ := hbound ((mpcExact ch w).termC A far x) cs
    refine C127_objective (t := max |(mpcExact ch w).termD A x y| (max t1 t2)) (fun _ _ => rfl) rfl rfl (fun a b _ _ => ?_) ⟨?_, le_max_left _ _⟩ ?_ ?_ hm hc le_rfl
    · exact (hfl _).trans (by linarith)
    · exact (hfl _).trans (by linarith)
    · rw [List.forall₂_same]
      refine fun z hz => ⟨(hfl _).trans (by linarith), (ht1 z hz).trans ((le_max_left _ _).trans (le_max_right _ _))⟩
    · rw [List.forall₂_same]
      refine fun z hz => ⟨?_, (ht2 z hz).trans ((le_max_right _ _).trans (le_max_right _ _))⟩
      show |fl (2 * w * (far' - mpcDist A x z)) - 2 * w * (far - mpcDist A x z)| ≤ (1 + 4 * |w|) * u
      have h1 := hfl (2 * w * (far' - mpcDist A x z))
      have h2 : |2 * w * (far' - mpcDist A x z) - 2 * w * (far - mpcDist A x z)| ≤ 4 * |w| * u := by
        rw [← mul_sub, abs_mul, abs_mul, abs_two, show far' - mpcDist A x z - (far - mpcDist A x z) = far' - far by ring]
        calc 2 * |w| * |far' - far| ≤ 2 * |w| * (2 * u) := mul_le_mul_of_nonneg_left hfar (by positivity)
          _ = 4 * |w| * u := by ring
      have h3 := abs_le.1 h1
      have h4 := abs_le.1 h2
      exact abs_le.2 ⟨by linarith, by linarith⟩
  · rintro X X' labels centers centers' i j far far' ml cl hX hc hfar
    rw [hall _ _ hX, hall _ _ hc]
    rfl
  · intro a a' b b' h1 h2 _
    rw [hall _ _ h1, hall _ _ h2]
    rfl

end

/-! ### Checking the margins on a concrete call -/

section
variable {V κ θ : Type} [Field κ] [LinearOrder κ]

instance (ε : κ) (values : List κ) : Decidable (LeastMargin ε values) := by
  unfold LeastMargin
  infer_instance

instance (δ : κ) (donors : Dict Nat κ) : Decidable (DonorMargin δ donors) := by
  unfold DonorMargin
  infer_instance

instance (δ : κ) (env : MpcEnv V κ θ) (A : θ) (X : List V) (far : Nat × Nat × κ) : Decidable (FarMargin δ env A X far) := by
  unfold FarMargin
  infer_instance

instance (δ : κ) (env : MpcEnv V κ θ) (points : List V) (sizes traversed : List Nat) (j : Nat) :
    Decidable (TraversalStep δ env points sizes traversed j) := by
  unfold TraversalStep
  infer_instance

instance traversalMarginDec (δ : κ) (env : MpcEnv V κ θ) (points : List V) (sizes : List Nat) :
    (left : Nat) → (traversed : List Nat) → Decidable (TraversalMargin δ env points sizes left traversed)
  | 0, _ => .isTrue trivial
  | left + 1, traversed => by
    unfold TraversalMargin
    have := traversalMarginDec δ env points sizes left
    split <;> infer_instance

instance assignMarginDec (ε : κ) (env : MpcEnv V κ θ) (A : θ) (far : κ) (X centers : List V) (ml cl : Graph) :
    (is : List Nat) → (labels : List Int) → Decidable (AssignMargin ε env A far X centers ml cl is labels)
  | [], _ => .isTrue trivial
  | i :: is, labels => by
    unfold AssignMargin
    have := assignMarginDec ε env A far X centers ml cl is
    split <;> infer_instance

instance fillMarginDec (δ : κ) (dist : Nat → Nat → Except PyErr κ) : (cs : List Nat) → (s : List Int × List Nat) → Decidable (FillMargin δ dist cs s)
  | [], _ => .isTrue trivial
  | c :: cs, s => by
    unfold FillMargin
    have := fillMarginDec δ dist cs
    split <;> infer_instance

instance (δ ε : κ) (env : MpcEnv V κ θ) (A : θ) (far : κ) (X centers : List V) (ml cl : Graph) (nb it : Nat) :
    Decidable (PassMargin δ ε env A far X centers ml cl nb it) := by
  unfold PassMargin
  infer_instance

instance loopMarginDec (δ ε : κ) (safe : List V → List V → Prop) [∀ a b, Decidable (safe a b)] (env : MpcEnv V κ θ) (X : List V) (ml cl : Graph) (nb : Nat) :
    (left it : Nat) → (centers : List V) → (A : θ) → Decidable (LoopMargin δ ε safe env X ml cl nb left it centers A)
  | 0, _, _, _ => .isTrue trivial
  | left + 1, it, centers, A => by
    unfold LoopMargin
    have := loopMarginDec δ ε safe env X ml cl nb left
    split
    · infer_instance
    · have : ∀ far : Nat × Nat × κ, Decidable (match mpcAssign env A far.2.2 X centers ml cl nb it with
        | .error _ => True
        | .ok labels => safe centers (mpcCenters env X labels nb) ∧ (env.close centers (mpcCenters env X labels nb) = false →
          LoopMargin δ ε safe env X ml cl nb left (it + 1) (mpcCenters env X labels nb)
            (env.metric X labels (mpcCenters env X labels nb) far ml cl))) := fun far => by
        split <;> infer_instance
      infer_instance

/-- The test of `MpcMargin`. -/
def mpcMarginTest {α : Type} [LinearOrder α] (δ ε : κ) (safe : List V → List V → Prop) [∀ a b, Decidable (safe a b)] (env : MpcEnv V κ θ) (most : Nat)
    (m : Manager α) (X : List V) (nb : Int) : Bool :=
  match mpcPairs m .mustLink, mpcPairs m .cannotLink with
  | .ok mlp, .ok clp =>
    match mpcPreprocess env.enum env.depth m.managed.length mlp clp with
    | .ok g =>
      (match g.2.2.mapM fun P => (do return env.mean (← P.mapM fun i => lget X i) : Except PyErr V) with
        | .ok means => decide (TraversalMargin δ env means (g.2.2.map List.length) (min nb.toNat m.managed.length - 1) [env.pick (g.2.2.map List.length)])
        | .error _ => true) &&
      (match mpcInit env X g.2.2 (min nb.toNat m.managed.length) with
        | .ok start => decide (LoopMargin δ ε safe env X g.1 g.2.1 (min nb.toNat m.managed.length) most 0 start env.identity)
        | .error _ => true)
    | .error _ => true
  | _, _ => true

theorem mpcMargin_of_test {α : Type} [LinearOrder α] {δ ε : κ} {safe : List V → List V → Prop} [∀ a b, Decidable (safe a b)] {env : MpcEnv V κ θ} {most : Nat}
    {m : Manager α} {X : List V} {nb : Int} (h : mpcMarginTest δ ε safe env most m X nb = true) : MpcMargin δ ε safe env most m X nb := by
  intro mlp clp mlg clg nbhs em ec ep
  unfold mpcMarginTest at h
  rw [em, ec] at h
  simp only [ep, Bool.and_eq_true] at h
  refine ⟨fun means e _ => ?_, fun start e => ?_⟩
  · have h1 := h.1
    rw [e] at h1
    exact of_decide_eq_true h1
  · have h2 := h.2
    rw [e] at h2
    exact of_decide_eq_true h2

end

/-- Rounding down to a multiple of `1/1000`. -/
def floorMilli (v : ℚ) : ℚ := (⌊1000 * v⌋ : ℚ) / 1000

theorem floorMilli_near (v : ℚ) : |floorMilli v - v| ≤ 1 / 1000 := by
  unfold floorMilli
  have h1 := Int.floor_le (1000 * v)
  have h2 := Int.lt_floor_add_one (1000 * v)
  rw [abs_le]
  constructor <;> linarith

/-- `C127_same` and `C127_rounded`, with constraints of both types and the default number of passes: all distances, terms and
additions are rounded down to multiples of `1/1000`. -/
example : mpcCluster (mpcRounded floorMilli (mpcFirstChoices ratRoot 1) 1) ⟨150⟩ mpcFarManager (some (mpcFarManager.managed.map fun x => (x, mpcFarVec x))) (some 2) =
    .ok [(1, 0), (2, 0), (3, 0), (4, 1), (5, 1)] := by
  have hm : mpcMarginTest (2 * (1 / 1000)) ((3 + 4 * (mpcFarManager.managed.length : ℚ)) * ((1 + 4 * |1|) * (1 / 1000))) (fun _ _ => True)
      (mpcExact (mpcFirstChoices ratRoot 1) 1) 150 mpcFarManager (dvals (mpcFarManager.managed.map fun x => (x, mpcFarVec x))) 2 = true := by decide +kernel
  exact C127_same (m := mpcFarManager) (vectors := mpcFarManager.managed.map fun x => (x, mpcFarVec x)) ⟨_, _, rfl⟩ (mpcFirst_ok ratRoot 1 1)
    (C127_rounded floorMilli_near (mpcFirstChoices ratRoot 1) 1 _) (List.forall₂_same.2 fun _ _ => ⟨rfl, rfl⟩) (by simp) ⟨150⟩
    (mpcMargin_of_test hm) (by decide +kernel)

/-- The hypothesis of `C127_rounded`. -/
example : ∀ v, |floorMilli v - v| ≤ 1 / 1000 := floorMilli_near

/-- Three vectors, the last one a little nearer to the second than to the first. -/
def mpcTieVectors : Dict Nat (Fin 1 → ℚ) := [(1, fun _ => 0), (2, fun _ => 4001 / 100), (3, fun _ => 200050001 / 10000000)]

/-- Without a margin the rounding decides: the third vector goes to the first cluster instead of the second. -/
theorem C127_tie :
    mpcCluster (mpcExact (mpcFirstChoices ratRoot 1) 1) ⟨150⟩ (Manager.init [1, 2, 3]) (some mpcTieVectors) (some 2) = .ok [(1, 0), (2, 1), (3, 1)] ∧
    mpcCluster (mpcRounded floorMilli (mpcFirstChoices ratRoot 1) 1) ⟨150⟩ (Manager.init [1, 2, 3]) (some mpcTieVectors) (some 2) =
      .ok [(1, 0), (2, 1), (3, 0)] :=
  ⟨by decide +kernel, by decide +kernel⟩

end Verif
