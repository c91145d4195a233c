import Verif.Proofs.FloatAp
import Verif.Props.ApMargin
import Verif.Props.KmMargin

/-
C129: affinity propagation in binary64.
-/

namespace Verif

section
variable {α V V' κ θ : Type} [LinearOrder α] [Field κ] [LinearOrder κ] [IsStrictOrderedRing κ]

/-- One iteration (lines 386-417) with rounding: numbers up to `B`, a relative error `ε` in each operation and `ρ` in each sum give messages
within `250 n B (ε + ρ)`, and exemplars are chosen by the sign of the sum of the computed messages. -/
theorem C129_iteration {rnd : κ → κ} {ε ρ : κ} (hr : ∀ a, |rnd a - a| ≤ ε * |a|) (hε : 0 ≤ ε) (h1 : ε < 1) {sum : List κ → κ} {n : Nat}
    (hsum : ∀ l, l.length ≤ n → |sum l - l.sum| ≤ ρ * (l.map fun a => |a|).sum) (hρ : 0 ≤ ρ) (hρ1 : ρ ≤ 1) (hn : 2 ≤ n) {B : κ}
    {S : Mat κ} {s : ApMessages κ} (hS : Square n S) (hB : MessagesWithin n B 0 0 S s) :
    MessagesNear n (250 * (n * B * (ε + ρ))) (apUpdate S s).1 (apUpdateRnd rnd sum S s).1 ∧
      (apUpdateRnd rnd sum S s).2 = (List.range n).map fun k =>
        decide (0 < entry (apUpdateRnd rnd sum S s).1.avail k k + entry (apUpdateRnd rnd sum S s).1.resp k k) := by
  simp only [MessagesWithin, add_zero] at hB
  have e : apUpdate S s = (⟨apAvail n s.avail (apResp n S s.avail s.resp), apResp n S s.avail s.resp⟩,
      (List.range n).map fun k => decide (0 < entry (apAvail n s.avail (apResp n S s.avail s.resp)) k k +
        entry (apResp n S s.avail s.resp) k k)) := by
    unfold apUpdate
    simp only [hS.1]
    rw [if_neg (by omega)]
  have e' : apUpdateRnd rnd sum S s = (⟨apAvailRnd rnd sum n s.avail (apRespRnd rnd n S s.avail s.resp), apRespRnd rnd n S s.avail s.resp⟩,
      (List.range n).map fun k => decide (0 < rnd (entry (apAvailRnd rnd sum n s.avail (apRespRnd rnd n S s.avail s.resp)) k k +
        entry (apRespRnd rnd n S s.avail s.resp) k k))) := by
    unfold apUpdateRnd
    simp only [hS.1]
    rw [if_neg (by omega)]
  rw [e, e']
  refine ⟨fun i hi k hk => ?_, ?_⟩
  · dsimp only
    have hB0 : 0 ≤ B := (abs_nonneg _).trans (hB i hi k hk).1
    have hn1 : (1 : κ) ≤ n := by exact_mod_cast (by omega : 1 ≤ n)
    have hnB : B ≤ n * B := le_mul_of_one_le_left hB0 hn1
    have hR := fun i (hi : i < n) k (hk : k < n) => apRespRnd_near hr hε h1.le hn hB hi hk
    have hεB : ε * B ≤ B := mul_le_of_le_one_left hB0 h1.le
    have hA := apAvailRnd_near hr hε h1.le hsum hρ hρ1 (by omega : 1 ≤ n) (A := s.avail) (R := apRespRnd rnd n S s.avail s.resp) (B := B)
      (fun i hi k hk => ⟨(hB i hi k hk).2.1, by
        have a := abs_le.1 (hR i hi k hk).1
        have b := abs_le.1 (hR i hi k hk).2
        rw [abs_le]
        constructor <;> linarith⟩) hi hk
    have hA2 := apAvail_near (A := s.avail) (fun i hi k hk => (hR i hi k hk).1) hi hk
    have e3 : (n : κ) * B * (ε + ρ) = n * B * ε + n * B * ρ := by ring
    have e4 : (n : κ) * (20 * (ε * B)) / 2 = 10 * (n * B * ε) := by ring
    have hρ0 : 0 ≤ n * B * ρ := mul_nonneg (hB0.trans hnB) hρ
    have hε0 : ε * B ≤ n * B * ε := by rw [mul_comm ε B]; exact mul_le_mul_of_nonneg_right hnB hε
    have hε00 : 0 ≤ ε * B := mul_nonneg hε hB0
    rw [e3] at hA ⊢
    rw [e4] at hA2
    have a1 := abs_le.1 hA
    have a2 := abs_le.1 hA2
    have a3 := abs_le.1 (hR i hi k hk).1
    constructor <;> rw [abs_le] <;> constructor <;> linarith
  · dsimp only
    refine List.map_congr_left fun k _ => ?_
    rw [decide_eq_decide]
    exact rnd_pos hr h1 _

theorem medianRnd_near {rnd : κ → κ} {ε : κ} (hr : ∀ a, |rnd a - a| ≤ ε * |a|) (hε : 0 ≤ ε) (h1 : ε ≤ 1) {M : Mat κ} {b : κ} (hb0 : 0 ≤ b)
    (hb : MatWithin b M) : |medianRnd rnd M - npMedian M| ≤ 3 * (ε * b) := by
  have hl : ∀ i : Nat, |((M.flatten.insertionSort (· ≤ ·))[i]?).getD 0| ≤ b := by
    intro i
    cases h : (M.flatten.insertionSort (· ≤ ·))[i]? with
    | none => simpa using hb0
    | some a =>
      have ha : a ∈ M.flatten := (List.perm_insertionSort (· ≤ ·) M.flatten).mem_iff.1 (List.mem_of_getElem? h)
      obtain ⟨row, hrow, har⟩ := List.mem_flatten.1 ha
      exact hb row hrow a har
  have hεb : 0 ≤ ε * b := mul_nonneg hε hb0
  unfold medianRnd npMedian
  dsimp only
  split_ifs
  · rw [sub_self, abs_zero]
    linarith
  · generalize hx : ((M.flatten.insertionSort (· ≤ ·))[(M.flatten.insertionSort (· ≤ ·)).length / 2 - 1]?).getD 0 = x
    generalize hy : ((M.flatten.insertionSort (· ≤ ·))[(M.flatten.insertionSort (· ≤ ·)).length / 2]?).getD 0 = y
    have ax := abs_le.1 (hx ▸ hl _)
    have ay := abs_le.1 (hy ▸ hl _)
    have b1 : |x + y| ≤ 2 * b := by rw [abs_le]; constructor <;> linarith
    have s1 := abs_le.1 (rnd_step hr hε (x := x + y) (e := 0) (by simp) b1)
    have s1' := abs_le.1 (abs_rnd hr hε h1 b1)
    have s2 := rnd_step hr hε (x := (x + y) / 2) (y := rnd (x + y) / 2) (e := ε * b) (b := 2 * b) (by rw [abs_le]; constructor <;> linarith)
      (by rw [abs_le]; constructor <;> linarith)
    linarith

omit [IsStrictOrderedRing κ] in
theorem entry_within {n : Nat} {B : κ} {S : Mat κ} (hS : Square n S) (hB : MatWithin B S) {i j : Nat} (hi : i < n) (hj : j < n) : |entry S i j| ≤ B := by
  have a1 : i < S.length := by rw [hS.1]; exact hi
  have b1 : j < S[i].length := by rw [hS.2 _ (List.getElem_mem a1)]; exact hj
  unfold Verif.entry mget?
  rw [List.getElem?_eq_getElem a1]
  simp only [Option.bind_some]
  rw [List.getElem?_eq_getElem b1]
  exact hB _ (List.getElem_mem a1) _ (List.getElem_mem b1)

theorem MatNear.within {σ B : κ} {M M' : Mat κ} (h : MatNear σ M M') (hB : MatWithin B M) : MatWithin (B + σ) M' := by
  intro row' hrow' a' ha'
  obtain ⟨i, hi, rfl⟩ := List.getElem_of_mem hrow'
  obtain ⟨j, hj, rfl⟩ := List.getElem_of_mem ha'
  have hi0 : i < M.length := by rw [← h.length]; exact hi
  have hr := (List.forall₂_iff_get.1 h).2 i hi0 hi
  have hlr := hr.length_eq
  simp only [List.get_eq_getElem] at hlr hr
  have hj0 : j < M[i].length := by rw [hlr]; exact hj
  have h1 := abs_le.1 ((List.forall₂_iff_get.1 hr).2 j hj0 hj)
  have h2 := abs_le.1 (hB _ (List.getElem_mem hi0) _ (List.getElem_mem hj0))
  simp only [List.get_eq_getElem] at h1
  rw [abs_le]
  constructor <;> linarith

/-- Rounding after every operation is arithmetic with errors. -/
theorem C129_near {rnd : κ → κ} {ε ρ : κ} (hr : ∀ a, |rnd a - a| ≤ ε * |a|) (hε : 0 ≤ ε) (h1 : ε < 1) {sum : List κ → κ} {n : Nat}
    (hsum : ∀ l, l.length ≤ n → |sum l - l.sum| ≤ ρ * (l.map fun a => |a|).sum) (hρ : 0 ≤ ρ) (hρ1 : ρ ≤ 1) (hn : 2 ≤ n) {B σ τ : κ}
    (hB : 0 ≤ B) (hσ : 0 ≤ σ) (hτ : τ = σ + 3 * (ε * (B + σ))) (dist : V → V → κ) (noise : Mat κ → Mat κ) :
    ApNear (apFloat rnd sum dist noise) n σ τ (250 * (n * B * (ε + ρ))) (n * τ + ρ * (n * (B + τ))) B := by
  have hBσ : 0 ≤ ε * (B + σ) := mul_nonneg hε (by linarith)
  have hτ0 : 0 ≤ τ := by linarith
  refine ⟨by linarith, fun W W' hW hBW h => ?_, rfl, fun S s hS hM => C129_iteration hr hε h1 hsum hρ hρ1 hn hS hM, fun S S' ii hS hBS h hii hlt => ?_⟩
  · have m1 := abs_le.1 (npMedian_near hσ h)
    have m2 := abs_le.1 (medianRnd_near hr hε h1.le (by linarith) (h.within hBW))
    simp only [apFloat]
    rw [hτ, abs_le]
    constructor <;> linarith
  · have hlen : ii.length ≤ n := by
      have := (hii.subperm (l₂ := List.range n) fun i hi => List.mem_range.2 (hlt i hi)).length_le
      rwa [List.length_range] at this
    have hc := apColsum_near hτ0 hS h hii hlt
    have hS' := h.square hS
    have hB' := h.within hBS
    simp only [apFloat]
    unfold apColsum at hc
    rw [List.forall₂_map_left_iff, List.forall₂_map_right_iff, List.forall₂_same] at hc
    unfold apColsum
    rw [List.forall₂_map_left_iff, List.forall₂_map_right_iff, List.forall₂_same]
    intro j hj
    have c1 := abs_le.1 (hc j hj)
    have q := (sum_abs_le (l := ii.map fun i => entry S' i j) (b := B + τ) fun a ha => by
      obtain ⟨i, hi, rfl⟩ := List.mem_map.1 ha
      exact entry_within hS' hB' (hlt i hi) (hlt j hj)).1
    rw [List.length_map] at q
    have q2 : (ii.length : κ) * (B + τ) ≤ n * (B + τ) := mul_le_mul_of_nonneg_right (by exact_mod_cast hlen) (by linarith)
    have c2 := abs_le.1 ((hsum (ii.map fun i => entry S' i j) (by rwa [List.length_map])).trans (mul_le_mul_of_nonneg_left (q.trans q2) hρ))
    rw [abs_le]
    constructor <;> linarith

end

/-! ### binary64 -/

theorem flFold_err (l : List ℚ) (s : ℚ) :
    |l.foldl (fun s x => fl (s + x)) s - (s + l.sum)| ≤ ((1 + 1 / 2 ^ 53) ^ l.length - 1) * (|s| + (l.map fun a => |a|).sum) := by
  induction l generalizing s with
  | nil => simp
  | cons x l ih =>
    simp only [List.foldl_cons, List.sum_cons, List.map_cons, List.length_cons]
    have h1 := abs_le.1 (ih (fl (s + x)))
    have h2 := fl_err (s + x)
    have h3 : |s + x| ≤ |s| + |x| := abs_add_le s x
    have h4 : |fl (s + x)| ≤ (1 + 1 / 2 ^ 53) * (|s| + |x|) := by
      have a := abs_le.1 h2
      have b := abs_le.1 (le_refl |s + x|)
      have c : |s + x| / 2 ^ 53 ≤ (|s| + |x|) * (1 / 2 ^ 53) := by
        rw [div_eq_mul_one_div]
        exact mul_le_mul_of_nonneg_right h3 (by positivity)
      rw [abs_le]
      constructor <;> linarith
    have hp : (1 : ℚ) ≤ (1 + 1 / 2 ^ 53) ^ l.length := one_le_pow₀ (by norm_num)
    have hsum0 : 0 ≤ (l.map fun a => |a|).sum := List.sum_nonneg (by simp)
    have h5 : ((1 + 1 / 2 ^ 53) ^ l.length - 1) * (|fl (s + x)| + (l.map fun a => |a|).sum) ≤
        ((1 + 1 / 2 ^ 53) ^ l.length - 1) * ((1 + 1 / 2 ^ 53) * (|s| + |x|) + (l.map fun a => |a|).sum) :=
      mul_le_mul_of_nonneg_left (by linarith) (by linarith)
    have h6 : |s + x| / 2 ^ 53 ≤ (|s| + |x|) * (1 / 2 ^ 53) := by
      rw [div_eq_mul_one_div]
      exact mul_le_mul_of_nonneg_right h3 (by positivity)
    have h7 := abs_le.1 (h2.trans h6)
    have h8 : ((1 + 1 / 2 ^ 53) ^ l.length - 1) * ((1 + 1 / 2 ^ 53) * (|s| + |x|) + (l.map fun a => |a|).sum) + (|s| + |x|) * (1 / 2 ^ 53) ≤
        ((1 + 1 / 2 ^ 53) ^ (l.length + 1) - 1) * (|s| + (|x| + (l.map fun a => |a|).sum)) := by
      rw [pow_succ _ l.length]
      generalize hP : ((1 : ℚ) + 1 / 2 ^ 53) ^ l.length = P at hp
      generalize (l.map fun a => |a|).sum = T at hsum0
      have hPT : 0 ≤ P * T := mul_nonneg (by linarith) hsum0
      have e1 : (P * (1 + 1 / 2 ^ 53) - 1) * (|s| + (|x| + T)) = (P * (1 + 1 / 2 ^ 53) - 1) * ((|s| + |x|) + T) := by ring
      rw [e1]
      generalize |s| + |x| = W
      linarith
    rw [abs_le]
    constructor <;> linarith

theorem pow_near {n : Nat} (hn : n ≤ 2 ^ 52) : ((1 : ℚ) + 1 / 2 ^ 53) ^ n - 1 ≤ n / 2 ^ 52 := by
  induction n with
  | zero => simp
  | succ n ih =>
    have h := ih (by omega)
    have hn' : (n : ℚ) ≤ 2 ^ 52 := by exact_mod_cast (by omega : n ≤ 2 ^ 52)
    rw [pow_succ _ n]
    push_cast
    linarith

/-- The sum of a list in binary64, one number after the other. -/
theorem flSum_rel {n : Nat} (hn : n ≤ 2 ^ 52) (l : List ℚ) (hl : l.length ≤ n) : |flSum l - l.sum| ≤ n / 2 ^ 52 * (l.map fun a => |a|).sum := by
  have h := flFold_err l 0
  simp only [zero_add, abs_zero] at h
  refine h.trans (mul_le_mul_of_nonneg_right ?_ (List.sum_nonneg (by simp)))
  refine (pow_near (hl.trans hn)).trans ?_
  exact div_le_div_of_nonneg_right (by exact_mod_cast hl) (by positivity)

section
variable {α V V' : Type} [LinearOrder α]

/-- The error of one iteration in binary64, for `n` groups and numbers up to `B`. -/
def apUlps (n : Nat) (B : ℚ) : ℚ := 250 * (n * B * (1 / 2 ^ 53 + n / 2 ^ 52))

/-- Affinity propagation in binary64 returns the same clusters as exact arithmetic, if the exact run takes no close decision: the errors of
all operations after the noise are worked out, and the similarities after the noise are within `σ`. -/
theorem C129_same {dist : V → V → ℚ} {eps tiny : ℚ} {z : Nat → Nat → ℚ} {dist' : V' → V' → ℚ} {noise : Mat ℚ → Mat ℚ} {m : Manager α}
    (h2 : 2 ≤ m.components.length) (hn : m.components.length ≤ 2 ^ 52) {B σ τ γ : ℚ} (hB : 0 ≤ B) (hσ0 : 0 ≤ σ)
    (hτ : τ = σ + 3 * (1 / 2 ^ 53 * (B + σ)))
    (hγ : γ = m.components.length * τ + m.components.length / 2 ^ 52 * (m.components.length * (B + τ)))
    {p : ApParams} (hp : p.absolute = true)
    {vectors : Dict α V} {vectors' : Dict α V'} {rows : List V} {rows' : List V'} (hr : stackRows m vectors = .ok rows)
    (hr' : stackRows m vectors' = .ok rows')
    (hs : apSkips (similarities (apExact dist eps tiny z) rows) = .ok false)
    (hs' : apSkips (similarities (apFloat fl flSum dist' noise) rows') = .ok false)
    (hσ : MatNear σ (apNoise eps tiny z (similarities (apExact dist eps tiny z) rows)) (noise (similarities (apFloat fl flSum dist' noise) rows')))
    (hm : ∀ mls cls, (m.components.mapM fun c => c.mapM fun x => dget (dofList m.managed.zipIdx) x) = .ok mls → apCannotLinks m = .ok cls →
      ApMargin τ (apUlps m.components.length B) γ B (apExact dist eps tiny z) p
        (apNoise eps tiny z (similarities (apExact dist eps tiny z) rows)) mls cls)
    {result : Dict α Int} (h : apCluster (apExact dist eps tiny z) p m (some vectors) none = .ok result) :
    apCluster (apFloat fl flSum dist' noise) p m (some vectors') none = .ok result := by
  subst hγ
  refine C128_same (C129_near (fun a => ?_) (by positivity) (by norm_num) (flSum_rel hn) (by positivity) ?_ h2 hB hσ0 hτ dist' noise) h2 hp hr hr' hs hs' hσ hm h
  · rw [mul_comm, ← div_eq_mul_one_div]
    exact fl_err a
  · rw [div_le_one (by positivity)]
    exact_mod_cast hn

end

/-! ### Examples -/

/-- The noise of line 316 in binary64, for `eps = 2^(-10)` (not the one of the type, to see an effect) and `tiny = 0`. -/
def flNoise (z : Nat → Nat → ℚ) (S : Mat ℚ) : Mat ℚ := S.mapIdx fun i row => row.mapIdx fun j s => fl (s + fl (fl (1 / 2 ^ 10 * s) * fl (z i j)))

/-- The example of C128 in binary64. -/
example : apCluster (apFloat fl flSum (fun v w => fl (lineDist v w)) (flNoise someNoise)) ⟨30, 5, true⟩ apFive (some apFiveVectors) none =
    .ok [(1, 0), (2, 0), (3, 0), (4, 1), (5, 1)] := by
  refine C129_same (dist := lineDist) (eps := 1 / 2 ^ 10) (tiny := 0) (z := someNoise) (m := apFive) (p := ⟨30, 5, true⟩) (vectors := apFiveVectors)
    (rows := [0, 1, 5 / 2, 20, 23]) (rows' := [0, 1, 5 / 2, 20, 23]) (σ := 1 / 10 ^ 12) (B := 100) (by decide +kernel) (by decide +kernel)
    (by norm_num) (by norm_num) rfl rfl rfl (by decide +kernel) (by decide +kernel) (by decide +kernel) (by decide +kernel) (by decide +kernel)
    ?_ (by decide +kernel)
  intro mls cls e1 e2
  rw [apFive_mls] at e1
  rw [apFive_cls] at e2
  cases e1
  cases e2
  exact apMargin_of_test (by decide +kernel)

/-! ### Each theorem applied to a concrete case -/

/-- The hypotheses of `C129_iteration` and `C129_near`. -/
example : (∀ a, |fl a - a| ≤ 1 / 2 ^ 53 * |a|) ∧ (∀ l : List ℚ, l.length ≤ 3 → |flSum l - l.sum| ≤ (3 : Nat) / 2 ^ 52 * (l.map fun a => |a|).sum) ∧
    MessagesWithin (κ := ℚ) 2 5 0 0 [[-1, -3], [-2, -1]] ⟨[[0, -1 / 2], [0, 0]], [[1, 0], [0, 2]]⟩ ∧ Square 2 [[-1, -3], [-2, (-1 : ℚ)]] :=
  ⟨fun a => by rw [mul_comm, ← div_eq_mul_one_div]; exact fl_err a, flSum_rel (by norm_num), by decide +kernel, rfl, by decide⟩

end Verif
