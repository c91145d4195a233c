import Mathlib.Data.Nat.Digits.Defs
import Verif.Props.Twister
import Verif.Proofs.TwisterRec

/-! C115: the generator of `random` is the Mersenne Twister. -/

namespace Verif

attribute [local irreducible] mtInitByArray

/-- C115: the words drawn from a state are the tempered words of the recurrence, from the current place on. -/
theorem C115_stream (s : Twister) (hw : s.mt.length = 624 ∧ ∀ w ∈ s.mt, w < 2 ^ 32) (hp : s.pos ≤ 624) (n : Nat) :
    drawWords mtRng n s = (List.range n).map fun i => mtOutput (mtSeq s.mt (s.pos + i)) := drawWords_seq n (words_iff.2 hw) hp

/-- From the words after `random.seed(7)`, the last four of them and 696 new ones. -/
example := (fun z : Int => C115_stream ⟨(mtRng.seed z).mt, 620⟩ (words_iff.1 (seed_words z)) (by norm_num) 700) 7

theorem seedWords_spec (n : Nat) : seedWords n ≠ [] ∧ (∀ w ∈ seedWords n, w < 2 ^ 32) ∧ Nat.ofDigits (2 ^ 32) (seedWords n) = n ∧
    (0 < n → 2 ^ (32 * ((seedWords n).length - 1)) ≤ n) ∧ (n = 0 → seedWords n = [0]) := by
  induction n using Nat.strong_induction_on with
  | _ n ih =>
    rw [seedWords, word_eq]
    split
    · rename_i h
      refine ⟨by simp, by simpa using h, by simp, fun h0 => ?_, fun h0 => by rw [h0]⟩
      simp only [List.length_singleton, Nat.sub_self, Nat.mul_zero, pow_zero]; exact h0
    · rename_i h
      obtain ⟨h1, h2, h3, h4, -⟩ := ih (n / 2 ^ 32) (Nat.div_lt_self (by omega) (by norm_num))
      refine ⟨by simp, ?_, ?_, fun _ => ?_, fun h0 => by omega⟩
      · intro w hw
        rcases List.mem_cons.1 hw with rfl | hw
        · exact Nat.mod_lt _ (by norm_num)
        · exact h2 w hw
      · rw [Nat.ofDigits_cons, h3]
        exact Nat.mod_add_div n (2 ^ 32)
      · have h5 := h4 (by omega)
        have hl : 0 < (seedWords (n / 2 ^ 32)).length := List.length_pos_iff.2 h1
        rw [List.length_cons, Nat.add_sub_cancel]
        obtain ⟨k, hk⟩ : ∃ k, (seedWords (n / 2 ^ 32)).length = k + 1 := ⟨_, (Nat.succ_pred_eq_of_pos hl).symm⟩
        rw [hk, Nat.add_sub_cancel] at h5
        rw [hk, Nat.mul_add, pow_add]
        calc 2 ^ (32 * k) * 2 ^ (32 * 1) ≤ n / 2 ^ 32 * 2 ^ 32 := Nat.mul_le_mul h5 (by norm_num)
          _ ≤ n := Nat.div_mul_le_self n _

theorem seedWords_length {n k : Nat} (hk : 0 < k) (h : n < 2 ^ (32 * k)) : (seedWords n).length ≤ k := by
  obtain ⟨-, -, -, h4, h5⟩ := seedWords_spec n
  rcases Nat.eq_zero_or_pos n with h0 | h0
  · rw [h5 h0]; exact hk
  · by_contra hl
    have h6 : 2 ^ (32 * k) ≤ 2 ^ (32 * ((seedWords n).length - 1)) := Nat.pow_le_pow_right (by norm_num) (by omega)
    exact absurd (lt_of_le_of_lt (h6.trans (h4 h0)) h) (lt_irrefl _)

/-- C115: `random.seed(z)` for `|z| < 2^19968` (624 words). The words of the state are those that the loops of `init_by_array` compute from the digits
of `|z|` in base 2^32, and the first word drawn afterwards is word 624 of the recurrence. -/
theorem C115_seed (z : Int) (hz : z.natAbs < 2 ^ (32 * 624)) : ∃ key : List Nat, (∀ w ∈ key, w < 2 ^ 32) ∧
    Nat.ofDigits (2 ^ 32) key = z.natAbs ∧ (z = 0 → key = [0]) ∧ (z ≠ 0 → key.getLast? ≠ some 0) ∧
    (mtRng.seed z).mt = (List.range 624).map (cInitByArray key) ∧
    ∀ n, drawWords mtRng n (mtRng.seed z) = (List.range n).map fun i => mtOutput (mtSeq ((List.range 624).map (cInitByArray key)) (624 + i)) := by
  obtain ⟨h1, h2, h3, h4, h5⟩ := seedWords_spec z.natAbs
  have hlen : (seedWords z.natAbs).length ≤ 624 := seedWords_length (by norm_num) hz
  clear hz
  have hmt : (mtRng.seed z).mt = (List.range 624).map (cInitByArray (seedWords z.natAbs)) := by
    rw [← mtInitByArray_eq h1 hlen]
    rfl
  refine ⟨seedWords z.natAbs, h2, h3, fun h => h5 (Int.natAbs_eq_zero.2 h), fun h hl => ?_, hmt, fun n => ?_⟩
  · obtain ⟨l, hl'⟩ : ∃ l, seedWords z.natAbs = l ++ [0] := by
      have := List.getLast?_eq_some_iff.1 hl
      exact this
    have h6 := h4 (by omega)
    have h7 : Nat.ofDigits (2 ^ 32) (seedWords z.natAbs) < 2 ^ (32 * ((seedWords z.natAbs).length - 1)) := by
      rw [hl', Nat.ofDigits_append]
      simp only [Nat.ofDigits_singleton, Nat.mul_zero, Nat.add_zero, List.length_append, List.length_singleton, Nat.add_sub_cancel]
      rw [pow_mul]
      refine Nat.ofDigits_lt_base_pow_length (by norm_num) (fun w hw => h2 w ?_)
      rw [hl']; simp [hw]
    rw [h3] at h7
    omega
  · rw [← hmt]
    exact C115_stream _ (words_iff.1 (seed_words z)) (le_refl _) n

example := C115_seed 42 ((show 42 < 2 ^ 6 by norm_num).trans_le (Nat.pow_le_pow_right Nat.two_pos (show 6 ≤ 32 * 624 by norm_num)))

/-- C115: `getrandbits(32 n + r)` with `0 < r ≤ 32` takes `n + 1` words: the first `n` are the lowest digits in base 2^32, and of the last
one the upper `r` bits are taken. -/
theorem C115_bits (n r : Nat) (hr : 0 < r) (hr' : r ≤ 32) (s : Twister) : ∃ ws w, drawWords mtRng (n + 1) s = ws ++ [w] ∧
    (mtRng.bits (32 * n + r) s).1 = Nat.ofDigits (2 ^ 32) ws + 2 ^ (32 * n) * (w / 2 ^ (32 - r)) := by
  have hb : ∀ s, mtRng.bits 32 s = (s.next.1, s.next.2) := fun s => by
    show Twister.bits 32 s = _
    rw [Twister.bits, if_neg (by norm_num), if_pos (le_refl _)]
    simp
  induction n generalizing s with
  | zero =>
    refine ⟨[], s.next.1, ?_, ?_⟩
    · simp [drawWords, hb]
    · show (Twister.bits (32 * 0 + r) s).1 = _
      rw [Nat.mul_zero, Nat.zero_add, Twister.bits, if_neg (by omega), if_pos hr', Nat.shiftRight_eq_div_pow]
      simp
  | succ n ih =>
    obtain ⟨ws, w, h1, h2⟩ := ih s.next.2
    refine ⟨s.next.1 :: ws, w, ?_, ?_⟩
    · rw [drawWords, hb, h1]; rfl
    · show (Twister.bits (32 * (n + 1) + r) s).1 = _
      rw [Twister.bits, if_neg (by omega), if_neg (by omega)]
      have h3 : (Twister.bits (32 * n + r) s.next.2).1 = _ := h2
      simp only [show 32 * (n + 1) + r - 32 = 32 * n + r by omega, h3, word_eq, Nat.ofDigits_cons]
      rw [show 32 * (n + 1) = 32 + 32 * n by omega, pow_add]
      ring

example := C115_bits 2 6 (by decide) (by decide) (mtRng.seed 42)

section
variable {α V δ : Type} [LinearOrder α] [LinearOrder δ]

/-- C115: a seed and its negative are the same seed, for the samplers and for COP-KMeans. -/
theorem C115_sign (z : Int) (os os' : List Nat) (fuel : Nat) (m : Manager α) (vectors : Option (Dict α V)) (nb : Option Int) (g : Twister) :
    (∀ (cfg : Sampler) (clustering : Option (Dict α Int)) (metric : V → V → δ),
      cfg.sampleG mtRng (some (-z)) os fuel m nb clustering vectors metric g =
        cfg.sampleG mtRng (some z) os' fuel m nb clustering vectors metric g) ∧
    ∀ (env : KMeansEnv α V δ) (maxIteration : Nat),
      kmClusterG mtRng env (some (-z)) os fuel maxIteration m vectors nb g =
        kmClusterG mtRng env (some z) os' fuel maxIteration m vectors nb g := by
  have hs : reseed mtRng (some (-z)) os = reseed mtRng (some z) os' := by
    show mtRng.seed (-z) = mtRng.seed z
    show Twister.mk _ _ = Twister.mk _ _
    rw [Int.natAbs_neg]
  constructor
  · intro cfg clustering metric
    unfold Sampler.sampleG
    rw [hs]
  · intro env maxIteration
    unfold kmClusterG
    rw [hs]

end

/-! Outputs of the published program `mt19937ar.c` (`mt19937ar.out`: the first five words after `init_by_array` with four numbers), and of
python's `random`. -/

set_option maxRecDepth 100000 in
example : drawWords mtRng 5 ⟨mtInitByArray [0x123, 0x234, 0x345, 0x456], 624⟩ =
    [1067595299, 955945823, 477289528, 4107218783, 4228976476] := by decide +kernel

set_option maxRecDepth 100000 in
/-- `random.seed(1); [random.getrandbits(32) for _ in range(4)]` -/
example : drawWords mtRng 4 (mtRng.seed 1) = [577090037, 2444712010, 3639700191, 3445702192] := by decide +kernel

set_option maxRecDepth 100000 in
/-- `random.seed(-10**40)` -/
example : drawWords mtRng 4 (mtRng.seed (-10 ^ 40)) = [1492664192, 624131156, 3266468590, 3646663144] := by decide +kernel

set_option maxRecDepth 100000 in
/-- `random.seed(42)`: the words at the borders of the passes. -/
example : (drawWords mtRng 1250 (mtRng.seed 42)).drop 1247 = [3190649866, 2301518177, 4083988011] ∧
    ((drawWords mtRng 626 (mtRng.seed 42)).drop 623) = [2929454134, 1071722055, 2864457210] := by decide +kernel

/-! ### Each theorem applied to a concrete case -/

/-- The call of the example of C101 with the seed -42. -/
example : (twisterCall (some (-42)) [] (mtRng.seed 1)).1 = .ok [(3, 5), (3, 4), (1, 5)] := by
  unfold twisterCall
  rw [(C115_sign (V := Nat) 42 [] [] 1000 twisterDemo none (some 3) (mtRng.seed 1)).1]
  decide +kernel

end Verif
