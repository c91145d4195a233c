import Verif.Proofs.Twister
import Verif.Spec.Twister

/-! The model of the generator is the published Mersenne Twister. -/

namespace Verif

/-! ### CArray -/

theorem and_upper {a : Nat} (h : a < 2 ^ 32) : a &&& 0x80000000 = a / 2 ^ 31 * 2 ^ 31 := by
  have e : (0x80000000 : Nat) = 2 ^ 31 := by norm_num
  rw [e, Nat.and_two_pow]
  have hq : a / 2 ^ 31 < 2 := by omega
  congr 1
  rw [Nat.testBit_eq_decide_div_mod_eq]
  rcases (show a / 2 ^ 31 = 0 ∨ a / 2 ^ 31 = 1 by omega) with h | h <;> rw [h] <;> rfl

theorem and_lower (b : Nat) : b &&& 0x7fffffff = b % 2 ^ 31 := by
  have e : (0x7fffffff : Nat) = 2 ^ 31 - 1 := by norm_num
  rw [e, Nat.and_two_pow_sub_one_eq_mod]

theorem mtTwistWord_eq {a : Nat} (h : a < 2 ^ 32) (b c : Nat) : mtTwistWord a b c =
    c ^^^ ((a / 2 ^ 31 * 2 ^ 31 + b % 2 ^ 31) / 2) ^^^ ((a / 2 ^ 31 * 2 ^ 31 + b % 2 ^ 31) % 2 * 0x9908b0df) := by
  unfold mtTwistWord
  rw [and_upper h, and_lower]
  have hb : b % 2 ^ 31 < 2 ^ 31 := Nat.mod_lt _ (by norm_num)
  have hor : a / 2 ^ 31 * 2 ^ 31 ||| b % 2 ^ 31 = a / 2 ^ 31 * 2 ^ 31 + b % 2 ^ 31 := by
    rw [Nat.mul_comm]; exact (Nat.two_pow_add_eq_or_of_lt hb _).symm
  rw [hor, Nat.shiftRight_eq_div_pow, pow_one]
  congr 1
  have hm : (a / 2 ^ 31 * 2 ^ 31 + b % 2 ^ 31) % 2 = b % 2 := by omega
  rw [hm]
  rcases Nat.mod_two_eq_zero_or_one b with hb | hb <;> simp [hb]

theorem mtTemper_eq (y : Nat) : mtTemper y = mtOutput y := by
  have key : ∀ x k C : Nat, C < 2 ^ 32 → (x <<< k) &&& C = (x * 2 ^ k % 2 ^ 32) &&& C := fun x k C hC => by
    have h1 : ((x <<< k) &&& C) % 2 ^ 32 = (x <<< k) &&& C := Nat.mod_eq_of_lt (Nat.and_lt_two_pow _ hC)
    rw [← h1, Nat.and_mod_two_pow, Nat.mod_eq_of_lt hC, Nat.shiftLeft_eq]
  simp only [mtTemper, mtOutput, Nat.shiftRight_eq_div_pow]
  rw [key _ 7 _ (by norm_num), key _ 15 _ (by norm_num)]

/-! ### Recurrence -/

theorem mtSeq_lt (mt : List Nat) {k : Nat} (h : k < 624) : mtSeq mt k = mt.getD k 0 := by
  rw [mtSeq, if_pos h]

theorem mtSeq_add (mt : List Nat) (k : Nat) : mtSeq mt (624 + k) =
    mtSeq mt (397 + k) ^^^ ((mtSeq mt k / 2 ^ 31 * 2 ^ 31 + mtSeq mt (k + 1) % 2 ^ 31) / 2) ^^^
      ((mtSeq mt k / 2 ^ 31 * 2 ^ 31 + mtSeq mt (k + 1) % 2 ^ 31) % 2 * 0x9908b0df) := by
  rw [mtSeq, if_neg (by omega), show 624 + k - 624 = k by omega, show 624 + k - 623 = k + 1 by omega,
    show 624 + k - 227 = 397 + k by omega]

theorem map_range'_cons {X : Nat → Nat} {s n a : Nat} {l : List Nat} (h : a :: l = (List.range' s n).map X) :
    ∃ m, n = m + 1 ∧ a = X s ∧ l = (List.range' (s + 1) m).map X := by
  cases n with
  | zero => cases h
  | succ m =>
    rw [List.range'_succ, List.map_cons, List.cons.injEq] at h
    exact ⟨m, rfl, h⟩

theorem map_range'_congr {X : Nat → Nat} {s s' n n' : Nat} (h : s = s') (h' : n = n') :
    (List.range' s n).map X = (List.range' s' n').map X := by rw [h, h']

theorem map_range'_head {X : Nat → Nat} {s n : Nat} (h : 0 < n) (l : List Nat) : ((List.range' s n).map X ++ l).getD 0 0 = X s := by
  cases n with
  | zero => omega
  | succ n => rfl

theorem twist_inv {mt : List Nat} (hX : ∀ k, k < 624 → mtSeq mt k < 2 ^ 32) (l far back : List Nat) (i n : Nat) (hi : i + l.length = 624)
    (hl : l = (List.range' i l.length).map (mtSeq mt)) (hb : back.reverse = (List.range' 624 i).map (mtSeq mt))
    (hf : far = (List.range' (397 + i) n).map (mtSeq mt)) (hn : i < 227 → i + n = 227) :
    mtTwistFrom l far back = (List.range' 624 (i + l.length)).map (mtSeq mt) := by
  induction l generalizing far back i n with
  | nil => rw [mtTwistFrom_nil, hb]; rfl
  | cons a l ih =>
    rw [List.length_cons] at hi hl
    obtain ⟨_, hm, ha, hl'⟩ := map_range'_cons hl
    cases hm
    have hlen : back.length = i := by simpa using congrArg List.length hb
    have haround : 227 ≤ i → mtAround back = (List.range' (397 + i) 227).map (mtSeq mt) := fun h => by
      unfold mtAround
      rw [hb, hlen, ← List.map_drop, List.drop_range']
      exact map_range'_congr (by omega) (by omega)
    have step : mtTwistWord a (mtSeq mt (i + 1)) (mtSeq mt (397 + i)) = mtSeq mt (624 + i) := by
      rw [ha, mtTwistWord_eq (hX i (by omega)), mtSeq_add]
    have hb' : (mtSeq mt (624 + i) :: back).reverse = (List.range' 624 (i + 1)).map (mtSeq mt) := by
      rw [List.reverse_cons, hb, List.range'_concat, List.map_append]
      simp
    cases l with
    | nil =>
      have hi' : i = 623 := by simpa using hi
      have hfirst : back.reverse.getD 0 0 = mtSeq mt (i + 1) := by
        rw [hb, ← List.append_nil (List.map _ _), map_range'_head (by omega), hi']
      have hc : (far ++ mtAround back).getD 0 0 = mtSeq mt (397 + i) := by
        cases n with
        | zero =>
          rw [hf, haround (by omega), List.range'_zero, List.map_nil, List.nil_append, ← List.append_nil (List.map _ _),
            map_range'_head (by omega)]
        | succ n =>
          rw [hf, map_range'_head (by omega)]
      rw [mtTwistFrom_last, strict_eq, hfirst, hc, step, hb']
      rfl
    | cons b l =>
      have hbb : b = mtSeq mt (i + 1) := by
        obtain ⟨_, _, h, _⟩ := map_range'_cons hl'
        exact h
      have hi2 : i + 1 + (b :: l).length = 624 := by rw [← hi]; omega
      have hfin : (List.range' 624 (i + (a :: b :: l).length)).map (mtSeq mt) =
          (List.range' 624 (i + 1 + (b :: l).length)).map (mtSeq mt) := map_range'_congr rfl (by simp only [List.length_cons]; omega)
      rw [hfin]
      cases n with
      | succ n =>
        rw [List.range'_succ, List.map_cons] at hf
        rw [hf, mtTwistFrom_cons, strict_eq, show mtTwistWord a b (mtSeq mt (397 + i)) = mtSeq mt (624 + i) by rw [hbb, step]]
        exact ih _ _ (i + 1) n hi2 hl' hb' rfl (fun h => by have := hn (by omega); omega)
      | zero =>
        have h227 : 227 ≤ i := by
          by_contra h
          have := hn (by omega)
          omega
        have hfar : far = [] := by rw [hf]; rfl
        have hc : (mtAround back).getD 0 0 = mtSeq mt (397 + i) := by
          rw [haround h227, ← List.append_nil (List.map _ _), map_range'_head (by omega)]
        have ht : (mtAround back).tail = (List.range' (397 + (i + 1)) 226).map (mtSeq mt) := by
          rw [haround h227, show 227 = 226 + 1 from rfl, List.range'_succ]
          rfl
        rw [hfar, mtTwistFrom_wrap, strict_eq, hc, ht, show mtTwistWord a b (mtSeq mt (397 + i)) = mtSeq mt (624 + i) by rw [hbb, step]]
        exact ih _ _ (i + 1) 226 hi2 hl' hb' rfl (fun h => by omega)

theorem list_eq_seq {mt : List Nat} (h : mt.length = 624) : mt = (List.range' 0 624).map (mtSeq mt) := by
  apply List.ext_getElem
  · simp [h]
  · intro i h1 h2
    rw [List.getElem_map, List.getElem_range', mtSeq_lt mt (by omega)]
    simp [List.getD_eq_getElem?_getD, h1]

theorem seq_lt_word {mt : List Nat} (h : StateWords mt) {k : Nat} (hk : k < 624) : mtSeq mt k < 2 ^ 32 := by
  obtain ⟨h1, h2⟩ := words_iff.1 h
  rw [mtSeq_lt mt hk, List.getD_eq_getElem?_getD, List.getElem?_eq_getElem (by omega)]
  exact h2 _ (List.getElem_mem _)

theorem mtTwist_eq {mt : List Nat} (h : StateWords mt) : mtTwist mt = (List.range' 624 624).map (mtSeq mt) := by
  have := twist_inv (fun k hk => seq_lt_word h hk) mt (mt.drop 397) [] 0 227 (by rw [h.1]) ?_ rfl ?_ (fun _ => rfl)
  · rw [h.1] at this; exact this
  · rw [h.1]; exact list_eq_seq h.1
  · conv_lhs => rw [list_eq_seq h.1]
    rw [← List.map_drop, List.drop_range']

theorem mtSeq_twist {mt : List Nat} (h : StateWords mt) (k : Nat) : mtSeq (mtTwist mt) k = mtSeq mt (624 + k) := by
  induction k using Nat.strong_induction_on with
  | _ k ih =>
    by_cases hk : k < 624
    · rw [mtSeq_lt _ hk, mtTwist_eq h, List.getD_eq_getElem?_getD, List.getElem?_eq_getElem (by simpa using hk)]
      simp
    · obtain ⟨j, rfl⟩ : ∃ j, k = 624 + j := ⟨k - 624, by omega⟩
      rw [mtSeq_add, ih j (by omega), ih (j + 1) (by omega), ih (397 + j) (by omega), mtSeq_add mt (624 + j)]
      rw [show 397 + (624 + j) = 624 + (397 + j) by omega, show 624 + (j + 1) = 624 + j + 1 by omega]

theorem next_seq {s : Twister} (h : StateWords s.mt) (hp : s.pos ≤ 624) : s.next.1 = mtOutput (mtSeq s.mt s.pos) ∧
    StateWords s.next.2.mt ∧ s.next.2.pos ≤ 624 ∧ ∀ k, mtSeq s.next.2.mt (s.next.2.pos + k) = mtSeq s.mt (s.pos + (k + 1)) := by
  refine ⟨?_, (next_ok h).2, ?_⟩
  all_goals unfold Twister.next
  · split
    · rename_i hp'
      have e : s.pos = 624 := by omega
      have h0 := mtSeq_twist h 0
      rw [mtSeq_lt _ (by norm_num)] at h0
      cases ht : mtTwist s.mt with
      | nil => rw [ht] at h0; have := (mtTwist_words h).1; rw [ht] at this; cases this
      | cons w l =>
        rw [ht] at h0
        show mtTemper w = _
        rw [mtTemper_eq, e]
        exact congrArg mtOutput h0
    · rw [mtSeq_lt _ (by omega)]; exact mtTemper_eq _
  · split
    · rename_i hp'
      have e : s.pos = 624 := by omega
      cases ht : mtTwist s.mt with
      | nil => have := (mtTwist_words h).1; rw [ht] at this; cases this
      | cons w l =>
        refine ⟨by norm_num, fun k => ?_⟩
        show mtSeq (w :: l) (1 + k) = _
        rw [← ht, mtSeq_twist h, e, Nat.add_comm 1 k]
    · refine ⟨by show s.pos + 1 ≤ 624; omega, fun k => ?_⟩
      show mtSeq s.mt (s.pos + 1 + k) = _
      congr 1
      omega

theorem drawWords_seq (n : Nat) {s : Twister} (h : StateWords s.mt) (hp : s.pos ≤ 624) :
    drawWords mtRng n s = (List.range n).map fun i => mtOutput (mtSeq s.mt (s.pos + i)) := by
  induction n generalizing s with
  | zero => rfl
  | succ n ih =>
    obtain ⟨h1, h2, h3, h4⟩ := next_seq h hp
    have hb : mtRng.bits 32 s = (s.next.1, s.next.2) := by
      show Twister.bits 32 s = _
      rw [Twister.bits, if_neg (by norm_num), if_pos (le_refl _)]
      simp
    rw [drawWords, hb, ih h2 h3, List.range_succ_eq_map, List.map_cons, List.map_map, h1]
    congr 1
    apply List.map_congr_left
    intro i _
    exact congrArg mtOutput (h4 i)

/-! ### Initialisation -/

theorem put_eq {mt : CArray} {i v : Nat} (h : v < 2 ^ 32) : mt.put i v = Function.update mt i v := by
  unfold CArray.put
  rw [Nat.mod_eq_of_lt h]

theorem map_range'_update {X : CArray} {i v s n : Nat} (h : i < s ∨ s + n ≤ i) :
    (List.range' s n).map (Function.update X i v) = (List.range' s n).map X := by
  apply List.map_congr_left
  intro k hk
  rw [List.mem_range'_1] at hk
  exact Function.update_of_ne (by omega) _ _

theorem mtInitFrom_eq (n i : Nat) (prev : Nat) (acc : List Nat) (mt : CArray) (hi : 1 ≤ i) (hp : prev = mt (i - 1))
    (ha : acc.reverse = (List.range' 0 i).map mt) : mtInitFrom n i prev acc = (List.range' 0 (i + n)).map
      ((List.range' i n).foldl (fun (mt : CArray) i => mt.put i (1812433253 * (mt (i - 1) ^^^ (mt (i - 1) / 2 ^ 30)) + i)) mt) := by
  induction n generalizing i prev acc mt with
  | zero => exact ha
  | succ n ih =>
    rw [mtInitFrom, strict_eq, List.range'_succ, List.foldl_cons]
    rw [ih (i + 1) _ _ (mt.put i (1812433253 * (mt (i - 1) ^^^ (mt (i - 1) / 2 ^ 30)) + i)) (by omega)]
    · congr 2; omega
    · rw [hp, word_eq]
      simp [CArray.put, mtMix, Nat.shiftRight_eq_div_pow]
    · rw [List.reverse_cons, ha, List.range'_concat, List.map_append]
      unfold CArray.put
      rw [map_range'_update (by omega), hp, word_eq]
      simp [mtMix, Nat.shiftRight_eq_div_pow]

theorem mtInit_eq (s : Nat) : mtInit s = (List.range' 0 624).map (cInitGenrand s) := by
  unfold mtInit
  rw [strict_eq]
  refine mtInitFrom_eq 623 1 _ _ (CArray.put (fun _ => 0) 0 s) (le_refl _) ?_ ?_
  · simp [CArray.put, word_eq]
  · simp [CArray.put, word_eq]

/-- A pass of the model is a run of a loop from place `i₀` to the end of the array. -/
theorem pass_run {f : Nat → Nat → Nat → Nat} {step : CLoop → CLoop} {J : Nat → Nat} (d i₀ : Nat) (hd : d ≤ i₀)
    (hi₀ : 1 ≤ i₀) (hstep : ∀ s : CLoop, i₀ ≤ s.i → s.i ≤ 623 → s.j = J s.i → step s =
      ⟨(CLoop.next ⟨Function.update s.mt s.i (f (s.i - d) (s.mt (s.i - 1)) (s.mt s.i)), s.i, s.j⟩).mt,
        (CLoop.next ⟨Function.update s.mt s.i (f (s.i - d) (s.mt (s.i - 1)) (s.mt s.i)), s.i, s.j⟩).i, J (s.i + 1)⟩)
    (hw : ∀ i p x, f i p x < 2 ^ 32) :
    ∀ (l : List Nat) (i prev : Nat) (acc : List Nat) (s : CLoop), i₀ ≤ i → i + l.length = 624 →
      s.i = (if i = 624 then 1 else i) → s.j = J i → (i = 624 → s.mt 0 = s.mt 623) → (i < 624 → prev = s.mt (i - 1)) →
      l = (List.range' i l.length).map s.mt → acc.reverse = (List.range' i₀ (i - i₀)).map s.mt →
      mtPass f (i - d) prev l acc = ((List.range' i₀ (624 - i₀)).map (step^[l.length] s).mt).reverse ∧
        (step^[l.length] s).i = 1 ∧ (step^[l.length] s).j = J 624 ∧ (step^[l.length] s).mt 0 = (step^[l.length] s).mt 623 ∧
        ∀ k, 1 ≤ k → k < i → (step^[l.length] s).mt k = s.mt k
  | [], i, prev, acc, s, hi, hl, hsi, hsj, h0, hp, hll, ha => by
    have e : i = 624 := by simpa using hl
    subst e
    refine ⟨?_, by simpa using hsi, hsj, h0 rfl, fun _ _ _ => rfl⟩
    show acc = _
    rw [← List.reverse_reverse acc, ha]; rfl
  | x :: l, i, prev, acc, s, hi, hl, hsi, hsj, h0, hp, hll, ha => by
    rw [List.length_cons] at hl hll ⊢
    have hne : i ≠ 624 := by omega
    rw [if_neg hne] at hsi
    obtain ⟨_, hm, hx, hll'⟩ := map_range'_cons hll
    cases hm
    have hs := hstep s (by omega) (by omega) (by rw [hsj, hsi])
    rw [hsi] at hs
    rw [Function.iterate_succ_apply, mtPass, strict_eq, hp (by omega), hx]
    have hv := hw (i - d) (s.mt (i - 1)) (s.mt i)
    generalize hvd : f (i - d) (s.mt (i - 1)) (s.mt i) = v at hs hv ⊢
    obtain ⟨c, hmt⟩ : ∃ c, (step s).mt = if i = 623 then Function.update (Function.update s.mt i v) 0 c
        else Function.update s.mt i v := by
      rw [hs]
      unfold CLoop.next
      by_cases h6 : i = 623
      · refine ⟨Function.update s.mt i v 623 % 2 ^ 32, ?_⟩
        rw [if_pos (show 624 ≤ i + 1 by omega), if_pos h6]
        rfl
      · exact ⟨0, by rw [if_neg (show ¬ 624 ≤ i + 1 by omega), if_neg h6]⟩
    have hmap : ∀ a n, 1 ≤ a → (List.range' a n).map (step s).mt = (List.range' a n).map (Function.update s.mt i v) := fun a n h => by
      rw [hmt]
      split
      · exact map_range'_update (by omega)
      · rfl
    have hat : (step s).mt i = v := by
      rw [hmt]
      split
      · rw [Function.update_of_ne (by omega), Function.update_self]
      · rw [Function.update_self]
    have := pass_run d i₀ hd hi₀ hstep hw l (i + 1) v (v :: acc) (step s) (by omega) (by omega) ?_ ?_ ?_ ?_ ?_ ?_
    · obtain ⟨k1, k2, k3, k4, k5⟩ := this
      refine ⟨?_, k2, k3, k4, fun k hk hki => ?_⟩
      · rw [← k1]; congr 1; omega
      · rw [k5 k hk (by omega), hmt]
        split
        · rw [Function.update_of_ne (by omega), Function.update_of_ne (by omega)]
        · rw [Function.update_of_ne (by omega)]
    · rw [hs]
      unfold CLoop.next
      by_cases h6 : i = 623
      · rw [if_pos (show 624 ≤ i + 1 by omega), if_pos (by omega)]
      · rw [if_neg (show ¬ 624 ≤ i + 1 by omega), if_neg (by omega)]
    · rw [hs]
    · intro h6
      have h6' : i = 623 := by omega
      rw [hs]
      unfold CLoop.next
      rw [if_pos (show 624 ≤ i + 1 by omega)]
      subst h6'
      rw [show (2 : Nat) ^ 32 = 4294967296 from rfl] at hv
      simp [CArray.put, hv]
    · intro _
      rw [Nat.add_sub_cancel, hat]
    · rw [hmap _ _ (by omega), map_range'_update (by omega)]
      exact hll'
    · rw [List.reverse_cons, ha, show i + 1 - i₀ = i - i₀ + 1 by omega, List.range'_concat, List.map_append, hmap _ _ hi₀,
        map_range'_update (by omega)]
      simp only [Nat.one_mul, List.map_cons, List.map_nil]
      rw [show i₀ + (i - i₀) = i by omega, hat]

theorem xor_trunc (x p : Nat) : (x ^^^ (p % 2 ^ 32)) % 2 ^ 32 = (x ^^^ p) % 2 ^ 32 := by
  rw [Nat.xor_mod_two_pow, Nat.xor_mod_two_pow, Nat.mod_mod]

theorem keyStep_eq (key : List Nat) (j p x : Nat) :
    ((x ^^^ (((p ^^^ (p / 2 ^ 30)) * 1664525) % 2 ^ 32)) + key.getD (j % key.length) 0 + j % key.length) % 2 ^ 32 = mtKeyStep key j p x := by
  unfold mtKeyStep mtMix
  rw [word_eq, Nat.shiftRight_eq_div_pow, Nat.add_assoc, Nat.add_assoc, Nat.add_mod, xor_trunc, ← Nat.add_mod]

theorem lastStep_eq {i : Nat} (h : i ≤ 2 ^ 32) (p x : Nat) :
    ((x ^^^ (((p ^^^ (p / 2 ^ 30)) * 1566083941) % 2 ^ 32)) + 2 ^ 32 - i) % 2 ^ 32 = mtLastStep i p x := by
  unfold mtLastStep mtMix
  rw [word_eq, Nat.shiftRight_eq_div_pow, Nat.add_sub_assoc h, Nat.add_sub_assoc h, Nat.add_mod, xor_trunc, Nat.add_mod _ (2 ^ 32 - i), Nat.mod_mod]

theorem mod_next {n i : Nat} (hn : 0 < n) : (if n ≤ i % n + 1 then 0 else i % n + 1) = (i + 1) % n := by
  have h := Nat.mod_lt i hn
  rw [← Nat.mod_add_mod i n 1]
  split
  · rw [show i % n + 1 = n by omega, Nat.mod_self]
  · rename_i h2
    exact (Nat.mod_eq_of_lt (by omega)).symm

/-- The rest of `init_by_array` after `init_genrand`. -/
def mtFinish (key : List Nat) (first : Nat) (l : List Nat) : List Nat :=
  match mtPass (mtKeyStep key) 0 first l [] with
  | [] => []
  | last :: back =>
    match (last :: back).reverse with
    | [] => []
    | x :: rest =>
      strict (mtKeyStep key 623 last x) fun v =>
        match mtPass mtLastStep 2 v rest [] with
        | [] => []
        | last' :: back' => strict (mtLastStep 1 last' v) fun w => 0x80000000 :: w :: (last' :: back').reverse

theorem iterate_split {β : Type} (f : β → β) {n k : Nat} (h : n = k + 1) (x : β) : f^[n] x = f (f^[k] x) := by
  subst h
  exact Function.iterate_succ_apply' _ _ _

theorem mtFinish_run {key : List Nat} {first x last v last' : Nat} {l rest back back' : List Nat}
    (h1 : mtPass (mtKeyStep key) 0 first l [] = last :: back) (h2 : (last :: back).reverse = x :: rest)
    (h3 : mtKeyStep key 623 last x = v) (h4 : mtPass mtLastStep 2 v rest [] = last' :: back') :
    mtFinish key first l = 0x80000000 :: mtLastStep 1 last' v :: (last' :: back').reverse := by
  unfold mtFinish
  rw [h1]
  simp only
  rw [h2]
  simp only [strict_eq]
  rw [h3, h4]

theorem cKeyLoop_eq {key : List Nat} (hk : 0 < key.length) (s : CLoop) (r : Nat) (hj : s.j = r % key.length) : cKeyLoop key s =
    ⟨(CLoop.next ⟨Function.update s.mt s.i (mtKeyStep key r (s.mt (s.i - 1)) (s.mt s.i)), s.i, s.j⟩).mt,
      (CLoop.next ⟨Function.update s.mt s.i (mtKeyStep key r (s.mt (s.i - 1)) (s.mt s.i)), s.i, s.j⟩).i, (r + 1) % key.length⟩ := by
  unfold cKeyLoop
  rw [hj, mod_next hk]
  unfold CArray.put
  rw [keyStep_eq]

theorem cLastLoop_eq (s : CLoop) (h : s.i ≤ 623) : cLastLoop s =
    CLoop.next ⟨Function.update s.mt s.i (mtLastStep s.i (s.mt (s.i - 1)) (s.mt s.i)), s.i, s.j⟩ := by
  unfold cLastLoop CArray.put
  rw [lastStep_eq (by omega)]

theorem key_pass {key : List Nat} (hk : 0 < key.length) (mt0 : CArray) {n : Nat} (hn : n = 623) :
    mtPass (mtKeyStep key) 0 (mt0 0) ((List.range' 1 n).map mt0) [] =
        ((List.range' 1 n).map ((cKeyLoop key)^[n] ⟨mt0, 1, 0⟩).mt).reverse ∧
      ((cKeyLoop key)^[n] ⟨mt0, 1, 0⟩).i = 1 ∧ ((cKeyLoop key)^[n] ⟨mt0, 1, 0⟩).j = 623 % key.length ∧
      ((cKeyLoop key)^[n] ⟨mt0, 1, 0⟩).mt 0 = ((cKeyLoop key)^[n] ⟨mt0, 1, 0⟩).mt n := by
  have hlen : ((List.range' 1 n).map mt0).length = n := by simp
  have p := pass_run (f := mtKeyStep key) (step := cKeyLoop key) (J := fun i => (i - 1) % key.length) 1 1 (le_refl _) (le_refl _)
    (fun s h1 _ hj => by
      have := cKeyLoop_eq hk s (s.i - 1) hj
      rw [this]
      simp only [Nat.add_sub_cancel]
      rw [show s.i - 1 + 1 = s.i by omega])
    (fun i p x => by have := mtKeyStep_lt key i p x; rwa [word_eq] at this)
    ((List.range' 1 n).map mt0) 1 (mt0 0) [] ⟨mt0, 1, 0⟩ (le_refl _) (by rw [hlen]; omega) (by rw [if_neg (by norm_num)]) (by simp)
    (by norm_num) (fun _ => rfl) (by rw [hlen]) (by simp)
  rw [hlen] at p
  obtain ⟨a1, a2, a3, a4, -⟩ := p
  refine ⟨?_, a2, a3, ?_⟩
  · rw [show 624 - 1 = n by omega] at a1; exact a1
  · rw [a4, hn]

theorem last_pass (mt0 : CArray) (v j : Nat) (hv : v = mt0 1) {m : Nat} (hm : m = 622) :
    mtPass mtLastStep 2 v ((List.range' 2 m).map mt0) [] = ((List.range' 2 m).map (cLastLoop^[m] ⟨mt0, 2, j⟩).mt).reverse ∧
      (cLastLoop^[m] ⟨mt0, 2, j⟩).i = 1 ∧ (cLastLoop^[m] ⟨mt0, 2, j⟩).mt 0 = (cLastLoop^[m] ⟨mt0, 2, j⟩).mt (m + 1) ∧
      (cLastLoop^[m] ⟨mt0, 2, j⟩).mt 1 = v := by
  have hlen : ((List.range' 2 m).map mt0).length = m := by simp
  have p := pass_run (f := mtLastStep) (step := cLastLoop) (J := fun _ => j) 0 2 (by norm_num) (by norm_num)
    (fun s h1 h2 hj => by
      rw [cLastLoop_eq s h2, Nat.sub_zero]
      unfold CLoop.next
      simp only
      split <;> rw [← hj])
    (fun i p x => by have := mtLastStep_lt i p x; rwa [word_eq] at this)
    ((List.range' 2 m).map mt0) 2 v [] ⟨mt0, 2, j⟩ (le_refl _) (by rw [hlen]; omega) (by rw [if_neg (by norm_num)]) rfl
    (by norm_num) (fun _ => hv) (by rw [hlen]) (by simp)
  rw [hlen] at p
  obtain ⟨b1, b2, -, b4, b5⟩ := p
  refine ⟨?_, b2, ?_, ?_⟩
  · rw [show 624 - 2 = m by omega] at b1; exact b1
  · rw [b4, hm]
  · rw [b5 1 (le_refl _) (by norm_num), hv]

theorem reverse_range' (X : Nat → Nat) (s n : Nat) : ((List.range' s (n + 1)).map X).reverse = X (s + n) :: ((List.range' s n).map X).reverse := by
  rw [List.range'_concat, List.map_append, List.reverse_append]
  simp

theorem cNext_one (X : CArray) (j : Nat) : CLoop.next ⟨X, 1, j⟩ = ⟨X, 2, j⟩ := by
  unfold CLoop.next
  rw [if_neg (by norm_num)]

theorem mtFinish_eq {key : List Nat} (h0 : key ≠ []) (mt0 : CArray) {m : Nat} (hm : m = 621) :
    mtFinish key (mt0 0) ((List.range' 1 (m + 1 + 1)).map mt0) = (List.range' 0 (m + 1 + 1 + 1)).map
      ((cLastLoop (cLastLoop^[m + 1] (cKeyLoop key ((cKeyLoop key)^[m + 1 + 1] ⟨mt0, 1, 0⟩)))).mt.put 0 0x80000000) := by
  have hk : 0 < key.length := List.length_pos_iff.2 h0
  obtain ⟨a1, a2, a3, a4⟩ := key_pass hk mt0 (n := m + 1 + 1) (by omega)
  generalize (cKeyLoop key)^[m + 1 + 1] ⟨mt0, 1, 0⟩ = s1 at *
  obtain ⟨mt1, i1, j1⟩ := s1
  simp only at a1 a2 a3 a4
  subst a2
  have hs2 := cKeyLoop_eq hk ⟨mt1, 1, j1⟩ 623 a3
  simp only [Nat.sub_self, cNext_one] at hs2
  rw [hs2]
  generalize hv : mtKeyStep key 623 (mt1 0) (mt1 1) = v at hs2 ⊢
  generalize (623 + 1) % key.length = j2 at hs2 ⊢
  obtain ⟨b1, b2, b4, b6⟩ := last_pass (Function.update mt1 1 v) v j2 (by rw [Function.update_self]) (m := m + 1) (by omega)
  rw [map_range'_update (Or.inl (by norm_num))] at b1
  generalize cLastLoop^[m + 1] ⟨Function.update mt1 1 v, 2, j2⟩ = s3 at *
  obtain ⟨mt3, i3, j3⟩ := s3
  simp only at b1 b2 b4 b6 ⊢
  subst b2
  rw [reverse_range'] at a1 b1
  rw [show 1 + (m + 1) = m + 1 + 1 by omega, ← a4] at a1
  rw [show 2 + m = m + 1 + 1 by omega, ← b4] at b1
  have hfin := mtFinish_run (x := mt1 1) (rest := (List.range' 2 (m + 1)).map mt1) a1 (by
    rw [a4, show m + 1 + 1 = 1 + (m + 1) by omega, ← reverse_range', List.reverse_reverse, List.range'_succ, List.map_cons]) hv b1
  rw [hfin, b4, show m + 1 + 1 = 2 + m by omega, ← reverse_range', List.reverse_reverse, show 2 + m = m + 1 + 1 by omega, ← b4]
  have hl3 := cLastLoop_eq ⟨mt3, 1, j3⟩ (by norm_num)
  simp only [Nat.sub_self, cNext_one, b6] at hl3
  have hlist : ∀ X : CArray, (List.range' 0 (m + 1 + 1 + 1)).map X = X 0 :: X 1 :: (List.range' 2 (m + 1)).map X := fun X => by
    rw [List.range'_succ, List.map_cons, List.range'_succ, List.map_cons]
  rw [hl3, put_eq (by norm_num), hlist, map_range'_update (Or.inl (by norm_num)), map_range'_update (Or.inl (by norm_num)),
    Function.update_self, Function.update_of_ne (by norm_num)]
  simp only
  rw [Function.update_self]

theorem cInitByArray_eq {key : List Nat} (h : key.length ≤ 624) : cInitByArray key =
    (cLastLoop (cLastLoop^[621 + 1] (cKeyLoop key ((cKeyLoop key)^[621 + 1 + 1] ⟨cInitGenrand 19650218, 1, 0⟩)))).mt.put 0 0x80000000 := by
  unfold cInitByArray
  rw [max_eq_left h, iterate_split (cKeyLoop key) (show 624 = 621 + 1 + 1 + 1 by norm_num)]
  simp only
  rw [iterate_split cLastLoop (show 623 = 621 + 1 + 1 by norm_num)]

theorem mtInitByArray_eq {key : List Nat} (h0 : key ≠ []) (h : key.length ≤ 624) :
    mtInitByArray key = (List.range 624).map (cInitByArray key) := by
  rw [cInitByArray_eq h, List.range_eq_range', show (624 : Nat) = 621 + 1 + 1 + 1 by norm_num, ← mtFinish_eq h0 _ rfl]
  have hinit := mtInit_eq 19650218
  rw [show (624 : Nat) = 621 + 1 + 1 + 1 by norm_num, List.range'_succ, List.map_cons, Nat.zero_add] at hinit
  unfold mtInitByArray
  rw [hinit]
  generalize cInitGenrand 19650218 0 = first
  rw [show 621 + 2 = 621 + 1 + 1 from rfl]
  generalize (List.range' 1 (621 + 1 + 1)).map (cInitGenrand 19650218) = l
  unfold mtFinish
  rfl

end Verif
