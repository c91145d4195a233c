import Mathlib.Tactic.NormNum
import Mathlib.Tactic.Positivity
import Mathlib.Tactic.Ring
import Verif.Model.Twister
import Verif.Proofs.Random
import Verif.Spec.Sampling
import Verif.Spec.Clustering

/-
Lemmas on python's generator: words stay below 2^32, numbers below their bounds.
-/

namespace Verif

theorem strict_eq {β : Type} (x : Nat) (k : Nat → β) : strict x k = k x := by cases x <;> rfl

/-! ### StateWords -/

theorem word_eq : word = 2 ^ 32 := by decide

theorem mod_word (x : Nat) : x % word < word := Nat.mod_lt _ (by decide)

theorem upper_lt : 0x80000000 < word := by decide

theorem zero_lt_word : 0 < word := by decide

attribute [local irreducible] word

theorem mtInitFrom_ok : ∀ (n i prev : Nat) (acc : List Nat), (∀ w ∈ acc, w < word) →
    (mtInitFrom n i prev acc).length = n + acc.length ∧ ∀ w ∈ mtInitFrom n i prev acc, w < word
  | 0, _, _, acc, h => by simpa [mtInitFrom] using h
  | n + 1, i, prev, acc, h => by
    rw [mtInitFrom, strict_eq]
    obtain ⟨h1, h2⟩ := mtInitFrom_ok n (i + 1) ((1812433253 * mtMix prev + i) % word)
      ((1812433253 * mtMix prev + i) % word :: acc) (by
        intro w hw
        rcases List.mem_cons.1 hw with rfl | hw
        · exact mod_word _
        · exact h w hw)
    exact ⟨by rw [h1, List.length_cons]; omega, h2⟩

theorem mtInit_ok (s : Nat) : (mtInit s).length = 624 ∧ ∀ w ∈ mtInit s, w < word := by
  rw [mtInit, strict_eq]
  have := mtInitFrom_ok 623 1 (s % word) [s % word] (by
    intro w hw
    rw [List.mem_singleton] at hw
    rw [hw]; exact mod_word _)
  simpa using this

theorem mtPass_ok {f : Nat → Nat → Nat → Nat} (hf : ∀ i p x, f i p x < word) : ∀ (l : List Nat) (i prev : Nat) (acc : List Nat),
    (∀ w ∈ acc, w < word) → (mtPass f i prev l acc).length = l.length + acc.length ∧ ∀ w ∈ mtPass f i prev l acc, w < word
  | [], _, _, acc, h => by simpa [mtPass] using h
  | x :: l, i, prev, acc, h => by
    rw [mtPass, strict_eq]
    obtain ⟨h1, h2⟩ := mtPass_ok hf l (i + 1) (f i prev x) (f i prev x :: acc) (by
      intro w hw
      rcases List.mem_cons.1 hw with rfl | hw
      · exact hf _ _ _
      · exact h w hw)
    exact ⟨by rw [h1, List.length_cons, List.length_cons]; omega, h2⟩

theorem mtKeyStep_lt (key : List Nat) (j p x : Nat) : mtKeyStep key j p x < word := mod_word _

theorem mtLastStep_lt (i p x : Nat) : mtLastStep i p x < word := mod_word _

/-- The state has 624 words of 32 bits. -/
def StateWords (l : List Nat) : Prop := l.length = 624 ∧ ∀ w ∈ l, w < word

theorem mtInitByArray_words (key : List Nat) : StateWords (mtInitByArray key) := by
  obtain ⟨h1, -⟩ := mtInit_ok 19650218
  unfold mtInitByArray
  cases hi : mtInit 19650218 with
  | nil => rw [hi] at h1; cases h1
  | cons first l =>
    rw [hi, List.length_cons] at h1
    simp only
    obtain ⟨k1, k2⟩ := mtPass_ok (mtKeyStep_lt key) l 0 first [] (by simp)
    cases hp : mtPass (mtKeyStep key) 0 first l [] with
    | nil => rw [hp] at k1; simp at k1; omega
    | cons last back =>
      rw [hp] at k1
      simp only
      cases hr : (last :: back).reverse with
      | nil => simp at hr
      | cons x rest =>
        simp only [strict_eq]
        have hlen : rest.length = 622 := by
          have := congrArg List.length hr
          simp only [List.length_reverse, List.length_cons, List.length_nil] at this k1
          omega
        obtain ⟨q1, q2⟩ := mtPass_ok mtLastStep_lt rest 2 (mtKeyStep key 623 last x) [] (by simp)
        cases hq : mtPass mtLastStep 2 (mtKeyStep key 623 last x) rest [] with
        | nil => rw [hq] at q1; simp at q1; omega
        | cons last' back' =>
          rw [hq] at q1 q2
          simp only [StateWords]
          constructor
          · simp only [List.length_cons, List.length_reverse, List.length_nil] at q1 ⊢
            omega
          · intro w hw
            rcases List.mem_cons.1 hw with rfl | hw
            · exact upper_lt
            · rcases List.mem_cons.1 hw with rfl | hw
              · exact mtLastStep_lt _ _ _
              · exact q2 w (by simpa [or_comm] using hw)

theorem mtTwistWord_lt {a b c : Nat} (hc : c < word) : mtTwistWord a b c < word := by
  unfold mtTwistWord
  rw [word_eq] at *
  apply Nat.xor_lt_two_pow
  · apply Nat.xor_lt_two_pow hc
    have : (a &&& 0x80000000) ||| (b &&& 0x7fffffff) < 2 ^ 32 := by
      apply Nat.or_lt_two_pow
      · exact Nat.and_lt_two_pow _ (by norm_num)
      · exact Nat.and_lt_two_pow _ (by norm_num)
    rw [Nat.shiftRight_eq_div_pow]
    omega
  · split <;> norm_num

theorem mtTwistFrom_cons (a b c : Nat) (l far back : List Nat) : mtTwistFrom (a :: b :: l) (c :: far) back =
    strict (mtTwistWord a b c) fun v => mtTwistFrom (b :: l) far (v :: back) := rfl

theorem mtTwistFrom_wrap (a b : Nat) (l back : List Nat) : mtTwistFrom (a :: b :: l) [] back =
    strict (mtTwistWord a b ((mtAround back).getD 0 0)) fun v => mtTwistFrom (b :: l) (mtAround back).tail (v :: back) := rfl

theorem mtTwistFrom_last (a : Nat) (far back : List Nat) : mtTwistFrom [a] far back =
    strict (mtTwistWord a (back.reverse.getD 0 0) ((far ++ mtAround back).getD 0 0)) fun v => (v :: back).reverse := by
  cases far <;> rfl

theorem mtTwistFrom_nil (far back : List Nat) : mtTwistFrom [] far back = back.reverse := by
  cases far <;> rfl

theorem mtTwistFrom_ok : ∀ (l far back : List Nat), (∀ w ∈ far, w < word) → (∀ w ∈ back, w < word) →
    (mtTwistFrom l far back).length = l.length + back.length ∧ ∀ w ∈ mtTwistFrom l far back, w < word
  | a :: b :: l, c :: far, back, h1, h2 => by
    rw [mtTwistFrom_cons, strict_eq]
    obtain ⟨k1, k2⟩ := mtTwistFrom_ok (b :: l) far (mtTwistWord a b c :: back) (fun w hw => h1 w (by simp [hw])) (by
      intro w hw
      rcases List.mem_cons.1 hw with rfl | hw
      · exact mtTwistWord_lt (h1 c (by simp))
      · exact h2 w hw)
    exact ⟨by rw [k1]; simp only [List.length_cons]; omega, k2⟩
  | a :: b :: l, [], back, h1, h2 => by
    rw [mtTwistFrom_wrap, strict_eq]
    have hmem : ∀ w ∈ mtAround back, w < word := fun w hw => h2 w (by simpa using List.mem_of_mem_drop hw)
    have hlt : (mtAround back).getD 0 0 < word := by
      cases hd : mtAround back with
      | nil => exact zero_lt_word
      | cons c r => exact hmem c (by rw [hd]; simp)
    obtain ⟨k1, k2⟩ := mtTwistFrom_ok (b :: l) (mtAround back).tail (mtTwistWord a b ((mtAround back).getD 0 0) :: back)
      (fun w hw => hmem w (List.mem_of_mem_tail hw)) (by
        intro w hw
        rcases List.mem_cons.1 hw with rfl | hw
        · exact mtTwistWord_lt hlt
        · exact h2 w hw)
    exact ⟨by rw [k1]; simp only [List.length_cons]; omega, k2⟩
  | [a], far, back, h1, h2 => by
    rw [mtTwistFrom_last, strict_eq]
    constructor
    · simp; omega
    · intro w hw
      rw [List.mem_reverse] at hw
      rcases List.mem_cons.1 hw with rfl | hw
      · apply mtTwistWord_lt
        cases hd : far ++ mtAround back with
        | nil => exact zero_lt_word
        | cons c r =>
          have hc : c ∈ far ++ mtAround back := by rw [hd]; simp
          show c < word
          rcases List.mem_append.1 hc with hc | hc
          · exact h1 c hc
          · exact h2 c (by simpa using List.mem_of_mem_drop hc)
      · exact h2 w hw
  | [], far, back, h1, h2 => by
    rw [mtTwistFrom_nil]
    simpa using h2

theorem mtTwist_words {mt : List Nat} (h : StateWords mt) : StateWords (mtTwist mt) := by
  obtain ⟨h1, h2⟩ := h
  obtain ⟨k1, k2⟩ := mtTwistFrom_ok mt (mt.drop 397) [] (fun w hw => h2 w (List.mem_of_mem_drop hw)) (by simp)
  exact ⟨by rw [mtTwist, k1, h1]; rfl, k2⟩

theorem mtTemper_lt {y : Nat} (h : y < word) : mtTemper y < word := by
  unfold mtTemper
  rw [word_eq] at *
  have sr : ∀ {x k : Nat}, x < 2 ^ 32 → x >>> k < 2 ^ 32 := fun {x k} hx => by
    rw [Nat.shiftRight_eq_div_pow]; exact Nat.lt_of_le_of_lt (Nat.div_le_self _ _) hx
  have h1 := Nat.xor_lt_two_pow h (sr (k := 11) h)
  have h2 := Nat.xor_lt_two_pow h1 (Nat.and_lt_two_pow ((y ^^^ (y >>> 11)) <<< 7) (show 0x9d2c5680 < 2 ^ 32 by norm_num))
  have h3 := Nat.xor_lt_two_pow h2 (Nat.and_lt_two_pow
    (((y ^^^ (y >>> 11)) ^^^ (((y ^^^ (y >>> 11)) <<< 7) &&& 0x9d2c5680)) <<< 15) (show 0xefc60000 < 2 ^ 32 by norm_num))
  exact Nat.xor_lt_two_pow h3 (sr (k := 18) h3)

theorem next_ok {s : Twister} (h : StateWords s.mt) : s.next.1 < word ∧ StateWords s.next.2.mt := by
  unfold Twister.next
  split
  · have hw := mtTwist_words h
    cases ht : mtTwist s.mt with
    | nil => rw [ht] at hw; cases hw.1
    | cons w l =>
      rw [ht] at hw
      exact ⟨mtTemper_lt (hw.2 w (by simp)), hw⟩
  · rename_i hp
    refine ⟨mtTemper_lt ?_, h⟩
    have : s.pos < s.mt.length := by rw [h.1]; omega
    rw [List.getD_eq_getElem?_getD, List.getElem?_eq_getElem this]
    exact h.2 _ (List.getElem_mem this)

theorem bits_ok (k : Nat) {s : Twister} (h : StateWords s.mt) : (Twister.bits k s).1 < 2 ^ k ∧ StateWords (Twister.bits k s).2.mt := by
  induction k using Nat.strong_induction_on generalizing s with
  | _ k ih =>
    rw [Twister.bits]
    obtain ⟨h1, h2⟩ := next_ok h
    split
    · rename_i hk; subst hk; exact ⟨by simp, h⟩
    · split
      · rename_i hk0 hk
        refine ⟨?_, h2⟩
        show s.next.1 >>> (32 - k) < 2 ^ k
        rw [Nat.shiftRight_eq_div_pow, Nat.div_lt_iff_lt_mul (by positivity), ← pow_add]
        rw [word_eq] at h1
        have : k + (32 - k) = 32 := by omega
        rw [this]; exact h1
      · rename_i hk0 hk
        obtain ⟨k1, k2⟩ := ih (k - 32) (by omega) h2
        refine ⟨?_, k2⟩
        show s.next.1 + word * (Twister.bits (k - 32) s.next.2).1 < 2 ^ k
        have e : (2 : Nat) ^ k = word * 2 ^ (k - 32) := by
          rw [word_eq, ← pow_add]; congr 1; omega
        rw [e]
        generalize (Twister.bits (k - 32) s.next.2).1 = r at *
        calc s.next.1 + word * r < word + word * r := by omega
          _ = word * (r + 1) := by ring
          _ ≤ word * 2 ^ (k - 32) := Nat.mul_le_mul_left _ k1

theorem words_iff {l : List Nat} : StateWords l ↔ l.length = 624 ∧ ∀ w ∈ l, w < 2 ^ 32 := by
  unfold StateWords
  rw [word_eq]

theorem seed_words (z : Int) : StateWords (mtRng.seed z).mt := mtInitByArray_words _

theorem fromOS_words (os : List Nat) : StateWords (mtRng.fromOS os).mt := mtInitByArray_words _

theorem rng_bits_ok (k : Nat) {s : Twister} (h : StateWords s.mt) : (mtRng.bits k s).1 < 2 ^ k ∧ StateWords (mtRng.bits k s).2.mt := bits_ok k h

/-! ### Numbers drawn -/

section
variable {S : Type} {R : Rng S}

theorem randBelow_lt {fuel n : Nat} {s s' : S} {r : Nat} (h : randBelow R fuel n s = .ok (r, s')) : r < n := by
  induction fuel generalizing s with
  | zero => cases h
  | succ f ih =>
    rw [randBelow] at h
    split at h
    · rename_i hr
      simp only [Except.ok.injEq] at h
      rw [h] at hr
      exact hr
    · exact ih h

theorem randBelow_error {fuel n : Nat} {s : S} {e : PyErr} (h : randBelow R fuel n s = .error e) : e = .outOfFuel := by
  induction fuel generalizing s with
  | zero => cases h; rfl
  | succ f ih =>
    rw [randBelow] at h
    split at h
    · cases h
    · exact ih h

theorem shuffleNumbers_ok {fuel : Nat} : ∀ {i : Nat} {s s' : S} {js : List Nat}, shuffleNumbers R fuel i s = .ok (js, s') →
    js.length = i ∧ ∀ t j, js[t]? = some j → j < i + 1 - t
  | 0, s, s', js, h => by cases h; simp
  | i + 1, s, s', js, h => by
    rw [shuffleNumbers] at h
    cases h1 : randBelow R fuel (i + 2) s with
    | error e => rw [h1] at h; cases h
    | ok p =>
    obtain ⟨j, s1⟩ := p
    rw [h1] at h
    simp only [bind, Except.bind] at h
    cases h2 : shuffleNumbers R fuel i s1 with
    | error e => rw [h2] at h; cases h
    | ok q =>
    obtain ⟨js', s2⟩ := q
    rw [h2] at h
    cases h
    obtain ⟨k1, k2⟩ := shuffleNumbers_ok h2
    refine ⟨by simp [k1], ?_⟩
    intro t j' ht
    cases t with
    | zero =>
      simp only [List.getElem?_cons_zero, Option.some.injEq] at ht
      subst ht
      exact randBelow_lt h1
    | succ t =>
      rw [List.getElem?_cons_succ] at ht
      have := k2 t j' ht
      omega

theorem shuffleNumbers_error {fuel : Nat} : ∀ {i : Nat} {s : S} {e : PyErr}, shuffleNumbers R fuel i s = .error e → e = .outOfFuel
  | 0, s, e, h => by cases h
  | i + 1, s, e, h => by
    rw [shuffleNumbers] at h
    cases h1 : randBelow R fuel (i + 2) s with
    | error e' => rw [h1] at h; cases h; exact randBelow_error h1
    | ok p =>
    obtain ⟨j, s1⟩ := p
    rw [h1] at h
    simp only [bind, Except.bind] at h
    cases h2 : shuffleNumbers R fuel i s1 with
    | error e' => rw [h2] at h; cases h; exact shuffleNumbers_error h2
    | ok q => rw [h2] at h; cases h

theorem poolNumbers_ok {fuel : Nat} : ∀ {k n : Nat} {s s' : S} {js : List Nat}, poolNumbers R fuel n k s = .ok (js, s') →
    js.length = k ∧ ∀ t j, js[t]? = some j → j < n - t
  | 0, n, s, s', js, h => by cases h; simp
  | k + 1, n, s, s', js, h => by
    rw [poolNumbers] at h
    cases h1 : randBelow R fuel n s with
    | error e => rw [h1] at h; cases h
    | ok p =>
    obtain ⟨j, s1⟩ := p
    rw [h1] at h
    simp only [bind, Except.bind] at h
    cases h2 : poolNumbers R fuel (n - 1) k s1 with
    | error e => rw [h2] at h; cases h
    | ok q =>
    obtain ⟨js', s2⟩ := q
    rw [h2] at h
    cases h
    obtain ⟨k1, k2⟩ := poolNumbers_ok h2
    refine ⟨by simp [k1], ?_⟩
    intro t j' ht
    cases t with
    | zero =>
      simp only [List.getElem?_cons_zero, Option.some.injEq] at ht
      subst ht
      exact randBelow_lt h1
    | succ t =>
      rw [List.getElem?_cons_succ] at ht
      have := k2 t j' ht
      omega

theorem poolNumbers_error {fuel : Nat} : ∀ {k n : Nat} {s : S} {e : PyErr}, poolNumbers R fuel n k s = .error e → e = .outOfFuel
  | 0, n, s, e, h => by cases h
  | k + 1, n, s, e, h => by
    rw [poolNumbers] at h
    cases h1 : randBelow R fuel n s with
    | error e' => rw [h1] at h; cases h; exact randBelow_error h1
    | ok p =>
    obtain ⟨j, s1⟩ := p
    rw [h1] at h
    simp only [bind, Except.bind] at h
    cases h2 : poolNumbers R fuel (n - 1) k s1 with
    | error e' => rw [h2] at h; cases h; exact poolNumbers_error h2
    | ok q => rw [h2] at h; cases h

theorem newBelow_ok {fuel n : Nat} {sel : List Nat} : ∀ {f : Nat} {s s' : S} {j : Nat}, newBelow R fuel n sel f s = .ok (j, s') → j < n ∧ j ∉ sel
  | 0, s, s', j, h => by cases h
  | f + 1, s, s', j, h => by
    rw [newBelow] at h
    cases h1 : randBelow R fuel n s with
    | error e => rw [h1] at h; cases h
    | ok p =>
    obtain ⟨j1, s1⟩ := p
    rw [h1] at h
    simp only [bind, Except.bind] at h
    split at h
    · exact newBelow_ok h
    · rename_i hn
      cases h
      exact ⟨randBelow_lt h1, hn⟩

theorem newBelow_error {fuel n : Nat} {sel : List Nat} : ∀ {f : Nat} {s : S} {e : PyErr}, newBelow R fuel n sel f s = .error e → e = .outOfFuel
  | 0, s, e, h => by cases h; rfl
  | f + 1, s, e, h => by
    rw [newBelow] at h
    cases h1 : randBelow R fuel n s with
    | error e' => rw [h1] at h; cases h; exact randBelow_error h1
    | ok p =>
    obtain ⟨j1, s1⟩ := p
    rw [h1] at h
    simp only [bind, Except.bind] at h
    split at h
    · exact newBelow_error h
    · cases h

theorem setNumbers_ok {fuel n : Nat} : ∀ {k : Nat} {sel : List Nat} {s s' : S} {js : List Nat}, setNumbers R fuel n sel k s = .ok (js, s') →
    js.length = k ∧ js.Nodup ∧ ∀ j ∈ js, j < n ∧ j ∉ sel
  | 0, sel, s, s', js, h => by cases h; simp
  | k + 1, sel, s, s', js, h => by
    rw [setNumbers] at h
    cases h1 : newBelow R fuel n sel fuel s with
    | error e => rw [h1] at h; cases h
    | ok p =>
    obtain ⟨j, s1⟩ := p
    rw [h1] at h
    simp only [bind, Except.bind] at h
    cases h2 : setNumbers R fuel n (j :: sel) k s1 with
    | error e => rw [h2] at h; cases h
    | ok q =>
    obtain ⟨js', s2⟩ := q
    rw [h2] at h
    cases h
    obtain ⟨k1, k2, k3⟩ := setNumbers_ok h2
    refine ⟨by simp [k1], List.nodup_cons.2 ⟨fun hj => (k3 j hj).2 (by simp), k2⟩, ?_⟩
    intro j' hj'
    rcases List.mem_cons.1 hj' with rfl | hj'
    · exact newBelow_ok h1
    · exact ⟨(k3 j' hj').1, fun hm => (k3 j' hj').2 (by simp [hm])⟩

theorem setNumbers_error {fuel n : Nat} : ∀ {k : Nat} {sel : List Nat} {s : S} {e : PyErr}, setNumbers R fuel n sel k s = .error e → e = .outOfFuel
  | 0, sel, s, e, h => by cases h
  | k + 1, sel, s, e, h => by
    rw [setNumbers] at h
    cases h1 : newBelow R fuel n sel fuel s with
    | error e' => rw [h1] at h; cases h; exact newBelow_error h1
    | ok p =>
    obtain ⟨j, s1⟩ := p
    rw [h1] at h
    simp only [bind, Except.bind] at h
    cases h2 : setNumbers R fuel n (j :: sel) k s1 with
    | error e' => rw [h2] at h; cases h; exact setNumbers_error h2
    | ok q => rw [h2] at h; cases h

theorem sampleNumbers_ok {fuel n k : Nat} {s s' : S} {js : List Nat} (h : sampleNumbers R fuel n k s = .ok (js, s')) :
    SampleDraws (decide (n ≤ setSize k)) n k js := by
  unfold sampleNumbers at h
  unfold SampleDraws
  split at h
  · rename_i hn
    obtain ⟨k1, k2⟩ := poolNumbers_ok h
    exact ⟨k1, by simpa [hn] using k2⟩
  · rename_i hn
    obtain ⟨k1, k2, k3⟩ := setNumbers_ok h
    refine ⟨k1, ?_⟩
    rw [if_neg (by simpa using hn)]
    exact ⟨k2, fun j hj => (k3 j hj).1⟩

theorem sampleNumbers_error {fuel n k : Nat} {s : S} {e : PyErr} (h : sampleNumbers R fuel n k s = .error e) : e = .outOfFuel := by
  unfold sampleNumbers at h
  split at h
  · exact poolNumbers_error h
  · exact setNumbers_error h

variable {ι : Type}

/-- `random.sample` and its numbers. -/
theorem rngSample_eq {fuel : Nat} {l : List ι} {k : Nat} (hk : k ≤ l.length) (s : S) :
    (∃ js s', sampleNumbers R fuel l.length k s = .ok (js, s') ∧ SampleDraws (decide (l.length ≤ setSize k)) l.length k js ∧
      ∃ r, rngSample R fuel l k s = .ok (r, s') ∧ pySample (decide (l.length ≤ setSize k)) js l = .ok r) ∨
    rngSample R fuel l k s = .error .outOfFuel := by
  unfold rngSample
  rw [if_neg (by omega)]
  cases h : sampleNumbers R fuel l.length k s with
  | error e => right; rw [sampleNumbers_error h]; rfl
  | ok p =>
    obtain ⟨js, s'⟩ := p
    left
    have hd := sampleNumbers_ok h
    obtain ⟨r, hr, -⟩ := pySample_perm hk hd
    refine ⟨js, s', rfl, hd, r, ?_, hr⟩
    simp only [bind, Except.bind, hr]
    rfl

theorem rngShuffle_eq {fuel : Nat} (l : List ι) (s : S) :
    (∃ js s', shuffleNumbers R fuel (l.length - 1) s = .ok (js, s') ∧ ShuffleDraws l.length js ∧
      ∃ r, rngShuffle R fuel l s = .ok (r, s') ∧ pyShuffle js l = .ok r) ∨
    rngShuffle R fuel l s = .error .outOfFuel := by
  unfold rngShuffle
  cases h : shuffleNumbers R fuel (l.length - 1) s with
  | error e => right; rw [shuffleNumbers_error h]; rfl
  | ok p =>
    obtain ⟨js, s'⟩ := p
    left
    obtain ⟨h1, h2⟩ := shuffleNumbers_ok h
    have hd : ShuffleDraws l.length js := by
      refine ⟨h1, fun i j hj => ?_⟩
      have := h2 i j hj
      have hi : i < js.length := by
        by_contra hn
        rw [List.getElem?_eq_none (by omega)] at hj
        cases hj
      omega
    obtain ⟨r, hr, -⟩ := pyShuffle_perm hd
    refine ⟨js, s', rfl, hd, r, ?_, hr⟩
    simp only [bind, Except.bind, hr]
    rfl

end

end Verif
