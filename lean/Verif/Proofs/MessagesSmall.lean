import Mathlib.Tactic.IntervalCases
import Verif.Proofs.Messages

/-
What the messages of affinity propagation do: signs, isolated points, and the whole run on two and
on three points.
-/

namespace Verif

section
variable {κ : Type} [Field κ] [LinearOrder κ] [IsStrictOrderedRing κ]

/-- Availabilities are never positive, self-availabilities never negative. -/
def SignedAvail (n : Nat) (a : Nat → Nat → κ) : Prop :=
  (∀ i < n, ∀ k < n, i ≠ k → a i k ≤ 0) ∧ ∀ k < n, 0 ≤ a k k

theorem FreyDueck.signed {n : Nat} {s a r a' r' : Nat → Nat → κ} (h : FreyDueck n s a r a' r') (ha : SignedAvail n a) :
    SignedAvail n a' := by
  refine ⟨fun i hi k hk hik => ?_, fun k hk => ?_⟩
  · rw [h.avail i hi k hk hik]
    have h1 := ha.1 i hi k hk hik
    have h2 := min_le_left 0 (r' k k + ∑ j ∈ (Finset.range n).filter (fun j => j ≠ i ∧ j ≠ k), max 0 (r' j k))
    linarith
  · rw [h.self k hk]
    have h1 := ha.2 k hk
    have h2 : 0 ≤ ∑ j ∈ (Finset.range n).filter (fun j => j ≠ k), max 0 (r' j k) :=
      Finset.sum_nonneg fun j _ => le_max_left _ _
    linarith

/-- A point that prefers itself to any other point stays responsible for itself. -/
theorem FreyDueck.isolated {n : Nat} {s a r a' r' : Nat → Nat → κ} (h : FreyDueck n s a r a' r') (ha : SignedAvail n a)
    {k : Nat} (hk : k < n) (hs : ∀ j < n, j ≠ k → s k j < s k k) (hr : 0 ≤ r k k) : 0 < r' k k := by
  obtain ⟨y, ⟨⟨j, hj, hjk, rfl⟩, -⟩, e⟩ := h.resp k hk k hk
  rw [e]
  have h1 := ha.1 k hk j hj (Ne.symm hjk)
  have h2 := hs j hj hjk
  linarith

/-! ### Three points -/

theorem three_others {k l t : Nat} (hk : k < 3) (hl : l < 3) (ht : t < 3) (hkl : k ≠ l) (hkt : k ≠ t) (hlt : l ≠ t) :
    (Finset.range 3).filter (fun j => j ≠ k ∧ j ≠ l) = {t} ∧ (Finset.range 3).filter (fun j => j ≠ k) = {l, t} := by
  constructor <;>
  · ext j
    simp only [Finset.mem_filter, Finset.mem_range, Finset.mem_singleton, Finset.mem_insert]
    omega

theorem three_greatest {k l t : Nat} (hk : k < 3) (hl : l < 3) (ht : t < 3) (hkl : k ≠ l) (hkt : k ≠ t) (hlt : l ≠ t)
    {f : Nat → κ} {y : κ} (h : IsGreatest {v | ∃ k' < 3, k' ≠ k ∧ v = f k'} y) : y = max (f l) (f t) := by
  obtain ⟨⟨j, hj, hjk, rfl⟩, hub⟩ := h
  have h1 : f l ≤ f j := hub ⟨l, hl, Ne.symm hkl, rfl⟩
  have h2 : f t ≤ f j := hub ⟨t, ht, Ne.symm hkt, rfl⟩
  rcases (show j = l ∨ j = t by omega) with rfl | rfl
  · rw [max_eq_left h2]
  · rw [max_eq_right h1]

theorem FreyDueck.resp3 {s a r a' r' : Nat → Nat → κ} (h : FreyDueck 3 s a r a' r') (i : Nat) (hi : i < 3) {k l t : Nat}
    (hk : k < 3) (hl : l < 3) (ht : t < 3) (hkl : k ≠ l) (hkt : k ≠ t) (hlt : l ≠ t) :
    r' i k = (r i k + (s i k - max (a i l + s i l) (a i t + s i t))) / 2 := by
  obtain ⟨y, hy, e⟩ := h.resp i hi k hk
  rw [e, three_greatest hk hl ht hkl hkt hlt (f := fun k' => a i k' + s i k') hy]

theorem FreyDueck.avail3 {s a r a' r' : Nat → Nat → κ} (h : FreyDueck 3 s a r a' r') {i k t : Nat} (hi : i < 3)
    (hk : k < 3) (ht : t < 3) (hik : i ≠ k) (hit : i ≠ t) (hkt : k ≠ t) :
    a' i k = (a i k + min 0 (r' k k + max 0 (r' t k))) / 2 := by
  rw [h.avail i hi k hk hik, (three_others hi hk ht hik hit hkt).1, Finset.sum_singleton]

theorem FreyDueck.self3 {s a r a' r' : Nat → Nat → κ} (h : FreyDueck 3 s a r a' r') {k l t : Nat} (hk : k < 3)
    (hl : l < 3) (ht : t < 3) (hkl : k ≠ l) (hkt : k ≠ t) (hlt : l ≠ t) :
    a' k k = (a k k + (max 0 (r' l k) + max 0 (r' t k))) / 2 := by
  rw [h.self k hk, (three_others hk hl ht hkl hkt hlt).2, Finset.sum_pair hlt]

/-- The similarities of three points of which `k` and `l` are closest: `s k l` is the preference,
`s l k` is not smaller, all others are smaller. -/
structure ClosestPair (s : Nat → Nat → κ) (k l t : Nat) : Prop where
  hk : k < 3
  hl : l < 3
  ht : t < 3
  kl : k ≠ l
  kt : k ≠ t
  lt : l ≠ t
  selfL : s l l = s k k
  selfT : s t t = s k k
  pref : s k l = s k k
  back : s k k ≤ s l k
  farKT : s k t < s k k
  farTK : s t k < s k k
  farLT : s l t < s k k
  farTL : s t l < s k k

/-- The messages when the back similarity is greater than the preference. -/
structure PairState (a r : Nat → Nat → κ) (k l t : Nat) : Prop where
  signed : SignedAvail 3 a
  lk : a l k = 0
  ll : a l l = 0
  rkk : 0 ≤ r k k
  rkl : r k l ≤ 0
  rtl : r t l ≤ 0
  rtt : 0 ≤ r t t
  rll : r l l ≤ 0
  rlk : 0 ≤ r l k

theorem PairState.step {s a r a' r' : Nat → Nat → κ} (h : FreyDueck 3 s a r a' r') {k l t : Nat} (hs : ClosestPair s k l t)
    (hq : s k k < s l k) (hi : PairState a r k l t) :
    PairState a' r' k l t ∧ 0 < a' k k + r' k k ∧ a' l l + r' l l < 0 ∧ 0 < a' t t + r' t t := by
  obtain ⟨hk, hl, ht, kl, kt, lt, selfL, selfT, pref, -, farKT, farTK, farLT, farTL⟩ := hs
  obtain ⟨signed, lk, ll, rkk, rkl, rtl, rtt, rll, rlk⟩ := hi
  have hsg := h.signed signed
  have skl := signed.1 k hk l hl kl
  have skt := signed.1 k hk t ht kt
  have slt := signed.1 l hl t ht lt
  have stk := signed.1 t ht k hk kt.symm
  have stl := signed.1 t ht l hl lt.symm
  have skk := signed.2 k hk
  have stt := signed.2 t ht
  have e1 := h.resp3 k hk hk hl ht kl kt lt
  have e2 := h.resp3 l hl hl hk ht kl.symm lt kt
  have e3 := h.resp3 l hl hk hl ht kl kt lt
  have e4 := h.resp3 k hk hl hk ht kl.symm lt kt
  have e5 := h.resp3 t ht hl hk ht kl.symm lt kt
  have e6 := h.resp3 t ht ht hk hl kt.symm lt.symm kl
  have m1 : max (a k l + s k l) (a k t + s k t) ≤ s k k := max_le (by linarith) (by linarith)
  have m2 : s l k ≤ max (a l k + s l k) (a l t + s l t) := le_max_of_le_left (by linarith)
  have m3 : max (a l l + s l l) (a l t + s l t) ≤ s k k := max_le (by linarith) (by linarith)
  have m4 : s k k ≤ max (a k k + s k k) (a k t + s k t) := le_max_of_le_left (by linarith)
  have m5 : s k k ≤ max (a t k + s t k) (a t t + s t t) := le_max_of_le_right (by linarith)
  have m6 : max (a t k + s t k) (a t l + s t l) < s k k := max_lt (by linarith) (by linarith)
  have r1 : 0 ≤ r' k k := by rw [e1]; linarith
  have r2 : r' l l < 0 := by rw [e2]; linarith
  have r3 : 0 < r' l k := by rw [e3]; linarith
  have r4 : r' k l ≤ 0 := by rw [e4]; linarith
  have r5 : r' t l ≤ 0 := by rw [e5]; linarith
  have r6 : 0 < r' t t := by rw [e6]; linarith
  have a1 : a' l k = 0 := by
    rw [h.avail3 hl hk ht kl.symm lt kt, min_eq_left (add_nonneg r1 (le_max_left _ _)), lk]; simp
  have a2 : a' l l = 0 := by
    rw [h.self3 hl hk ht kl.symm lt kt, ll, max_eq_left r4, max_eq_left r5]; simp
  have a3 : 0 < a' k k := by
    rw [h.self3 hk hl ht kl kt lt]
    have := le_max_right 0 (r' l k)
    have := le_max_left 0 (r' t k)
    linarith
  have a4 := hsg.2 t ht
  exact ⟨⟨hsg, a1, a2, r1, r4, r5, r6.le, r2.le, r3.le⟩, by linarith, by linarith, by linarith⟩

/-- The messages when the closest pair is exactly as similar as the preference. -/
structure TieState (a r : Nat → Nat → κ) (k l t : Nat) : Prop where
  signed : SignedAvail 3 a
  lk : a l k = 0
  ll : a l l = 0
  kl : a k l = 0
  kk : a k k = 0
  rkk : r k k = 0
  rkl : r k l = 0
  rll : r l l = 0
  rlk : r l k = 0
  rtl : r t l ≤ 0
  rtk : r t k ≤ 0
  rtt : 0 ≤ r t t

theorem TieState.step {s a r a' r' : Nat → Nat → κ} (h : FreyDueck 3 s a r a' r') {k l t : Nat} (hs : ClosestPair s k l t)
    (hq : s l k = s k k) (hi : TieState a r k l t) :
    TieState a' r' k l t ∧ a' k k + r' k k = 0 ∧ a' l l + r' l l = 0 ∧ 0 < a' t t + r' t t := by
  obtain ⟨hk, hl, ht, kl, kt, lt, selfL, selfT, pref, -, farKT, farTK, farLT, farTL⟩ := hs
  obtain ⟨signed, alk, all, akl, akk, rkk, rkl, rll, rlk, rtl, rtk, rtt⟩ := hi
  have hsg := h.signed signed
  have skt := signed.1 k hk t ht kt
  have slt := signed.1 l hl t ht lt
  have stk := signed.1 t ht k hk kt.symm
  have stl := signed.1 t ht l hl lt.symm
  have stt := signed.2 t ht
  have e1 := h.resp3 k hk hk hl ht kl kt lt
  have e2 := h.resp3 l hl hl hk ht kl.symm lt kt
  have e3 := h.resp3 l hl hk hl ht kl kt lt
  have e4 := h.resp3 k hk hl hk ht kl.symm lt kt
  have e5 := h.resp3 t ht hl hk ht kl.symm lt kt
  have e6 := h.resp3 t ht ht hk hl kt.symm lt.symm kl
  have e7 := h.resp3 t ht hk hl ht kl kt lt
  have m1 : max (a k l + s k l) (a k t + s k t) = s k k := by rw [akl, zero_add, pref, max_eq_left (by linarith)]
  have m2 : max (a l k + s l k) (a l t + s l t) = s k k := by rw [alk, zero_add, hq, max_eq_left (by linarith)]
  have m3 : max (a l l + s l l) (a l t + s l t) = s k k := by rw [all, zero_add, selfL, max_eq_left (by linarith)]
  have m4 : max (a k k + s k k) (a k t + s k t) = s k k := by rw [akk, zero_add, max_eq_left (by linarith)]
  have m5 : s k k ≤ max (a t k + s t k) (a t t + s t t) := le_max_of_le_right (by linarith)
  have m6 : max (a t k + s t k) (a t l + s t l) < s k k := max_lt (by linarith) (by linarith)
  have m7 : s k k ≤ max (a t l + s t l) (a t t + s t t) := le_max_of_le_right (by linarith)
  have r1 : r' k k = 0 := by rw [e1, m1, rkk]; simp
  have r2 : r' l l = 0 := by rw [e2, m2, rll, selfL]; simp
  have r3 : r' l k = 0 := by rw [e3, m3, rlk, hq]; simp
  have r4 : r' k l = 0 := by rw [e4, m4, rkl, pref]; simp
  have r5 : r' t l ≤ 0 := by rw [e5]; linarith
  have r6 : 0 < r' t t := by rw [e6]; linarith
  have r7 : r' t k ≤ 0 := by rw [e7]; linarith
  have a1 : a' l k = 0 := by
    rw [h.avail3 hl hk ht kl.symm lt kt, r1, max_eq_left r7, alk]; simp
  have a2 : a' k l = 0 := by
    rw [h.avail3 hk hl ht kl kt lt, r2, max_eq_left r5, akl]; simp
  have a3 : a' l l = 0 := by
    rw [h.self3 hl hk ht kl.symm lt kt, all, r4, max_eq_left r5]; simp
  have a4 : a' k k = 0 := by
    rw [h.self3 hk hl ht kl kt lt, akk, r3, max_eq_left r7]; simp
  have a5 := hsg.2 t ht
  exact ⟨⟨hsg, a1, a3, a2, a4, r1, r4, r2, r3, r5, r7, r6.le⟩, by rw [a4, r1]; simp, by rw [a3, r2]; simp, by linarith⟩

end

end Verif
