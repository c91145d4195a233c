import Verif.Model.FloatAp
import Verif.Proofs.ApMargin

/-
Lemmas for C129: affinity propagation in binary64.
-/

namespace Verif

section
variable {κ : Type} [Field κ] [LinearOrder κ] [IsStrictOrderedRing κ]

/-- One rounded operation: from an operand with error `e` and size `b`. -/
theorem rnd_step {rnd : κ → κ} {ε : κ} (hr : ∀ a, |rnd a - a| ≤ ε * |a|) (hε : 0 ≤ ε) {x y e b : κ} (h : |y - x| ≤ e) (hb : |y| ≤ b) :
    |rnd y - x| ≤ e + ε * b := by
  have h1 := abs_le.1 ((hr y).trans (mul_le_mul_of_nonneg_left hb hε))
  have h2 := abs_le.1 h
  rw [abs_le]
  constructor <;> linarith

theorem abs_rnd {rnd : κ → κ} {ε : κ} (hr : ∀ a, |rnd a - a| ≤ ε * |a|) (hε : 0 ≤ ε) (h1 : ε ≤ 1) {y b : κ} (hb : |y| ≤ b) : |rnd y| ≤ 2 * b := by
  have h2 := abs_le.1 ((hr y).trans ((mul_le_mul_of_nonneg_left hb hε).trans (mul_le_of_le_one_left ((abs_nonneg _).trans hb) h1)))
  have h3 := abs_le.1 hb
  rw [abs_le]
  constructor <;> linarith

theorem apRespTmp_ok {rnd : κ → κ} {n : Nat} (hn : 2 ≤ n) (S A : Mat κ) (i : Nat) (hi : i < n) {k : Nat} (hk : k < n) :
    ∃ y, IsGreatest {v | ∃ k', (k' < n ∧ k' ≠ k) ∧ v = rnd (entry A i k' + entry S i k')} y ∧
      (apRespTmp rnd n S A i)[k]? = some (rnd (entry S i k - y)) := by
  let A' : Mat κ := tabulate n fun i k => rnd (entry A i k + entry S i k) - entry S i k
  have ht : apSums n S A' i = (List.range n).map fun k => rnd (entry A i k + entry S i k) := by
    unfold apSums
    refine List.map_congr_left fun k hk => ?_
    rw [entry_tabulate hi (List.mem_range.1 hk)]
    ring
  have e : apRespTmp rnd n S A i = (apRespNew n S A' i).map rnd := by
    unfold apRespTmp apRespNew
    dsimp only
    rw [ht, List.map_map]
    refine List.map_congr_left fun k _ => ?_
    simp only [Function.comp]
    split_ifs <;> rfl
  obtain ⟨y, hy, hv⟩ := apRespNew_ok hn S A' i hk
  refine ⟨y, ?_, by rw [e, List.getElem?_map, hv]; rfl⟩
  have hset : {v | ∃ k' < n, k' ≠ k ∧ v = entry A' i k' + entry S i k'} = {v | ∃ k', (k' < n ∧ k' ≠ k) ∧ v = rnd (entry A i k' + entry S i k')} := by
    ext v
    constructor
    · rintro ⟨k', h1, h2, rfl⟩
      exact ⟨k', ⟨h1, h2⟩, by rw [entry_tabulate hi h1]; ring⟩
    · rintro ⟨k', ⟨h1, h2⟩, rfl⟩
      exact ⟨k', h1, h2, by rw [entry_tabulate hi h1]; ring⟩
  rw [hset] at hy
  exact hy

theorem entry_rows {n : Nat} {f : Nat → List κ} {i k : Nat} (hi : i < n) {v : κ} (hv : (f i)[k]? = some v) : entry ((List.range n).map f) i k = v := by
  unfold entry mget?
  rw [List.getElem?_map, List.getElem?_range hi]
  simp [hv]

/-- The rounded responsibilities. -/
theorem apRespRnd_near {rnd : κ → κ} {ε : κ} (hr : ∀ a, |rnd a - a| ≤ ε * |a|) (hε : 0 ≤ ε) (h1 : ε ≤ 1) {n : Nat} (hn : 2 ≤ n) {B : κ}
    {S A R : Mat κ} (hB : ∀ i < n, ∀ k < n, |entry S i k| ≤ B ∧ |entry A i k| ≤ B ∧ |entry R i k| ≤ B) {i k : Nat} (hi : i < n) (hk : k < n) :
    |entry (apRespRnd rnd n S A R) i k - entry (apResp n S A R) i k| ≤ 20 * (ε * B) ∧ |entry (apResp n S A R) i k| ≤ 2 * B := by
  have hB0 : 0 ≤ B := (abs_nonneg _).trans (hB i hi k hk).1
  have hεB : 0 ≤ ε * B := mul_nonneg hε hB0
  have hεB1 : ε * B ≤ B := mul_le_of_le_one_left hB0 h1
  obtain ⟨y, hy, hv⟩ := apRespNew_ok hn S A i hk
  obtain ⟨y', hy', hv'⟩ := apRespTmp_ok (rnd := rnd) hn S A i hi hk
  unfold apRespRnd apResp
  dsimp only
  rw [entry_tabulate hi hk, entry_tabulate hi hk, entry_rows hi hv, entry_rows hi hv']
  have hd : (1 - apDamping : κ) = 1 / 2 := by unfold apDamping; ring
  have hd' : (apDamping : κ) = 1 / 2 := rfl
  rw [hd, hd']
  obtain ⟨hS, hA, hR⟩ := hB i hi k hk
  have hsum : ∀ k', k' < n → |entry A i k' + entry S i k'| ≤ 2 * B := fun k' hk' => by
    have a := abs_le.1 (hB i hi k' hk').1
    have b := abs_le.1 (hB i hi k' hk').2.1
    rw [abs_le]
    constructor <;> linarith
  have hyy : |y' - y| ≤ 2 * (ε * B) := by
    refine greatest_near (P := fun k' => k' < n ∧ k' ≠ k) (f := fun k' => entry A i k' + entry S i k') (fun k' hk' => ?_)
      (by simpa only [and_assoc] using hy) hy'
    refine (hr _).trans ((mul_le_mul_of_nonneg_left (hsum k' hk'.1) hε).trans (le_of_eq (by ring)))
  have hyb : |y| ≤ 2 * B := by
    obtain ⟨k', h1, -, rfl⟩ := hy.1
    exact hsum k' h1
  have aS := abs_le.1 hS
  have aA := abs_le.1 hA
  have aR := abs_le.1 hR
  have ay := abs_le.1 hyb
  have ayy := abs_le.1 hyy
  -- line 393
  have hb1 : |entry S i k - y'| ≤ 5 * B := by rw [abs_le]; constructor <;> linarith
  have s1 : |rnd (entry S i k - y') - (entry S i k - y)| ≤ 7 * (ε * B) := by
    have := rnd_step hr hε (x := entry S i k - y) (e := 2 * (ε * B)) (by rw [abs_le]; constructor <;> linarith) hb1
    linarith
  have a1 := abs_le.1 s1
  -- line 397
  have hb2 : |rnd (entry S i k - y') * (1 / 2)| ≤ 5 * B := by
    rw [abs_le]; constructor <;> linarith
  have s2 := rnd_step hr hε (x := (entry S i k - y) * (1 / 2)) (e := 7 / 2 * (ε * B)) (by rw [abs_le]; constructor <;> linarith) hb2
  -- line 398
  have hb3 : |entry R i k * (1 / 2)| ≤ 1 / 2 * B := by rw [abs_le]; constructor <;> linarith
  have s3 := rnd_step hr hε (x := entry R i k * (1 / 2)) (e := 0) (by simp) hb3
  have a2 := abs_le.1 s2
  have a3 := abs_le.1 s3
  -- line 399
  have a2' := abs_le.1 (abs_rnd hr hε h1 hb2)
  have a3' := abs_le.1 (abs_rnd hr hε h1 hb3)
  have hb4 : |rnd (entry R i k * (1 / 2)) + rnd (rnd (entry S i k - y') * (1 / 2))| ≤ 11 * B := by
    rw [abs_le]; constructor <;> linarith
  have s4 := rnd_step hr hε (x := entry R i k * (1 / 2) + (entry S i k - y) * (1 / 2)) (e := 9 * (ε * B))
    (by rw [abs_le]; constructor <;> linarith) hb4
  refine ⟨by linarith, ?_⟩
  rw [abs_le]
  constructor <;> linarith

theorem abs_apRp {R : Mat κ} {i k : Nat} {b : κ} (h : |entry R i k| ≤ b) : |apRp R i k| ≤ b := by
  have hb : 0 ≤ b := (abs_nonneg _).trans h
  unfold apRp
  split_ifs
  · exact h
  · rw [abs_le] at h ⊢
    exact ⟨le_trans (by linarith) (le_max_right _ _), max_le h.2 hb⟩

theorem sum_abs_le {l : List κ} {b : κ} (h : ∀ a ∈ l, |a| ≤ b) : (l.map fun a => |a|).sum ≤ l.length * b ∧ |l.sum| ≤ l.length * b := by
  induction l with
  | nil => simp
  | cons a l ih =>
    obtain ⟨h1, h2⟩ := ih fun c hc => h c (List.mem_cons_of_mem _ hc)
    have h3 := h a List.mem_cons_self
    simp only [List.map_cons, List.sum_cons, List.length_cons]
    push_cast
    refine ⟨by linarith, ?_⟩
    rw [abs_le] at h2 h3 ⊢
    constructor <;> linarith

/-- The rounded availabilities, for the same responsibilities. -/
theorem apAvailRnd_near {rnd : κ → κ} {ε ρ : κ} (hr : ∀ a, |rnd a - a| ≤ ε * |a|) (hε : 0 ≤ ε) (h1 : ε ≤ 1) {sum : List κ → κ} {n : Nat}
    (hsum : ∀ l, l.length ≤ n → |sum l - l.sum| ≤ ρ * (l.map fun a => |a|).sum) (hρ : 0 ≤ ρ) (hρ1 : ρ ≤ 1) {B : κ} (hn : 1 ≤ n)
    {A R : Mat κ} (hB : ∀ i < n, ∀ k < n, |entry A i k| ≤ B ∧ |entry R i k| ≤ 22 * B) {i k : Nat} (hi : i < n) (hk : k < n) :
    |entry (apAvailRnd rnd sum n A R) i k - entry (apAvail n A R) i k| ≤ 240 * (n * B * (ε + ρ)) := by
  have hB0 : 0 ≤ B := (abs_nonneg _).trans (hB i hi k hk).1
  have hn1 : (1 : κ) ≤ n := by exact_mod_cast hn
  have hnB : B ≤ n * B := le_mul_of_one_le_left hB0 hn1
  have hnB0 : 0 ≤ n * B := hB0.trans hnB
  have eB0 : 0 ≤ n * B * ε := mul_nonneg hnB0 hε
  have rB0 : 0 ≤ n * B * ρ := mul_nonneg hnB0 hρ
  have eB : ε * B ≤ n * B * ε := by rw [mul_comm ε B]; exact mul_le_mul_of_nonneg_right hnB hε
  have eB1 : n * B * ε ≤ n * B := mul_le_of_le_one_right hnB0 h1
  have rB1 : n * B * ρ ≤ n * B := mul_le_of_le_one_right hnB0 hρ1
  unfold apAvailRnd apAvail
  dsimp only
  rw [entry_tabulate hi hk, entry_tabulate hi hk]
  have hd : (1 - apDamping : κ) = 1 / 2 := by unfold apDamping; ring
  have hd' : (apDamping : κ) = 1 / 2 := rfl
  rw [hd, hd']
  set l : List κ := (List.range n).map fun i => apRp R i k with hl
  have hlen : l.length = n := by simp [hl]
  obtain ⟨q1, q2⟩ := sum_abs_le (l := l) (b := 22 * B) fun a ha => by
    obtain ⟨j, hj, rfl⟩ := List.mem_map.1 ha
    exact abs_apRp (hB j (List.mem_range.1 hj) k hk).2
  rw [hlen] at q1 q2
  have hs : |sum l - l.sum| ≤ 22 * (n * B * ρ) := by
    refine (hsum l (by omega)).trans ((mul_le_mul_of_nonneg_left q1 hρ).trans (le_of_eq (by ring)))
  have hp := abs_le.1 (abs_apRp (hB i hi k hk).2)
  have as := abs_le.1 hs
  have aq := abs_le.1 q2
  -- line 406
  have hb1 : |apRp R i k - sum l| ≤ 66 * (n * B) := by rw [abs_le]; constructor <;> linarith
  have s1 : |rnd (apRp R i k - sum l) - (apRp R i k - l.sum)| ≤ 22 * (n * B * ρ) + 66 * (n * B * ε) := by
    have := rnd_step hr hε (x := apRp R i k - l.sum) (e := 22 * (n * B * ρ)) (by rw [abs_le]; constructor <;> linarith) hb1
    linarith
  have s1' := abs_rnd hr hε h1 hb1
  -- lines 407-409
  have e1 : entry (apAvailTmp rnd sum n R) i k = if i = k then rnd (apRp R i k - sum l) else max (rnd (apRp R i k - sum l)) 0 := by
    unfold apAvailTmp
    dsimp only
    rw [entry_tabulate hi hk, List.getElem?_map, List.getElem?_range hk]
    rfl
  have e2 : entry (apAvailNew n R) i k = if i = k then apRp R i k - l.sum else max (apRp R i k - l.sum) 0 := by
    unfold apAvailNew
    dsimp only
    rw [entry_tabulate hi hk, List.getElem?_map, List.getElem?_range hk]
    rfl
  have s2 : |entry (apAvailTmp rnd sum n R) i k - entry (apAvailNew n R) i k| ≤ 22 * (n * B * ρ) + 66 * (n * B * ε) := by
    rw [e1, e2]
    split_ifs
    · exact s1
    · rw [max_comm, max_comm (apRp R i k - l.sum)]
      exact max_near s1
  have s2' : |entry (apAvailTmp rnd sum n R) i k| ≤ 132 * (n * B) := by
    rw [e1]
    have a := abs_le.1 s1'
    split_ifs
    · rw [abs_le]; constructor <;> linarith
    · rw [abs_le]
      exact ⟨le_trans (by linarith) (le_max_right _ _), max_le (by linarith) (by linarith)⟩
  -- line 412
  have a2 := abs_le.1 s2
  have a2' := abs_le.1 s2'
  have hb3 : |entry (apAvailTmp rnd sum n R) i k * (1 / 2)| ≤ 66 * (n * B) := by rw [abs_le]; constructor <;> linarith
  have s3 := rnd_step hr hε (x := entry (apAvailNew n R) i k * (1 / 2)) (e := 11 * (n * B * ρ) + 33 * (n * B * ε))
    (by rw [abs_le]; constructor <;> linarith) hb3
  -- line 413
  have aA := abs_le.1 (hB i hi k hk).1
  have hb4 : |entry A i k * (1 / 2)| ≤ 1 / 2 * (n * B) := by rw [abs_le]; constructor <;> linarith
  have s4 := rnd_step hr hε (x := entry A i k * (1 / 2)) (e := 0) (by simp) hb4
  -- line 414
  have a3 := abs_le.1 s3
  have a4 := abs_le.1 s4
  have a3' := abs_le.1 (abs_rnd hr hε h1 hb3)
  have a4' := abs_le.1 (abs_rnd hr hε h1 hb4)
  have hb5 : |rnd (entry A i k * (1 / 2)) - rnd (entry (apAvailTmp rnd sum n R) i k * (1 / 2))| ≤ 133 * (n * B) := by
    rw [abs_le]; constructor <;> linarith
  have s5 := rnd_step hr hε (x := entry A i k * (1 / 2) - entry (apAvailNew n R) i k * (1 / 2))
    (e := 11 * (n * B * ρ) + 100 * (n * B * ε)) (by rw [abs_le]; constructor <;> linarith) hb5
  have e3 : (n : κ) * B * (ε + ρ) = n * B * ε + n * B * ρ := by ring
  rw [e3]
  linarith

/-- The exact availabilities depend on the responsibilities continuously. -/
theorem apAvail_near {n : Nat} {A R R' : Mat κ} {e : κ} (h : ∀ i < n, ∀ k < n, |entry R' i k - entry R i k| ≤ e) {i k : Nat} (hi : i < n)
    (hk : k < n) : |entry (apAvail n A R') i k - entry (apAvail n A R) i k| ≤ n * e / 2 := by
  have he : 0 ≤ e := (abs_nonneg _).trans (h i hi k hk)
  unfold apAvail
  dsimp only
  rw [entry_tabulate hi hk, entry_tabulate hi hk, entry_apAvailNew R' hi hk, entry_apAvailNew R hi hk]
  have hd : (1 - apDamping : κ) = 1 / 2 := by unfold apDamping; ring
  rw [hd]
  by_cases hik : i = k
  · subst hik
    rw [if_pos rfl, if_pos rfl]
    have hs := abs_le.1 (sum_near he (n := n) (F := (Finset.range n).filter (fun j => j ≠ i)) (by
      have : ((Finset.range n).filter (fun j => j ≠ i)).card < (Finset.range n).card :=
        Finset.card_lt_card (Finset.filter_ssubset.2 ⟨i, Finset.mem_range.2 hi, by simp⟩)
      rw [Finset.card_range] at this
      omega) (f := fun j => entry R j i) (f' := fun j => entry R' j i) fun j hj => h j (Finset.mem_range.1 (Finset.mem_filter.1 hj).1) i hi)
    rw [abs_le]
    constructor <;> linarith
  · rw [if_neg hik, if_neg hik]
    have hs := abs_le.1 (sum_near he (n := n) (F := (Finset.range n).filter (fun j => j ≠ i ∧ j ≠ k)) (by
      have : ((Finset.range n).filter (fun j => j ≠ i ∧ j ≠ k)).card < (Finset.range n).card :=
        Finset.card_lt_card (Finset.filter_ssubset.2 ⟨i, Finset.mem_range.2 hi, by simp⟩)
      rw [Finset.card_range] at this
      omega) (f := fun j => entry R j k) (f' := fun j => entry R' j k) fun j hj => h j (Finset.mem_range.1 (Finset.mem_filter.1 hj).1) k hk)
    have hkk := abs_le.1 (h k hk k hk)
    have hmin := abs_le.1 (min_near (e := n * e)
      (a := entry R k k + ∑ j ∈ (Finset.range n).filter (fun j => j ≠ i ∧ j ≠ k), max 0 (entry R j k))
      (b := entry R' k k + ∑ j ∈ (Finset.range n).filter (fun j => j ≠ i ∧ j ≠ k), max 0 (entry R' j k)) (by
        rw [abs_le]
        constructor <;> linarith))
    rw [abs_le]
    constructor <;> linarith

theorem rnd_pos {rnd : κ → κ} {ε : κ} (hr : ∀ a, |rnd a - a| ≤ ε * |a|) (h1 : ε < 1) (a : κ) : 0 < rnd a ↔ 0 < a := by
  have h := abs_le.1 (hr a)
  rcases lt_trichotomy a 0 with h0 | rfl | h0
  · rw [abs_of_neg h0] at h
    have h2 : ε * (-a) < 1 * (-a) := mul_lt_mul_of_pos_right h1 (by linarith)
    constructor <;> intro _ <;> linarith
  · simp only [abs_zero, mul_zero, neg_zero, sub_zero] at h
    constructor <;> intro _ <;> linarith
  · rw [abs_of_pos h0] at h
    have h2 : ε * a < 1 * a := mul_lt_mul_of_pos_right h1 h0
    constructor <;> intro _ <;> linarith

end

end Verif
