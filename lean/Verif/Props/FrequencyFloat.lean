import Verif.Proofs.Float
import Verif.Props.Frequency

/-
C97: the cluster frequencies as floats.
-/

namespace Verif

/-- What the rounding of the model is: the result has 53 bits, no number of 53 bits is nearer, the relative error is at most `2 ^ (-53)`,
and the order is kept. -/
theorem C97_rounding (q : ℚ) : IsFloat (fl q) ∧ (∀ x, IsFloat x → |fl q - q| ≤ |x - q|) ∧ |fl q - q| ≤ |q| / 2 ^ 53 ∧
    (∀ p, p ≤ q → fl p ≤ fl q) ∧ ∀ x, IsFloat x → fl x = x :=
  ⟨fl_isFloat q, fun _ => fl_nearest q, fl_err q, fun _ => fl_mono, fun _ => IsFloat.fl_eq⟩

section
variable {α : Type} [DecidableEq α]

theorem clustersFrequencyFloat_eq {d : Dict α Int} (hn : (dkeys d).Nodup) (hne : d ≠ []) :
    clustersFrequencyFloat d = .ok (((dvals d).dedup.insertionSort (· ≤ ·)).map fun c =>
      (c, fl ((((dvals d).count c : Nat) : Rat) / ((d.length : Nat) : Rat)))) := by
  have hlen : (dkeys d).length = d.length := by simp [dkeys]
  have h0 : ¬ (dkeys d).length = 0 := by rw [hlen]; simpa using hne
  unfold clustersFrequencyFloat
  simp only [h0, if_false, mapM_dget_dkeys hn]
  have hm : ((dvals d).dedup.insertionSort (· ≤ ·)).mapM (fun c => do
      let members ← (dkeys d).filterM fun x => do return decide ((← dget d x) = c)
      return (c, fl ((members.length : Rat) / ((dkeys d).length : Rat))) : Int → Except PyErr (Int × Rat)) =
      .ok (((dvals d).dedup.insertionSort (· ≤ ·)).map fun c => (c, fl ((((dvals d).count c : Nat) : Rat) / ((d.length : Nat) : Rat)))) := by
    apply mapM_pure'
    intro c _
    rw [filterM_pure (q := fun x => decide (dget? d x = some c))]
    · simp only [bind, Except.bind, pure, Except.pure, length_members hn, hlen]
    · intro x hx
      obtain ⟨v, hv⟩ := dget?_isSome_of_mem hx
      simp [dget_of_dget? hv, hv, bind, Except.bind, pure, Except.pure]
  simp only [bind, Except.bind, pure, Except.pure] at hm ⊢
  rw [hm]
  simp only
  rw [dofList_of_nodup]
  rw [List.map_map]
  have : (Prod.fst ∘ fun c : Int => (c, fl ((((dvals d).count c : Nat) : Rat) / ((d.length : Nat) : Rat)))) = id := rfl
  rw [this, List.map_id]
  exact (List.perm_insertionSort _ _).nodup_iff.2 (List.nodup_dedup _)

/-- The floats are the exact frequencies, rounded. -/
theorem frequency_float {d : Dict α Int} (hn : (dkeys d).Nodup) (hne : d ≠ []) :
    ∃ f, clustersFrequency d = .ok f ∧ clustersFrequencyFloat d = .ok (f.map fun p => (p.1, fl p.2)) :=
  ⟨_, clustersFrequency_eq hn hne, by rw [clustersFrequencyFloat_eq hn hne, List.map_map]; rfl⟩

theorem frequency_le_one {d : Dict α Int} {f : Dict Int Rat} (hf : FrequenciesOf d f) {c : Int} {q : ℚ}
    (hq : dget? f c = some q) : q ≤ 1 := by
  have hfn : (dkeys f).Nodup := hf.sorted.imp fun h => h.ne
  have hmem : q ∈ dvals f := (mem_dvals hfn).2 ⟨c, hq⟩
  rw [← hf.total]
  refine List.single_le_sum (fun x hx => ?_) q hmem
  obtain ⟨c', hc'⟩ := (mem_dvals hfn).1 hx
  exact (hf.quotient c' x hc').1.le

/-- The frequencies: the used labels in increasing order, each with a float nearest to its share; positive and at most 1. -/
theorem C97_frequencies {d : Dict α Int} (hn : (dkeys d).Nodup) (hne : d ≠ []) :
    ∃ g, clustersFrequencyFloat d = .ok g ∧ FloatFrequenciesOf d g := by
  obtain ⟨f, hf, hg⟩ := frequency_float hn hne
  obtain ⟨f', hf', h⟩ := C50_frequencies hn hne
  rw [hf] at hf'; cases hf'
  refine ⟨_, hg, ?_⟩
  have hkeys : dkeys (f.map fun p => (p.1, fl p.2)) = dkeys f := dkeys_map_snd f fun p => fl p.2
  have hpos : (0 : Rat) < (d.length : Nat) := by
    have : 0 < d.length := List.length_pos_iff.2 hne
    exact_mod_cast this
  refine ⟨by rw [hkeys]; exact h.sorted, fun c => by rw [hkeys]; exact h.keys c, ?_⟩
  intro c q hq
  rw [dget?_map_snd f fl] at hq
  obtain ⟨p, hp, rfl⟩ := Option.map_eq_some_iff.1 hq
  obtain ⟨h0, S, hS1, hS2, hS3⟩ := h.quotient c p hp
  refine ⟨fl_isFloat p, fl_pos h0, ?_, S, hS1, hS2, fun y hy => ?_⟩
  · rw [← fl_one]; exact fl_mono (frequency_le_one h hp)
  · have : (S.length : ℚ) / (d.length : ℚ) = p := by
      rw [div_eq_iff hpos.ne']; exact hS3.symm
    rw [this]; exact fl_nearest p hy

theorem float_share {d : Dict α Int} {g : Dict Int Rat} (hg : clustersFrequencyFloat d = .ok g) (hn : (dkeys d).Nodup) {c : Int} {q : ℚ}
    (hq : dget? g c = some q) : q = fl ((((dvals d).count c : Nat) : Rat) / ((d.length : Nat) : Rat)) ∧ d ≠ [] := by
  have hne : d ≠ [] := by
    rintro rfl
    cases hg; cases hq
  rw [clustersFrequencyFloat_eq hn hne] at hg
  cases hg
  obtain ⟨c', -, e⟩ := List.mem_map.1 (mem_of_dget? hq)
  cases e
  exact ⟨rfl, hne⟩

theorem share_err {a n : Nat} (ha : a ≤ n) (h0 : 0 < n) (hn : n < 2 ^ 52) : |fl ((a : ℚ) / n) * n - a| < 1 / 2 := by
  have hn0 : (0 : ℚ) < n := by exact_mod_cast h0
  have h1 := fl_err ((a : ℚ) / n)
  have h2 : fl ((a : ℚ) / n) * n - a = (fl ((a : ℚ) / n) - a / n) * n := by field_simp
  rw [h2, abs_mul, abs_of_pos hn0]
  have h3 : |(a : ℚ) / n| = a / n := abs_of_nonneg (by positivity)
  rw [h3] at h1
  have ha' : (a : ℚ) ≤ n := by exact_mod_cast ha
  have hn' : (n : ℚ) < 2 ^ 52 := by exact_mod_cast hn
  calc |fl ((a : ℚ) / n) - a / n| * n ≤ a / n / 2 ^ 53 * n := by gcongr
    _ = a / 2 ^ 53 := by field_simp
    _ ≤ n / 2 ^ 53 := by gcongr
    _ < 2 ^ 52 / 2 ^ 53 := by gcongr
    _ = 1 / 2 := by norm_num

/-- With fewer than `2 ^ 52` IDs no information is lost: the size of a cluster is the integer nearest to its frequency times the
number of IDs, and frequencies compare as the sizes do. -/
theorem C97_sizes {d : Dict α Int} (hn : (dkeys d).Nodup) (hlen : d.length < 2 ^ 52) {g : Dict Int Rat}
    (hg : clustersFrequencyFloat d = .ok g) {c c' : Int} {q q' : ℚ} (hq : dget? g c = some q) (hq' : dget? g c' = some q') :
    |q * d.length - ((dvals d).count c : Nat)| < 1 / 2 ∧ (q < q' ↔ (dvals d).count c < (dvals d).count c') ∧
    (q = q' ↔ (dvals d).count c = (dvals d).count c') := by
  obtain ⟨e1, hne⟩ := float_share hg hn hq
  obtain ⟨e2, -⟩ := float_share hg hn hq'
  have h0 : 0 < d.length := List.length_pos_iff.2 hne
  have hcount : ∀ c, (dvals d).count c ≤ d.length := fun c => by
    have := List.count_le_length (a := c) (l := dvals d)
    simpa [dvals] using this
  have key : ∀ {a b : Nat}, a ≤ d.length → b ≤ d.length → a < b → fl ((a : ℚ) / d.length) < fl ((b : ℚ) / d.length) := by
    intro a b ha hb hab
    have hn0 : (0 : ℚ) < d.length := by exact_mod_cast h0
    have g1 := (abs_lt.1 (share_err ha h0 hlen)).2
    have g2 := (abs_lt.1 (share_err hb h0 hlen)).1
    have g3 : (a : ℚ) + 1 ≤ b := by exact_mod_cast hab
    have : fl ((a : ℚ) / d.length) * d.length < fl ((b : ℚ) / d.length) * d.length := by linarith
    exact lt_of_mul_lt_mul_right this hn0.le
  have hlt : ∀ {a b : Nat}, a ≤ d.length → b ≤ d.length → (fl ((a : ℚ) / d.length) < fl ((b : ℚ) / d.length) ↔ a < b) := by
    intro a b ha hb
    refine ⟨fun h => ?_, key ha hb⟩
    rcases lt_trichotomy a b with h' | h' | h'
    · exact h'
    · subst h'; exact absurd h (lt_irrefl _)
    · exact absurd (h.trans (key hb ha h')) (lt_irrefl _)
  subst e1; subst e2
  refine ⟨share_err (hcount c) h0 hlen, hlt (hcount c) (hcount c'), ?_⟩
  refine ⟨fun h => ?_, fun h => by rw [h]⟩
  rcases lt_trichotomy ((dvals d).count c) ((dvals d).count c') with h' | h' | h'
  · exact absurd h (key (hcount c) (hcount c') h').ne
  · exact h'
  · exact absurd h.symm (key (hcount c') (hcount c) h').ne

/-- One frequency is 1 exactly when there is a single cluster. -/
theorem C97_one {d : Dict α Int} (hn : (dkeys d).Nodup) (hlen : d.length < 2 ^ 52) {g : Dict Int Rat}
    (hg : clustersFrequencyFloat d = .ok g) {c : Int} {q : ℚ} (hq : dget? g c = some q) :
    q = 1 ↔ ∀ x c', dget? d x = some c' → c' = c := by
  obtain ⟨e1, hne⟩ := float_share hg hn hq
  have h0 : 0 < d.length := List.length_pos_iff.2 hne
  have hn0 : (d.length : ℚ) ≠ 0 := by exact_mod_cast h0.ne'
  have hcount : (dvals d).count c ≤ d.length := by
    have := List.count_le_length (a := c) (l := dvals d)
    simpa [dvals] using this
  have hall : (dvals d).count c = d.length ↔ ∀ x c', dget? d x = some c' → c' = c := by
    rw [show d.length = (dvals d).length by simp [dvals], List.count_eq_length]
    constructor
    · intro h x c' hx
      exact (h c' ((mem_dvals hn).2 ⟨x, hx⟩)).symm
    · intro h b hb
      obtain ⟨x, hx⟩ := (mem_dvals hn).1 hb
      exact (h x b hx).symm
  rw [← hall]
  subst e1
  constructor
  · intro h
    have := share_err hcount h0 hlen
    rw [h, one_mul] at this
    rw [abs_lt] at this
    by_contra hne'
    have hlt : (dvals d).count c + 1 ≤ d.length := by omega
    have hlt' : (((dvals d).count c : Nat) : ℚ) + 1 ≤ d.length := by exact_mod_cast hlt
    linarith
  · intro h
    rw [h, div_self hn0, fl_one]

theorem sum_err (l : List ℚ) (hl : ∀ x ∈ l, 0 ≤ x) : |(l.map fl).sum - l.sum| ≤ l.sum / 2 ^ 53 := by
  induction l with
  | nil => simp
  | cons a l ih =>
    have h1 := ih fun x hx => hl x (by simp [hx])
    have h2 := fl_err a
    rw [abs_of_nonneg (hl a (by simp))] at h2
    rw [List.map_cons, List.sum_cons, List.sum_cons]
    calc |fl a + (l.map fl).sum - (a + l.sum)| = |(fl a - a) + ((l.map fl).sum - l.sum)| := by ring_nf
      _ ≤ |fl a - a| + |(l.map fl).sum - l.sum| := abs_add_le _ _
      _ ≤ a / 2 ^ 53 + l.sum / 2 ^ 53 := by gcongr
      _ = (a + l.sum) / 2 ^ 53 := by ring

theorem roundedSum_err (l : List ℚ) (hl : ∀ x ∈ l, 0 ≤ x) :
    |roundedSum fl l - l.sum| ≤ ((1 + 1 / 2 ^ 53) ^ l.length - 1) * l.sum := by
  induction l using List.reverseRecOn with
  | nil => simp [roundedSum]
  | append_singleton l a ih =>
    have h1 := ih fun x hx => hl x (by simp [hx])
    have ha : 0 ≤ a := hl a (by simp)
    have hs : 0 ≤ l.sum := List.sum_nonneg fun x hx => hl x (by simp [hx])
    set u : ℚ := 1 / 2 ^ 53 with hu
    have hu0 : 0 ≤ u := by positivity
    set s := roundedSum fl l with hsdef
    have e : roundedSum fl (l ++ [a]) = fl (s + a) := by
      rw [hsdef]; unfold roundedSum; rw [List.foldl_append]; rfl
    rw [e, List.sum_append, List.length_append, List.sum_singleton, List.length_singleton]
    have h2 := fl_err (s + a)
    have hp1 : (1 : ℚ) ≤ (1 + u) ^ l.length := one_le_pow₀ (by linarith)
    have h3 : |s + a| ≤ (1 + u) ^ l.length * (l.sum + a) := by
      have : |s + a| ≤ |s - l.sum| + |l.sum + a| := by
        have := abs_add_le (s - l.sum) (l.sum + a)
        rwa [show s - l.sum + (l.sum + a) = s + a by ring] at this
      rw [abs_of_nonneg (by linarith : 0 ≤ l.sum + a)] at this
      nlinarith
    have h4 : |fl (s + a) - (l.sum + a)| ≤ |fl (s + a) - (s + a)| + |s - l.sum| := by
      have := abs_add_le (fl (s + a) - (s + a)) (s - l.sum)
      rwa [show fl (s + a) - (s + a) + (s - l.sum) = fl (s + a) - (l.sum + a) by ring] at this
    have h5 : |s + a| / 2 ^ 53 = u * |s + a| := by rw [hu]; ring
    rw [h5] at h2
    have h6 : u * |s + a| ≤ u * ((1 + u) ^ l.length * (l.sum + a)) := by gcongr
    rw [pow_succ]
    nlinarith

/-- The sum of the frequencies is 1 up to `2 ^ (-53)`, and their sum computed with floats is 1 up to `(1 + 2 ^ (-53)) ^ (k + 1) - 1` for
`k` clusters. -/
theorem C97_sum {d : Dict α Int} (hn : (dkeys d).Nodup) (hne : d ≠ []) {g : Dict Int Rat} (hg : clustersFrequencyFloat d = .ok g) :
    |(dvals g).sum - 1| ≤ 1 / 2 ^ 53 ∧ |roundedSum fl (dvals g) - 1| ≤ (1 + 1 / 2 ^ 53) ^ (g.length + 1) - 1 := by
  obtain ⟨f, hf, hg'⟩ := frequency_float hn hne
  rw [hg] at hg'; cases hg'
  obtain ⟨f', hf', h⟩ := C50_frequencies hn hne
  rw [hf] at hf'; cases hf'
  have hfn : (dkeys f).Nodup := h.sorted.imp fun h => h.ne
  have hnn : ∀ x ∈ dvals f, 0 ≤ x := fun x hx => by
    obtain ⟨c, hc⟩ := (mem_dvals hfn).1 hx
    exact (h.quotient c x hc).1.le
  have hv : dvals (f.map fun p => (p.1, fl p.2)) = (dvals f).map fl := by simp [dvals, List.map_map, Function.comp_def]
  have h1 := sum_err (dvals f) hnn
  rw [h.total] at h1
  rw [hv]
  refine ⟨h1, ?_⟩
  have h2 := roundedSum_err ((dvals f).map fl) fun x hx => by
    obtain ⟨y, hy, rfl⟩ := List.mem_map.1 hx
    rw [← fl_zero]; exact fl_mono (hnn y hy)
  have hl : ((dvals f).map fl).length = (f.map fun p => (p.1, fl p.2)).length := by simp [dvals]
  rw [hl] at h2
  set S := ((dvals f).map fl).sum
  set k := (f.map fun p => (p.1, fl p.2)).length
  set u : ℚ := 1 / 2 ^ 53 with hu
  have hp1 : (1 : ℚ) ≤ (1 + u) ^ k := one_le_pow₀ (by rw [hu]; norm_num)
  have h3 := abs_le.1 h1
  have h4 : |roundedSum fl ((dvals f).map fl) - 1| ≤ |roundedSum fl ((dvals f).map fl) - S| + |S - 1| := by
    have := abs_add_le (roundedSum fl ((dvals f).map fl) - S) (S - 1)
    rwa [show roundedSum fl ((dvals f).map fl) - S + (S - 1) = roundedSum fl ((dvals f).map fl) - 1 by ring] at this
  rw [pow_succ]
  have h5 : ((1 + u) ^ k - 1) * S ≤ ((1 + u) ^ k - 1) * (1 + u) := by
    apply mul_le_mul_of_nonneg_left _ (by linarith)
    linarith [h3.2]
  nlinarith

/-- The sum need not be 1: three clusters of one ID each (exact sum of the floats), ten clusters of one ID each (sum in floats). -/
theorem C97_sum_not_one :
    (∃ (d : Dict String Int) (g : Dict Int ℚ), (dkeys d).Nodup ∧ clustersFrequencyFloat d = .ok g ∧ (dvals g).sum ≠ 1) ∧
    ∃ (d : Dict String Int) (g : Dict Int ℚ), (dkeys d).Nodup ∧ clustersFrequencyFloat d = .ok g ∧ roundedSum fl (dvals g) ≠ 1 := by
  refine ⟨⟨[("a", 0), ("b", 1), ("c", 2)], _, by decide, clustersFrequencyFloat_eq (by decide) (by decide), by decide +kernel⟩,
    ⟨[("a", 0), ("b", 1), ("c", 2), ("d", 3), ("e", 4), ("f", 5), ("g", 6), ("h", 7), ("i", 8), ("j", 9)], _, by decide,
      clustersFrequencyFloat_eq (by decide) (by decide), by decide +kernel⟩⟩

/-! ### Concrete cases -/

def freqDemo : Dict String Int := [("a", 3), ("b", -1), ("c", 3), ("d", 0), ("e", 3), ("f", 0)]

theorem freqDemo_eq : clustersFrequencyFloat freqDemo = .ok [(-1, 6004799503160661 / 2 ^ 55), (0, 6004799503160661 / 2 ^ 54), (3, 1 / 2)] := by
  decide +kernel

example : ∃ g, clustersFrequencyFloat freqDemo = .ok g ∧ FloatFrequenciesOf freqDemo g := C97_frequencies (by decide) (by decide)

example := C97_sizes (d := freqDemo) (by decide) (by decide) freqDemo_eq (c := 0) (c' := 3) rfl rfl

example := C97_one (d := freqDemo) (by decide) (by decide) freqDemo_eq (c := 3) rfl

example : |([6004799503160661 / 2 ^ 55, 6004799503160661 / 2 ^ 54, 1 / 2] : List ℚ).sum - 1| ≤ 1 / 2 ^ 53 :=
  (C97_sum (d := freqDemo) (by decide) (by decide) freqDemo_eq).1

end

end Verif
