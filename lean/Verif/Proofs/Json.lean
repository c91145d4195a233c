import Mathlib.Order.Nat
import Verif.Model.Json
import Verif.Spec.Json
import Verif.Py.DictLemmas

/-
The JSON encoder and decoder: fuel, extension of the input, and round trip.
-/

namespace Verif

/-! ### Strings -/

theorem unhex_hexDigit : ∀ n < 16, unhex (hexDigit n) = some n := by decide

theorem hex4_uEscape {n : Nat} (h : n < 65536) (r : PyStr) :
    hex4 ((uEscape n).drop 2 ++ r) = some (n, r) := by
  simp only [uEscape, List.drop, List.cons_append, List.nil_append, hex4]
  rw [unhex_hexDigit _ (Nat.mod_lt _ (by decide)), unhex_hexDigit _ (Nat.mod_lt _ (by decide)),
    unhex_hexDigit _ (Nat.mod_lt _ (by decide)), unhex_hexDigit _ (Nat.mod_lt _ (by decide))]
  simp only [Option.bind_eq_bind, Option.bind_some, pure, Option.some.injEq, Prod.mk.injEq, and_true]
  omega

/-- What follows is not the escape of a low surrogate. -/
def NoLow (t : PyStr) : Prop :=
  t.take 2 = [92, 117] → ∃ u r, hex4 (t.drop 2) = some (u, r) ∧ ¬ Low u

theorem pStr_cons (f c : Nat) (r : PyStr) : pStr (f + 1) (c :: r) =
    (if c = 34 then some ([], r)
    else if c = 92 then
      match r with
      | [] => none
      | e :: r1 =>
        if e = 117 then do
          let (u, r2) ← hex4 r1
          if 0xd800 ≤ u ∧ u ≤ 0xdbff ∧ r2.take 2 = [92, 117] then
            let (u2, r3) ← hex4 (r2.drop 2)
            if 0xdc00 ≤ u2 ∧ u2 ≤ 0xdfff then
              let (s, rest) ← pStr f r3
              return ((0x10000 + ((u - 0xd800) * 1024 + (u2 - 0xdc00))) :: s, rest)
            else
              let (s, rest) ← pStr f r2
              return (u :: s, rest)
          else
            let (s, rest) ← pStr f r2
            return (u :: s, rest)
        else do
          let u ← unescape e
          let (s, rest) ← pStr f r1
          return (u :: s, rest)
    else if c < 32 then none
    else do
      let (s, rest) ← pStr f r
      return (c :: s, rest)) := by
  rw [pStr.eq_def]
  rfl

theorem pStr_plain (f c : Nat) (t : PyStr) (h1 : c ≠ 34) (h2 : c ≠ 92) (h3 : 32 ≤ c) :
    pStr (f + 1) (c :: t) = (pStr f t).map fun p => (c :: p.1, p.2) := by
  rw [pStr_cons, if_neg h1, if_neg h2, if_neg (by omega)]
  cases pStr f t <;> rfl

theorem pStr_short (f e u : Nat) (t : PyStr) (h1 : e ≠ 117) (h2 : unescape e = some u) :
    pStr (f + 1) (92 :: e :: t) = (pStr f t).map fun p => (u :: p.1, p.2) := by
  rw [pStr, if_neg (by decide), if_pos rfl]
  simp only [if_neg h1, h2, Option.bind_eq_bind, Option.bind_some]
  cases pStr f t <;> rfl

theorem pStr_u (f n : Nat) (t : PyStr) (hn : n < 65536) (h : High n → NoLow t) :
    pStr (f + 1) (uEscape n ++ t) = (pStr f t).map fun p => (n :: p.1, p.2) := by
  have e : uEscape n ++ t = 92 :: 117 :: ((uEscape n).drop 2 ++ t) := rfl
  rw [e, pStr_cons, if_neg (by decide), if_pos rfl]
  simp only [if_true, hex4_uEscape hn, Option.bind_eq_bind, Option.bind_some]
  by_cases hc : 0xd800 ≤ n ∧ n ≤ 0xdbff ∧ t.take 2 = [92, 117]
  · rw [if_pos hc]
    obtain ⟨u, r, h1, h2⟩ := h ⟨hc.1, hc.2.1⟩ hc.2.2
    rw [h1]
    simp only [Option.bind_some]
    rw [if_neg (show ¬ (0xdc00 ≤ u ∧ u ≤ 0xdfff) from h2)]
    cases pStr f t <;> rfl
  · rw [if_neg hc]
    cases pStr f t <;> rfl

theorem pStr_pair (f a b : Nat) (t : PyStr) (ha : High a) (hb : Low b) :
    pStr (f + 1) (uEscape a ++ (uEscape b ++ t)) =
      (pStr f t).map fun p => ((0x10000 + ((a - 0xd800) * 1024 + (b - 0xdc00))) :: p.1, p.2) := by
  have e : uEscape a ++ (uEscape b ++ t) = 92 :: 117 :: ((uEscape a).drop 2 ++ (uEscape b ++ t)) := rfl
  have hb' : b < 65536 := by unfold Low at hb; omega
  have ha' : a < 65536 := by unfold High at ha; omega
  rw [e, pStr_cons, if_neg (by decide), if_pos rfl]
  simp only [if_true, hex4_uEscape ha', Option.bind_eq_bind, Option.bind_some]
  rw [if_pos ⟨ha.1, ha.2, rfl⟩]
  have e2 : (uEscape b ++ t).drop 2 = (uEscape b).drop 2 ++ t := rfl
  rw [e2, hex4_uEscape hb']
  simp only [Option.bind_some]
  rw [if_pos (show 0xdc00 ≤ b ∧ b ≤ 0xdfff from hb)]
  cases pStr f t <;> rfl

theorem pStr_escape (f c : Nat) (t : PyStr) (hc : c < 0x110000) (h : High c → NoLow t) :
    pStr (f + 1) (escape c ++ t) = (pStr f t).map fun p => (c :: p.1, p.2) := by
  unfold escape
  split
  · rename_i h; subst h; exact pStr_short _ _ _ _ (by decide) (by decide)
  split
  · rename_i h; subst h; exact pStr_short _ _ _ _ (by decide) (by decide)
  split
  · rename_i h; subst h; exact pStr_short _ _ _ _ (by decide) (by decide)
  split
  · rename_i h; subst h; exact pStr_short _ _ _ _ (by decide) (by decide)
  split
  · rename_i h; subst h; exact pStr_short _ _ _ _ (by decide) (by decide)
  split
  · rename_i h; subst h; exact pStr_short _ _ _ _ (by decide) (by decide)
  split
  · rename_i h; subst h; exact pStr_short _ _ _ _ (by decide) (by decide)
  split
  · rename_i h1 h2 _ _ _ _ _ h3
    exact pStr_plain _ _ _ h1 h2 h3.1
  split
  · rename_i h3; exact pStr_u _ _ _ h3 h
  · rename_i h3
    rw [List.append_assoc]
    have hd : (c - 0x10000) / 1024 % 1024 = (c - 0x10000) / 1024 := Nat.mod_eq_of_lt (by omega)
    have hv : 0x10000 + ((0xd800 + (c - 0x10000) / 1024 % 1024 - 0xd800) * 1024
        + (0xdc00 + (c - 0x10000) % 1024 - 0xdc00)) = c := by rw [hd]; omega
    rw [pStr_pair _ _ _ _ (by unfold High; omega) (by unfold Low; omega), hv]

theorem noLow_escape {c : Nat} (h : ¬ Low c) (t : PyStr) : NoLow (escape c ++ t) := by
  unfold escape
  split
  · intro h; simp at h
  split
  · intro h; simp at h
  split
  · intro h; simp at h
  split
  · intro h; simp at h
  split
  · intro h; simp at h
  split
  · intro h; simp at h
  split
  · intro h; simp at h
  split
  · rename_i h92 _ _ _ _ _ _
    intro h
    cases t <;> simp_all
  split
  · rename_i h3
    intro _
    exact ⟨c, t, hex4_uEscape h3 t, h⟩
  · rename_i h3
    intro _
    refine ⟨0xd800 + (c - 0x10000) / 1024 % 1024, uEscape (0xdc00 + (c - 0x10000) % 1024) ++ t, ?_, by unfold Low; omega⟩
    rw [List.append_assoc]
    exact hex4_uEscape (by omega) _

theorem pStr_enc {s : PyStr} (hs : Unicode s) (tail : PyStr) :
    pStr (s.length + 1) (s.flatMap escape ++ 34 :: tail) = some (s, tail) := by
  obtain ⟨h1, h2⟩ := hs
  induction s with
  | nil => rfl
  | cons c s ih =>
    rw [List.flatMap_cons, List.append_assoc, List.length_cons, pStr_escape _ _ _ (h1 c (by simp)) ?_,
      ih (fun x hx => h1 x (by simp [hx])) h2.tail]
    · rfl
    · intro hc
      cases s with
      | nil => intro h; simp at h
      | cons d s =>
        rw [List.flatMap_cons, List.append_assoc]
        apply noLow_escape
        intro hd
        rw [List.isChain_cons_cons] at h2
        exact h2.1 ⟨hc, hd⟩

/-! ### Extending the input -/

theorem hex4_ext {s : PyStr} {n : Nat} {r : PyStr} (h : hex4 s = some (n, r)) (q : PyStr) :
    hex4 (s ++ q) = some (n, r ++ q) := by
  match s, h with
  | a :: b :: c :: d :: s, h =>
    simp only [hex4, List.cons_append, Option.bind_eq_bind, Option.bind_eq_some_iff, pure,
      Option.some.injEq, Prod.mk.injEq] at h ⊢
    obtain ⟨x, hx, y, hy, z, hz, w, hw, h1, h2⟩ := h
    exact ⟨x, hx, y, hy, z, hz, w, hw, h1, by rw [h2]⟩

theorem hex4_length {s : PyStr} {n : Nat} {r : PyStr} (h : hex4 s = some (n, r)) :
    r.length < s.length := by
  match s, h with
  | a :: b :: c :: d :: s, h =>
    simp only [hex4, Option.bind_eq_bind, Option.bind_eq_some_iff, pure,
      Option.some.injEq, Prod.mk.injEq] at h
    obtain ⟨x, hx, y, hy, z, hz, w, hw, h1, h2⟩ := h
    subst h2
    simp only [List.length_cons]
    omega

/-- Case analysis of a successful `pStr`. -/
theorem pStr_cases {f c : Nat} {r : PyStr} {a rest : PyStr} (h : pStr (f + 1) (c :: r) = some (a, rest)) :
    (c = 34 ∧ a = [] ∧ rest = r) ∨
    (c = 92 ∧ ∃ r1 u r2, r = 117 :: r1 ∧ hex4 r1 = some (u, r2) ∧
      ((∃ u2 r3 s, (0xd800 ≤ u ∧ u ≤ 0xdbff ∧ r2.take 2 = [92, 117]) ∧ hex4 (r2.drop 2) = some (u2, r3) ∧
          (0xdc00 ≤ u2 ∧ u2 ≤ 0xdfff) ∧ pStr f r3 = some (s, rest) ∧
          a = (0x10000 + ((u - 0xd800) * 1024 + (u2 - 0xdc00))) :: s) ∨
       (∃ u2 r3 s, (0xd800 ≤ u ∧ u ≤ 0xdbff ∧ r2.take 2 = [92, 117]) ∧ hex4 (r2.drop 2) = some (u2, r3) ∧
          ¬ (0xdc00 ≤ u2 ∧ u2 ≤ 0xdfff) ∧ pStr f r2 = some (s, rest) ∧ a = u :: s) ∨
       (∃ s, ¬ (0xd800 ≤ u ∧ u ≤ 0xdbff ∧ r2.take 2 = [92, 117]) ∧ pStr f r2 = some (s, rest) ∧ a = u :: s))) ∨
    (c = 92 ∧ ∃ e r1 u s, r = e :: r1 ∧ e ≠ 117 ∧ unescape e = some u ∧ pStr f r1 = some (s, rest) ∧ a = u :: s) ∨
    (c ≠ 34 ∧ c ≠ 92 ∧ 32 ≤ c ∧ ∃ s, pStr f r = some (s, rest) ∧ a = c :: s) := by
  rw [pStr_cons] at h
  by_cases h34 : c = 34
  · rw [if_pos h34] at h
    simp only [Option.some.injEq, Prod.mk.injEq] at h
    exact .inl ⟨h34, h.1.symm, h.2.symm⟩
  rw [if_neg h34] at h
  right
  by_cases h92 : c = 92
  · rw [if_pos h92] at h
    cases r with
    | nil => simp at h
    | cons e r1 =>
      simp only at h
      by_cases he : e = 117
      · left
        subst he
        refine ⟨h92, r1, ?_⟩
        simp only [if_true, Option.bind_eq_bind, Option.bind_eq_some_iff, Prod.exists] at h
        obtain ⟨u, r2, h1, h2⟩ := h
        refine ⟨u, r2, rfl, h1, ?_⟩
        split at h2
        · rename_i hc
          simp only [Option.bind_eq_some_iff, Prod.exists] at h2
          obtain ⟨u2, r3, h3, h4⟩ := h2
          split at h4
          · rename_i hl
            simp only [Option.bind_eq_some_iff, Prod.exists, pure, Option.some.injEq, Prod.mk.injEq] at h4
            obtain ⟨s, rest', h5, h6, h7⟩ := h4
            subst h7
            exact .inl ⟨u2, r3, s, hc, h3, hl, h5, h6.symm⟩
          · rename_i hl
            simp only [Option.bind_eq_some_iff, Prod.exists, pure, Option.some.injEq, Prod.mk.injEq] at h4
            obtain ⟨s, rest', h5, h6, h7⟩ := h4
            subst h7
            exact .inr (.inl ⟨u2, r3, s, hc, h3, hl, h5, h6.symm⟩)
        · rename_i hc
          simp only [Option.bind_eq_some_iff, Prod.exists, pure, Option.some.injEq, Prod.mk.injEq] at h2
          obtain ⟨s, rest', h5, h6, h7⟩ := h2
          subst h7
          exact .inr (.inr ⟨s, hc, h5, h6.symm⟩)
      · right; left
        rw [if_neg he] at h
        simp only [Option.bind_eq_bind, Option.bind_eq_some_iff, Prod.exists, pure, Option.some.injEq, Prod.mk.injEq] at h
        obtain ⟨u, h1, s, rest', h5, h6, h7⟩ := h
        subst h7
        exact ⟨h92, e, r1, u, s, rfl, he, h1, h5, h6.symm⟩
  · rw [if_neg h92] at h
    right; right
    split at h
    · simp at h
    · rename_i h32
      simp only [Option.bind_eq_bind, Option.bind_eq_some_iff, Prod.exists, pure, Option.some.injEq, Prod.mk.injEq] at h
      obtain ⟨s, rest', h5, h6, h7⟩ := h
      subst h7
      exact ⟨h34, h92, by omega, s, h5, h6.symm⟩

theorem take2_append {r2 : PyStr} (h : ∃ f p, pStr f r2 = some p) (q : PyStr) :
    (r2 ++ q).take 2 = r2.take 2 ∨ (r2.take 2 ≠ [92, 117] ∧ (r2 ++ q).take 2 ≠ [92, 117]) := by
  match r2 with
  | [] =>
    obtain ⟨f, p, h⟩ := h
    cases f <;> simp [pStr] at h
  | [c] =>
    right
    refine ⟨by simp, ?_⟩
    intro hc
    have : c = 92 := by simpa using congrArg (fun l => l.head?) hc
    subst this
    obtain ⟨f, p, h⟩ := h
    cases f <;> simp [pStr] at h
  | c :: d :: r => left; simp

theorem pStr_ext {f : Nat} {s a r : PyStr} (h : pStr f s = some (a, r)) (q : PyStr) {f' : Nat} (hf : f ≤ f') :
    pStr f' (s ++ q) = some (a, r ++ q) := by
  induction f generalizing s a f' with
  | zero => simp [pStr] at h
  | succ f ih =>
    obtain ⟨f', rfl⟩ : ∃ k, f' = k + 1 := ⟨f' - 1, by omega⟩
    have hf' : f ≤ f' := by omega
    cases s with
    | nil => simp [pStr] at h
    | cons c s =>
      rw [List.cons_append]
      rcases pStr_cases h with ⟨rfl, rfl, rfl⟩ | ⟨rfl, r1, u, r2, rfl, hx, h2⟩ | ⟨rfl, e, r1, u, t, rfl, he, hu, ht, rfl⟩ |
        ⟨h34, h92, h32, t, ht, rfl⟩
      · rw [pStr_cons, if_pos rfl]
      · rw [List.cons_append, pStr_cons, if_neg (by decide), if_pos rfl]
        simp only [if_true, hex4_ext hx q, Option.bind_eq_bind, Option.bind_some]
        rcases h2 with ⟨u2, r3, t, hc, hx2, hl, ht, rfl⟩ | ⟨u2, r3, t, hc, hx2, hl, ht, rfl⟩ | ⟨t, hc, ht, rfl⟩
        · have e1 : (r2 ++ q).take 2 = [92, 117] ∧ (r2 ++ q).drop 2 = r2.drop 2 ++ q := by
            match r2, hc.2.2 with
            | a :: b :: r2, h => exact ⟨by simpa using h, rfl⟩
          rw [if_pos ⟨hc.1, hc.2.1, e1.1⟩, e1.2, hex4_ext hx2 q]
          simp only [Option.bind_some]
          rw [if_pos hl, ih ht hf']
          rfl
        · have e1 : (r2 ++ q).take 2 = [92, 117] ∧ (r2 ++ q).drop 2 = r2.drop 2 ++ q := by
            match r2, hc.2.2 with
            | a :: b :: r2, h => exact ⟨by simpa using h, rfl⟩
          rw [if_pos ⟨hc.1, hc.2.1, e1.1⟩, e1.2, hex4_ext hx2 q]
          simp only [Option.bind_some]
          rw [if_neg hl, ih ht hf']
          rfl
        · rw [if_neg ?_, ih ht hf']
          · rfl
          · rintro ⟨h1, h2, h3⟩
            rcases take2_append ⟨f, _, ht⟩ q with h4 | ⟨h4, h5⟩
            · exact hc ⟨h1, h2, h4 ▸ h3⟩
            · exact h5 h3
      · rw [List.cons_append, pStr_short _ _ _ _ he hu, ih ht hf']
        rfl
      · rw [pStr_plain _ _ _ h34 h92 h32, ih ht hf']
        rfl

theorem pStr_length {f : Nat} {s a r : PyStr} (h : pStr f s = some (a, r)) : r.length < s.length := by
  induction f generalizing s a with
  | zero => simp [pStr] at h
  | succ f ih =>
    cases s with
    | nil => simp [pStr] at h
    | cons c s =>
      rw [List.length_cons]
      rcases pStr_cases h with ⟨rfl, rfl, rfl⟩ | ⟨rfl, r1, u, r2, rfl, hx, h2⟩ | ⟨rfl, e, r1, u, t, rfl, he, hu, ht, rfl⟩ |
        ⟨h34, h92, h32, t, ht, rfl⟩
      · omega
      · have l1 := hex4_length hx
        rw [List.length_cons]
        rcases h2 with ⟨u2, r3, t, hc, hx2, hl, ht, rfl⟩ | ⟨u2, r3, t, hc, hx2, hl, ht, rfl⟩ | ⟨t, hc, ht, rfl⟩
        · have l2 := hex4_length hx2
          have l3 := ih ht
          rw [List.length_drop] at l2
          omega
        · have l3 := ih ht
          omega
        · have l3 := ih ht
          omega
      · have l3 := ih ht
        rw [List.length_cons]
        omega
      · have l3 := ih ht
        omega

/-- Enough fuel: the result no longer depends on it. -/
theorem pStr_fuel {s : PyStr} {f f' : Nat} (h : s.length < f) (h' : s.length < f') : pStr f s = pStr f' s := by
  have key : ∀ n (s : PyStr) f, s.length ≤ n → s.length < f → pStr f s = pStr (f + 1) s := by
    intro n
    induction n with
    | zero =>
      intro s f h1 h2
      obtain rfl : s = [] := List.length_eq_zero_iff.1 (by omega)
      obtain ⟨f, rfl⟩ : ∃ k, f = k + 1 := ⟨f - 1, by omega⟩
      rfl
    | succ n ih =>
      intro s f h1 h2
      obtain ⟨f, rfl⟩ : ∃ k, f = k + 1 := ⟨f - 1, by omega⟩
      cases s with
      | nil => rfl
      | cons c s =>
        rw [List.length_cons] at h1 h2
        rw [pStr_cons, pStr_cons, ih s f (by omega) (by omega)]
        by_cases hc : c = 92
        · cases s with
          | nil => rfl
          | cons e s =>
            rw [List.length_cons] at h1 h2
            simp only
            rw [ih s f (by omega) (by omega)]
            cases hx : hex4 s with
            | none => rfl
            | some p =>
              obtain ⟨u, r2⟩ := p
              have l1 := hex4_length hx
              simp only [Option.bind_eq_bind, Option.bind_some]
              rw [ih r2 f (by omega) (by omega)]
              cases hx2 : hex4 (r2.drop 2) with
              | none => rfl
              | some p =>
                obtain ⟨u2, r3⟩ := p
                have l2 := hex4_length hx2
                rw [List.length_drop] at l2
                simp only [Option.bind_some]
                rw [ih r3 f (by omega) (by omega)]
        · simp only [if_neg hc]
  have up : ∀ k f, s.length < f → pStr (f + k) s = pStr f s := by
    intro k
    induction k with
    | zero => intro f _; rfl
    | succ k ih => intro f hf; rw [← Nat.add_assoc, ← key _ s (f + k) (le_refl _) (by omega), ih f hf]
  rcases Nat.le_total f f' with hle | hle
  · obtain ⟨k, rfl⟩ := Nat.exists_eq_add_of_le hle
    rw [up k f h]
  · obtain ⟨k, rfl⟩ := Nat.exists_eq_add_of_le hle
    rw [up k f' h']

/-! ### Numbers and other atoms -/

theorem skipWs_cons {s : PyStr} {d : Nat} {r : PyStr} (h : skipWs s = d :: r) (q : PyStr) :
    skipWs (s ++ q) = d :: (r ++ q) := by
  unfold skipWs at *
  induction s with
  | nil => simp at h
  | cons c s ih =>
    rw [List.cons_append]
    rw [List.dropWhile_cons] at h ⊢
    split
    · rename_i hc; rw [if_pos hc] at h; exact ih h
    · rename_i hc
      rw [if_neg hc] at h
      simp only [List.cons.injEq] at h
      rw [h.1, h.2]

theorem skipWs_length (s : PyStr) : (skipWs s).length ≤ s.length := by
  unfold skipWs
  exact (List.dropWhile_sublist _).length_le

theorem skipWs_of_head {c : Nat} {s : PyStr} (h : isWs c = false) : skipWs (c :: s) = c :: s := by
  rw [skipWs, List.dropWhile_cons, if_neg (by simp [h])]

theorem skipWs_newline (n : Nat) (s : PyStr) : skipWs (newline n ++ s) = skipWs s := by
  unfold newline
  rw [List.cons_append]
  rw [skipWs, List.dropWhile_cons, if_pos (by decide)]
  induction n with
  | zero => rfl
  | succ n ih => rw [List.replicate_succ, List.cons_append, List.dropWhile_cons, if_pos (by decide), ih]

/-- Characters that may continue a number. -/
def numCont (c : Nat) : Prop := isDigit c = true ∨ c = 46 ∨ c = 101 ∨ c = 69 ∨ c = 43 ∨ c = 45

/-- The text cannot continue a number. -/
def NumEnd (t : PyStr) : Prop := ∀ c r, t = c :: r → ¬ numCont c

theorem numEnd_skip {r : PyStr} {d : Nat} {r1 : PyStr} (h : skipWs r = d :: r1) (hd : ¬ numCont d) (q : PyStr) :
    NumEnd (r ++ q) := by
  cases r with
  | nil => simp [skipWs] at h
  | cons c r =>
    intro c' r' he
    simp only [List.cons_append, List.cons.injEq] at he
    obtain ⟨rfl, -⟩ := he
    rw [skipWs, List.dropWhile_cons] at h
    split at h
    · rename_i hc
      intro hn
      simp only [isWs, Bool.or_eq_true, beq_iff_eq] at hc
      rcases hc with ((hc | hc) | hc) | hc <;> subst hc <;> revert hn <;> unfold numCont <;> decide
    · simp only [List.cons.injEq] at h
      rw [h.1]; exact hd

theorem digits_ext (s q : PyStr) (h : s.dropWhile isDigit = [] → NumEnd q) :
    (s ++ q).takeWhile isDigit = s.takeWhile isDigit ∧
    (s ++ q).dropWhile isDigit = s.dropWhile isDigit ++ q := by
  induction s with
  | nil =>
    cases q with
    | nil => exact ⟨rfl, rfl⟩
    | cons c q =>
      have hc : ¬ isDigit c = true := fun hc => h rfl c q rfl (.inl hc)
      simp [hc]
  | cons c s ih =>
    rw [List.cons_append, List.takeWhile_cons, List.takeWhile_cons, List.dropWhile_cons, List.dropWhile_cons]
    by_cases hc : isDigit c = true
    · rw [List.dropWhile_cons, if_pos hc] at h
      simp only [if_pos hc, (ih h).1, (ih h).2, and_self]
    · simp only [if_neg hc, List.cons_append, and_self]

theorem pInt_ext {s i r : PyStr} (h : pInt s = some (i, r)) (q : PyStr) (hq : r = [] → NumEnd q) :
    pInt (s ++ q) = some (i, r ++ q) := by
  cases s with
  | nil => simp [pInt] at h
  | cons c s =>
    rw [List.cons_append]
    unfold pInt at h ⊢
    simp only at h ⊢
    split at h
    · rename_i hc
      rw [if_pos hc]
      cases s with
      | nil => simp at h
      | cons d s =>
        simp only [List.cons_append] at h ⊢
        split at h
        · rename_i hd
          rw [if_pos hd]
          simp only [Option.some.injEq, Prod.mk.injEq] at h
          obtain ⟨rfl, rfl⟩ := h; rfl
        · rename_i hd
          rw [if_neg hd]
          split at h
          · rename_i hd2
            rw [if_pos hd2]
            simp only [Option.some.injEq, Prod.mk.injEq] at h
            obtain ⟨rfl, rfl⟩ := h
            rw [(digits_ext s q hq).1, (digits_ext s q hq).2]
          · simp at h
    · rename_i hc
      rw [if_neg hc]
      split at h
      · rename_i hd
        rw [if_pos hd]
        simp only [Option.some.injEq, Prod.mk.injEq] at h
        obtain ⟨rfl, rfl⟩ := h; rfl
      · rename_i hd
        rw [if_neg hd]
        split at h
        · rename_i hd2
          rw [if_pos hd2]
          simp only [Option.some.injEq, Prod.mk.injEq] at h
          obtain ⟨rfl, rfl⟩ := h
          rw [(digits_ext s q hq).1, (digits_ext s q hq).2]
        · simp at h

theorem pFrac_ext {s fr r : PyStr} (h : pFrac s = (fr, r)) (q : PyStr) (hq : r = [] → NumEnd q)
    (h46 : r ≠ [46]) : pFrac (s ++ q) = (fr, r ++ q) := by
  match s with
  | [] =>
    simp only [pFrac, Prod.mk.injEq] at h
    obtain ⟨rfl, rfl⟩ := h
    match q, hq rfl with
    | [], _ => rfl
    | [c], _ => rfl
    | c :: d :: q, hq =>
      have : c ≠ 46 := fun hc => hq c _ rfl (.inr (.inl hc))
      simp [pFrac, this]
  | [c] =>
    simp only [pFrac, Prod.mk.injEq] at h
    obtain ⟨rfl, rfl⟩ := h
    have hc : c ≠ 46 := fun hc => h46 (by rw [hc])
    cases q with
    | nil => rfl
    | cons d q => simp [pFrac, hc]
  | c :: d :: s =>
    simp only [pFrac, List.cons_append] at h ⊢
    split at h
    · rename_i hc
      rw [if_pos hc]
      simp only [Prod.mk.injEq] at h
      obtain ⟨rfl, rfl⟩ := h
      rw [(digits_ext s q hq).1, (digits_ext s q hq).2]
    · rename_i hc
      rw [if_neg hc]
      simp only [Prod.mk.injEq] at h
      obtain ⟨rfl, rfl⟩ := h
      rfl

theorem pExp_ext {s ex r : PyStr} (h : pExp s = (ex, r)) (q : PyStr) (hq : NumEnd (r ++ q)) :
    pExp (s ++ q) = (ex, r ++ q) := by
  have hhead : ∀ c t, r ++ q = c :: t → ¬ (c = 101 ∨ c = 69) := by
    intro c t he hc
    refine hq c t he ?_
    rcases hc with hc | hc
    · exact .inr (.inr (.inl hc))
    · exact .inr (.inr (.inr (.inl hc)))
  have triv : ∀ t : PyStr, (∀ c t', t = c :: t' → ¬ (c = 101 ∨ c = 69)) → pExp t = ([], t) := by
    intro t ht
    match t with
    | [] => rfl
    | [c] => rfl
    | c :: d :: t => unfold pExp; simp only [if_neg (ht c _ rfl)]
  by_cases hs : ex = []
  · -- nothing consumed
    have : r = s := by
      unfold pExp at h
      repeat' split at h
      all_goals simp only [Prod.mk.injEq] at h
      all_goals first | exact h.2.symm | (rw [← h.1] at hs; simp at hs)
    subst this
    subst hs
    exact triv _ hhead
  · match s with
    | [] => simp only [pExp, Prod.mk.injEq] at h; exact absurd h.1.symm hs
    | [c] => simp only [pExp, Prod.mk.injEq] at h; exact absurd h.1.symm hs
    | c :: d :: s =>
      simp only [pExp, List.cons_append] at h ⊢
      split at h
      · rename_i hc
        rw [if_pos hc]
        split at h
        · rename_i hd
          rw [if_pos hd]
          simp only [Prod.mk.injEq] at h
          obtain ⟨rfl, rfl⟩ := h
          have hq' : s.dropWhile isDigit = [] → NumEnd q := fun he => by simpa [he] using hq
          rw [(digits_ext s q hq').1, (digits_ext s q hq').2]
        · rename_i hd
          rw [if_neg hd]
          split at h
          · rename_i he
            rw [if_pos he]
            cases s with
            | nil => simp only [Prod.mk.injEq] at h; exact absurd h.1.symm hs
            | cons e s =>
              simp only [List.cons_append] at h ⊢
              split at h
              · rename_i hg
                rw [if_pos hg]
                simp only [Prod.mk.injEq] at h
                obtain ⟨rfl, rfl⟩ := h
                have hq' : s.dropWhile isDigit = [] → NumEnd q := fun he => by simpa [he] using hq
                rw [(digits_ext s q hq').1, (digits_ext s q hq').2]
              · simp only [Prod.mk.injEq] at h; exact absurd h.1.symm hs
          · simp only [Prod.mk.injEq] at h; exact absurd h.1.symm hs
      · simp only [Prod.mk.injEq] at h; exact absurd h.1.symm hs

theorem pNum_ext {s t r : PyStr} (h : pNum s = some (t, r)) (q : PyStr) (hq : NumEnd (r ++ q)) :
    pNum (s ++ q) = some (t, r ++ q) := by
  unfold pNum at h ⊢
  simp only [Option.bind_eq_bind, Option.bind_eq_some_iff, Prod.exists, pure, Option.some.injEq, Prod.mk.injEq] at h ⊢
  obtain ⟨i, r1, h1, h2, h3⟩ := h
  have e2 : pExp (pFrac r1).2 = ((pExp (pFrac r1).2).1, r) := by rw [← h3]
  have x3 := pExp_ext e2 q hq
  have n1 : (pFrac r1).2 = [] → NumEnd q := by
    intro he
    rw [he] at h3
    have : r = [] := by rw [← h3]; rfl
    simpa [this] using hq
  have n2 : (pFrac r1).2 ≠ [46] := by
    intro he
    rw [he] at h3
    have : r = [46] := by rw [← h3]; rfl
    rw [this] at hq
    exact hq 46 q rfl (.inr (.inl rfl))
  have x2 := pFrac_ext (show pFrac r1 = ((pFrac r1).1, (pFrac r1).2) from rfl) q n1 n2
  have n0 : r1 = [] → NumEnd q := by
    intro he
    apply n1
    rw [he]; rfl
  refine ⟨i, r1 ++ q, pInt_ext h1 q n0, ?_, ?_⟩
  · rw [x2]; dsimp only; rw [x3]; exact h2
  · rw [x2]; dsimp only; rw [x3]

theorem dropWhile_length (s : PyStr) : (s.dropWhile isDigit).length ≤ s.length :=
  (List.dropWhile_sublist _).length_le

theorem pInt_length {s i r : PyStr} (h : pInt s = some (i, r)) : r.length < s.length := by
  unfold pInt at h
  repeat' split at h
  all_goals simp only [Option.some.injEq, Prod.mk.injEq, reduceCtorEq] at h
  all_goals
    obtain ⟨-, rfl⟩ := h
    simp only [List.length_cons]
    first
    | omega
    | (rename_i r1 _ _ _; have := dropWhile_length r1; omega)
    | (rename_i r1 _ _ _ _; have := dropWhile_length r1; omega)
    | (rename_i r1 _ _; have := dropWhile_length r1; omega)

theorem pFrac_length (s : PyStr) : (pFrac s).2.length ≤ s.length := by
  unfold pFrac
  repeat' split
  all_goals simp only [List.length_cons]
  all_goals first | omega | (rename_i r _; have := dropWhile_length r; omega)

theorem pExp_length (s : PyStr) : (pExp s).2.length ≤ s.length := by
  match s with
  | [] => exact Nat.le_refl _
  | [c] => exact Nat.le_refl _
  | c :: d :: r =>
    unfold pExp
    simp only
    split
    · split
      · have := dropWhile_length r
        simp only [List.length_cons]; omega
      · split
        · cases r with
          | nil => exact Nat.le_refl _
          | cons e r =>
            simp only
            split
            · have := dropWhile_length r
              simp only [List.length_cons]; omega
            · exact Nat.le_refl _
        · exact Nat.le_refl _
    · exact Nat.le_refl _

theorem pNum_length {s t r : PyStr} (h : pNum s = some (t, r)) : r.length < s.length := by
  unfold pNum at h
  simp only [Option.bind_eq_bind, Option.bind_eq_some_iff, Prod.exists, pure, Option.some.injEq, Prod.mk.injEq] at h
  obtain ⟨i, r1, h1, -, h3⟩ := h
  have a := pInt_length h1
  have b := pFrac_length r1
  have c := pExp_length (pFrac r1).2
  rw [h3] at c
  omega

theorem pNum_head {c : Nat} {s t r : PyStr} (h : pNum (c :: s) = some (t, r)) :
    c = 45 ∨ isDigit c = true := by
  unfold pNum at h
  simp only [Option.bind_eq_bind, Option.bind_eq_some_iff, Prod.exists] at h
  obtain ⟨i, r1, h1, -⟩ := h
  unfold pInt at h1
  simp only at h1
  split at h1
  · rename_i hc; exact .inl hc
  · split at h1
    · rename_i hc; subst hc; exact .inr (by decide)
    · split at h1
      · rename_i hc; exact .inr hc
      · simp at h1

end Verif
