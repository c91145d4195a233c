import Verif.Spec.File
import Verif.Props.Json

/-
C98: the saved file, byte by byte.
-/

namespace Verif

/-! ### The text is printable ASCII -/

instance (s : PyStr) : Decidable (Printable s) := inferInstanceAs (Decidable (∀ c ∈ s, c = 10 ∨ (32 ≤ c ∧ c ≤ 126)))

theorem Printable.append {a b : PyStr} (ha : Printable a) (hb : Printable b) : Printable (a ++ b) := fun c hc => by
  rcases List.mem_append.1 hc with h | h
  · exact ha c h
  · exact hb c h

theorem Printable.cons {c : Nat} {b : PyStr} (hc : c = 10 ∨ (32 ≤ c ∧ c ≤ 126)) (hb : Printable b) : Printable (c :: b) := fun d hd => by
  rcases List.mem_cons.1 hd with rfl | h
  · exact hc
  · exact hb d h

theorem printable_uEscape (n : Nat) : Printable (uEscape n) := by
  have h : ∀ k, k < 16 → 32 ≤ hexDigit k ∧ hexDigit k ≤ 126 := by
    intro k hk
    unfold hexDigit
    split_ifs <;> omega
  unfold uEscape
  intro c hc
  simp only [List.mem_cons, List.not_mem_nil, or_false] at hc
  rcases hc with rfl | rfl | rfl | rfl | rfl | rfl
  · omega
  · omega
  all_goals exact .inr (h _ (Nat.mod_lt _ (by omega)))

theorem printable_escape (c : Nat) : Printable (escape c) := by
  unfold escape
  split_ifs with h1 h2 h3 h4 h5 h6 h7 h8 h9
  all_goals first
    | exact printable_uEscape c
    | exact (printable_uEscape _).append (printable_uEscape _)
    | (intro d hd
       simp only [List.mem_cons, List.not_mem_nil, or_false] at hd
       omega)

theorem printable_encStr (s : PyStr) : Printable (encStr s) := by
  refine .cons (by omega) (.append ?_ (.cons (by omega) fun c hc => by cases hc))
  intro c hc
  obtain ⟨d, -, h⟩ := List.mem_flatMap.1 hc
  exact printable_escape d c h

theorem printable_newline (n : Nat) : Printable (newline n) := by
  refine .cons (.inl rfl) fun c hc => ?_
  rw [List.eq_of_mem_replicate hc]
  omega

theorem printable_encItems {l : List JVal} (h : ∀ v ∈ l, ∀ n, Printable (v.enc n)) (n : Nat) : Printable (JVal.encItems n l) := by
  induction l with
  | nil => rw [JVal.encItems]; exact fun c hc => by cases hc
  | cons v l ih =>
    rw [JVal.encItems]
    exact .cons (by omega) (((printable_newline n).append (h v (by simp) n)).append (ih fun v hv => h v (by simp [hv])))

theorem printable_encPairs {l : List (PyStr × JVal)} (h : ∀ p ∈ l, ∀ n, Printable (p.2.enc n)) (n : Nat) : Printable (JVal.encPairs n l) := by
  induction l with
  | nil => rw [JVal.encPairs]; exact fun c hc => by cases hc
  | cons v l ih =>
    obtain ⟨k, v⟩ := v
    rw [JVal.encPairs]
    have h1 : Printable (lit ": ") := by decide
    exact .cons (by omega) (((((printable_newline n).append (printable_encStr k)).append h1).append (h (k, v) (by simp) n)).append
      (ih fun v hv => h v (by simp [hv])))

theorem printable_arr {l : List JVal} (h : ∀ v ∈ l, ∀ n, Printable (v.enc n)) (n : Nat) : Printable ((JVal.arr l).enc n) := by
  cases l with
  | nil => rw [JVal.enc]; decide
  | cons v l =>
    rw [JVal.enc]
    exact .cons (by omega) (((((printable_newline _).append (h v (by simp) _)).append
      (printable_encItems (fun v hv => h v (by simp [hv])) _)).append (printable_newline _)).append (by decide))

theorem printable_obj {l : List (PyStr × JVal)} (h : ∀ p ∈ l, ∀ n, Printable (p.2.enc n)) (n : Nat) : Printable ((JVal.obj l).enc n) := by
  cases l with
  | nil => rw [JVal.enc]; decide
  | cons v l =>
    obtain ⟨k, v⟩ := v
    rw [JVal.enc]
    have h1 : Printable (lit ": ") := by decide
    exact .cons (by omega) (((((((printable_newline _).append (printable_encStr k)).append h1).append (h (k, v) (by simp) _)).append
      (printable_encPairs (fun v hv => h v (by simp [hv])) _)).append (printable_newline _)).append (by decide))

theorem printable_str (s : PyStr) (n : Nat) : Printable ((JVal.str s).enc n) := by
  rw [JVal.enc]; exact printable_encStr s

/-- The text of the file is made of line feeds and printable ASCII characters, whatever the IDs are. -/
theorem C98_printable (m : Manager PyStr) : Printable m.toJson := by
  refine printable_obj (fun p hp => ?_) 0
  rcases List.mem_cons.1 hp with rfl | hp
  · refine printable_arr fun v hv => ?_
    obtain ⟨x, -, rfl⟩ := List.mem_map.1 hv
    exact printable_str x
  · rw [List.mem_singleton.1 hp]
    refine printable_arr fun v hv => ?_
    obtain ⟨c, -, rfl⟩ := List.mem_map.1 hv
    refine printable_obj fun p hp => ?_
    have hnum : ∀ n, Printable ((JVal.num (lit "1.0")).enc n) := fun n => by rw [JVal.enc]; decide
    simp only [List.mem_cons, List.not_mem_nil, or_false] at hp
    rcases hp with rfl | rfl | rfl | rfl
    · exact printable_str _
    · exact printable_str _
    · exact printable_str _
    · exact hnum

/-! ### Writing and reading -/

/-- The text with the line separators of the system. -/
def withSep (linesep s : PyStr) : PyStr := s.flatMap fun c => if c = 10 then linesep else [c]

theorem universalNewlines_cons {c : Nat} (hc : c ≠ 13) (r : PyStr) : universalNewlines (c :: r) = c :: universalNewlines r := by
  cases r with
  | nil => simp [universalNewlines, hc]
  | cons d r => rw [universalNewlines, if_neg hc]

theorem universalNewlines_id {s : PyStr} (hs : ∀ c ∈ s, c ≠ 13) : universalNewlines s = s := by
  induction s with
  | nil => rfl
  | cons c s ih => rw [universalNewlines_cons (hs c (by simp)), ih fun c hc => hs c (by simp [hc])]

theorem withSep_lf (s : PyStr) : withSep [10] s = s := by
  induction s with
  | nil => rfl
  | cons c s ih =>
    show (if c = 10 then [10] else [c]) ++ withSep [10] s = _
    rw [ih]
    split_ifs with h
    · subst h; rfl
    · rfl

theorem withSep_cons (sep : PyStr) (c : Nat) (s : PyStr) : withSep sep (c :: s) = (if c = 10 then sep else [c]) ++ withSep sep s := rfl

theorem withSep_append (sep a b : PyStr) : withSep sep (a ++ b) = withSep sep a ++ withSep sep b := List.flatMap_append

theorem universalNewlines_crlf (s t : PyStr) (hs : ∀ c ∈ s, c ≠ 13) :
    universalNewlines (withSep [13, 10] s ++ t) = s ++ universalNewlines t := by
  induction s with
  | nil => rfl
  | cons c s ih =>
    have ih := ih fun c hc => hs c (by simp [hc])
    rw [withSep_cons]
    split_ifs with h
    · subst h
      show universalNewlines (13 :: 10 :: (withSep [13, 10] s ++ t)) = _
      rw [universalNewlines, if_pos rfl, if_pos rfl, ih]; rfl
    · show universalNewlines (c :: (withSep [13, 10] s ++ t)) = _
      rw [universalNewlines_cons (hs c (by simp)), ih]; rfl

theorem withSep_lt {sep s : PyStr} (hsep : LineSep sep) (hs : Printable s) : ∀ c ∈ withSep sep s, c < 128 := by
  intro c hc
  obtain ⟨d, hd, h⟩ := List.mem_flatMap.1 hc
  have := hs d hd
  split_ifs at h
  · rcases hsep with rfl | rfl
    · rw [List.mem_singleton.1 h]; omega
    · simp only [List.mem_cons, List.not_mem_nil, or_false] at h; omega
  · rw [List.mem_singleton.1 h]; omega

theorem Printable.ne_cr {s : PyStr} (hs : Printable s) : ∀ c ∈ s, c ≠ 13 := fun c hc => by
  have := hs c hc
  omega

theorem toFile_eq {sep : PyStr} (hsep : LineSep sep) {codec : Codec} (hc : AsciiCompatible codec) (m : Manager PyStr) :
    m.toFile sep codec = some (withSep sep m.toJson) := hc.enc _ (withSep_lt hsep (C98_printable m))

theorem readText_withSep {sep : PyStr} (hsep : LineSep sep) {codec : Codec} (hc : AsciiCompatible codec) {s : PyStr} (hs : Printable s) :
    readText codec (withSep sep s) = some s := by
  unfold readText
  rw [hc.dec _ (withSep_lt hsep hs), Option.map_some]
  rcases hsep with rfl | rfl
  · rw [withSep_lf, universalNewlines_id hs.ne_cr]
  · have := universalNewlines_crlf s [] hs.ne_cr
    rw [List.append_nil] at this
    rw [this]; simp [universalNewlines]

/-- Saving never raises an encoding error, whatever the IDs are (lone surrogates included), and writes bytes below 128 only, the same for all
encodings that contain ASCII. -/
theorem C98_bytes {sep : PyStr} (hsep : LineSep sep) {codec codec' : Codec} (hc : AsciiCompatible codec) (hc' : AsciiCompatible codec')
    (m : Manager PyStr) : ∃ b, m.toFile sep codec = some b ∧ m.toFile sep codec' = some b ∧ ∀ c ∈ b, c < 128 :=
  ⟨_, toFile_eq hsep hc m, toFile_eq hsep hc' m, withSep_lt hsep (C98_printable m)⟩

/-- A file written on one system and read on another one, with other encodings and line ends, gives back the manager. -/
theorem C98_round_trip {m : Manager PyStr} (hm : Reachable m) (hids : ∀ x ∈ m.managed, Unicode x) {sep : PyStr} (hsep : LineSep sep)
    {codec codec' : Codec} (hc : AsciiCompatible codec) (hc' : AsciiCompatible codec') :
    ∃ b m', m.toFile sep codec = some b ∧ loadFile codec' b = .ok m' ∧ Reachable m' ∧ m'.managed = m.managed ∧
      (∀ x y, x ≠ y → m'.getAdded x y = m.getAdded x y) ∧ ∀ x y, m'.getInferred x y = m.getInferred x y := by
  obtain ⟨m', h1, h2, h3, h4, h5, -⟩ := C23_text_round_trip hm hids
  refine ⟨_, m', toFile_eq hsep hc m, ?_, h2, h3, h4, h5⟩
  unfold loadFile
  rw [readText_withSep hsep hc' (C98_printable m)]
  exact h1

theorem withSep_prefix {sep : PyStr} (hsep : LineSep sep) : ∀ {s p q : PyStr}, withSep sep s = p ++ q → q ≠ [] →
    (∃ s1 s2, s = s1 ++ s2 ∧ s2 ≠ [] ∧ p = withSep sep s1) ∨
      ∃ s1 s2, s = s1 ++ 10 :: s2 ∧ p = withSep sep s1 ++ [13] ∧ sep = [13, 10] := by
  intro s
  induction s with
  | nil =>
    intro p q h hq
    have : p ++ q = [] := h.symm
    exact absurd (List.append_eq_nil_iff.1 this).2 hq
  | cons c s ih =>
    intro p q h hq
    cases p with
    | nil => exact .inl ⟨[], c :: s, rfl, by simp, rfl⟩
    | cons d p =>
      rw [withSep_cons] at h
      by_cases hlong : c = 10 ∧ sep = [13, 10]
      · obtain ⟨rfl, rfl⟩ := hlong
        rw [if_pos rfl] at h
        have hd : d = 13 := (List.cons.inj h).1.symm
        have h' : 10 :: withSep [13, 10] s = p ++ q := (List.cons.inj h).2
        subst hd
        cases p with
        | nil => exact .inr ⟨[], s, rfl, rfl, rfl⟩
        | cons d p =>
          have hd : d = 10 := (List.cons.inj h').1.symm
          subst hd
          rcases ih (List.cons.inj h').2 hq with ⟨s1, s2, rfl, h2, rfl⟩ | ⟨s1, s2, rfl, rfl, h3⟩
          · exact .inl ⟨10 :: s1, s2, rfl, h2, rfl⟩
          · exact .inr ⟨10 :: s1, s2, rfl, rfl, h3⟩
      · have hsingle : (if c = 10 then sep else [c]) = [c] := by
          split_ifs with h0
          · rcases hsep with e | e
            · rw [e, h0]
            · exact absurd ⟨h0, e⟩ hlong
          · rfl
        rw [hsingle] at h
        have hd : d = c := (List.cons.inj h).1.symm
        subst hd
        rcases ih (List.cons.inj h).2 hq with ⟨s1, s2, rfl, h2, rfl⟩ | ⟨s1, s2, rfl, rfl, h3⟩
        · exact .inl ⟨d :: s1, s2, rfl, h2, by rw [withSep_cons, hsingle]; rfl⟩
        · exact .inr ⟨d :: s1, s2, rfl, by rw [withSep_cons, hsingle]; rfl, h3⟩

/-- A file cut at any byte is refused with `JSONDecodeError`. -/
theorem C98_truncated {m : Manager PyStr} (hm : Reachable m) (hids : ∀ x ∈ m.managed, Unicode x) {sep : PyStr} (hsep : LineSep sep)
    {codec codec' : Codec} (hc : AsciiCompatible codec) (hc' : AsciiCompatible codec') {b p q : List Nat}
    (hb : m.toFile sep codec = some b) (hcut : b = p ++ q) (hq : q ≠ []) :
    loadFile codec' p = .error (.valueError "JSONDecodeError") := by
  rw [toFile_eq hsep hc m] at hb
  cases hb
  have hpr := C98_printable m
  rcases withSep_prefix hsep hcut hq with ⟨s1, s2, h1, h2, rfl⟩ | ⟨s1, s2, h1, rfl, rfl⟩
  · have hs1 : Printable s1 := fun c hc => hpr c (by rw [h1]; exact List.mem_append_left _ hc)
    unfold loadFile
    rw [readText_withSep hsep hc' hs1]
    exact C23_truncated_refused hm hids h1 h2
  · have hs1 : Printable s1 := fun c hc => hpr c (by rw [h1]; exact List.mem_append_left _ hc)
    have hlast : s2 ≠ [] := by
      rintro rfl
      obtain ⟨t, ht⟩ : ∃ t, m.toJson = t ++ [125] := by
        unfold Manager.toJson Saved.toJVal
        rw [JVal.enc]
        exact ⟨_, (List.cons_append ..).symm⟩
      rw [ht] at h1
      have := List.append_inj_right' h1 rfl
      cases this
    have hrd : readText codec' (withSep [13, 10] s1 ++ [13]) = some (s1 ++ [10]) := by
      unfold readText
      rw [hc'.dec, Option.map_some, universalNewlines_crlf s1 [13] hs1.ne_cr]
      · rfl
      · intro c hc
        rcases List.mem_append.1 hc with h | h
        · exact withSep_lt (.inr rfl) hs1 c h
        · rw [List.mem_singleton.1 h]; omega
    unfold loadFile
    rw [hrd]
    exact C23_truncated_refused hm hids (q := s2) (by rw [h1]; simp) hlast

/-! ### Encodings -/

theorem mapM_option_id {f : Nat → Option Nat} {l : List Nat} (h : ∀ c ∈ l, f c = some c) : l.mapM f = some l := by
  induction l with
  | nil => rfl
  | cons c l ih =>
    rw [List.mapM_cons, h c (by simp), ih fun c hc => h c (by simp [hc])]; rfl

theorem latin1_ascii : AsciiCompatible latin1 :=
  ⟨fun s hs => mapM_option_id fun c hc => if_pos (by have := hs c hc; omega),
    fun s hs => mapM_option_id fun c hc => if_pos (by have := hs c hc; omega)⟩

theorem utf8_ascii : AsciiCompatible utf8 := by
  constructor
  · intro s hs
    have : s.mapM utf8Char = some (s.map fun c => [c]) := by
      induction s with
      | nil => rfl
      | cons c s ih =>
        rw [List.mapM_cons, ih fun c hc => hs c (by simp [hc])]
        unfold utf8Char
        rw [if_pos (show c < 0x80 from hs c (by simp))]; rfl
    show (s.mapM utf8Char).map List.flatten = some s
    rw [this, Option.map_some, ← List.flatMap_def]
    simp
  · intro b hb
    show utf8Dec b = some b
    induction b with
    | nil => rw [utf8Dec]
    | cons c b ih =>
      rw [utf8Dec.eq_def]
      simp only
      rw [if_pos (show c < 0x80 from hb c (by simp)), ih fun c hc => hb c (by simp [hc])]; rfl

/-! ### Concrete cases -/

theorem demoJ_reachable : Reachable demoJ := ⟨_, _, rfl⟩

/-- UTF-8 cannot encode the third ID of `demoJ`, a lone surrogate, but the file has it as an escape sequence. -/
example : utf8.enc [0xd800] = none ∧ (demoJ.toFile [10] utf8).isSome = true :=
  ⟨by decide, by rw [toFile_eq (.inl rfl) utf8_ascii]; rfl⟩

/-- UTF-8 of "é€😀" and back. -/
example : utf8.enc [0xe9, 0x20ac, 0x1f600] = some [0xc3, 0xa9, 0xe2, 0x82, 0xac, 0xf0, 0x9f, 0x98, 0x80] ∧
    utf8.dec [0xc3, 0xa9, 0xe2, 0x82, 0xac, 0xf0, 0x9f, 0x98, 0x80] = some [0xe9, 0x20ac, 0x1f600] := by decide +kernel

/-- Written on Windows with a code page that contains Latin-1, read on Linux with UTF-8. -/
example := C98_round_trip demoJ_reachable demoJ_unicode (.inr rfl) latin1_ascii utf8_ascii

example := C98_bytes (.inr rfl) latin1_ascii utf8_ascii demoJ

example : loadFile utf8 [123, 13] = .error (.valueError "JSONDecodeError") := by
  have h := toFile_eq (.inr rfl) latin1_ascii demoJ
  exact C98_truncated demoJ_reachable demoJ_unicode (.inr rfl) latin1_ascii utf8_ascii h
    (q := (withSep [13, 10] demoJ.toJson).drop 2) (by decide +kernel) (by decide +kernel)

end Verif
