import Mathlib.Data.Nat.Bitwise
import Mathlib.Logic.Function.Basic
import Verif.Model.Twister

/-
The Mersenne Twister MT19937 as published (Matsumoto and Nishimura, 1998, and `mt19937ar.c`): the recurrence for the sequence of words, the
tempering, and the initialisation as loops over an array `mt[0..623]` of 32-bit numbers. Of the model only the type of a generator is used.
-/

namespace Verif

/-- The words of the sequence: 624 given ones, and then each one from the words 624, 623 and 227 places before. The first bit of one word and
the other 31 bits of the next one are shifted to the right, and the matrix is applied if a 1 drops out. -/
def mtSeq (mt : List Nat) (k : Nat) : Nat :=
  if k < 624 then mt.getD k 0
  else
    let y := mtSeq mt (k - 624) / 2 ^ 31 * 2 ^ 31 + mtSeq mt (k - 623) % 2 ^ 31
    mtSeq mt (k - 227) ^^^ (y / 2) ^^^ (y % 2 * 0x9908b0df)
termination_by k

/-- Tempering. -/
def mtOutput (x : Nat) : Nat :=
  let a := x ^^^ (x / 2 ^ 11)
  let b := a ^^^ ((a * 2 ^ 7 % 2 ^ 32) &&& 0x9d2c5680)
  let c := b ^^^ ((b * 2 ^ 15 % 2 ^ 32) &&& 0xefc60000)
  c ^^^ (c / 2 ^ 18)

/-- `n` numbers of 32 bits. -/
def drawWords {S : Type} (R : Rng S) : Nat → S → List Nat
  | 0, _ => []
  | n + 1, s => (R.bits 32 s).1 :: drawWords R n (R.bits 32 s).2

/-- An array of 32-bit numbers. -/
abbrev CArray := Nat → Nat

/-- `mt[i] = v` -/
def CArray.put (mt : CArray) (i v : Nat) : CArray := Function.update mt i (v % 2 ^ 32)

/-- `init_genrand(s)`: `mt[0] = s; for (i = 1; i < 624; i++) mt[i] = 1812433253U * (mt[i-1] ^ (mt[i-1] >> 30)) + i` -/
def cInitGenrand (s : Nat) : CArray :=
  (List.range' 1 623).foldl (fun mt i => mt.put i (1812433253 * (mt (i - 1) ^^^ (mt (i - 1) / 2 ^ 30)) + i)) (CArray.put (fun _ => 0) 0 s)

/-- The state of the loops of `init_by_array`. -/
structure CLoop where
  mt : CArray
  i : Nat
  j : Nat

/-- `i++; if (i >= 624) { mt[0] = mt[623]; i = 1; }` -/
def CLoop.next (s : CLoop) : CLoop := if 624 ≤ s.i + 1 then ⟨s.mt.put 0 (s.mt 623), 1, s.j⟩ else ⟨s.mt, s.i + 1, s.j⟩

/-- The body of the first loop: `mt[i] = (mt[i] ^ ((mt[i-1] ^ (mt[i-1] >> 30)) * 1664525U)) + init_key[j] + j; i++; j++;` and
`if (j >= key_length) j = 0`. -/
def cKeyLoop (key : List Nat) (s : CLoop) : CLoop :=
  let t := CLoop.next ⟨s.mt.put s.i
    ((s.mt s.i ^^^ (((s.mt (s.i - 1) ^^^ (s.mt (s.i - 1) / 2 ^ 30)) * 1664525) % 2 ^ 32)) + key.getD s.j 0 + s.j), s.i, s.j⟩
  ⟨t.mt, t.i, if key.length ≤ s.j + 1 then 0 else s.j + 1⟩

/-- The body of the second loop: `mt[i] = (mt[i] ^ ((mt[i-1] ^ (mt[i-1] >> 30)) * 1566083941U)) - i; i++; …`. -/
def cLastLoop (s : CLoop) : CLoop :=
  CLoop.next ⟨s.mt.put s.i
    ((s.mt s.i ^^^ (((s.mt (s.i - 1) ^^^ (s.mt (s.i - 1) / 2 ^ 30)) * 1566083941) % 2 ^ 32)) + 2 ^ 32 - s.i), s.i, s.j⟩

/-- `init_by_array(key, key_length)`. -/
def cInitByArray (key : List Nat) : CArray :=
  let s := (cKeyLoop key)^[max 624 key.length] ⟨cInitGenrand 19650218, 1, 0⟩
  (cLastLoop^[623] s).mt.put 0 0x80000000

end Verif
