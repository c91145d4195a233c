import Verif.Model.Json

/-
Model of the file layer used by `to_json` and `load_constraints_manager_from_json`
(/repo/src/cognitivefactory/interactive_clustering/constraints/binary.py, lines 769 and 810): `open(filepath, "w")` and
`open(filepath, "r")` without `encoding` and `newline`. Python's `io.TextIOWrapper` then encodes with the encoding of the locale,
writes `os.linesep` for each line feed, and reads with universal newlines.
A file is its list of bytes; the file system itself (missing directories, rights, a full disk) is not modelled.
-/

namespace Verif

/-- A text encoding; `none` is `UnicodeEncodeError` or `UnicodeDecodeError`. -/
structure Codec where
  enc : PyStr → Option (List Nat)
  dec : List Nat → Option PyStr

/-- UTF-8 of one code point; surrogates cannot be encoded. -/
def utf8Char (c : Nat) : Option (List Nat) :=
  if c < 0x80 then some [c]
  else if c < 0x800 then some [0xc0 + c / 64, 0x80 + c % 64]
  else if 0xd800 ≤ c ∧ c < 0xe000 then none
  else if c < 0x10000 then some [0xe0 + c / 4096, 0x80 + c / 64 % 64, 0x80 + c % 64]
  else if c < 0x110000 then some [0xf0 + c / 262144, 0x80 + c / 4096 % 64, 0x80 + c / 64 % 64, 0x80 + c % 64]
  else none

/-- A continuation byte. -/
def utf8Tail (b : Nat) : Option Nat := if 0x80 ≤ b ∧ b < 0xc0 then some (b - 0x80) else none

/-- UTF-8 decoding (strict: no overlong forms, no surrogates). -/
def utf8Dec : List Nat → Option PyStr
  | [] => some []
  | b :: r =>
    if b < 0x80 then do return b :: (← utf8Dec r)
    else if 0xc2 ≤ b ∧ b < 0xe0 then
      match r with
      | b1 :: r => do return ((b - 0xc0) * 64 + (← utf8Tail b1)) :: (← utf8Dec r)
      | _ => none
    else if 0xe0 ≤ b ∧ b < 0xf0 then
      match r with
      | b1 :: b2 :: r => do
        let c := (b - 0xe0) * 4096 + (← utf8Tail b1) * 64 + (← utf8Tail b2)
        if c < 0x800 ∨ (0xd800 ≤ c ∧ c < 0xe000) then none else return c :: (← utf8Dec r)
      | _ => none
    else if 0xf0 ≤ b ∧ b < 0xf5 then
      match r with
      | b1 :: b2 :: b3 :: r => do
        let c := (b - 0xf0) * 262144 + (← utf8Tail b1) * 4096 + (← utf8Tail b2) * 64 + (← utf8Tail b3)
        if c < 0x10000 ∨ 0x110000 ≤ c then none else return c :: (← utf8Dec r)
      | _ => none
    else none

def utf8 : Codec where
  enc s := (s.mapM utf8Char).map List.flatten
  dec := utf8Dec

/-- Latin-1: the code points below 256. -/
def latin1 : Codec where
  enc s := s.mapM fun c => if c < 256 then some c else none
  dec b := b.mapM fun c => if c < 256 then some c else none

/-- What `TextIOWrapper.write` puts into the file; `linesep` is `os.linesep`. -/
def writeText (linesep : PyStr) (codec : Codec) (s : PyStr) : Option (List Nat) :=
  codec.enc (s.flatMap fun c => if c = 10 then linesep else [c])

/-- Universal newlines: `"\r\n"` and `"\r"` become `"\n"`. -/
def universalNewlines : PyStr → PyStr
  | [] => []
  | [c] => [if c = 13 then 10 else c]
  | c :: c' :: r =>
    if c = 13 then
      if c' = 10 then 10 :: universalNewlines r else 10 :: universalNewlines (c' :: r)
    else c :: universalNewlines (c' :: r)

/-- What `TextIOWrapper.read` returns. -/
def readText (codec : Codec) (b : List Nat) : Option PyStr := (codec.dec b).map universalNewlines

/-- `to_json`, lines 769-788: the bytes of the file. -/
def Manager.toFile (linesep : PyStr) (codec : Codec) (m : Manager PyStr) : Option (List Nat) := writeText linesep codec m.toJson

/-- `load_constraints_manager_from_json`, lines 810-830. `UnicodeDecodeError` is a `ValueError`, as `JSONDecodeError` is. -/
def loadFile (codec : Codec) (b : List Nat) : Except PyErr (Manager PyStr) :=
  match readText codec b with
  | none => .error (.valueError "UnicodeDecodeError")
  | some s => loadText s

end Verif
