import Mathlib.Data.List.Lex
import Verif.Model.Serialize

/-
Model of the text written by `json.dump(..., indent=1)` in `to_json` and read by `json.load` in
`load_constraints_manager_from_json`
(/repo/src/cognitivefactory/interactive_clustering/constraints/binary.py, lines 769-828).

The encoder and decoder are python's standard `json` package (Lib/json/encoder.py,
Lib/json/decoder.py, Lib/json/scanner.py), modelled on lists of code points. All 0x110000 code
points are allowed in a python string, lone surrogates included.
-/

namespace Verif

/-- A python string: its list of code points. Python compares strings code point by code point,
the order of lists used for the data IDs. -/
abbrev PyStr := List Nat

/-- ASCII literal as a python string. -/
def lit (s : String) : PyStr := s.toList.map Char.toNat

/-- A JSON value. Numbers keep their literal text (the numeric values are not used by the code). -/
inductive JVal where
  | null
  | bool (b : Bool)
  | num (text : PyStr)
  | str (s : PyStr)
  | arr (l : List JVal)
  | obj (l : List (PyStr × JVal))
  deriving Repr

/-! ### Encoder -/

/-- Hexadecimal digit, lower case (`'{0:04x}'.format`). -/
def hexDigit (n : Nat) : Nat := if n < 10 then 48 + n else 87 + n

/-- `'\\u{0:04x}'.format(n)`, encoder.py `py_encode_basestring_ascii`. -/
def uEscape (n : Nat) : PyStr :=
  [92, 117, hexDigit (n / 4096 % 16), hexDigit (n / 256 % 16), hexDigit (n / 16 % 16), hexDigit (n % 16)]

/-- One character, encoder.py `py_encode_basestring_ascii` (`ensure_ascii` is on by default). -/
def escape (c : Nat) : PyStr :=
  if c = 34 then [92, 34]            -- \"
  else if c = 92 then [92, 92]       -- \\
  else if c = 8 then [92, 98]        -- \b
  else if c = 12 then [92, 102]      -- \f
  else if c = 10 then [92, 110]      -- \n
  else if c = 13 then [92, 114]      -- \r
  else if c = 9 then [92, 116]       -- \t
  else if 32 ≤ c ∧ c ≤ 126 then [c]
  else if c < 0x10000 then uEscape c
  else uEscape (0xd800 + (c - 0x10000) / 1024 % 1024) ++ uEscape (0xdc00 + (c - 0x10000) % 1024)

/-- A string literal with its quotes. -/
def encStr (s : PyStr) : PyStr := 34 :: (s.flatMap escape ++ [34])

/-- `'\n' + ' ' * level` with `indent=1`. -/
def newline (level : Nat) : PyStr := 10 :: List.replicate level 32

mutual
/-- encoder.py `_make_iterencode._iterencode` with `indent=1`, separators `(',', ': ')`. -/
def JVal.enc (level : Nat) : JVal → PyStr
  | .null => lit "null"
  | .bool true => lit "true"
  | .bool false => lit "false"
  | .num t => t
  | .str s => encStr s
  | .arr [] => lit "[]"
  | .arr (v :: l) =>
    91 :: (newline (level + 1) ++ v.enc (level + 1) ++ JVal.encItems (level + 1) l ++ newline level ++ [93])
  | .obj [] => lit "{}"
  | .obj ((k, v) :: l) =>
    123 :: (newline (level + 1) ++ encStr k ++ lit ": " ++ v.enc (level + 1)
      ++ JVal.encPairs (level + 1) l ++ newline level ++ [125])
/-- The items after the first one, encoder.py `_iterencode_list`. -/
def JVal.encItems (level : Nat) : List JVal → PyStr
  | [] => []
  | v :: l => 44 :: (newline level ++ v.enc level ++ JVal.encItems level l)
/-- The pairs after the first one, encoder.py `_iterencode_dict`. -/
def JVal.encPairs (level : Nat) : List (PyStr × JVal) → PyStr
  | [] => []
  | (k, v) :: l => 44 :: (newline level ++ encStr k ++ lit ": " ++ v.enc level ++ JVal.encPairs level l)
end

/-! ### Decoder: `none` is `JSONDecodeError` -/

/-- decoder.py `WHITESPACE`: space, tab, newline, carriage return. -/
def isWs (c : Nat) : Bool := c == 32 || c == 9 || c == 10 || c == 13

/-- Skip white space. -/
def skipWs (s : PyStr) : PyStr := s.dropWhile isWs

/-- One hexadecimal digit of either case. -/
def unhex (c : Nat) : Option Nat :=
  if 48 ≤ c ∧ c ≤ 57 then some (c - 48)
  else if 97 ≤ c ∧ c ≤ 102 then some (c - 87)
  else if 65 ≤ c ∧ c ≤ 70 then some (c - 55)
  else none

/-- decoder.py `_decode_uXXXX`: four hexadecimal digits. -/
def hex4 : PyStr → Option (Nat × PyStr)
  | a :: b :: c :: d :: r => do
    return ((← unhex a) * 4096 + (← unhex b) * 256 + (← unhex c) * 16 + (← unhex d), r)
  | _ => none

/-- decoder.py `BACKSLASH`. -/
def unescape (c : Nat) : Option Nat :=
  if c = 34 then some 34 else if c = 92 then some 92 else if c = 47 then some 47
  else if c = 98 then some 8 else if c = 102 then some 12 else if c = 110 then some 10
  else if c = 114 then some 13 else if c = 116 then some 9 else none

/-- decoder.py `py_scanstring` in strict mode, after the opening quote. The first argument is
fuel: every step consumes a character. -/
def pStr : Nat → PyStr → Option (PyStr × PyStr)
  | 0, _ => none
  | _ + 1, [] => none
  | f + 1, c :: r =>
    if c = 34 then some ([], r)
    else if c = 92 then
      match r with
      | [] => none
      | e :: r1 =>
        if e = 117 then do
          let (u, r2) ← hex4 r1
          if 0xd800 ≤ u ∧ u ≤ 0xdbff ∧ r2.take 2 = [92, 117] then
            let (u2, r3) ← hex4 (r2.drop 2)
            if 0xdc00 ≤ u2 ∧ u2 ≤ 0xdfff then
              let (s, rest) ← pStr f r3
              return ((0x10000 + ((u - 0xd800) * 1024 + (u2 - 0xdc00))) :: s, rest)
            else
              let (s, rest) ← pStr f r2
              return (u :: s, rest)
          else
            let (s, rest) ← pStr f r2
            return (u :: s, rest)
        else do
          let u ← unescape e
          let (s, rest) ← pStr f r1
          return (u :: s, rest)
    else if c < 32 then none
    else do
      let (s, rest) ← pStr f r
      return (c :: s, rest)

/-- ASCII digit. -/
def isDigit (c : Nat) : Bool := 48 ≤ c && c ≤ 57

/-- Integer part `-?(?:0|[1-9]\d*)` of scanner.py `NUMBER_RE`. -/
def pInt (s : PyStr) : Option (PyStr × PyStr) :=
  match s with
  | [] => none
  | c :: r =>
    if c = 45 then
      match r with
      | [] => none
      | d :: r1 =>
        if d = 48 then some ([45, 48], r1)
        else if isDigit d then some (45 :: d :: r1.takeWhile isDigit, r1.dropWhile isDigit)
        else none
    else if c = 48 then some ([48], r)
    else if isDigit c then some (c :: r.takeWhile isDigit, r.dropWhile isDigit)
    else none

/-- Optional fraction `(\.\d+)?` of `NUMBER_RE`. -/
def pFrac (s : PyStr) : PyStr × PyStr :=
  match s with
  | c :: d :: r =>
    if c = 46 ∧ isDigit d = true then (46 :: d :: r.takeWhile isDigit, r.dropWhile isDigit) else ([], s)
  | _ => ([], s)

/-- Optional exponent `([eE][-+]?\d+)?` of `NUMBER_RE`. -/
def pExp (s : PyStr) : PyStr × PyStr :=
  match s with
  | c :: d :: r =>
    if c = 101 ∨ c = 69 then
      if isDigit d = true then (c :: d :: r.takeWhile isDigit, r.dropWhile isDigit)
      else if d = 43 ∨ d = 45 then
        match r with
        | e :: r1 =>
          if isDigit e = true then (c :: d :: e :: r1.takeWhile isDigit, r1.dropWhile isDigit) else ([], s)
        | [] => ([], s)
      else ([], s)
    else ([], s)
  | _ => ([], s)

/-- scanner.py `NUMBER_RE.match`. -/
def pNum (s : PyStr) : Option (PyStr × PyStr) := do
  let (i, r1) ← pInt s
  let (fr, r2) := pFrac r1
  let (ex, r3) := pExp r2
  return (i ++ fr ++ ex, r3)

/-- `string[idx:idx+len(w)] == w`, with the rest of the string. -/
def stripWord (w s : PyStr) : Option PyStr := if s.take w.length = w then some (s.drop w.length) else none

/-- scanner.py `_scan_once` for the values that are not strings, arrays or objects. -/
def pAtom (s : PyStr) : Option (JVal × PyStr) :=
  match stripWord (lit "null") s with
  | some r => some (.null, r)
  | none => match stripWord (lit "true") s with
    | some r => some (.bool true, r)
    | none => match stripWord (lit "false") s with
      | some r => some (.bool false, r)
      | none => match pNum s with
        | some (t, r) => some (.num t, r)
        | none => match stripWord (lit "NaN") s with
          | some r => some (.num (lit "NaN"), r)
          | none => match stripWord (lit "Infinity") s with
            | some r => some (.num (lit "Infinity"), r)
            | none => match stripWord (lit "-Infinity") s with
              | some r => some (.num (lit "-Infinity"), r)
              | none => none

mutual
/-- scanner.py `_scan_once`. The first argument is fuel. -/
def pVal : Nat → PyStr → Option (JVal × PyStr)
  | 0, _ => none
  | _ + 1, [] => none
  | f + 1, c :: r =>
    if c = 34 then do
      let (s, rest) ← pStr f r
      return (.str s, rest)
    else if c = 123 then
      -- decoder.py `JSONObject`
      match skipWs r with
      | [] => none
      | d :: r1 =>
        if d = 125 then some (.obj [], r1)
        else if d = 34 then do
          let (l, rest) ← pPairs f r1
          return (.obj (dofList l), rest)
        else none
    else if c = 91 then
      -- decoder.py `JSONArray`
      match skipWs r with
      | [] => none
      | d :: r1 =>
        if d = 93 then some (.arr [], r1)
        else do
          let (l, rest) ← pItems f (d :: r1)
          return (.arr l, rest)
    else pAtom (c :: r)
/-- decoder.py `JSONArray`, the loop: a value, then `,` or `]`. -/
def pItems : Nat → PyStr → Option (List JVal × PyStr)
  | 0, _ => none
  | f + 1, s => do
    let (v, r) ← pVal f s
    match skipWs r with
    | [] => none
    | d :: r1 =>
      if d = 93 then return ([v], r1)
      else if d = 44 then
        let (l, rest) ← pItems f (skipWs r1)
        return (v :: l, rest)
      else none
/-- decoder.py `JSONObject`, the loop, after the opening quote of a key. -/
def pPairs : Nat → PyStr → Option (List (PyStr × JVal) × PyStr)
  | 0, _ => none
  | f + 1, s => do
    let (k, r) ← pStr f s
    match skipWs r with
    | [] => none
    | d :: r1 =>
      if d = 58 then
        let (v, r2) ← pVal f (skipWs r1)
        match skipWs r2 with
        | [] => none
        | e :: r3 =>
          if e = 125 then return ([(k, v)], r3)
          else if e = 44 then
            match skipWs r3 with
            | [] => none
            | g :: r4 =>
              if g = 34 then
                let (l, rest) ← pPairs f r4
                return ((k, v) :: l, rest)
              else none
          else none
      else none
end

/-- decoder.py `JSONDecoder.decode`: one value surrounded by white space only. The fuel is always
sufficient (`pVal_fuel` in `Proofs/Json.lean`). -/
def decode (s : PyStr) : Option JVal := do
  let (v, r) ← pVal (2 * s.length + 2) (skipWs s)
  if skipWs r = [] then return v else none

/-! ### The two functions of the library -/

/-- Document of `to_json`, lines 771-786, as a JSON value; `1.0` is python's `repr(1.0)`. -/
def Saved.toJVal (s : Saved PyStr) : JVal :=
  .obj [(lit "list_of_managed_data_IDs", .arr (s.ids.map .str)),
    (lit "list_of_added_constraints", .arr (s.constraints.map fun c =>
      .obj [(lit "data_ID1", .str c.id1), (lit "data_ID2", .str c.id2),
        (lit "constraint_type", .str (lit c.type)), (lit "constraints_value", .num (lit "1.0"))]))]

/-- `to_json`: the text of the file. -/
def Manager.toJson (m : Manager PyStr) : PyStr := m.save.toJVal.enc 0

/-- `attributes[key]` on a decoded value: `TypeError` if it is not an object (a list indexed by a
string; other values likewise), `KeyError` if the key is missing. -/
def JVal.getKey (key : String) : JVal → Except PyErr JVal
  | .obj l => dget l (lit key)
  | _ => .error .typeError

/-- A decoded value used as a managed data ID, line 816. Simplified: the constructor would also
accept a list of IDs that are all numbers; everything but a string is an error here. -/
def JVal.asStr : JVal → Except PyErr PyStr
  | .str s => .ok s
  | _ => .error .typeError

/-- A decoded value that is iterated over (lines 97, 114 and 821): a list gives its items, a string
its characters, an object its keys; other values are not iterable. -/
def JVal.iter : JVal → Except PyErr (List JVal)
  | .arr l => .ok l
  | .str s => .ok (s.map fun c => .str [c])
  | .obj l => .ok (l.map fun p => .str p.1)
  | _ => .error .typeError

/-- Constraint type as a string; other texts are refused by `add_constraint` anyway. -/
def typeText (s : PyStr) : String :=
  if s = lit "MUST_LINK" then "MUST_LINK" else if s = lit "CANNOT_LINK" then "CANNOT_LINK" else "?"

/-- `data_ID not in self._constraints_dictionary.keys()`, lines 246 and 248, on a decoded value:
a list or an object is not hashable; another value that is not a string is not managed. -/
def JVal.asManaged (name : String) (m : Manager PyStr) : JVal → Except PyErr PyStr
  | .str s => if s ∈ m.managed then .ok s else .error (.valueError name)
  | .arr _ | .obj _ => .error .typeError
  | _ => .error (.valueError name)

/-- `constraint_type not in self._allowed_constraint_types`, line 252, on a decoded value. -/
def JVal.asType : JVal → Except PyErr String
  | .str s => .ok (typeText s)
  | .arr _ | .obj _ => .error .typeError
  | _ => .error (.valueError "constraint_type")

/-- One round of the loop of lines 821-827: the three values of the entry are read, then
`add_constraint` checks the IDs and the type in this order. -/
def addEntry (m : Manager PyStr) (v : JVal) : Except PyErr (Manager PyStr) := do
  let v1 ← v.getKey "data_ID1"
  let v2 ← v.getKey "data_ID2"
  let v3 ← v.getKey "constraint_type"
  let id1 ← v1.asManaged "data_ID1" m
  let id2 ← v2.asManaged "data_ID2" m
  let ty ← v3.asType
  match Manager.addConstraint id1 id2 ty 1 m with
  | .ok _ m' => .ok m'
  | .error e _ => .error e

/-- `load_constraints_manager_from_json`, lines 811-830, from the text of the file. -/
def loadText (text : PyStr) : Except PyErr (Manager PyStr) := do
  match decode text with
  | none => .error (.valueError "JSONDecodeError")
  | some v =>
    let ids ← (← (← v.getKey "list_of_managed_data_IDs").iter).mapM JVal.asStr
    let entries ← (← v.getKey "list_of_added_constraints").iter
    entries.foldlM addEntry (Manager.init ids)

end Verif
