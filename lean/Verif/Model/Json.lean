import Verif.Model.Py

/-!
The Python values that appear as operator arguments and in serialized texts, and the parts of the
standard `json` module used by `/repo`: `json.dumps(v, ensure_ascii=False, indent=2)`
(`ops/base.py:61-69`, `pipe.py:226-234`), `json.dumps(v)` (`transformers/ordinal_label.py:94-100`) and
`json.loads` (`ops/base.py:51-53`, `pipe.py:239`, `transformers/ordinal_label.py:104`).

The `json` module is not part of `/repo`; this is a model of CPython's `Lib/json/encoder.py`
(`py_encode_basestring`, `py_encode_basestring_ascii`, `_make_iterencode`), `Lib/json/decoder.py`
(`py_scanstring`, `JSONObject`, `JSONArray`, `JSONDecoder.decode`) and `Lib/json/scanner.py`. Floats,
dict keys that are not strings, lone surrogates and Python's recursion limit are not modelled.
-/

namespace Uttut

/-- Python values used as operator arguments: `None`, `bool`, `int`, `str`, `list`, `tuple` and `dict`
with string keys (association list in insertion order). -/
inductive PyVal
  | none
  | bool (b : Bool)
  | int (i : Int)
  | str (s : Str)
  | list (l : List PyVal)
  | tuple (l : List PyVal)
  | dict (d : List (Str × PyVal))

namespace PyVal

/-- The number a `bool` or `int` compares as (`True == 1`, `False == 0`). -/
def asInt? : PyVal → Option Int
  | .bool b => some (if b then 1 else 0)
  | .int i => some i
  | _ => Option.none

mutual

/-- Python `==`: dicts are compared as maps, lists and tuples elementwise (a list never equals a
tuple), `bool` and `int` as numbers. -/
def eq : PyVal → PyVal → Bool
  | .none, .none => true
  | .str a, .str b => a == b
  | .list a, .list b => eqList a b
  | .tuple a, .tuple b => eqList a b
  | .dict a, .dict b => a.length == b.length && eqDict a b
  | .bool a, w => w.asInt? == some (if a then 1 else 0)
  | .int a, w => w.asInt? == some a
  | _, _ => false

/-- Elementwise `==` of two sequences. -/
def eqList : List PyVal → List PyVal → Bool
  | [], [] => true
  | a :: as, b :: bs => eq a b && eqList as bs
  | _, _ => false

/-- Every key of the first dict has an equal value in the second. -/
def eqDict : List (Str × PyVal) → List (Str × PyVal) → Bool
  | [], _ => true
  | (k, v) :: d, e =>
    (match dictGet e k with
    | some w => eq v w
    | Option.none => false) && eqDict d e

end

end PyVal

namespace Json

/-! ### `json.dumps` -/

/-- One lower-case hexadecimal digit. -/
def hexDigit (n : Nat) : Char :=
  if n < 10 then Char.ofNat (48 + n) else Char.ofNat (87 + n)

/-- `'{0:04x}'.format(n)` for `n < 0x10000`. -/
def hex4 (n : Nat) : Str :=
  [hexDigit (n / 4096 % 16), hexDigit (n / 256 % 16), hexDigit (n / 16 % 16), hexDigit (n % 16)]

/-- One character of a string literal: `encoder.py` `ESCAPE_DCT`, `py_encode_basestring` (with
`ascii = false`) and `py_encode_basestring_ascii` (with `ascii = true`). -/
def escapeChar (ascii : Bool) (c : Char) : Str :=
  if c = '"' then ['\\', '"']
  else if c = '\\' then ['\\', '\\']
  else if c = '\n' then ['\\', 'n']
  else if c = '\r' then ['\\', 'r']
  else if c = '\t' then ['\\', 't']
  else if c = Char.ofNat 12 then ['\\', 'f']
  else if c = Char.ofNat 8 then ['\\', 'b']
  else if c.toNat < 0x20 then ['\\', 'u'] ++ hex4 c.toNat
  else if ascii ∧ 0x7f ≤ c.toNat then
    if c.toNat < 0x10000 then ['\\', 'u'] ++ hex4 c.toNat
    else
      let n := c.toNat - 0x10000
      ['\\', 'u'] ++ hex4 (0xd800 + n / 0x400 % 0x400) ++ ['\\', 'u'] ++ hex4 (0xdc00 + n % 0x400)
  else [c]

/-- A string literal with its quotes. -/
def escape (ascii : Bool) (s : Str) : Str := '"' :: (s.flatMap (escapeChar ascii) ++ ['"'])

/-- Decimal digits of a natural number (`int.__repr__`); `fuel` bounds the number of digits. -/
def natStr : (fuel n : Nat) → Str
  | 0, _ => []
  | fuel + 1, n =>
    if n < 10 then [hexDigit n] else natStr fuel (n / 10) ++ [hexDigit (n % 10)]

/-- `int.__repr__`. -/
def intStr (i : Int) : Str :=
  if i < 0 then '-' :: natStr (i.natAbs + 1) i.natAbs else natStr (i.natAbs + 1) i.natAbs

/-- Layout: `none` = default separators on one line, `some k` = `indent=k`. -/
abbrev Layout := Option Nat

/-- `newline_indent` at the given depth. -/
def newline (ind : Layout) (level : Nat) : Str :=
  match ind with
  | none => []
  | some k => '\n' :: List.replicate (k * level) ' '

/-- Separator between items. -/
def itemSep (ind : Layout) (level : Nat) : Str :=
  match ind with
  | none => [',', ' ']
  | some _ => ',' :: newline ind level

mutual

/-- `_iterencode`: the text of a value at the given depth. -/
def dump (ascii : Bool) (ind : Layout) (level : Nat) : PyVal → Str
  | .none => "null".toList
  | .bool true => "true".toList
  | .bool false => "false".toList
  | .int i => intStr i
  | .str s => escape ascii s
  | .list [] => ['[', ']']
  | .list (v :: vs) =>
    '[' :: (newline ind (level + 1) ++ dump ascii ind (level + 1) v
      ++ dumpItems ascii ind (level + 1) vs ++ newline ind level ++ [']'])
  | .tuple [] => ['[', ']']
  | .tuple (v :: vs) =>
    '[' :: (newline ind (level + 1) ++ dump ascii ind (level + 1) v
      ++ dumpItems ascii ind (level + 1) vs ++ newline ind level ++ [']'])
  | .dict [] => ['{', '}']
  | .dict ((k, v) :: d) =>
    '{' :: (newline ind (level + 1) ++ escape ascii k ++ [':', ' '] ++ dump ascii ind (level + 1) v
      ++ dumpPairs ascii ind (level + 1) d ++ newline ind level ++ ['}'])

/-- `_iterencode_list`: the items after the first. -/
def dumpItems (ascii : Bool) (ind : Layout) (level : Nat) : List PyVal → Str
  | [] => []
  | v :: vs => itemSep ind level ++ dump ascii ind level v ++ dumpItems ascii ind level vs

/-- `_iterencode_dict`: the items after the first. -/
def dumpPairs (ascii : Bool) (ind : Layout) (level : Nat) : List (Str × PyVal) → Str
  | [] => []
  | (k, v) :: d =>
    itemSep ind level ++ escape ascii k ++ [':', ' '] ++ dump ascii ind level v
      ++ dumpPairs ascii ind level d

end

/-- `json.dumps(v)` (`ascii = true`, one line) and `json.dumps(v, ensure_ascii=False, indent=2)`. -/
def dumps (ascii : Bool) (ind : Layout) (v : PyVal) : Str := dump ascii ind 0 v

/-! ### `json.loads` -/

/-- `decoder.py` `WHITESPACE_STR`. -/
def isWs (c : Char) : Bool := c == ' ' || c == '\t' || c == '\n' || c == '\r'

/-- Skip whitespace. -/
def skipWs (s : Str) : Str := s.dropWhile isWs

/-- Value of a hexadecimal digit. -/
def hexVal? (c : Char) : Option Nat :=
  let n := c.toNat
  if 48 ≤ n ∧ n ≤ 57 then some (n - 48)
  else if 97 ≤ n ∧ n ≤ 102 then some (n - 87)
  else if 65 ≤ n ∧ n ≤ 70 then some (n - 55)
  else none

/-- `decoder.py` `_decode_uXXXX`: four hexadecimal digits. -/
def parseHex4 : Str → Option (Nat × Str)
  | a :: b :: c :: d :: r => do
    let a ← hexVal? a
    let b ← hexVal? b
    let c ← hexVal? c
    let d ← hexVal? d
    return (a * 4096 + b * 256 + c * 16 + d, r)
  | _ => none

/-- The character of a code unit that is no surrogate (lone surrogates are not modelled). -/
def unitChar (n : Nat) : Option Char :=
  if 0xd800 ≤ n ∧ n ≤ 0xdfff then none else some (Char.ofNat n)

/-- `decoder.py` `py_scanstring`: the escape sequence after a backslash. -/
def parseEscape : Str → Option (Char × Str)
  | [] => none
  | c :: r =>
    if c = '"' then some ('"', r)
    else if c = '\\' then some ('\\', r)
    else if c = '/' then some ('/', r)
    else if c = 'b' then some (Char.ofNat 8, r)
    else if c = 'f' then some (Char.ofNat 12, r)
    else if c = 'n' then some ('\n', r)
    else if c = 'r' then some ('\r', r)
    else if c = 't' then some ('\t', r)
    else if c = 'u' then do
      let (n, r) ← parseHex4 r
      if 0xd800 ≤ n ∧ n ≤ 0xdbff then
        match r with
        | '\\' :: 'u' :: r2 => do
          let (m, r2) ← parseHex4 r2
          if 0xdc00 ≤ m ∧ m ≤ 0xdfff then
            return (Char.ofNat (0x10000 + (n - 0xd800) * 0x400 + (m - 0xdc00)), r2)
          else none
        | _ => none
      else do
        let c ← unitChar n
        return (c, r)
    else none

/-- `decoder.py` `py_scanstring` (strict) after the opening quote. -/
def parseString : (fuel : Nat) → Str → Option (Str × Str)
  | 0, _ => none
  | _ + 1, [] => none
  | fuel + 1, c :: r =>
    if c = '"' then some ([], r)
    else if c = '\\' then do
      let (e, r) ← parseEscape r
      let (s, r) ← parseString fuel r
      return (e :: s, r)
    else if c.toNat < 0x20 then none
    else do
      let (s, r) ← parseString fuel r
      return (c :: s, r)

/-- ASCII digits. -/
def isDigitChar (c : Char) : Bool := 48 ≤ c.toNat && c.toNat ≤ 57

/-- Value of a digit string. -/
def digitsVal (s : Str) : Nat := s.foldl (fun n c => n * 10 + (c.toNat - 48)) 0

/-- `0|[1-9][0-9]*`. -/
def parseNat (s : Str) : Option (Nat × Str) :=
  match s with
  | '0' :: r => some (0, r)
  | _ =>
    let ds := s.takeWhile isDigitChar
    if ds.isEmpty then none else some (digitsVal ds, s.dropWhile isDigitChar)

/-- Does a fraction or exponent follow (float, not modelled)? -/
def floatFollows : Str → Bool
  | c :: _ => c == '.' || c == 'e' || c == 'E'
  | [] => false

/-- The optional minus sign. -/
def splitSign : Str → Bool × Str
  | [] => (false, [])
  | c :: r => if c = '-' then (true, r) else (false, c :: r)

/-- `scanner.py` number; `NaN` and `Infinity` are not modelled. -/
def parseInt (s : Str) : Option (Int × Str) :=
  match parseNat (splitSign s).2 with
  | none => none
  | some (n, r) =>
    if floatFollows r then none else some (if (splitSign s).1 then -(n : Int) else (n : Int), r)

mutual

/-- `scanner.py` `scan_once`. -/
def parseValue : (fuel : Nat) → Str → Option (PyVal × Str)
  | 0, _ => none
  | fuel + 1, s =>
    match s with
    | [] => none
    | c :: r =>
      if c = '"' then (parseString (r.length + 1) r).map fun p => (.str p.1, p.2)
      else if c = '[' then
        (if startsWith [']'] (skipWs r) then some (.list [], (skipWs r).drop 1)
         else (parseItems fuel (skipWs r)).map fun p => (.list p.1, p.2))
      else if c = '{' then
        (if startsWith ['}'] (skipWs r) then some (.dict [], (skipWs r).drop 1)
         else (parsePairs fuel (skipWs r)).map fun p =>
           (.dict (p.1.foldl (fun d kv => dictSet d kv.1 kv.2) []), p.2))
      else if c = 'n' then
        (if startsWith "ull".toList r then some (.none, r.drop 3) else none)
      else if c = 't' then
        (if startsWith "rue".toList r then some (.bool true, r.drop 3) else none)
      else if c = 'f' then
        (if startsWith "alse".toList r then some (.bool false, r.drop 4) else none)
      else (parseInt s).map fun p => (.int p.1, p.2)

/-- `decoder.py` `JSONArray`, from the first item on. -/
def parseItems : (fuel : Nat) → Str → Option (List PyVal × Str)
  | 0, _ => none
  | fuel + 1, s =>
    match parseValue fuel s with
    | none => none
    | some (v, r) =>
      match skipWs r with
      | [] => none
      | c :: r =>
        if c = ']' then some ([v], r)
        else if c = ',' then (parseItems fuel (skipWs r)).map fun p => (v :: p.1, p.2)
        else none

/-- `decoder.py` `JSONObject`, from the first key on: the pairs in textual order. -/
def parsePairs : (fuel : Nat) → Str → Option (List (Str × PyVal) × Str)
  | 0, _ => none
  | fuel + 1, s =>
    match s with
    | [] => none
    | c :: r =>
      if c = '"' then
        match parseString (r.length + 1) r with
        | none => none
        | some (k, r) =>
          match skipWs r with
          | [] => none
          | c :: r =>
            if c = ':' then
              match parseValue fuel (skipWs r) with
              | none => none
              | some (v, r) =>
                match skipWs r with
                | [] => none
                | c :: r =>
                  if c = '}' then some ([(k, v)], r)
                  else if c = ',' then (parsePairs fuel (skipWs r)).map fun p => ((k, v) :: p.1, p.2)
                  else none
            else none
      else none

end

/-- `json.loads`; JSONDecodeError is a ValueError. -/
def loads (text : Str) : Res PyVal :=
  match parseValue (text.length + 1) (skipWs text) with
  | none => .error .valueError
  | some (v, r) => if (skipWs r).isEmpty then .ok v else .error .valueError

end Json

end Uttut
