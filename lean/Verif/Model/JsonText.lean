import Mathlib.Data.List.Basic
import Verif.Model.Dict

/-! Model of the JSON encoder (postbound/util/jsonize.py:34-76) and of the parts of Python's `json` module it relies on:
`json.dumps` with its default arguments, and `json.loads`, which all readers of PostBOUND use (e.g.
postbound/opt/_helpers.py:102, 157, 530, 657, postbound/parser.py:2394). -/

namespace PB.JsonText
open PB

/-- Floats: finite ones and the three special values. -/
inductive Flt (F : Type) where
  | fin (x : F)
  | nan
  | inf
  | ninf
deriving DecidableEq

/-- A document after `json.loads`. Objects are lists of entries in insertion order. -/
inductive Json (F : Type) where
  | null
  | bool (b : Bool)
  | int (i : Int)
  | flt (f : Flt F)
  | str (s : List Char)
  | arr (l : List (Json F))
  | obj (l : List (List Char × Json F))

/-- The text of finite floats: `float.__repr__` and the constructor `float`. -/
structure FloatText (F : Type) where
  repr : F → List Char
  parse : List Char → Option F

/-! ### json.dumps -/

/-- One hexadecimal digit. -/
def hexDigit (n : Nat) : Char := if n < 10 then Char.ofNat (48 + n) else Char.ofNat (87 + n)

/-- `\uXXXX` (`'\\u{0:04x}'.format(n)`) -/
def uEscape (n : Nat) : List Char :=
  ['\\', 'u', hexDigit (n / 4096 % 16), hexDigit (n / 256 % 16), hexDigit (n / 16 % 16), hexDigit (n % 16)]

/-- `py_encode_basestring_ascii` of `json.encoder`, one character. `json.dumps` escapes everything outside printable
ASCII by default. -/
def escChar (c : Char) : List Char :=
  if c = '"' then ['\\', '"']
  else if c = '\\' then ['\\', '\\']
  else if c = '\n' then ['\\', 'n']
  else if c = '\r' then ['\\', 'r']
  else if c = '\t' then ['\\', 't']
  else if c.toNat = 12 then ['\\', 'f']
  else if c.toNat = 8 then ['\\', 'b']
  else if 32 ≤ c.toNat ∧ c.toNat ≤ 126 then [c]
  else if c.toNat < 65536 then uEscape c.toNat
  else uEscape (55296 + (c.toNat - 65536) / 1024) ++ uEscape (56320 + (c.toNat - 65536) % 1024)

/-- The text of a string. -/
def strText (s : List Char) : List Char := '"' :: s.flatMap escChar ++ ['"']

/-- The digit of a number below ten. -/
def digit (n : Nat) : Char := Char.ofNat (48 + n)

/-- `int.__repr__` for non-negative numbers. -/
def natText (n : Nat) : List Char := if n < 10 then [digit n] else natText (n / 10) ++ [digit (n % 10)]
termination_by n
decreasing_by omega

/-- `int.__repr__` -/
def intText : Int → List Char
  | .ofNat n => natText n
  | .negSucc n => '-' :: natText (n + 1)

/-- `floatstr` of `json.encoder` -/
def fltText {F : Type} (ft : FloatText F) : Flt F → List Char
  | .fin x => ft.repr x
  | .nan => "NaN".toList
  | .inf => "Infinity".toList
  | .ninf => "-Infinity".toList

mutual
/-- `JSONEncoder.encode` with the default separators. -/
def dumps {F : Type} (ft : FloatText F) : Json F → List Char
  | .null => "null".toList
  | .bool true => "true".toList
  | .bool false => "false".toList
  | .int i => intText i
  | .flt f => fltText ft f
  | .str s => strText s
  | .arr l => '[' :: dumpsArr ft l ++ [']']
  | .obj l => '{' :: dumpsObj ft l ++ ['}']

/-- The elements of an array. -/
def dumpsArr {F : Type} (ft : FloatText F) : List (Json F) → List Char
  | [] => []
  | [v] => dumps ft v
  | v :: w :: l => dumps ft v ++ (", ".toList ++ dumpsArr ft (w :: l))

/-- The entries of an object. -/
def dumpsObj {F : Type} (ft : FloatText F) : List (List Char × Json F) → List Char
  | [] => []
  | [(k, v)] => strText k ++ (": ".toList ++ dumps ft v)
  | (k, v) :: e :: l => strText k ++ (": ".toList ++ (dumps ft v ++ (", ".toList ++ dumpsObj ft (e :: l))))
end

/-! ### json.loads -/

/-- JSON whitespace. -/
def isWs (c : Char) : Bool := c = ' ' || c = '\t' || c = '\n' || c = '\r'

/-- Skips whitespace. -/
def skipWs (s : List Char) : List Char := s.dropWhile isWs

/-- The value of a hexadecimal digit. -/
def hexVal (c : Char) : Option Nat :=
  if 48 ≤ c.toNat ∧ c.toNat ≤ 57 then some (c.toNat - 48)
  else if 97 ≤ c.toNat ∧ c.toNat ≤ 102 then some (c.toNat - 87)
  else if 65 ≤ c.toNat ∧ c.toNat ≤ 70 then some (c.toNat - 55)
  else none

/-- Four hexadecimal digits. -/
def hex4 : List Char → Option (Nat × List Char)
  | a :: b :: c :: d :: s =>
    (hexVal a).bind fun a => (hexVal b).bind fun b => (hexVal c).bind fun c => (hexVal d).map fun d =>
      (a * 4096 + b * 256 + c * 16 + d, s)
  | _ => none

/-- The character for a code point. Python strings may contain single surrogates, which is not modelled: they are
errors here. -/
def chr (n : Nat) : Option Char := if n.isValidChar then some (Char.ofNat n) else none

/-- The second half of a surrogate pair, if there is one. -/
def lowSurrogate : List Char → Option (Nat × List Char)
  | '\\' :: 'u' :: s => (hex4 s).bind fun p => if 56320 ≤ p.1 ∧ p.1 ≤ 57343 then some p else none
  | _ => none

/-- The characters after a backslash (`scanstring` of `json.decoder`). -/
def unescape : List Char → Option (Char × List Char)
  | [] => none
  | c :: s =>
    if c = '"' then some ('"', s)
    else if c = '\\' then some ('\\', s)
    else if c = '/' then some ('/', s)
    else if c = 'b' then some (Char.ofNat 8, s)
    else if c = 'f' then some (Char.ofNat 12, s)
    else if c = 'n' then some ('\n', s)
    else if c = 'r' then some ('\r', s)
    else if c = 't' then some ('\t', s)
    else if c = 'u' then
      (hex4 s).bind fun p =>
        if 55296 ≤ p.1 ∧ p.1 ≤ 56319 then
          match lowSurrogate p.2 with
          | some q => (chr (65536 + (p.1 - 55296) * 1024 + (q.1 - 56320))).map fun c => (c, q.2)
          | none => (chr p.1).map fun c => (c, p.2)
        else (chr p.1).map fun c => (c, p.2)
    else none

/-- `scanstring` of `json.decoder` after the opening quote. `fuel` bounds the number of characters of the string, see
`loads`. -/
def scanStr : Nat → List Char → Option (List Char × List Char)
  | 0, _ => none
  | _ + 1, [] => none
  | n + 1, c :: s =>
    if c = '"' then some ([], s)
    else if c = '\\' then (unescape s).bind fun p => (scanStr n p.2).map fun q => (p.1 :: q.1, q.2)
    else if c.toNat < 32 then none
    else (scanStr n s).map fun q => (c :: q.1, q.2)

/-- ASCII digits. -/
def isDigit (c : Char) : Bool := decide (48 ≤ c.toNat ∧ c.toNat ≤ 57)

/-- The value of a sequence of digits. -/
def natVal (s : List Char) : Nat := s.foldl (fun a c => a * 10 + (c.toNat - 48)) 0

/-- The integer part of a number: `0` or digits that do not begin with `0`. -/
def scanInt : List Char → Option (List Char × List Char)
  | [] => none
  | c :: s =>
    if c = '0' then some (['0'], s)
    else if isDigit c then some (c :: s.takeWhile isDigit, s.dropWhile isDigit)
    else none

/-- `(\.\d+)?` -/
def scanFrac : List Char → List Char × List Char
  | '.' :: d :: s => if isDigit d then ('.' :: d :: s.takeWhile isDigit, s.dropWhile isDigit) else ([], '.' :: d :: s)
  | s => ([], s)

/-- The digits of an exponent, after `e` and the sign. -/
def expDigits (pre : List Char) (orig : List Char) : List Char → List Char × List Char
  | d :: s => if isDigit d then (pre ++ d :: s.takeWhile isDigit, s.dropWhile isDigit) else ([], orig)
  | [] => ([], orig)

/-- `([eE][-+]?\d+)?` -/
def scanExp : List Char → List Char × List Char
  | c :: s =>
    if c = 'e' ∨ c = 'E' then
      match s with
      | '+' :: s' => expDigits [c, '+'] (c :: s) s'
      | '-' :: s' => expDigits [c, '-'] (c :: s) s'
      | s' => expDigits [c] (c :: s) s'
    else ([], c :: s)
  | [] => ([], [])

/-- The sign of a number. -/
def scanSign : List Char → List Char × List Char
  | '-' :: s => (['-'], s)
  | s => ([], s)

/-- `match_number` of `json.scanner` -/
def scanNum {F : Type} (ft : FloatText F) (s : List Char) : Option (Json F × List Char) :=
  let (sign, s1) := scanSign s
  (scanInt s1).bind fun (int, s2) =>
    let (frac, s3) := scanFrac s2
    let (exp, s4) := scanExp s3
    if frac = [] ∧ exp = [] then
      some (.int (if sign = [] then (natVal int : Int) else -(natVal int : Int)), s4)
    else (ft.parse (sign ++ int ++ frac ++ exp)).map fun x => (.flt (.fin x), s4)

/-- Removes a prefix. -/
def strip : List Char → List Char → Option (List Char)
  | [], s => some s
  | p :: ps, c :: s => if p = c then strip ps s else none
  | _ :: _, [] => none

/-- The words of `json.scanner`. -/
def scanWord {F : Type} (s : List Char) : Option (Json F × List Char) :=
  ((strip "null".toList s).map fun r => (.null, r))
    <|> ((strip "true".toList s).map fun r => (.bool true, r))
    <|> ((strip "false".toList s).map fun r => (.bool false, r))

/-- The special floats of `json.scanner`. -/
def scanSpecial {F : Type} (s : List Char) : Option (Json F × List Char) :=
  ((strip "NaN".toList s).map fun r => (.flt .nan, r))
    <|> ((strip "Infinity".toList s).map fun r => (.flt .inf, r))
    <|> ((strip "-Infinity".toList s).map fun r => (.flt .ninf, r))

/-- `dict(pairs)`: the last value of a key at the place of its first occurrence. -/
def toDict {F : Type} (l : List (List Char × Json F)) : List (List Char × Json F) := Dict.ofList l

mutual
/-- `scan_once` of `json.scanner`. `fuel` bounds the number of steps, see `loads`. -/
def scan {F : Type} (ft : FloatText F) : Nat → List Char → Option (Json F × List Char)
  | 0, _ => none
  | _ + 1, [] => none
  | n + 1, c :: s =>
    if c = '"' then (scanStr (n + 1) s).map fun p => (.str p.1, p.2)
    else if c = '{' then
      if (skipWs s).head? = some '}' then some (.obj [], (skipWs s).tail)
      else (scanEntries ft n (skipWs s)).map fun p => (.obj (toDict p.1), p.2)
    else if c = '[' then
      if (skipWs s).head? = some ']' then some (.arr [], (skipWs s).tail)
      else (scanItems ft n (skipWs s)).map fun p => (.arr p.1, p.2)
    else scanWord (c :: s) <|> scanNum ft (c :: s) <|> scanSpecial (c :: s)

/-- `JSONArray` of `json.decoder`, at an element. -/
def scanItems {F : Type} (ft : FloatText F) : Nat → List Char → Option (List (Json F) × List Char)
  | 0, _ => none
  | n + 1, s =>
    (scan ft n s).bind fun p =>
      let r := skipWs p.2
      if r.head? = some ']' then some ([p.1], r.tail)
      else if r.head? = some ',' then (scanItems ft n (skipWs r.tail)).map fun q => (p.1 :: q.1, q.2)
      else none

/-- `JSONObject` of `json.decoder`, at a key. -/
def scanEntries {F : Type} (ft : FloatText F) : Nat → List Char → Option (List (List Char × Json F) × List Char)
  | 0, _ => none
  | n + 1, s =>
    if s.head? = some '"' then
      (scanStr (n + 1) s.tail).bind fun k =>
        let r := skipWs k.2
        if r.head? = some ':' then
          (scan ft n (skipWs r.tail)).bind fun p =>
            let r := skipWs p.2
            if r.head? = some '}' then some ([(k.1, p.1)], r.tail)
            else if r.head? = some ',' then (scanEntries ft n (skipWs r.tail)).map fun q => ((k.1, p.1) :: q.1, q.2)
            else none
        else none
    else none
end

/-- `json.loads`. Each step consumes a character, hence twice the length of the text is enough fuel; the recursion limit
of Python is not modelled. -/
def loads {F : Type} (ft : FloatText F) (s : List Char) : Option (Json F) :=
  (scan ft (2 * s.length + 2) (skipWs s)).bind fun p => if skipWs p.2 = [] then some p.1 else none

/-! ### The encoder of PostBOUND -/

/-- The keys of a dictionary: the kinds that `json.dumps` accepts, and all others. -/
inductive Key (F : Type) where
  | str (s : List Char)
  | int (i : Int)
  | flt (f : Flt F)
  | bool (b : Bool)
  | none
  | other

/-- Python values as the encoder distinguishes them. `date` are dates and times with their ISO text, `delta` are time
differences with their total seconds; sets are lists in iteration order; `inst json fields` is an instance of another
class, with the result of its `__json__` method and the fields of a data class if it has these. Subclasses of the
built-in types are not distinguished from them. -/
inductive Val (F : Type) where
  | none
  | bool (b : Bool)
  | int (i : Int)
  | flt (f : Flt F)
  | str (s : List Char)
  | list (l : List (Val F))
  | tuple (l : List (Val F))
  | dict (l : List (Key F × Val F))
  | enum (value : Val F)
  | set (l : List (Val F))
  | path (s : List Char)
  | date (iso : List Char)
  | delta (seconds : Flt F)
  | inst (json : Option (Val F)) (fields : Option (List (List Char × Val F)))

/-- The text of a key (`_iterencode_dict` of `json.encoder`). -/
def keyText {F : Type} (ft : FloatText F) : Key F → Option (List Char)
  | .str s => some s
  | .int i => some (intText i)
  | .flt f => some (fltText ft f)
  | .bool true => some "true".toList
  | .bool false => some "false".toList
  | .none => some "null".toList
  | .other => Option.none

mutual
/-- `JsonizeEncoder` (postbound/util/jsonize.py:34-55): the document of a value, `none` if there is a `TypeError`.
`asdict` says that the value is (within lists, tuples and dictionaries) a field of a data class: `dataclasses.asdict`
replaces nested data classes by their fields even if they have a `__json__` method. -/
def encode {F : Type} (ft : FloatText F) (asdict : Bool) : Val F → Option (Json F)
  | .none => some .null
  | .bool b => some (.bool b)
  | .int i => some (.int i)
  | .flt f => some (.flt f)
  | .str s => some (.str s)
  | .list l => (encodeList ft asdict l).map .arr
  | .tuple l => (encodeList ft asdict l).map .arr
  | .dict l => (encodeDict ft asdict l).map .obj
  | .enum v => encode ft false v
  | .set l => (encodeList ft false l).map .arr
  | .path s => some (.str s)
  | .date s => some (.str s)
  | .delta f => some (.flt f)
  | .inst (some j) Option.none => encode ft false j
  | .inst (some j) (some fs) => if asdict then (encodeFields ft fs).map .obj else encode ft false j
  | .inst Option.none (some fs) => (encodeFields ft fs).map .obj
  | .inst Option.none Option.none => Option.none

/-- The elements of a list. -/
def encodeList {F : Type} (ft : FloatText F) (asdict : Bool) : List (Val F) → Option (List (Json F))
  | [] => some []
  | v :: l => (encode ft asdict v).bind fun j => (encodeList ft asdict l).map fun js => j :: js

/-- The entries of a dictionary, with their keys as texts; nothing checks that the texts are distinct. -/
def encodeDict {F : Type} (ft : FloatText F) (asdict : Bool) : List (Key F × Val F) → Option (List (List Char × Json F))
  | [] => some []
  | (k, v) :: l => (keyText ft k).bind fun t => (encode ft asdict v).bind fun j =>
      (encodeDict ft asdict l).map fun js => (t, j) :: js

/-- The fields of a data class. -/
def encodeFields {F : Type} (ft : FloatText F) : List (List Char × Val F) → Option (List (List Char × Json F))
  | [] => some []
  | (k, v) :: l => (encode ft true v).bind fun j => (encodeFields ft l).map fun js => (k, j) :: js
end

/-- `to_json` (postbound/util/jsonize.py:58-66): the outer `none` is an exception, the inner one is `None`. -/
def toJson {F : Type} (ft : FloatText F) : Val F → Option (Option (List Char))
  | .none => some Option.none
  | v => (encode ft false v).map fun j => some (dumps ft j)

end PB.JsonText
