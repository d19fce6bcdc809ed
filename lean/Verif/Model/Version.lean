import Mathlib.Data.Nat.Digits.Defs

/-! Model of `Version` (postbound/util/misc.py:34-153). A version is its (non-empty) list of integer components. -/

namespace PB.Ver

/-- `Version._version` -/
abbrev Version := List Int

/-- `Version.__eq__` on two versions (postbound/util/misc.py:96-106): equal length, then component loop. -/
def eq (a b : Version) : Bool :=
  if a.length ≠ b.length then false
  else (a.zip b).all (fun p => p.1 == p.2)

/-- `Version.__lt__` (postbound/util/misc.py:133-144): zip loop, then length comparison of the full lists. -/
def ltLoop : Version → Version → (onEnd : Bool) → Bool
  | x :: xs, y :: ys, e => if x < y then true else if y < x then false else ltLoop xs ys e
  | _, _, e => e

/-- `Version.__lt__` (postbound/util/misc.py:133-144). -/
def lt (a b : Version) : Bool := ltLoop a b (decide (a.length < b.length))

/-- `Version.__le__` (postbound/util/misc.py:120-131). -/
def le (a b : Version) : Bool := ltLoop a b (decide (a.length ≤ b.length))

/-- `Version.__ge__` (postbound/util/misc.py:108-112). -/
def ge (a b : Version) : Bool := !lt a b

/-- `Version.__gt__` (postbound/util/misc.py:114-118). -/
def gt (a b : Version) : Bool := !le a b

/-- Decimal digit character. Built-in `str(int)`. -/
def digitChar (d : Nat) : Char := Char.ofNat (48 + d)

/-- `str(n)` for a non-negative integer (Python built-in). -/
def natStr (n : Nat) : List Char :=
  if n = 0 then ['0'] else (Nat.digits 10 n).reverse.map digitChar

/-- `str(i)` (Python built-in). -/
def intStr : Int → List Char
  | .ofNat n => natStr n
  | .negSucc n => '-' :: natStr (n + 1)

/-- `sep.join(parts)` (Python built-in) for a one-character separator. -/
def join (sep : Char) : List (List Char) → List Char
  | [] => []
  | [p] => p
  | p :: q :: ps => p ++ sep :: join sep (q :: ps)

/-- `text.split(sep)` (Python built-in) for a one-character separator. -/
def split (sep : Char) : List Char → List (List Char)
  | [] => [[]]
  | c :: cs => if c = sep then [] :: split sep cs
    else match split sep cs with
      | [] => [[c]]
      | p :: ps => (c :: p) :: ps

/-- Value of a digit character. -/
def digitVal (c : Char) : Option Nat := if 48 ≤ c.toNat ∧ c.toNat ≤ 57 then some (c.toNat - 48) else none

/-- Digit sequence to number. -/
def digitsVal : List Char → Nat → Option Nat
  | [], acc => some acc
  | c :: cs, acc => match digitVal c with
    | none => none
    | some d => digitsVal cs (10 * acc + d)

/-- `int(text)` (Python built-in). Simplified: surrounding whitespace, underscores and a leading `+` are not
modelled (the text is rejected); these do not occur in the texts considered here. -/
def pyInt : List Char → Option Int
  | [] => none
  | '-' :: cs => if cs = [] then none else (digitsVal cs 0).map (fun n => -(n : Int))
  | cs => (digitsVal cs 0).map (fun n => (n : Int))

/-- `Version(text)` (postbound/util/misc.py:57-68); `none` is `ValueError`. -/
def parse (text : List Char) : Option Version := (split '.' text).mapM pyInt

/-- `Version.formatted` with default prefix, suffix and separator (postbound/util/misc.py:90-91). -/
def formatted (v : Version) : List Char := join '.' (v.map intStr)

/-- `Version.__str__`, also used as JSON representation (postbound/util/misc.py:93-94,152-153). -/
def toStr (v : Version) : List Char := 'v' :: join '.' (v.map intStr)

end PB.Ver
