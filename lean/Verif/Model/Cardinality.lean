import Mathlib.Data.Rat.Floor

/-!
Model of `Cardinality` (postbound/_core.py:22-397).

Python floats are modelled by exact rationals plus `nan`, `inf` and `-inf` (`Flt`). Float rounding
of integers above 2^53 is not modelled.
-/

namespace PB

/-- A Python `float` (simplification: exact rationals instead of binary64). -/
inductive Flt where
  | nan
  | pinf
  | ninf
  | fin (q : Rat)
  deriving DecidableEq, Repr

/-- The slots of a `Cardinality` object (postbound/_core.py:73). -/
structure Card where
  nan : Bool
  inf : Bool
  valid : Bool
  value : Int
  deriving DecidableEq, Repr

/-- Python's `round(x)` for floats: round half to even (used in postbound/_core.py:71). -/
def roundHalfEven (q : Rat) : Int :=
  let f := q.floor
  let r := q - f
  if r < 1/2 then f
  else if 1/2 < r then f + 1
  else if f % 2 = 0 then f else f + 1

namespace Card

/-- `Cardinality.__init__` (postbound/_core.py:67-71). -/
def ofFlt (f : Flt) : Card :=
  let nan := match f with | .nan => true | _ => false
  let inf := match f with | .pinf => true | .ninf => true | _ => false
  let valid := !nan && !inf
  { nan := nan, inf := inf, valid := valid,
    value := match f with | .fin q => roundHalfEven q | _ => -1 }

/-- `Cardinality(n)` for a Python `int` (postbound/_core.py:67-71). -/
def ofInt (n : Int) : Card := ofFlt (.fin n)

/-- `Cardinality.unknown()` (postbound/_core.py:58-60). -/
def unknown : Card := ofFlt .nan

/-- `Cardinality.infinite()` (postbound/_core.py:63-65). -/
def infinite : Card := ofFlt .pinf

/-- The `StateError` raised by the `value` property. -/
inductive StateError where
  | notValid
  deriving DecidableEq, Repr

/-- the `value` property (postbound/_core.py:76-83). -/
def valueProp (c : Card) : Except StateError Int :=
  if !c.valid then .error .notValid else .ok c.value

/-- `__float__` / `get` (postbound/_core.py:109-115, 343-348). -/
def get (c : Card) : Flt :=
  if c.nan then .nan
  else if c.inf then .pinf
  else .fin c.value

/-- `__lt__` on two cardinalities (postbound/_core.py:275-290). -/
def lt (a b : Card) : Bool :=
  if !a.valid then false
  else if b.nan then false
  else if b.inf then true
  else decide (a.value < b.value)

/-- `__le__` (postbound/_core.py:292-307). -/
def le (a b : Card) : Bool :=
  if !a.valid then false
  else if b.nan then false
  else if b.inf then true
  else decide (a.value ≤ b.value)

/-- `__gt__` (postbound/_core.py:309-324). -/
def gt (a b : Card) : Bool :=
  if !a.valid then false
  else if b.nan then false
  else if b.inf then true
  else decide (a.value > b.value)

/-- `__ge__` (postbound/_core.py:326-341). -/
def ge (a b : Card) : Bool :=
  if !a.valid then false
  else if b.nan then false
  else if b.inf then true
  else decide (a.value ≥ b.value)

/-- `__eq__` on two cardinalities (postbound/_core.py:364-371); `self.value` is evaluated before
`other.value`, both may raise. -/
def eq (a b : Card) : Except StateError Bool :=
  if a.nan && b.nan then .ok true
  else if a.inf && b.inf then .ok true
  else do
    let x ← a.valueProp
    let y ← b.valueProp
    return decide (x = y)

/-- `__eq__` of a cardinality and a Python `int` (postbound/_core.py:373-374). -/
def eqInt (a : Card) (n : Int) : Bool := a.valid && decide (a.value = n)

/-- the tuple hashed by `__hash__` (postbound/_core.py:385-387). -/
def hashKey (c : Card) : Bool × Bool × Int := (c.nan, c.inf, c.value)

end Card

namespace Flt

/-- IEEE addition. -/
def add : Flt → Flt → Flt
  | .nan, _ => .nan
  | _, .nan => .nan
  | .pinf, .ninf => .nan
  | .ninf, .pinf => .nan
  | .pinf, _ => .pinf
  | _, .pinf => .pinf
  | .ninf, _ => .ninf
  | _, .ninf => .ninf
  | .fin a, .fin b => .fin (a + b)

/-- IEEE negation. -/
def neg : Flt → Flt
  | .nan => .nan
  | .pinf => .ninf
  | .ninf => .pinf
  | .fin a => .fin (-a)

/-- IEEE subtraction. -/
def sub (a b : Flt) : Flt := add a (neg b)

/-- Infinity times a finite number. -/
def infMul (q : Rat) : Flt := if q = 0 then .nan else if 0 < q then .pinf else .ninf

/-- IEEE multiplication. -/
def mul : Flt → Flt → Flt
  | .nan, _ => .nan
  | _, .nan => .nan
  | .fin a, .fin b => .fin (a * b)
  | .pinf, .fin b => infMul b
  | .fin a, .pinf => infMul a
  | .ninf, .fin b => neg (infMul b)
  | .fin a, .ninf => neg (infMul a)
  | .pinf, .pinf => .pinf
  | .ninf, .ninf => .pinf
  | .pinf, .ninf => .ninf
  | .ninf, .pinf => .ninf

/-- Python float division; `none` is `ZeroDivisionError`. -/
def div : Flt → Flt → Option Flt
  | .fin a, .fin b => if b = 0 then none else some (.fin (a / b))
  | .nan, .fin b => if b = 0 then none else some .nan
  | .pinf, .fin b => if b = 0 then none else some (if 0 < b then .pinf else .ninf)
  | .ninf, .fin b => if b = 0 then none else some (if 0 < b then .ninf else .pinf)
  | .fin _, .pinf => some (.fin 0)
  | .fin _, .ninf => some (.fin 0)
  | _, _ => some .nan

end Flt

namespace Card

/-- `__add__` (postbound/_core.py:123-125). -/
def add (a b : Card) : Card := ofFlt (Flt.add a.get b.get)

/-- `__sub__` (postbound/_core.py:139-141). -/
def sub (a b : Card) : Card := ofFlt (Flt.sub a.get b.get)

/-- `__mul__` (postbound/_core.py:151-153). -/
def mul (a b : Card) : Card := ofFlt (Flt.mul a.get b.get)

/-- `__truediv__` (postbound/_core.py:163-165); `none` is `ZeroDivisionError`. -/
def truediv (a b : Card) : Option Card := (Flt.div a.get b.get).map ofFlt

/-- `__mod__` on two cardinalities (postbound/_core.py:241-251); `none` is `ZeroDivisionError`.
Python's `%` takes the sign of the divisor, i.e. `Int.fmod`. -/
def mod (a b : Card) : Option Card :=
  if !a.valid then some unknown
  else if b.nan then some unknown
  else if b.inf then some a
  else if b.value = 0 then none
  else some (ofInt (Int.fmod a.value b.value))

/-- `__abs__`, `__trunc__`, `__ceil__`, `__floor__`, `__round__` (postbound/_core.py:191-209). -/
def ident (a : Card) : Card := a

end Card
end PB
