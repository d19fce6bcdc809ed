import Verif.Model.Num
import Mathlib.Data.Int.Bitwise

/-!
The operators of `AtomicInt` and `BoundedInt` (/repo/postbound/util/num.py 54-223 and 288-432), together with Python's rules
for operators between objects of different types: `x op y` calls the method of `x`, and the reflected method of `y` if the
first one is missing or returns `NotImplemented`.  The methods of `int` return `NotImplemented` for the two classes.
Methods that the classes do not define come from `numbers.Complex` (`__sub__`, `__rsub__`); there are none for `>` and `>=`.

Simplifications: exponents are natural numbers and there is no true division, whose results are floating point numbers;
the locks of `AtomicInt` only matter if a method needs the lock of an object that it already holds.
-/
namespace PB.NumOps
open PB.Num

/-- Operands: an `int`, an `AtomicInt` (with its identity) and a `BoundedInt`. -/
inductive Val where
  | int (n : Int)
  | atomic (id : Nat) (v : Int)
  | bounded (b : Bounded)
  deriving DecidableEq, Repr

/-- Results: an `int`, a new `AtomicInt`, a new `BoundedInt`, a truth value, an exception, or a thread that waits forever. -/
inductive Res where
  | int (n : Int)
  | atomic (v : Int)
  | bounded (b : Bounded)
  | bool (b : Bool)
  | typeError
  | arithError
  | deadlock
  deriving DecidableEq, Repr

/-- Binary operators. -/
inductive Op where
  | add | mul | floordiv | mod | and | or | xor | lshift | rshift
  deriving DecidableEq, Repr

/-- The operators of `int`; none is a `ZeroDivisionError` or the `ValueError` for negative shifts. -/
def prim : Op → Int → Int → Option Int
  | .add, a, b => some (a + b)
  | .mul, a, b => some (a * b)
  | .floordiv, a, b => if b = 0 then none else some (Int.fdiv a b)
  | .mod, a, b => if b = 0 then none else some (Int.fmod a b)
  | .and, a, b => some (Int.land a b)
  | .or, a, b => some (Int.lor a b)
  | .xor, a, b => some (Int.xor a b)
  | .lshift, a, b => if b < 0 then none else some (a * 2 ^ b.toNat)
  | .rshift, a, b => if b < 0 then none else some (Int.fdiv a (2 ^ b.toNat))

def ofInt : Option Int → Res
  | some n => .int n
  | none => .arithError

/-- num.py 143-205: `n op a` for an int `n` calls the reflected method of the AtomicInt.  `__rand__` (148-151) adds. -/
def ratomic (op : Op) (n v : Int) : Res :=
  match op with
  | .and => ofInt (prim .add n v)
  | o => ofInt (prim o n v)

/-- num.py 369-418: `n op b` for an int `n` calls the reflected method of the BoundedInt. -/
def rbounded (op : Op) (n v : Int) : Res := ofInt (prim op n v)

/-- `n op y` for an int `n`. -/
def intOp (op : Op) (n : Int) : Val → Res
  | .int m => ofInt (prim op n m)
  | .atomic _ v => ratomic op n v
  | .bounded b => rbounded op n b.value

/-- num.py 58-62, 82-85, 115-119: these methods of `AtomicInt` wrap the result. -/
def wrapsAtomic : Op → Bool
  | .add | .mul | .floordiv => true
  | _ => false

/-- num.py 49-50 `_unwrap_atomic`. -/
def unwrapAtomic : Val → Val
  | .atomic _ v => .int v
  | y => y

/-- num.py 58-219: `a op y` for an AtomicInt with value `v`. -/
def atomicOp (op : Op) (v : Int) (y : Val) : Res :=
  match intOp op v (unwrapAtomic y) with
  | .int n => if wrapsAtomic op then .atomic n else .int n
  | r => r

/-- num.py 274-275 `_unwrap_atomic`. -/
def unwrapBounded : Val → Val
  | .bounded b => .int b.value
  | y => y

/-- num.py 293-297, 341-345: the constructor with the bounds of the first operand. -/
def rebound (n : Int) (b : Bounded) : Res :=
  match mk? n b.lo b.hi with
  | some c => .bounded c
  | none => .arithError

/-- num.py 291-429: `b op y` for a BoundedInt; `+` and `*` (291-297, 339-345) give a BoundedInt, the others an int. -/
def boundedOp (op : Op) (b : Bounded) (y : Val) : Res :=
  match intOp op b.value (unwrapBounded y) with
  | .int n => match op with
    | .add | .mul => rebound n b
    | _ => .int n
  | r => r

/-- `x op y`. -/
def binary (op : Op) (x y : Val) : Res :=
  match x with
  | .int n => intOp op n y
  | .atomic _ v => atomicOp op v y
  | .bounded b => boundedOp op b y

/-- num.py 121-123, 347-350: `-x`. -/
def neg : Val → Res
  | .int n => .int (-n)
  | .atomic _ v => .atomic (-v)
  | .bounded b => rebound (-b.value) b

/-- The result as an operand. -/
def Res.toVal : Res → Option Val
  | .int n => some (.int n)
  | .atomic v => some (.atomic 0 v)
  | .bounded b => some (.bounded b)
  | _ => none

/-- `x - y`: `int` has its own method, `numbers.Complex` defines `self + -other` and, reflected, `-self + other`. -/
def sub (x y : Val) : Res :=
  match x, y with
  | .int n, .int m => .int (n - m)
  | .int n, y => match (neg y).toVal with
    | some z => binary .add z (.int n)
    | none => neg y
  | x, y => match (neg y).toVal with
    | some z => binary .add x z
    | none => neg y

/-- num.py 134-141, 182-185, 359-367, 400-402: `x ** y` for natural exponents.  The exponent of an AtomicInt is not
unwrapped: the operator of its value calls the reflected method of the exponent, which needs the lock of the exponent,
while the lock of the base is held. -/
def pow (x y : Val) : Res :=
  let e : Int := match y with
    | .int m => m
    | .atomic _ v => v
    | .bounded b => b.value
  match x with
  | .int n => .int (n ^ e.toNat)
  | .atomic i v => match y with
    | .atomic j _ => if i = j then .deadlock else .atomic (v ^ e.toNat)
    | _ => .atomic (v ^ e.toNat)
  | .bounded b => rebound (b.value ^ e.toNat) b

/-- num.py 134, 359: `pow(x, y, m)` with a modulus, which the two classes ignore. -/
def powMod (x : Val) (e : Nat) (m : Int) : Res :=
  match x with
  | .int n => if m = 0 then .arithError else .int (Int.fmod (n ^ e) m)
  | x => pow x (.int e)

/-- Comparisons. -/
inductive Cmp where
  | lt | le | gt | ge
  deriving DecidableEq, Repr

/-- The comparison of two ints. -/
def cmpInt : Cmp → Int → Int → Bool
  | .lt, a, b => decide (a < b)
  | .le, a, b => decide (a ≤ b)
  | .gt, a, b => decide (b < a)
  | .ge, a, b => decide (b ≤ a)

/-- Python calls the mirrored method of the second operand if the first one has none. -/
def mirror : Cmp → Cmp
  | .lt => .gt
  | .le => .ge
  | .gt => .lt
  | .ge => .le

/-- num.py 95-98, 105-108, 323-325, 331-333: the classes define `<` and `<=` only. -/
def defines : Cmp → Bool
  | .lt | .le => true
  | _ => false

/-- The value that `_unwrap_atomic` of `x` turns `y` into, as far as it is an int. -/
def asInt (x y : Val) : Option Int :=
  match x, y with
  | _, .int n => some n
  | .atomic _ _, .atomic _ v => some v
  | .bounded _, .bounded b => some b.value
  | _, _ => none

/-- The value of an operand. -/
def Val.value : Val → Int
  | .int n => n
  | .atomic _ v => v
  | .bounded b => b.value

def isInt : Val → Bool
  | .int _ => true
  | _ => false

/-- `x.__c__(y)`: none is `NotImplemented` (or that the classes inherit the method of `object`), and an inner none is the
`TypeError` of comparing the value with an object of the other class. -/
def method (c : Cmp) (x y : Val) : Option (Option Bool) :=
  if isInt x then
    (if isInt y then some (some (cmpInt c x.value y.value)) else none)
  else if defines c then some ((asInt x y).map (cmpInt c x.value))
  else none

/-- `x < y`, `x <= y`, `x > y`, `x >= y`. -/
def cmp (c : Cmp) (x y : Val) : Res :=
  match method c x y with
  | some (some b) => .bool b
  | some none => .typeError
  | none => match method (mirror c) y x with
    | some (some b) => .bool b
    | _ => .typeError

/-- num.py 73-76, 306-308: `x == y`; the comparison of different classes ends with the method of the second operand, which
receives an int. -/
def eq (x y : Val) : Bool := decide (x.value = y.value)

/-- num.py 221-223, 431-432: `hash(x)` is the hash value of the int. -/
def hash (h : Int → Nat) (x : Val) : Nat := h x.value

end PB.NumOps
