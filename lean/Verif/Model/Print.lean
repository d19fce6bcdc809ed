import Verif.Model.Expr

/-!
Model of the text of expressions and predicates (the `__str__` methods in postbound/qal/_qal.py), as a list of tokens.

Constructs that delimit themselves (columns, literals, function calls, casts, arrays, subqueries, CASE … END, window functions, quantifiers)
are one token, which carries the expression. Their parts are printed in the same way.
-/

namespace PB.Print

open PB.Qal

variable {Q : Type}

/-- Tokens. `comment` is the start of a comment, `junk` is an identifier that results from joining a keyword with an identifier. -/
inductive Tok (Q : Type)
  | atom (e : Expr Q)
  | mop (op : MathOp)
  | lop (op : LogOp)
  | lp | rp | comma | andT | orT | notT | betweenT | inT | notInT | comment | junk

/-- Texts that are joined by a separator. -/
def joinToks (sep : Tok Q) : List (List (Tok Q)) → List (Tok Q)
  | [] => []
  | [ts] => ts
  | ts :: l => ts ++ sep :: joinToks sep l

/-- A text in brackets. -/
def bracket (ts : List (Tok Q)) : List (Tok Q) := .lp :: (ts ++ [.rp])

/-- `lazy_ops` (postbound/qal/_qal.py:663). -/
def lazyOp (op : MathOp) : Bool := op == .add || op == .mul || op == .mod

/-- `eager_ops` (postbound/qal/_qal.py:664). -/
def eagerOp (op : MathOp) : Bool := op == .sub || op == .div

/-- `MathExpression._requires_brackets` (postbound/qal/_qal.py:651-671). -/
def requiresBrackets (op : MathOp) : Expr Q → Bool
  | .math cop _ _ =>
    if cop = op then false
    else if op = .concat ∨ cop = .concat then true
    else (eagerOp op && lazyOp cop) || (lazyOp op && eagerOp cop)
  | _ => false

/-- The text of a unary operator (postbound/qal/_qal.py:685-686): there is no space between the operator and its argument, and two hyphens
start a comment. -/
def glue (op : MathOp) : List (Tok Q) → List (Tok Q)
  | .mop .sub :: ts => if op = .sub then .comment :: ts else .mop op :: .mop .sub :: ts
  | ts => .mop op :: ts

/-- A literal (postbound/qal/_qal.py:288-296): negative numbers start with a hyphen. -/
def literal : Val → List (Tok Q)
  | .num n => if n < 0 then [.mop .sub, .atom (.static (.num (-n)))] else [.atom (.static (.num n))]
  | v => [.atom (.static v)]

/-- `is_compound` (postbound/qal/_qal.py:2104-2117, 2497-2498, 3298-3299). -/
def isCompound : Expr Q → Bool
  | .compound _ _ => true
  | _ => false

/-- `_stringify_values` (postbound/qal/_qal.py:2946-2956), given the texts of the values. -/
def values : List (Expr Q) → List (List (Tok Q)) → List (Tok Q)
  | [.subq q], _ => [.atom (.subq q)]
  | _, tss => bracket (joinToks .comma tss)

mutual
/-- The text of an expression (postbound/qal/_qal.py:288-296, 683-702, 766-767, 2628-2629, 2790-2792, 2966-2968, 3082-3095, 3351-3380). A unary predicate
with an operator other than EXISTS is printed as the operator and the expression without a space. -/
def print : Expr Q → List (Tok Q)
  | .static v => literal v
  | .math op f [] => glue op (print f)
  | .math op f [s] =>
    (if requiresBrackets op f then bracket (print f) else print f) ++ .mop op :: (if requiresBrackets op s then bracket (print s) else print s)
  | .math op f ss => joinToks (.mop op) (bracket (print f) :: (printAll ss).map bracket)
  | .binary op a b => print a ++ .lop op :: print b
  | .between e l u => print e ++ .betweenT :: (print l ++ .andT :: print u)
  | .inP e vs => print e ++ .inT :: values vs (printAll vs)
  | .unary e none => print e
  | .unary e (some .existsOp) => [.atom (.unary e (some .existsOp))]
  | .unary _ (some _) => [.junk]
  | .compound .not [.inP e vs] => print e ++ .notInT :: values vs (printAll vs)
  | .compound .not cs => .notT :: joinToks .junk (printAll cs)
  | .compound .or cs => bracket (joinToks .orT (List.zipWith (fun c ts => if isCompound c then bracket ts else ts) cs (printAll cs)))
  | .compound .and cs => joinToks .andT (printAll cs)
  | e => [.atom e]

/-- The texts of several expressions. -/
def printAll : List (Expr Q) → List (List (Tok Q))
  | [] => []
  | e :: es => print e :: printAll es
end

end PB.Print
