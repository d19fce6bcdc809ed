import Verif.Model.Pred
import Verif.Model.EqHash

/-! Model of the simplified views of predicates `SimpleFilter` and `SimpleJoin`, of `QueryPredicates.simplify` and of
the utility functions `as_predicate` and `as_expression` (postbound/qal/_qal.py). -/

namespace PB.SimpleView
open PB.Qal PB.EqHash

variable {Q : Type}

/-- The exceptions that the functions of this file raise; `other` stands for the outcome of a call that is outside of
the model (see `asPredicate`). -/
inductive Err where
  | value
  | assertion
  | type
  | other
deriving DecidableEq, Repr

/-- What `_unwrap_expression` returns: a column reference or a static value. -/
inductive Obj where
  | val (v : Val)
  | col (c : Col)
deriving DecidableEq, Repr

/-- The value of a filter view: a single object, the bounds of BETWEEN or the tuple of values of IN. -/
inductive FValue where
  | one (o : Obj)
  | pair (lower upper : Obj)
  | many (os : List Obj)
deriving DecidableEq, Repr

/-- `_unwrap_expression` (postbound/qal/_qal.py:3634-3657); `none` is a `ValueError`. -/
def unwrap : Expr Q → Option Obj
  | .static v => some (.val v)
  | .col c => some (.col c)
  | .cast e _ _ _ => unwrap e
  | _ => none

/-- Unwrap all values of an IN predicate (postbound/qal/_qal.py:3709). -/
def unwrapAll : List (Expr Q) → Option (List Obj)
  | [] => some []
  | e :: es => (unwrap e).bind fun o => (unwrapAll es).map fun os => o :: os

/-- The assertion that the filtered object is a column (postbound/qal/_qal.py:3698, 3704, 3710). -/
def assertCol (o : Obj) (op : LogOp) (v : FValue) : Except Err (Col × LogOp × FValue) :=
  match o with
  | .col c => .ok (c, op, v)
  | .val _ => .error .assertion

/-- `left, right = (left, right) if isinstance(left, ColumnReference) else (right, left)`
(postbound/qal/_qal.py:3695-3697) -/
def orderSides : Obj → Obj → Obj × Obj
  | .col c, r => (.col c, r)
  | l, r => (r, l)

/-- The parts of a binary predicate (postbound/qal/_qal.py:3693-3699). -/
def unwrapBinary (op : LogOp) (a b : Option Obj) : Except Err (Col × LogOp × FValue) :=
  match a, b with
  | some l, some r => assertCol (orderSides l r).1 op (.one (orderSides l r).2)
  | _, _ => .error .value

/-- The parts of a BETWEEN predicate (postbound/qal/_qal.py:3701-3705). -/
def unwrapBetween (e l u : Option Obj) : Except Err (Col × LogOp × FValue) :=
  match e, l, u with
  | some o, some lo, some hi => assertCol o .between (.pair lo hi)
  | _, _, _ => .error .value

/-- The parts of an IN predicate (postbound/qal/_qal.py:3707-3711). -/
def unwrapIn (e : Option Obj) (vs : Option (List Obj)) : Except Err (Col × LogOp × FValue) :=
  match e, vs with
  | some o, some os => assertCol o .inOp (.many os)
  | _, _ => .error .value

/-- `_attempt_filter_unwrap` (postbound/qal/_qal.py:3664-3715) -/
def attemptFilter (p : Expr Q) : Except Err (Col × LogOp × FValue) :=
  if !p.isFilter || !p.isBase then .error .value
  else match p with
    | .binary op a b => unwrapBinary op (unwrap a) (unwrap b)
    | .between e l u => unwrapBetween (unwrap e) (unwrap l) (unwrap u)
    | .inP e vs => unwrapIn (unwrap e) (unwrapAll vs)
    | _ => .error .value

/-- A `SimpleFilter` (postbound/qal/_qal.py:3841-3853). -/
structure SFilter (Q : Type) where
  column : Col
  op : LogOp
  value : FValue
  pred : Expr Q

/-- `SimpleFilter.wrap`, the constructor (postbound/qal/_qal.py:3759-3779, 3841-3851) -/
def wrapFilter (p : Expr Q) : Except Err (SFilter Q) :=
  (attemptFilter p).map fun t => ⟨t.1, t.2.1, t.2.2, p⟩

/-- Did the call succeed? -/
def isOk {ε α : Type} : Except ε α → Bool
  | .ok _ => true
  | .error _ => false

/-- `SimpleFilter.can_wrap` (postbound/qal/_qal.py:3781-3806) -/
def canWrapFilter (p : Expr Q) : Bool := isOk (attemptFilter p)

/-- The loops of `wrap_all`: predicates whose view raises a `ValueError` are skipped
(postbound/qal/_qal.py:3829-3836, 4050-4057). -/
def wrapAll {V : Type} (wrap : Expr Q → Except Err V) : List (Expr Q) → Except Err (List V)
  | [] => .ok []
  | p :: ps =>
    match wrap p with
    | .ok v => (wrapAll wrap ps).map fun vs => v :: vs
    | .error .value => wrapAll wrap ps
    | .error e => .error e

/-- `SimpleFilter.wrap_all` (postbound/qal/_qal.py:3808-3837) -/
def wrapAllFilters (ps : List (Expr Q)) : Except Err (List (SFilter Q)) := wrapAll wrapFilter ps

/-- `SimpleFilter.columns` (postbound/qal/_qal.py:3906-3907) -/
def SFilter.columns (v : SFilter Q) : Finset Col := {v.column}

/-- `SimpleFilter.is_join` (postbound/qal/_qal.py:3903-3904) -/
def SFilter.isJoin (_ : SFilter Q) : Bool := false

/-- The key of an unwrapped object. -/
def Obj.key : Obj → Key
  | .val v => .val v
  | .col c => .col c

/-- The key of the value of a filter view. -/
def FValue.key : FValue → Key
  | .one o => o.key
  | .pair l u => .tup [l.key, u.key]
  | .many os => .tup (os.map Obj.key)

/-- `hash(filter_view)` (postbound/qal/_qal.py:3849) -/
def SFilter.hash (v : SFilter Q) : Key := .tup [.col v.column, .log v.op, v.value.key]

/-- `filter_view == other_view` (postbound/qal/_qal.py:3935-3936) -/
def SFilter.eqView (ops : Ops Q) (a b : SFilter Q) : Bool := exprEq ops a.pred b.pred

/-- `filter_view == predicate` for a predicate that is no view (postbound/qal/_qal.py:3937) -/
def SFilter.eqPred (ops : Ops Q) (a : SFilter Q) (p : Expr Q) : Bool := exprEq ops a.pred p

/-- `predicate == filter_view` for a predicate that is no view: the `__eq__` of the predicate classes require the
same class and Python falls back to the reflected method only if the first one returns `NotImplemented`, which none
of them does (postbound/qal/_qal.py:2620-2626, 2783-2789, 2959-2964). -/
def predEqFilter (_ : Expr Q) (_ : SFilter Q) : Bool := false

/-! ### Join views -/

/-- A `SimpleJoin` (postbound/qal/_qal.py:4078-4086). -/
structure SJoin (Q : Type) where
  lhs : Col
  rhs : Col
  pred : Expr Q

/-- The last check of `SimpleJoin.__init__` (postbound/qal/_qal.py:4069-4083). -/
def joinOf (p : Expr Q) (a b : Option Obj) : Except Err (SJoin Q) :=
  match a, b with
  | some (.col l), some (.col r) => .ok ⟨l, r, p⟩
  | _, _ => .error .value

/-- `SimpleJoin.wrap`, the constructor (postbound/qal/_qal.py:3981-4001, 4059-4083) -/
def wrapJoin (p : Expr Q) : Except Err (SJoin Q) :=
  match p with
  | .binary op a b =>
    if !p.isJoin then .error .value
    else if op ≠ .eq then .error .value
    else joinOf p (unwrap a) (unwrap b)
  | _ => .error .value

/-- Are both sides columns (postbound/qal/_qal.py:4021-4025)? The `ValueError` of `_unwrap_expression` is not caught. -/
def bothColumns (a b : Option Obj) : Except Err Bool :=
  match a, b with
  | some (.col _), some (.col _) => .ok true
  | some _, some _ => .ok false
  | _, _ => .error .value

/-- `SimpleJoin.can_wrap` (postbound/qal/_qal.py:4003-4026) -/
def canWrapJoin (p : Expr Q) : Except Err Bool :=
  match p with
  | .binary op a b =>
    if !p.isJoin then .ok false
    else if op ≠ .eq then .ok false
    else bothColumns (unwrap a) (unwrap b)
  | _ => .ok false

/-- `SimpleJoin.wrap_all` (postbound/qal/_qal.py:4028-4057) -/
def wrapAllJoins (ps : List (Expr Q)) : Except Err (List (SJoin Q)) := wrapAll wrapJoin ps

/-- `joins` for a table (postbound/qal/_qal.py:4106-4107) -/
def SJoin.joinsTab (v : SJoin Q) (t : Tab) : Bool := v.lhs.tab == some t || v.rhs.tab == some t

/-- `joins` for a column (postbound/qal/_qal.py:4108-4109) -/
def SJoin.joinsCol (v : SJoin Q) (c : Col) : Bool := v.lhs == c || v.rhs == c

/-- `partner_of` for a table; `none` is Python's `None` (postbound/qal/_qal.py:4127-4131). -/
def SJoin.partnerTab (v : SJoin Q) (t : Tab) : Option Tab :=
  if !v.joinsTab t then none else if v.lhs.tab = some t then v.rhs.tab else v.lhs.tab

/-- `partner_of` for a column (postbound/qal/_qal.py:4127-4133) -/
def SJoin.partnerCol (v : SJoin Q) (c : Col) : Option Col :=
  if !v.joinsCol c then none else if v.lhs = c then some v.rhs else some v.lhs

/-- `SimpleJoin.columns` (postbound/qal/_qal.py:4143-4144) -/
def SJoin.columns (v : SJoin Q) : Finset Col := {v.lhs, v.rhs}

/-- `SimpleJoin.join_partners` (postbound/qal/_qal.py:4152-4153) -/
def SJoin.joinPartners (v : SJoin Q) : Finset (Col × Col) := {(v.lhs, v.rhs)}

/-- `hash(join_view)` (postbound/qal/_qal.py:4082) -/
def SJoin.hash (v : SJoin Q) : Key := .tup [.col v.lhs, .col v.rhs]

/-- `join_view == other_view` (postbound/qal/_qal.py:4169-4170) -/
def SJoin.eqView (ops : Ops Q) (a b : SJoin Q) : Bool := exprEq ops a.pred b.pred

/-- `join_view == predicate` for a predicate that is no view (postbound/qal/_qal.py:4171) -/
def SJoin.eqPred (ops : Ops Q) (a : SJoin Q) (p : Expr Q) : Bool := exprEq ops a.pred p

/-! ### All predicates of a query -/

/-- `QueryPredicates.simplify` (postbound/qal/_qal.py:4675-4688), as the pair of the two parts of the list. For an
empty predicate both sets are empty. -/
def simplify (qp : QueryPreds Q) : Except Err (List (SFilter Q) × List (SJoin Q)) :=
  match wrapAllFilters qp.filters, wrapAllJoins qp.joins with
  | .ok fs, .ok js => .ok (fs, js)
  | .error e, _ => .error e
  | _, .error e => .error e

/-- `all(can_wrap(pred) for pred in joins)`, which stops at the first `False` (postbound/qal/_qal.py:4700). -/
def allJoins : List (Expr Q) → Except Err Bool
  | [] => .ok true
  | p :: ps =>
    match canWrapJoin p with
    | .ok true => allJoins ps
    | .ok false => .ok false
    | .error e => .error e

/-- `QueryPredicates.all_simple` (postbound/qal/_qal.py:4690-4700) -/
def allSimple (qp : QueryPreds Q) : Except Err Bool :=
  if !qp.filters.all canWrapFilter then .ok false else allJoins qp.joins

/-! ### Building predicates -/

/-- The value of a `LogicalOperator` (postbound/qal/_qal.py:37-58) -/
def opText : LogOp → String
  | .eq => "="
  | .ne => "<>"
  | .lt => "<"
  | .le => "<="
  | .gt => ">"
  | .ge => ">="
  | .like => "LIKE"
  | .notLike => "NOT LIKE"
  | .ilike => "ILIKE"
  | .notILike => "NOT ILIKE"
  | .inOp => "IN"
  | .existsOp => "EXISTS"
  | .isOp => "IS"
  | .isNot => "IS NOT"
  | .between => "BETWEEN"
  | .distinctFrom => "IS DISTINCT FROM"
  | .notDistinctFrom => "IS NOT DISTINCT FROM"
  | .contains => "@>"
  | .containedBy => "<@"
  | .overlaps => "&&"

/-- The members of `LogicalOperator` in the order of their definition (postbound/qal/_qal.py:37-58) -/
def allOps : List LogOp :=
  [.eq, .ne, .lt, .le, .gt, .ge, .like, .notLike, .ilike, .notILike, .inOp, .existsOp, .isOp, .isNot, .between,
    .distinctFrom, .notDistinctFrom, .contains, .containedBy, .overlaps]

/-- The aliases of operators (postbound/qal/_qal.py:3535-3536) -/
def opAlias (s : String) : String := if s = "!=" then "<>" else if s = "==" then "=" else s

/-- The operator of a string (postbound/qal/_qal.py:3533-3537); `none` is a `ValueError`. `up` is `str.upper`. -/
def parseOp (up : String → String) (s : String) : Option LogOp :=
  allOps.find? fun op => opText op == opAlias (up s)

/-- A Python object that is no list or tuple, as an argument of `as_predicate`. -/
inductive Item (Q : Type) where
  | obj (o : Obj)
  | expr (e : Expr Q)
  | query (q : Q)

/-- An argument of `as_predicate`: an item or a list/tuple of items. Deeper nesting is not modelled. -/
inductive Arg (Q : Type) where
  | item (i : Item Q)
  | seq (is : List (Item Q))

/-- `as_expression` (postbound/qal/_qal.py:1865-1896) -/
def asExpression : Item Q → Expr Q
  | .expr e => e
  | .obj (.col c) => .col c
  | .query q => .subq q
  | .obj (.val v) => if v = .str "*" then .star none else .static v

/-- `util.flatten(arguments)` (postbound/util/collections.py:40-52) -/
def flattenArgs : List (Arg Q) → List (Item Q)
  | [] => []
  | .item i :: as => i :: flattenArgs as
  | .seq is :: as => is ++ flattenArgs as

/-- The expression of an argument that is used as a whole. A list or tuple would become a static value whose value is
the list or tuple (or raise, lists have no hash): not modelled. -/
def wholeArg : Arg Q → Except Err (Expr Q)
  | .item i => .ok (asExpression i)
  | .seq _ => .error .other

/-- The two bounds given as one argument: `lower, upper = arguments[0]` (postbound/qal/_qal.py:3542-3543). Unpacking a
sequence of a different length is a `ValueError`; unpacking an item that is no sequence is a `TypeError` (strings,
which can be unpacked character by character, are not modelled). -/
def boundsOne (c : Col) : Arg Q → Except Err (Expr Q)
  | .seq [l, u] => .ok (.between (.col c) (asExpression l) (asExpression u))
  | .seq _ => .error .value
  | .item (.obj (.val (.str _))) => .error .other
  | .item _ => .error .type

/-- The bounds of BETWEEN (postbound/qal/_qal.py:3541-3546). -/
def asBetween (c : Col) : List (Arg Q) → Except Err (Expr Q)
  | [a] => boundsOne c a
  | l :: u :: _ =>
    (wholeArg l).bind fun el => (wholeArg u).map fun eu => .between (.col c) el eu
  | [] => .error .value

/-- `InPredicate(column, values)`: no values are a `ValueError` (postbound/qal/_qal.py:2855-2859). -/
def mkIn (c : Col) (vs : List (Expr Q)) : Except Err (Expr Q) :=
  if vs.isEmpty then .error .value else .ok (.inP (.col c) vs)

/-- A binary predicate has exactly one further argument (postbound/qal/_qal.py:3550-3554). -/
def asBinary (c : Col) (op : LogOp) : List (Arg Q) → Except Err (Expr Q)
  | [a] => (wholeArg a).map fun e => .binary op (.col c) e
  | _ => .error .value

/-- `as_predicate` (postbound/qal/_qal.py:3497-3554) -/
def asPredicate (c : Col) (op : LogOp) (args : List (Arg Q)) : Except Err (Expr Q) :=
  if op = .between then asBetween c args
  else if op = .inOp then mkIn c ((flattenArgs args).map asExpression)
  else asBinary c op args

/-- `as_predicate` with the operation given as a string. -/
def asPredicateStr (up : String → String) (c : Col) (s : String) (args : List (Arg Q)) : Except Err (Expr Q) :=
  match parseOp up s with
  | some op => asPredicate c op args
  | none => .error .value

end PB.SimpleView
