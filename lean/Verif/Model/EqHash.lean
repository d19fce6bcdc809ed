import Verif.Model.Expr

/-! Model of equality and hash values of expressions, clauses and queries, and of building queries from clauses
(postbound/qal/_qal.py). A hash value is represented by the tuple that is hashed: two equal tuples have the same hash
value in Python, different tuples usually have different ones. -/

namespace PB.EqHash
open PB.Qal

/-- What Python's `hash` is applied to: atoms and tuples. The hash of an object inside of a tuple is the hash that the
object computed for itself. -/
inductive Key where
  | none
  | bool (b : Bool)
  | nat (n : Nat)
  | int (i : Int)
  | str (s : String)
  | val (v : Val)
  | tab (t : Tab)
  | col (c : Col)
  | math (op : MathOp)
  | log (op : LogOp)
  | comp (op : CompOp)
  | quant (q : Quant)
  | tup (ks : List Key)
deriving Repr

mutual
/-- Comparison of keys. -/
def Key.beq : Key → Key → Bool
  | .none, .none => true
  | .bool a, .bool b => a == b
  | .nat a, .nat b => a == b
  | .int a, .int b => a == b
  | .str a, .str b => a == b
  | .val a, .val b => a == b
  | .tab a, .tab b => a == b
  | .col a, .col b => a == b
  | .math a, .math b => a == b
  | .log a, .log b => a == b
  | .comp a, .comp b => a == b
  | .quant a, .quant b => a == b
  | .tup a, .tup b => Key.beqL a b
  | _, _ => false
/-- Comparison of tuples of keys. -/
def Key.beqL : List Key → List Key → Bool
  | [], [] => true
  | x :: xs, y :: ys => Key.beq x y && Key.beqL xs ys
  | _, _ => false
end

/-- The key of an optional component: `None` or the component. -/
def Key.opt {α : Type} (f : α → Key) : Option α → Key
  | .none => .none
  | .some a => f a

/-- `==` and `hash` of subqueries. -/
structure Ops (Q : Type) where
  eq : Q → Q → Bool
  hash : Q → Key

variable {Q : Type}

/-! ### Expressions -/

/-- The key of an ORDER BY direction (postbound/qal/_qal.py:7384). -/
def dirKey (d : Dir) : Key := .tup [Key.opt .bool d.1, Key.opt .bool d.2]

mutual
/-- `SqlExpression.__hash__`: the constructors compute the hash (postbound/qal/_qal.py:246, 311, 399, 556, 726, 907,
1061, 1150 (the hash of line 1143 is overwritten by the one of the super class), 1265, 1336, 1483, 1630, 2540, 2676,
2862, 3021, 3259). The tuples of WHEN/THEN pairs and of ORDER BY expressions are hashed as pairs of lists. -/
def exprHash (ops : Ops Q) : Expr Q → Key
  | .static v => .val v
  | .star t => .tup [.str "*", Key.opt .tab t]
  | .cast e ty ps arr => .tup [exprHash ops e, .str ty, .tup (exprHashL ops ps), .bool arr]
  | .math op a bs => .tup [.math op, exprHash ops a, .tup (exprHashL ops bs)]
  | .col c => .col c
  | .func n as d f => .tup [.str n, .bool d, .tup (exprHashL ops as), exprHashO ops f]
  | .array es => .tup (exprHashL ops es)
  | .arrGet a i l u =>
    .tup [.str "ARRAY_GET", .bool false,
      .tup (exprHash ops a :: (exprHashS ops i ++ exprHashS ops l ++ exprHashS ops u)), .none]
  | .subq q => ops.hash q
  | .window fn p o d f =>
    .tup [exprHash ops fn, .tup (exprHashL ops p), .tup [.tup (exprHashL ops o), .tup (d.map dirKey)], exprHashO ops f]
  | .case w t s e => .tup [.tup [.tup (exprHashL ops w), .tup (exprHashL ops t)], exprHashO ops s, exprHashO ops e]
  | .quant q e => .tup [exprHash ops e, .quant q]
  | .binary op a b => .tup [.log op, exprHash ops a, exprHash ops b]
  | .between e l u => .tup [.log .between, exprHash ops e, exprHash ops l, exprHash ops u]
  | .inP e vs => .tup [.log .inOp, exprHash ops e, .tup (exprHashL ops vs)]
  | .unary e op => .tup [Key.opt .log op, exprHash ops e]
  | .compound op cs => .tup [.comp op, .tup (exprHashL ops cs)]
/-- Hashes of a tuple of expressions. -/
def exprHashL (ops : Ops Q) : List (Expr Q) → List Key
  | [] => []
  | e :: es => exprHash ops e :: exprHashL ops es
/-- Hash of an optional expression. -/
def exprHashO (ops : Ops Q) : Option (Expr Q) → Key
  | .none => .none
  | .some e => exprHash ops e
/-- The argument list contributed by an optional index of an array access (postbound/qal/_qal.py:1147-1149). -/
def exprHashS (ops : Ops Q) : Option (Expr Q) → List Key
  | .none => []
  | .some e => [exprHash ops e]
end

mutual
/-- `SqlExpression.__eq__` (postbound/qal/_qal.py:285, 350, 478, 675, 763, 1009, 1091, 1220, 1300, 1426, 1568, 1669,
2620, 2783, 2959, 3075, 3358). The values of IN predicates are compared as Python sets: two elements are the same if
their hashes and the elements themselves are equal, and two sets are equal if each of their elements is contained in
the other set. -/
def exprEq (ops : Ops Q) : Expr Q → Expr Q → Bool
  | .static v, .static v' => v == v'
  | .star t, .star t' => t == t'
  | .cast e ty ps a, .cast e' ty' ps' a' => exprEq ops e e' && ty == ty' && exprEqL ops ps ps' && a == a'
  | .math op a bs, .math op' a' bs' => op == op' && exprEq ops a a' && exprEqL ops bs bs'
  | .col c, .col c' => c == c'
  | .func n as d f, .func n' as' d' f' => n == n' && exprEqL ops as as' && d == d' && exprEqO ops f f'
  | .array es, .array es' => exprEqL ops es es'
  | .arrGet a i l u, .arrGet a' i' l' u' =>
    exprEq ops a a' && exprEqO ops i i' && exprEqO ops l l' && exprEqO ops u u'
  | .subq q, .subq q' => ops.eq q q'
  | .window fn p o d f, .window fn' p' o' d' f' =>
    exprEq ops fn fn' && exprEqL ops p p' && exprEqL ops o o' && d == d' && exprEqO ops f f'
  | .case w t s e, .case w' t' s' e' => exprEqL ops w w' && exprEqL ops t t' && exprEqO ops s s' && exprEqO ops e e'
  | .quant q e, .quant q' e' => q == q' && exprEq ops e e'
  | .binary op a b, .binary op' a' b' => op == op' && exprEq ops a a' && exprEq ops b b'
  | .between e l u, .between e' l' u' => exprEq ops e e' && exprEq ops l l' && exprEq ops u u'
  | .inP e vs, .inP e' vs' => exprEq ops e e' && allIn ops vs vs' && vs'.all (fun v' => anyIn ops vs v')
  | .unary e op, .unary e' op' => exprEq ops e e' && op == op'
  | .compound op cs, .compound op' cs' => op == op' && exprEqL ops cs cs'
  | _, _ => false
/-- `==` of tuples of expressions. -/
def exprEqL (ops : Ops Q) : List (Expr Q) → List (Expr Q) → Bool
  | [], [] => true
  | x :: xs, y :: ys => exprEq ops x y && exprEqL ops xs ys
  | _, _ => false
/-- `==` of optional expressions. -/
def exprEqO (ops : Ops Q) : Option (Expr Q) → Option (Expr Q) → Bool
  | .none, .none => true
  | .some x, .some y => exprEq ops x y
  | _, _ => false
/-- Each element of the first list is in the set of the second one. -/
def allIn (ops : Ops Q) : List (Expr Q) → List (Expr Q) → Bool
  | [], _ => true
  | x :: xs, ys => ys.any (fun y => exprEq ops x y && Key.beq (exprHash ops x) (exprHash ops y)) && allIn ops xs ys
/-- The given element is in the set of the list. -/
def anyIn (ops : Ops Q) : List (Expr Q) → Expr Q → Bool
  | [], _ => false
  | x :: xs, y => (exprEq ops x y && Key.beq (exprHash ops x) (exprHash ops y)) || anyIn ops xs y
end

/-- `==` of tuples whose elements are compared by the given function. -/
def listEq {α : Type} (eq : α → α → Bool) : List α → List α → Bool
  | [], [] => true
  | x :: xs, y :: ys => eq x y && listEq eq xs ys
  | _, _ => false

/-- `==` of optional components. -/
def optEq {α : Type} (eq : α → α → Bool) : Option α → Option α → Bool
  | .none, .none => true
  | .some x, .some y => eq x y
  | _, _ => false

/-! ### Clauses -/

/-- `Hint` (postbound/qal/_qal.py:5101-5106) -/
structure Hint where
  prep : String
  hints : String
deriving DecidableEq

/-- `Explain` (postbound/qal/_qal.py:5234-5239): the arguments of the constructor. -/
structure Explain where
  analyze : Bool
  format : Option String
deriving DecidableEq

/-- `Explain.target_format` (postbound/qal/_qal.py:5236): an empty format is replaced by `None`. -/
def Explain.target (e : Explain) : Option String := if e.format = some "" then none else e.format

/-- The `target_name` argument of `WithQuery` (postbound/qal/_qal.py:5332): a string (`ref = none`) or a table
reference whose identifier is `ident`. -/
structure Target where
  ident : String
  ref : Option Tab
deriving DecidableEq

/-- `WithQuery` (postbound/qal/_qal.py:5329-5347) and `ValuesWithQuery` (postbound/qal/_qal.py:5487-5520). -/
inductive With (Q : Type) where
  | query (q : Q) (target : Target) (materialized : Option Bool)
  | values (rows : List (List (Expr Q))) (table : Tab) (cols : List Col) (materialized : Option Bool)

/-- `CommonTableExpression` (postbound/qal/_qal.py:5627-5633) -/
structure Cte (Q : Type) where
  queries : List (With Q)
  recursive : Bool

/-- `Select._distinct_type` (postbound/qal/_qal.py:5969-5978) -/
inductive Distinct where
  | all | none | on
deriving DecidableEq

/-- `BaseProjection` (postbound/qal/_qal.py:5793-5798) -/
structure Projection (Q : Type) where
  expr : Expr Q
  name : String

/-- `Select` (postbound/qal/_qal.py:5957-5981) -/
structure Select (Q : Type) where
  targets : List (Projection Q)
  distinct : Distinct
  cols : List (Expr Q)

/-- Table sources: `DirectTableSource` (postbound/qal/_qal.py:6214-6270), `SubqueryTableSource` (6273-6430),
`ValuesTableSource` (6435-6575), `FunctionTableSource` (6578-6669), `JoinTableSource` (6703-6920). -/
inductive Source (Q : Type) where
  | table (t : Tab)
  | subquery (q : Q) (name : String) (lateral : Bool)
  | values (rows : List (List (Expr Q))) (table : Option Tab) (cols : List Col)
  | func (f : Expr Q) (name : Option Tab)
  | join (l r : Source Q) (cond : Option (Expr Q)) (ty : Nat)

/-- Classes of FROM clauses: `From`, `ImplicitFromClause`, `ExplicitFromClause` (postbound/qal/_qal.py:6926-7122). -/
inductive FromClass where
  | plain | implicit | explicit
deriving DecidableEq

/-- A FROM clause. -/
structure From (Q : Type) where
  cls : FromClass
  items : List (Source Q)

/-- `GroupBy` (postbound/qal/_qal.py:7212-7221) -/
structure GroupBy (Q : Type) where
  cols : List (Expr Q)
  distinct : Bool

/-- `OrderByExpression` (postbound/qal/_qal.py:7373-7384) -/
structure OrderItem (Q : Type) where
  expr : Expr Q
  dir : Dir

/-- `Limit` (postbound/qal/_qal.py:7575-7589); `dir` is the FETCH direction. -/
structure Limit where
  limit : Option Int
  offset : Option Int
  dir : String
deriving DecidableEq

/-- Classes of plain queries (postbound/qal/_qal.py:8390, 9184, 9258, 9335). -/
inductive QueryClass where
  | plain | implicit | explicit | mixed
deriving DecidableEq

/-- `SqlQuery` (postbound/qal/_qal.py:8474-8514) -/
structure Sel (Q : Type) where
  cls : QueryClass
  hints : Option Hint
  explain : Option Explain
  cte : Option (Cte Q)
  select : Select Q
  src : Option (From Q)
  where_ : Option (Expr Q)
  groupBy : Option (GroupBy Q)
  having_ : Option (Expr Q)
  orderBy : Option (List (OrderItem Q))
  limit : Option Limit

/-- `SetOperator` (postbound/qal/_qal.py:79-85) -/
inductive SetOp where
  | union | unionAll | intersect | except
deriving DecidableEq

/-- A query: a `SqlQuery` or a `SetQuery` (postbound/qal/_qal.py:9441-9484). -/
inductive Stmt (Q : Type) where
  | sel (s : Sel Q)
  | set (l r : Stmt Q) (op : SetOp) (cte : Option (Cte Q)) (orderBy : Option (List (OrderItem Q)))
      (limit : Option Limit) (hints : Option Hint) (explain : Option Explain)

/-- The clauses of queries. -/
inductive Clause (Q : Type) where
  | hint (h : Hint)
  | explain (e : Explain)
  | cte (c : Cte Q)
  | select (s : Select Q)
  | src (f : From Q)
  | where_ (p : Expr Q)
  | groupBy (g : GroupBy Q)
  | having_ (p : Expr Q)
  | orderBy (o : List (OrderItem Q))
  | limit (l : Limit)
  | union (l r : Stmt Q) (all : Bool)
  | except (l r : Stmt Q)
  | intersect (l r : Stmt Q)

/-! ### Hash values of clauses -/

/-- Hash of `Hint` (postbound/qal/_qal.py:5105) -/
def Hint.hash (h : Hint) : Key := .tup [.str h.prep, .str h.hints]

/-- Hash of `Explain` (postbound/qal/_qal.py:5238): the format as given. -/
def Explain.hash (e : Explain) : Key := .tup [.bool e.analyze, Key.opt .str e.format]

/-- Hash of `BaseProjection` (postbound/qal/_qal.py:5798) -/
def Projection.hash (ops : Ops Q) (p : Projection Q) : Key := .tup [exprHash ops p.expr, .str p.name]

/-- The key of the DISTINCT type. -/
def Distinct.key : Distinct → Key
  | .all => .str "all"
  | .none => .str "none"
  | .on => .str "on"

/-- Hash of `Select` (postbound/qal/_qal.py:5980) -/
def Select.hash (ops : Ops Q) (s : Select Q) : Key :=
  .tup [s.distinct.key, .tup (s.cols.map (exprHash ops)), .tup (s.targets.map (Projection.hash ops))]

/-- Hash of a list of rows. -/
def rowsHash (ops : Ops Q) (rows : List (List (Expr Q))) : Key :=
  .tup (rows.map fun row => .tup (row.map (exprHash ops)))

/-- Hash of table sources (postbound/qal/_qal.py:6258, 6307, 6474, 6606, 6751) -/
def Source.hash (ops : Ops Q) : Source Q → Key
  | .table t => .tab t
  | .subquery q name lateral => .tup [ops.hash q, .str name, .bool lateral]
  | .values rows t cols => .tup [Key.opt .tab t, .tup (cols.map .col), rowsHash ops rows]
  | .func f name => .tup [exprHash ops f, Key.opt .tab name]
  | .join l r cond ty => .tup [Source.hash ops l, Source.hash ops r, Key.opt (exprHash ops) cond, .nat ty]

/-- Hash of `From` (postbound/qal/_qal.py:6960) -/
def From.hash (ops : Ops Q) (f : From Q) : Key := .tup (f.items.map (Source.hash ops))

/-- Hash of `SELECT * FROM (VALUES …)`, the query of a `ValuesWithQuery` (postbound/qal/_qal.py:5513-5519). -/
def valuesQueryHash (ops : Ops Q) (rows : List (List (Expr Q))) (t : Tab) (cols : List Col) : Key :=
  .tup [.none, .none, .none, Select.hash ops ⟨[⟨.star none, ""⟩], .none, []⟩,
    From.hash ops ⟨.plain, [.values rows (some t) cols]⟩, .none, .none, .none, .none, .none]

/-- Hash of `WithQuery` (postbound/qal/_qal.py:5347): the name as given, i.e. a string or a table. -/
def With.hash (ops : Ops Q) : With Q → Key
  | .query q target _ => .tup [ops.hash q, match target.ref with | .none => .str target.ident | .some t => .tab t]
  | .values rows t cols _ => .tup [valuesQueryHash ops rows t cols, .tab t]

/-- Hash of `CommonTableExpression` (postbound/qal/_qal.py:5632) -/
def Cte.hash (ops : Ops Q) (c : Cte Q) : Key := .tup [.tup (c.queries.map (With.hash ops)), .bool c.recursive]

/-- Hash of `GroupBy` (postbound/qal/_qal.py:7220) -/
def GroupBy.hash (ops : Ops Q) (g : GroupBy Q) : Key := .tup [.tup (g.cols.map (exprHash ops)), .bool g.distinct]

/-- Hash of `OrderByExpression` (postbound/qal/_qal.py:7384) -/
def OrderItem.hash (ops : Ops Q) (o : OrderItem Q) : Key :=
  .tup [exprHash ops o.expr, Key.opt .bool o.dir.1, Key.opt .bool o.dir.2]

/-- Hash of `OrderBy` (postbound/qal/_qal.py:7496) -/
def orderHash (ops : Ops Q) (o : List (OrderItem Q)) : Key := .tup (o.map (OrderItem.hash ops))

/-- Hash of `Limit` (postbound/qal/_qal.py:7588) -/
def Limit.hash (l : Limit) : Key := .tup [Key.opt .int l.limit, Key.opt .int l.offset, .str l.dir]

/-- Hash of `SqlQuery` (postbound/qal/_qal.py:8501-8514). The hash of `Where` and `Having` is the one of the
predicate (postbound/qal/_qal.py:7141, 7303). -/
def Sel.hash (ops : Ops Q) (s : Sel Q) : Key :=
  .tup [Key.opt Hint.hash s.hints, Key.opt Explain.hash s.explain, Key.opt (Cte.hash ops) s.cte, s.select.hash ops,
    Key.opt (From.hash ops) s.src, Key.opt (exprHash ops) s.where_, Key.opt (GroupBy.hash ops) s.groupBy,
    Key.opt (exprHash ops) s.having_, Key.opt (orderHash ops) s.orderBy, Key.opt Limit.hash s.limit]

/-- The key of a set operator. -/
def SetOp.key : SetOp → Key
  | .union => .nat 0
  | .unionAll => .nat 1
  | .intersect => .nat 2
  | .except => .nat 3

/-- Hash of queries (postbound/qal/_qal.py:8501-8514, 9474-9484; the hash of set queries ignores the ORDER BY). -/
def Stmt.hash (ops : Ops Q) : Stmt Q → Key
  | .sel s => s.hash ops
  | .set l r op cte _ limit hints explain =>
    .tup [Stmt.hash ops l, Stmt.hash ops r, op.key, Key.opt (Cte.hash ops) cte, Key.opt Limit.hash limit,
      Key.opt Hint.hash hints, Key.opt Explain.hash explain]

/-! ### Equality of clauses -/

/-- `Explain.__eq__` (postbound/qal/_qal.py:5285-5290) -/
def Explain.eq (a b : Explain) : Bool := a.analyze == b.analyze && a.target == b.target

/-- `==` of lists of rows. -/
def rowsEq (ops : Ops Q) (a b : List (List (Expr Q))) : Bool := listEq (exprEqL ops) a b

/-- `WithQuery.__eq__` (postbound/qal/_qal.py:5450-5455) and `ValuesWithQuery.__eq__` (5574-5580). Python asks the
subclass first, thus a `WithQuery` is never equal to a `ValuesWithQuery`. -/
def With.eq (ops : Ops Q) : With Q → With Q → Bool
  | .query q t _, .query q' t' _ => t.ident == t'.ident && ops.eq q q'
  | .values rows t cols _, .values rows' t' cols' _ => rowsEq ops rows rows' && cols == cols' && t == t'
  | _, _ => false

/-- `CommonTableExpression.__eq__` (postbound/qal/_qal.py:5712-5717) -/
def Cte.eq (ops : Ops Q) (a b : Cte Q) : Bool := listEq (With.eq ops) a.queries b.queries && a.recursive == b.recursive

/-- `BaseProjection.__eq__` (postbound/qal/_qal.py:5842-5847) -/
def Projection.eq (ops : Ops Q) (a b : Projection Q) : Bool := exprEq ops a.expr b.expr && a.name == b.name

/-- `Select.__eq__` (postbound/qal/_qal.py:6103-6109) -/
def Select.eq (ops : Ops Q) (a b : Select Q) : Bool :=
  a.distinct == b.distinct && listEq (Projection.eq ops) a.targets b.targets && exprEqL ops a.cols b.cols

/-- `__eq__` of table sources (postbound/qal/_qal.py:6260, 6415, 6557, 6656, 6905) -/
def Source.eq (ops : Ops Q) : Source Q → Source Q → Bool
  | .table t, .table t' => t == t'
  | .subquery q name _, .subquery q' name' _ => ops.eq q q' && name == name'
  | .values rows t cols, .values rows' t' cols' => t == t' && cols == cols' && rowsEq ops rows rows'
  | .func f name, .func f' name' => exprEq ops f f' && name == name'
  | .join l r c ty, .join l' r' c' ty' =>
    Source.eq ops l l' && Source.eq ops r r' && optEq (exprEq ops) c c' && ty == ty'
  | _, _ => false

/-- `isinstance(other, type(self))` for FROM clauses. -/
def FromClass.covers (self other : FromClass) : Bool := self == .plain || self == other

/-- `From.__eq__` (postbound/qal/_qal.py:7011-7012) -/
def From.eq (ops : Ops Q) (a b : From Q) : Bool := a.cls.covers b.cls && listEq (Source.eq ops) a.items b.items

/-- `GroupBy.__eq__` (postbound/qal/_qal.py:7270-7275) -/
def GroupBy.eq (ops : Ops Q) (a b : GroupBy Q) : Bool := exprEqL ops a.cols b.cols && a.distinct == b.distinct

/-- `OrderByExpression.__eq__` (postbound/qal/_qal.py:7429-7435) -/
def OrderItem.eq (ops : Ops Q) (a b : OrderItem Q) : Bool := exprEq ops a.expr b.expr && a.dir == b.dir

/-- `Limit.__eq__` (postbound/qal/_qal.py:7637-7642) -/
def Limit.eq (a b : Limit) : Bool := a.limit == b.limit && a.offset == b.offset

/-- `isinstance(other, type(self))` for plain queries. -/
def QueryClass.covers (self other : QueryClass) : Bool := self == .plain || self == other

/-- `SqlQuery.clauses` (postbound/qal/_qal.py:8919-8952) -/
def Sel.clauses (s : Sel Q) : List (Clause Q) :=
  [s.hints.map .hint, s.explain.map .explain, s.cte.map .cte, some (.select s.select), s.src.map .src,
    s.where_.map .where_, s.groupBy.map .groupBy, s.having_.map .having_, s.orderBy.map .orderBy,
    s.limit.map .limit].filterMap id

/-- `__eq__` of the clauses of a plain query: clauses of different classes differ (postbound/qal/_qal.py:5153, 5285,
5712, 6103, 7011, 7176, 7270, 7335, 7539, 7637). -/
def clauseEq (ops : Ops Q) : Clause Q → Clause Q → Bool
  | .hint a, .hint b => a == b
  | .explain a, .explain b => a.eq b
  | .cte a, .cte b => a.eq ops b
  | .select a, .select b => a.eq ops b
  | .src a, .src b => a.eq ops b
  | .where_ a, .where_ b => exprEq ops a b
  | .groupBy a, .groupBy b => a.eq ops b
  | .having_ a, .having_ b => exprEq ops a b
  | .orderBy a, .orderBy b => listEq (OrderItem.eq ops) a b
  | .limit a, .limit b => a.eq b
  | _, _ => false

/-- `SqlQuery.__eq__` (postbound/qal/_qal.py:9174-9175) -/
def Sel.eq (ops : Ops Q) (a b : Sel Q) : Bool := a.cls.covers b.cls && listEq (clauseEq ops) a.clauses b.clauses

/-- `==` of queries (postbound/qal/_qal.py:9174-9175, 10007-10018) -/
def Stmt.eq (ops : Ops Q) : Stmt Q → Stmt Q → Bool
  | .sel a, .sel b => a.eq ops b
  | .set l r op c o m h e, .set l' r' op' c' o' m' h' e' =>
    Stmt.eq ops l l' && Stmt.eq ops r r' && op == op' && optEq (Cte.eq ops) c c' &&
      optEq (listEq (OrderItem.eq ops)) o o' && optEq Limit.eq m m' && h == h' && optEq Explain.eq e e'
  | _, _ => false

/-- `==` of the set operation clauses: `UnionClause.__eq__` compares the sides (postbound/qal/_qal.py:7774-7780),
`ExceptClause.__eq__` and `IntersectClause.__eq__` use an attribute that does not exist
(postbound/qal/_qal.py:7855-7859, 7950-7954); `none` is the AttributeError. -/
def setClauseEq (ops : Ops Q) : Clause Q → Clause Q → Option Bool
  | .union l r a, .union l' r' a' => some (Stmt.eq ops l l' && Stmt.eq ops r r' && a == a')
  | .except _ _, .except _ _ => none
  | .intersect _ _, .intersect _ _ => none
  | a, b => some (clauseEq ops a b)

/-! ### Nesting -/

/-- Queries with at most `n` levels of nesting. -/
def QH : Nat → Type
  | 0 => Empty
  | n + 1 => Stmt (QH n)

/-- `==` and `hash` of queries. -/
def opsAt : (n : Nat) → Ops (QH n)
  | 0 => ⟨fun q => q.elim, fun q => q.elim⟩
  | n + 1 => ⟨fun a b => Stmt.eq (opsAt n) a b, fun a => Stmt.hash (opsAt n) a⟩

/-! ### Building queries from clauses -/

/-- The local variables of `build_query` (postbound/qal/_qal.py:10085-10092). -/
structure Parts (Q : Type) where
  implicit : Bool := true
  explicit : Bool := true
  set : Bool := false
  cte : Option (Cte Q) := none
  select : Option (Select Q) := none
  src : Option (From Q) := none
  where_ : Option (Expr Q) := none
  groupBy : Option (GroupBy Q) := none
  having_ : Option (Expr Q) := none
  orderBy : Option (List (OrderItem Q)) := none
  limit : Option Limit := none
  union : Option (Stmt Q × Stmt Q × Bool) := none
  intersect : Option (Stmt Q × Stmt Q) := none
  except : Option (Stmt Q × Stmt Q) := none
  explain : Option Explain := none
  hints : Option Hint := none

/-- The body of the loop of `build_query` (postbound/qal/_qal.py:10093-10134). -/
def Parts.add (p : Parts Q) : Clause Q → Parts Q
  | .cte c => { p with cte := some c }
  | .select s => { p with select := some s }
  | .src f =>
    match f.cls with
    | .implicit => { p with src := some f, implicit := true, explicit := false }
    | .explicit => { p with src := some f, implicit := false, explicit := true }
    | .plain => { p with src := some f, implicit := false, explicit := false }
  | .where_ e => { p with where_ := some e }
  | .groupBy g => { p with groupBy := some g }
  | .having_ e => { p with having_ := some e }
  | .orderBy o => { p with orderBy := some o }
  | .limit l => { p with limit := some l }
  | .union l r a => { p with set := true, union := some (l, r, a) }
  | .except l r => { p with set := true, except := some (l, r) }
  | .intersect l r => { p with set := true, intersect := some (l, r) }
  | .explain e => { p with explain := some e }
  | .hint h => { p with hints := some h }

/-- The class that `build_query` chooses (postbound/qal/_qal.py:10085, 10101-10109, 10178-10205). -/
def classFor : Option (From Q) → QueryClass
  | .none => .implicit
  | .some f => match f.cls with
    | .implicit => .implicit
    | .explicit => .explicit
    | .plain => .mixed

/-- The sides of a set query (postbound/qal/_qal.py:9453-9464): a query with an EXPLAIN clause is replaced by
`build_query(query.clauses(skip=Explain))`, i.e. by the query without the clause whose class is determined anew. -/
def Stmt.dropExplain : Stmt Q → Stmt Q
  | .sel s => if s.explain.isSome then .sel { s with explain := none, cls := classFor s.src } else .sel s
  | .set l r op cte o m h _ => .set l r op cte o m h none

/-- Constructor of `SetQuery` (postbound/qal/_qal.py:9441-9484) -/
def mkSet (l r : Stmt Q) (op : SetOp) (cte : Option (Cte Q)) (o : Option (List (OrderItem Q))) (m : Option Limit)
    (h : Option Hint) (e : Option Explain) : Stmt Q :=
  .set l.dropExplain r.dropExplain op cte o m h e

/-- The part of `build_query` after the loop (postbound/qal/_qal.py:10136-10216); `none` is a ValueError. -/
def Parts.finish (p : Parts Q) : Option (Stmt Q) :=
  if p.set then
    let side : Option (Stmt Q × Stmt Q × SetOp) :=
      match p.union, p.except, p.intersect with
      | some (l, r, a), _, _ => some (l, r, if a then .unionAll else .union)
      | none, some (l, r), _ => some (l, r, .except)
      | none, none, some (l, r) => some (l, r, .intersect)
      | none, none, none => none
    side.bind fun s =>
      if p.select.isSome || p.src.isSome || p.where_.isSome || p.groupBy.isSome || p.having_.isSome then none
      else some (mkSet s.1 s.2.1 s.2.2 p.cte p.orderBy p.limit p.hints p.explain)
  else
    p.select.map fun s =>
      .sel ⟨if p.implicit then .implicit else if p.explicit then .explicit else .mixed, p.hints, p.explain, p.cte, s,
        p.src, p.where_, p.groupBy, p.having_, p.orderBy, p.limit⟩

/-- `build_query` (postbound/qal/_qal.py:10054-10216) -/
def build (cs : List (Clause Q)) : Option (Stmt Q) := (cs.foldl Parts.add {}).finish

/-- The clause of a set operation (postbound/qal/_qal.py:9802-9810). -/
def setClause (l r : Stmt Q) : SetOp → Clause Q
  | .union => .union l r false
  | .unionAll => .union l r true
  | .intersect => .intersect l r
  | .except => .except l r

/-- `SetQuery.clauses` (postbound/qal/_qal.py:9776-9817) and `SqlQuery.clauses`. -/
def Stmt.clauses : Stmt Q → List (Clause Q)
  | .sel s => s.clauses
  | .set l r op cte o m h e =>
    [h.map .hint, e.map .explain, cte.map .cte, some (setClause l r op), o.map .orderBy, m.map .limit].filterMap id

end PB.EqHash
