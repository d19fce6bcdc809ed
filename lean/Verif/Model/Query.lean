import Verif.Model.Pred

/-!
Model of whole queries (postbound/qal/_qal.py): table sources, clauses, ordinary queries and set queries, and what they report about their tables, columns
and subqueries.

A query contains subqueries of a type `Q`. `QN n` are the queries with at most `n` levels of nesting.

Python's `None`, which some methods put into sets of tables, is the table 0.

Simplifications: the parts of clauses that contain no expression (hints, EXPLAIN, LIMIT, directions of ORDER BY, MATERIALIZED, DISTINCT without ON) are left
out. VALUES lists in the WITH clause are left out, too.
-/

set_option linter.dupNamespace false

namespace PB.Query

open PB.Qal

/-- The table that represents `None`. -/
def noTab : Tab := 0

/-- `SubqueryTableSource.target_table` etc. (postbound/qal/_qal.py:6337-6352, 6491-6499, 6625-6632): the name of a table source, if any. -/
def nameOf (a : Option Tab) : Tab := a.getD noTab

/-- `TableSource` and its subclasses (postbound/qal/_qal.py:6210-6912). -/
inductive Source (Q : Type)
  | table (t : Tab)
  | sub (q : Q) (name : Option Tab) (lateral : Bool)
  | values (rows : List (Expr Q)) (name : Option Tab) (cols : List Col)
  | func (f : Expr Q) (name : Option Tab)
  | join (l r : Source Q) (cond : Option (Expr Q))

/-- `ImplicitFromClause` (postbound/qal/_qal.py:7019-7071) and the other `From` clauses (postbound/qal/_qal.py:6926-7016, 7074-7122). -/
inductive From (Q : Type)
  | implicit (ts : List Tab)
  | general (srcs : List (Source Q))

/-- `WithQuery` (postbound/qal/_qal.py:5304-5466): a query and its name. -/
structure With (Q : Type) where
  query : Q
  name : Tab

/-- `SqlQuery` (postbound/qal/_qal.py:8390-9181). `having` and `where_` are predicates, `order` are the expressions of the ORDER BY clause, `distinctOn` are
those of SELECT DISTINCT ON. An empty list stands for a clause that is missing. Each projection has an optional name. -/
structure Body (Q : Type) where
  ctes : List (With Q)
  select : List (Expr Q × Option Nat)
  distinctOn : List (Expr Q)
  from_ : Option (From Q)
  where_ : Option (Expr Q)
  group : List (Expr Q)
  having : Option (Expr Q)
  order : List (Expr Q)

/-- `SqlQuery` or `SetQuery` (postbound/qal/_qal.py:9396-10024). The set operation is left out. -/
inductive Query (Q : Type)
  | plain (b : Body Q)
  | set (l r : Query Q) (ctes : List (With Q)) (order : List (Expr Q))

variable {Q : Type}

/-! ### Tables -/

/-- `tables` of table sources (postbound/qal/_qal.py:6242, 6397, 6523, 6638, 6859). -/
def Source.tables (ops : QOps Q) : Source Q → Finset Tab
  | .table t => {t}
  | .sub q a _ => ops.tables q ∪ {nameOf a}
  | .values _ a _ => {nameOf a}
  | .func f a => if a.isSome then f.tables ops ∪ {nameOf a} else ∅
  | .join l r _ => l.tables ops ∪ r.tables ops

/-- `From.tables` (postbound/qal/_qal.py:6976). -/
def From.tables (ops : QOps Q) : From Q → Finset Tab
  | .implicit ts => ts.toFinset
  | .general srcs => unionAll (srcs.map fun s => s.tables ops)

/-- The expressions of an optional predicate (`iterexpressions`). -/
def condParts (p : Option (Expr Q)) : List (Expr Q) := p.toList.flatMap Expr.iterExpressions

/-- The tables of a list of expressions (postbound/qal/_qal.py:4977-4987). -/
def exprTables (ops : QOps Q) (es : List (Expr Q)) : Finset Tab := unionAll (es.map fun e => e.tables ops)

/-- `SqlQuery.tables` (postbound/qal/_qal.py:8700-8729; the clauses: 5674, 6051, 6976, 7157, 4985). -/
def Body.tables (ops : QOps Q) (b : Body Q) : Finset Tab :=
  unionAll (b.ctes.map fun w => ops.tables w.query) ∪ exprTables ops (b.select.map (·.1)) ∪ unionAll (b.from_.toList.map fun f => f.tables ops) ∪
    exprTables ops b.where_.toList ∪ exprTables ops b.group ∪ exprTables ops (condParts b.having) ∪ exprTables ops b.order

/-- `tables` (postbound/qal/_qal.py:8700, 9682-9694). -/
def Query.tables (ops : QOps Q) : Query Q → Finset Tab
  | .plain b => b.tables ops
  | .set l r _ _ => l.tables ops ∪ r.tables ops

/-! ### Columns -/

/-- `columns` of table sources (postbound/qal/_qal.py:6245, 6400, 6526, 6641, 6862-6866). -/
def Source.columns (ops : QOps Q) : Source Q → Finset Col
  | .table _ => ∅
  | .sub q _ _ => ops.columns q
  | .values _ _ cs => cs.toFinset
  | .func f _ => f.columns ops
  | .join l r c => l.columns ops ∪ r.columns ops ∪ unionAll (c.toList.map fun e => e.columns ops)

/-- `From.columns` (postbound/qal/_qal.py:6979). -/
def From.columns (ops : QOps Q) : From Q → Finset Col
  | .implicit _ => ∅
  | .general srcs => unionAll (srcs.map fun s => s.columns ops)

/-- The columns of a list of expressions. -/
def exprColumns (ops : QOps Q) (es : List (Expr Q)) : Finset Col := unionAll (es.map fun e => e.columns ops)

/-- `SqlQuery.columns` (postbound/qal/_qal.py:8770-8782; the clauses: 5686, 6045, 6979, 7160, 7248, 7319, 7513). -/
def Body.columns (ops : QOps Q) (b : Body Q) : Finset Col :=
  unionAll (b.ctes.map fun w => ops.columns w.query) ∪ exprColumns ops (b.select.map (·.1)) ∪ unionAll (b.from_.toList.map fun f => f.columns ops) ∪
    exprColumns ops b.where_.toList ∪ exprColumns ops b.group ∪ exprColumns ops b.having.toList ∪ exprColumns ops b.order

/-- `columns` (postbound/qal/_qal.py:8770, 9696-9708). -/
def Query.columns (ops : QOps Q) : Query Q → Finset Col
  | .plain b => b.columns ops
  | .set l r _ _ => l.columns ops ∪ r.columns ops

/-- `itercolumns` of table sources (postbound/qal/_qal.py:6251, 6406, 6548, 6647, 6876-6882). -/
def Source.iterColumns (ops : QOps Q) : Source Q → List Col
  | .table _ => []
  | .sub q _ _ => ops.iterCols q
  | .values _ _ cs => cs
  | .func f _ => f.iterColumns ops
  | .join l r c => l.iterColumns ops ++ r.iterColumns ops ++ c.toList.flatMap fun e => e.iterColumns ops

/-- `SqlQuery.itercolumns` (postbound/qal/_qal.py:9103-9115; the clauses: 5694, 6048, 6985, 7166, 7254, 7325, 7521). -/
def Body.iterColumns (ops : QOps Q) (b : Body Q) : List Col :=
  (b.ctes.flatMap fun w => ops.iterCols w.query) ++ (b.select.flatMap fun p => p.1.iterColumns ops) ++
    (b.from_.toList.flatMap fun f => match f with
      | .implicit _ => []
      | .general srcs => srcs.flatMap fun s => s.iterColumns ops) ++
    (b.where_.toList.flatMap fun e => e.iterColumns ops) ++ (b.group.flatMap fun e => e.iterColumns ops) ++
    (b.having.toList.flatMap fun e => e.iterColumns ops) ++ (b.order.flatMap fun e => e.iterColumns ops)

/-- `itercolumns` (postbound/qal/_qal.py:9103, 9934-9946, 7764): the clauses of set queries include WITH and ORDER BY. -/
def Query.iterColumns (ops : QOps Q) : Query Q → List Col
  | .plain b => b.iterColumns ops
  | .set l r ctes order =>
    (ctes.flatMap fun w => ops.iterCols w.query) ++ (l.iterColumns ops ++ r.iterColumns ops) ++ (order.flatMap fun e => e.iterColumns ops)

/-! ### Subqueries -/

/-- `collect_subqueries_in_expression` (postbound/qal/_qal.py:8059-8081). -/
def exprSubqueries : Expr Q → List Q
  | .subq q => [q]
  | e => e.iterChildren.attach.flatMap fun ⟨c, h⟩ => have := Expr.sizeOf_iterChildren e c h; exprSubqueries c
termination_by e => sizeOf e

/-- `_collect_subqueries_in_table_source` (postbound/qal/_qal.py:8084-8122). For joins it iterates over the joined table source, which cannot be iterated:
a TypeError. -/
def Source.subqueries : Source Q → Option (List Q)
  | .sub q _ _ => some [q]
  | .join _ _ _ => none
  | _ => some []

/-- Some of a list of computations fails, or all results. -/
def allSome {α : Type} : List (Option α) → Option (List α)
  | [] => some []
  | o :: l => o.bind fun x => (allSome l).map fun xs => x :: xs

/-- `_collect_subqueries` of FROM clauses (postbound/qal/_qal.py:8165-8170). -/
def From.subqueries : From Q → Option (List Q)
  | .implicit _ => some []
  | .general srcs => (allSome (srcs.map Source.subqueries)).map List.flatten

/-- `SqlQuery.subqueries` (postbound/qal/_qal.py:8906-8917, 8125-8199). WITH clauses are skipped. -/
def Body.subqueries (b : Body Q) : Option (List Q) :=
  (allSome (b.from_.toList.map From.subqueries)).map fun fs =>
    (b.select.flatMap fun p => exprSubqueries p.1) ++ fs.flatten ++ (condParts b.where_).flatMap exprSubqueries ++ b.group.flatMap exprSubqueries ++
      (condParts b.having).flatMap exprSubqueries ++ b.order.flatMap exprSubqueries

/-- `subqueries` (postbound/qal/_qal.py:8906, 9763-9774). -/
def Query.subqueries : Query Q → Option (List Q)
  | .plain b => b.subqueries
  | .set l r _ _ => l.subqueries.bind fun x => r.subqueries.map fun y => x ++ y

/-! ### Bound tables -/

/-- What queries use of their subqueries: in addition to `QOps`, `bound_tables` and the tables bound by the FROM clause. `none` is an exception. -/
structure Info (Q : Type) where
  ops : QOps Q
  bound : Q → Option (Finset Tab)
  fromBound : Q → Option (Finset Tab)

/-- `_collect_bound_tables_from_source` (postbound/qal/_qal.py:8202-8233). For joins it iterates over the joined table source (a TypeError), for VALUES and
functions it returns `None`, which the caller cannot use (a TypeError). -/
def Source.bound (i : Info Q) : Source Q → Option (Finset Tab)
  | .table t => some {t}
  | .sub q _ _ => i.fromBound q
  | _ => none

/-- `_collect_bound_tables` (postbound/qal/_qal.py:8236-8262). A missing FROM clause raises an AttributeError. -/
def fromBound (i : Info Q) : Option (From Q) → Option (Finset Tab)
  | none => none
  | some (.implicit ts) => some ts.toFinset
  | some (.general srcs) => (allSome (srcs.map fun s => s.bound i)).map unionAll

/-- `CommonTableExpression.tables` (postbound/qal/_qal.py:5660-5664). -/
def cteTables (i : Info Q) (ws : List (With Q)) : Finset Tab := unionAll (ws.map fun w => i.ops.tables w.query ∪ {w.name})

/-- `SqlQuery.bound_tables` (postbound/qal/_qal.py:8954-8974). -/
def Body.bound (i : Info Q) (b : Body Q) : Option (Finset Tab) :=
  b.subqueries.bind fun qs => (allSome (qs.map i.bound)).bind fun bs => (fromBound i b.from_).map fun own => own ∪ unionAll bs ∪ cteTables i b.ctes

/-- `bound_tables` (postbound/qal/_qal.py:8954, 9819-9834). -/
def Query.bound (i : Info Q) : Query Q → Option (Finset Tab)
  | .plain b => b.bound i
  | .set l r _ _ => (l.bound i).bind fun x => (r.bound i).map fun y => x ∪ y

/-- `_collect_bound_tables(query.from_clause)`; set queries have no FROM clause and raise a QueryTypeError (postbound/qal/_qal.py:9620-9626). -/
def Query.fromBound (i : Info Q) : Query Q → Option (Finset Tab)
  | .plain b => PB.Query.fromBound i b.from_
  | .set _ _ _ _ => none

/-- `virtual_subquery_targets` (postbound/qal/_qal.py:8988-8995): the names of the subqueries that are items of the FROM clause themselves. -/
def subqueryTargets : Option (From Q) → Finset Tab
  | some (.general srcs) => (srcs.filterMap fun s => match s with
    | .sub _ a _ => some (nameOf a)
    | _ => none).toFinset
  | _ => ∅

/-- `SqlQuery.unbound_tables` (postbound/qal/_qal.py:8976-9009). -/
def Body.unbound (i : Info Q) (b : Body Q) : Option (Finset Tab) :=
  (b.bound i).map fun bs => ((b.tables i.ops \ bs) \ subqueryTargets b.from_) \ (b.ctes.map (·.name)).toFinset

/-- `unbound_tables` (postbound/qal/_qal.py:8976, 9836-9848). -/
def Query.unbound (i : Info Q) : Query Q → Option (Finset Tab)
  | .plain b => b.unbound i
  | .set l r _ _ => (l.unbound i).bind fun x => (r.unbound i).map fun y => x ∪ y

/-- `is_dependent` (postbound/qal/_qal.py:9021-9032, 9860-9874): the right query is only checked if the left one is not dependent. -/
def Query.dependent (i : Info Q) : Query Q → Option Bool
  | .plain b => (b.bound i).map fun bs => decide (¬ b.tables i.ops ⊆ bs)
  | .set l r _ _ => (l.dependent i).bind fun x => if x then some true else r.dependent i

/-- `predicates` of table sources (postbound/qal/_qal.py:6254, 6409, 6551, 6650, 6884-6900), given those of subqueries: an exception, nothing or a
predicate. -/
def Source.predicates (preds : Q → Option (Option (Expr Q))) : Source Q → Option (Option (Expr Q))
  | .sub q _ _ => preds q
  | .join l r c =>
    (l.predicates preds).bind fun x => (r.predicates preds).bind fun y =>
      if (x.toList ++ y.toList ++ c.toList).isEmpty then some none else (Expr.createAnd (x.toList ++ y.toList ++ c.toList)).map some
  | _ => some none

/-- `From.predicates` (postbound/qal/_qal.py:6988-6996). -/
def From.predicates (preds : Q → Option (Option (Expr Q))) : From Q → Option (Option (Expr Q))
  | .implicit _ => some none
  | .general srcs =>
    (allSome (srcs.map fun s => s.predicates preds)).bind fun ps =>
      if (ps.flatMap Option.toList).isEmpty then some none else (Expr.createAnd (ps.flatMap Option.toList)).map some

/-- `SqlQuery.predicates` (postbound/qal/_qal.py:8803-8833): the root of the resulting predicates, `some none` if there are none. A missing FROM clause raises
an AttributeError. -/
def Body.predicates (preds : Q → Option (Option (Expr Q))) (b : Body Q) : Option (Option (Expr Q)) :=
  (allSome (b.ctes.map fun w => preds w.query)).bind fun cs => b.from_.bind fun f => (f.predicates preds).map fun fp =>
    QueryPreds.andRoots (QueryPreds.andRoots (cs.foldl QueryPreds.andRoots none) b.where_) fp

/-- `predicates` (postbound/qal/_qal.py:8803, 9755-9761): set queries raise a QueryTypeError. -/
def Query.predicates (preds : Q → Option (Option (Expr Q))) : Query Q → Option (Option (Expr Q))
  | .plain b => b.predicates preds
  | .set _ _ _ _ => none

/-- `SqlQuery.contains_cross_product` (postbound/qal/_qal.py:9075-9088). `empty_predicate()` is a constructor of empty predicates, which are false as a
condition (postbound/qal/_qal.py:4319-4327, 4942). Hence the last line is reached whenever there is a FROM clause and `predicates` succeeds; `len` of a generator
raises a TypeError. -/
def Body.containsCrossProduct (preds : Q → Option (Option (Expr Q))) (b : Body Q) : Option Bool :=
  if b.from_.isNone then some false
  else (b.predicates preds).bind fun _ => if (none : Option (Expr Q)).isSome then some true else none

/-- `output_columns` of ordinary queries (postbound/qal/_qal.py:8731-8768): the name of a column, or the number of an anonymous column. -/
def outputColumns : Nat → List (Expr Q × Option Nat) → List (Nat ⊕ Nat)
  | _, [] => []
  | i, (_, some n) :: ps => .inl n :: outputColumns i ps
  | i, (.col c, none) :: ps => .inl c.name :: outputColumns i ps
  | i, (.star _, none) :: ps => outputColumns i ps
  | i, (_, none) :: ps => .inr i :: outputColumns (i + 1) ps

/-- The loop of `SetQuery.output_columns` (postbound/qal/_qal.py:9739-9753). Simplification: no name that is given in a query starts with `column_`. -/
def mergeColumns : Nat → List (Nat ⊕ Nat) → List (Nat ⊕ Nat) → List (Nat ⊕ Nat)
  | i, .inl a :: ls, _ :: rs => .inl a :: mergeColumns i ls rs
  | i, .inr _ :: ls, .inl b :: rs => .inl b :: mergeColumns i ls rs
  | i, .inr _ :: ls, .inr _ :: rs => .inr i :: mergeColumns (i + 1) ls rs
  | _, _, _ => []

/-- `output_columns` (postbound/qal/_qal.py:8731-8768, 9710-9753); `none` is the ValueError for set queries whose sides differ in length. -/
def Query.outputColumns : Query Q → Option (List (Nat ⊕ Nat))
  | .plain b => some (PB.Query.outputColumns 1 b.select)
  | .set l r _ _ => l.outputColumns.bind fun x => r.outputColumns.bind fun y => if x.length = y.length then some (mergeColumns 1 x y) else none

/-! ### Nesting -/

/-- Queries with at most `n` levels of nesting. -/
def QN : Nat → Type
  | 0 => Empty
  | n + 1 => Query (QN n)

/-- What queries report about themselves. -/
def info : (n : Nat) → Info (QN n)
  | 0 => ⟨⟨fun q => q.elim, fun q => q.elim, fun q => q.elim, fun q => q.elim⟩, fun q => q.elim, fun q => q.elim⟩
  | n + 1 =>
    { ops :=
        { tables := fun q => Query.tables (info n).ops q
          columns := fun q => Query.columns (info n).ops q
          iterCols := fun q => Query.iterColumns (info n).ops q
          unbound := fun q => (Query.unbound (info n) q).getD ∅ }
      bound := fun q => Query.bound (info n) q
      fromBound := fun q => Query.fromBound (info n) q }

end PB.Query
