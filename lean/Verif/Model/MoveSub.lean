import Verif.Model.Transform

/-! Model of moving tables into a subquery (postbound/transform.py:484-638). -/

namespace PB.MoveSub
open PB PB.Qal PB.Qal.Expr PB.Transform

variable {Q : Type}

/-- The subquery that is created (postbound/transform.py:592-611): the selected columns, the tables of its FROM clause
(both in the arbitrary order in which the sets are iterated), its WHERE predicate and the name under which it is
available. -/
structure Subquery (Q : Type) where
  cols : List Col
  tables : List Tab
  where_ : Option (Expr Q)
  name : Tab

/-- The items of a FROM clause (postbound/qal/_qal.py:6210-6925): a `DirectTableSource` for a table, a
`JoinTableSource` (of which only the tables are kept), a `SubqueryTableSource`, and a `DirectTableSource` whose "table"
is in fact another table source (nothing checks the type, postbound/qal/_qal.py:6219). -/
inductive Item (Q : Type) where
  | table (t : Tab)
  | join (ts : List Tab)
  | sub (s : Subquery Q)
  | nested (i : Item Q)

/-- What `tables()` reports: references, or whatever a `DirectTableSource` holds instead
(postbound/qal/_qal.py:6242). -/
inductive Reported (Q : Type) where
  | ref (t : Tab)
  | source (i : Item Q)

/-- `tables()` of a FROM item (postbound/qal/_qal.py:6242, 6397-6399, 6859-6863) -/
def Item.tables : Item Q → List (Reported Q)
  | .table t => [.ref t]
  | .join ts => ts.map .ref
  | .sub s => .ref s.name :: s.tables.map .ref
  | .nested i => [.source i]

/-- A query (postbound/qal/_qal.py:8474-8515): its FROM items, its WHERE predicate, and the expressions of all other
clauses. -/
structure Query (Q : Type) where
  items : List (Item Q)
  where_ : Option (Expr Q)
  others : List (Expr Q)

/-- `table.virtual` for something reported by `tables()`: table sources have no such attribute (`none`). -/
def isVirtual (virtual : Tab → Bool) : Reported Q → Option Bool
  | .ref t => some (virtual t)
  | .source _ => none

/-- The first check of `move_into_subquery` (postbound/transform.py:562-563). `query.tables()` are the tables of all
clauses. -/
def virtualCheck (ops : QOps Q) (virtual : Tab → Bool) (q : Query Q) : Option Bool :=
  ((q.items.flatMap Item.tables).mapM (isVirtual virtual)).map fun bs =>
    bs.any id || decide (∃ t ∈ unionAll ((q.where_.toList ++ q.others).map (Expr.tables ops)), virtual t = true)

/-- `columns_from_subquery_tables` (postbound/transform.py:572-577) -/
def exported (ops : QOps Q) (q : Query Q) (ts : List Tab) : Finset Col :=
  (unionAll ((q.where_.toList ++ q.others).map (Expr.columns ops))).filter fun c => ∃ t ∈ ts, c.tab = some t

/-- `subquery_predicates` (postbound/transform.py:592-600) -/
def moved [DecidableEq Q] (ops : QOps Q) (qp : QueryPreds Q) (ts : List Tab) : List (Expr Q) :=
  (ts.filterMap fun t => qp.filtersFor ops t) ++ (qp.joinsBetween ts ts).toList

/-- Whether the table is one of the reported ones. -/
def Reported.isRef (t : Tab) : Reported Q → Bool
  | .ref u => decide (u = t)
  | .source _ => false

/-- Whether something reported is one of the given tables. -/
def Reported.isIn (ts : List Tab) : Reported Q → Bool
  | .ref t => ts.contains t
  | .source _ => false

/-- `table_source.tables() < tables` (postbound/transform.py:616): a proper subset. -/
def strictSubset (i : Item Q) (ts : List Tab) : Bool :=
  i.tables.all (Reported.isIn ts) && ts.any fun t => !i.tables.any (Reported.isRef t)

/-- The predicate after the removal of the moved ones (postbound/transform.py:621-623); removing from `None` yields
`None` (postbound/transform.py:811-812). Outer `none` is an exception. -/
def removeAll [DecidableEq Q] : Option (Expr Q) → List (Expr Q) → Option (Option (Expr Q))
  | w, [] => some w
  | none, _ :: ps => removeAll none ps
  | some w, p :: ps => (removePred (fun e => decide (e = p)) w).bind fun w' => removeAll w' ps

/-- `_default_subquery_name` (postbound/transform.py:484-497) -/
def defaultName (ident : Tab → String) (ts : List Tab) : String := "_".intercalate (ts.map ident)

/-- `move_into_subquery` (postbound/transform.py:519-638). `ts` is the set of the given tables in the order in which it
is iterated, `ord` the order in which a set of columns is iterated, `name` the virtual table with the name of the
subquery, `ren` the renaming of columns in nested queries (see Verif.Model.Transform), `qp` is `query.predicates()`.
The new FROM clause is built by `ImplicitFromClause.create_for` (postbound/qal/_qal.py:7035-7054), which wraps each of
its arguments in a `DirectTableSource`. It replaces the old one, since a later FROM clause overwrites an earlier one
(postbound/qal/_qal.py:10093-10109). `none` is an exception. -/
def moveIntoSubquery [DecidableEq Q] (ops : QOps Q) (virtual : Tab → Bool) (ord : Finset Col → List Col)
    (ren : Q → Option Q) (qp : QueryPreds Q) (q : Query Q) (ts : List Tab) (name : Tab) : Option (Query Q) :=
  if q.items.isEmpty then none
  else if virtualCheck ops virtual q ≠ some false then none
  else if ts.length < 2 then none
  else
    let cols := exported ops q ts
    if (cols.image Col.name).card < cols.card then none
    else if cols = ∅ then none
    else
      let ρ : Dict Col Col := (ord cols).map fun c => (c, ⟨some name, c.name⟩)
      let ps := moved ops qp ts
      let s : Subquery Q := ⟨ord cols, ts, createAnd ps, name⟩
      let items : List (Item Q) := ((q.items.filter fun i => !strictSubset i ts) ++ [Item.sub s]).map Item.nested
      (removeAll q.where_ ps).bind fun w =>
        (renameO ren ρ w).bind fun w' => (renameL ren ρ q.others).map fun os => ⟨items, w', os⟩

end PB.MoveSub
