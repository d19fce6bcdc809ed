import Verif.Model.Dict

/-!
Model of the resolution of names in the SQL parser: `SchemaCache`, `QueryNamespace` and the traversal of a statement (postbound/parser.py).

Statements are given as the syntax trees that pglast produces. They are represented by the types below, of which everything is left out that has no influence on the
resolution of names: operators, constants, join types, limits (see `Model/ParseClauses` for these). An exception is modelled by `none`.

Simplifications: names are numbers, the empty string is `none`. Schema names are left out. A namespace only keeps of its children what is used of them, namely their output
shapes; a child that is still being parsed has the empty output shape (in the code, a recursive WITH query that refers to itself in a subquery of its WHERE clause already
sees its output shape). The parent namespace does not change while a child is parsed, hence the parents of a namespace are an immutable list.
-/

namespace PB.Nsp

open PB

/-- A name. -/
abbrev Name := Nat

/-- `TableReference` (postbound/_core.py:624-739) without schema. -/
structure Tab where
  full : Option Name
  als : Option Name
  virt : Bool
deriving DecidableEq, Repr

/-- `identifier` (postbound/_core.py:699, 791-803). -/
def Tab.ident (t : Tab) : Option Name := match t.als with
  | some a => some a
  | none => t.full

/-- `create_virtual` (postbound/_core.py:658-679) for a nonempty alias. -/
def virtual (n : Name) : Tab := ⟨none, some n, true⟩

/-! ### Syntax trees -/

mutual

/-- Expressions: references, operators and function calls with their arguments in the order in which they are visited, and SubLinks with their `testexpr`
(postbound/parser.py:811-1195). -/
inductive PExpr (R T : Type) : Type where
  | ref (r : R)
  | op (args : PExprs R T)
  | sub (q : PQuery R T) (tests : PExprs R T)

/-- Lists of expressions. -/
inductive PExprs (R T : Type) : Type where
  | nil
  | cons (e : PExpr R T) (es : PExprs R T)

/-- The entries of a FROM clause (postbound/parser.py:1431-1554): RangeVar, JoinExpr with its `quals`, if any, RangeSubselect with its alias and its list of column aliases,
RangeFunction. -/
inductive PFrom (R T : Type) : Type where
  | rel (t : T)
  | join (l r : PFrom R T) (quals : PExprs R T)
  | sub (q : PQuery R T) (als : Option Name) (cols : List Name)
  | func (e : PExpr R T) (als : Option Name)

/-- Lists of FROM entries. -/
inductive PFroms (R T : Type) : Type where
  | nil
  | cons (f : PFrom R T) (fs : PFroms R T)

/-- The targets of a SELECT clause with their aliases (postbound/parser.py:1381-1388). -/
inductive PTargets (R T : Type) : Type where
  | nil
  | cons (e : PExpr R T) (als : Option Name) (ts : PTargets R T)

/-- WITH queries with their names and their lists of column aliases (postbound/parser.py:1237-1297). -/
inductive PCtes (R T : Type) : Type where
  | nil
  | cons (n : Name) (q : PQuery R T) (cols : List Name) (cs : PCtes R T)

/-- SelectStmt: queries (WITH, FROM, DISTINCT ON, SELECT; WHERE, GROUP BY and HAVING; ORDER BY), set operations (WITH, operands, ORDER BY) and VALUES lists. -/
inductive PQuery (R T : Type) : Type where
  | select (cs : PCtes R T) (fs : PFroms R T) (dist : PExprs R T) (ts : PTargets R T) (rest order : PExprs R T)
  | setop (cs : PCtes R T) (l r : PQuery R T) (order : PExprs R T)
  | values (rows : PExprs R T)

end

/-- The references in the syntax tree: `c`, `t.c`, `*` and `t.*`. -/
inductive Raw where
  | col (c : Name)
  | qcol (t c : Name)
  | star
  | qstar (t : Name)
deriving DecidableEq, Repr

/-- `ColumnReference` and `StarExpression`: columns and stars with their tables. -/
inductive Bound where
  | col (c : Name) (t : Option Tab)
  | star (t : Option Tab)
deriving DecidableEq, Repr

/-- RangeVar: a table name and an alias. -/
structure RangeVar where
  name : Name
  als : Option Name
deriving DecidableEq, Repr

/-! ### Namespaces -/

/-- `QueryNamespace` (postbound/parser.py:204-300) without its parent. `subs`, `ctes` and `setops` contain the output shapes of the children. -/
structure Scope where
  subs : Dict Name (List Name) := []
  ctes : Dict Name (List Name) := []
  setops : List (List Name) := []
  ctx : List Tab := []
  tables : Dict Name Tab := []
  shape : List Name := []
  produced : List Name := []
  cache : Dict Name Tab := []

/-- What the traversal depends on: the columns of the tables of the schema (none without a schema) and, for the comparison with a parser without it, whether
`_column_cache` is used. -/
structure Cfg where
  schema : Name → List Name
  caching : Bool := true

/-- `SchemaCache.columns_of` and `_inflate_cache` (postbound/parser.py:169-201), see `SchemaState` for the cache. -/
def columnsOf (x : Cfg) (t : Tab) : List Name := match t.full with
  | some n => x.schema n
  | none => []

/-- `resolve_table` (postbound/parser.py:441-454). The first scope is the current one, the others are its parents. -/
def resolveTable : List Scope → Name → Option Tab
  | [], _ => none
  | s :: up, k => match s.tables.get? k with
    | some t => some t
    | none => if s.ctes.has k then some (virtual k) else resolveTable up k

/-- `_lookup_namespace` (postbound/parser.py:504-514): the output shape of the namespace. -/
def lookupNs : List Scope → Name → Option (List Name)
  | [], _ => none
  | s :: up, k => match s.ctes.get? k with
    | some l => some l
    | none => match s.subs.get? k with
      | some l => some l
      | none => lookupNs up k

/-- `nsp and nsp.provides_column(key)` (postbound/parser.py:388-390, 421). -/
def given (key : Name) : Option (List Name) → Bool
  | some l => decide (key ∈ l)
  | none => false

/-- The tests of one table in `lookup_column` (postbound/parser.py:409-433). -/
def provides (x : Cfg) (s : Scope) (up : List Scope) (key : Name) (t : Tab) : Bool :=
  (!t.virt && decide (key ∈ columnsOf x t)) ||
    match t.ident with
    | some i => given key (s.subs.get? i) || given key (s.ctes.get? i) || given key (lookupNs (s :: up) i)
    | none => false

/-- `lookup_column` (postbound/parser.py:392-439): the table and the new `_column_cache`. -/
def lookupColumn (x : Cfg) (s : Scope) (up : List Scope) (key : Name) : Option Tab × Scope :=
  if key ∈ s.produced then (none, s)
  else match (if x.caching then s.cache.get? key else none) with
    | some t => (some t, s)
    | none => match s.ctx.find? (provides x s up key) with
      | none => (none, s)
      | some t => (some t, if x.caching then { s with cache := s.cache.set key t } else s)

/-- `register_table` (postbound/parser.py:375-386). -/
def register (s : Scope) (t : Tab) : Scope :=
  let t1 := match t.als with
    | some a => s.tables.set a t
    | none => s.tables
  let t2 := match t.full with
    | some n => t1.set n t
    | none => t1
  { s with cache := [], ctx := s.ctx ++ [t], tables := t2 }

/-- `open_nested` with source "cte" (postbound/parser.py:483-490). -/
def openCte (s : Scope) (n : Name) : Scope := { s with cache := [], ctes := s.ctes.set n [] }

/-- `open_nested` with source "subquery" or "values" (postbound/parser.py:483-495). -/
def openSub (s : Scope) (a : Name) : Scope :=
  { s with cache := [], subs := s.subs.set a [], ctx := s.ctx ++ [virtual a], tables := s.tables.set a (virtual a) }

/-- The columns of one table in a star projection (postbound/parser.py:345-359). -/
def starColumns (x : Cfg) (chain : List Scope) (t : Tab) : Option (List Name) :=
  if t.virt then
    match t.als with
    | none => none
    | some a => match lookupNs chain a with
      | some l => some l
      | none => match t.full with
        | some n => lookupNs chain n
        | none => none
  else some (columnsOf x t)

/-- The columns of several tables in a star projection (postbound/parser.py:345-359). -/
def starAll (x : Cfg) (chain : List Scope) : List Tab → Option (List Name)
  | [] => some []
  | t :: ts => (starColumns x chain t).bind fun l => (starAll x chain ts).map fun r => l ++ r

/-- One projection in `determine_output_shape` (postbound/parser.py:332-373): the names it contributes to the output shape. -/
def projShape (x : Cfg) (s : Scope) (up : List Scope) (e : PExpr Bound Tab) (als : Option Name) : Option (List Name) :=
  match als with
  | some a => some [a]
  | none => match e with
    | .ref (.col c _) => some [c]
    | .ref (.star (some t)) => starAll x (s :: up) [t]
    | .ref (.star none) => starAll x (s :: up) s.ctx
    | _ => some []

/-- The output shape of a SELECT clause (postbound/parser.py:312-373). -/
def targetsShape (x : Cfg) (s : Scope) (up : List Scope) : PTargets Bound Tab → Option (List Name)
  | .nil => some []
  | .cons e als ts => (projShape x s up e als).bind fun l => (targetsShape x s up ts).map fun r => l ++ r

/-- The aliases of a SELECT clause, which become `_produced_columns` (postbound/parser.py:333-337). -/
def aliases {R T : Type} : PTargets R T → List Name
  | .nil => []
  | .cons _ als ts => als.toList ++ aliases ts

/-- `determine_output_shape` for a list of columns, if there are any (postbound/parser.py:320-330, 1231-1232, 1594-1604). -/
def nameColumns (s : Scope) (cols : List Name) : Scope :=
  if cols = [] then s else { s with shape := cols, produced := s.produced ++ cols }

/-! ### The traversal -/

/-- `_pglast_parse_colref` and `_pglast_parse_star` (postbound/parser.py:549-641). -/
def parseRef (x : Cfg) (up : List Scope) (s : Scope) : Raw → Option (Bound × Scope)
  | .col c => some (.col c (lookupColumn x s up c).1, (lookupColumn x s up c).2)
  | .qcol t c => (resolveTable (s :: up) t).map fun tab => (.col c (some tab), s)
  | .star => some (.star none, s)
  | .qstar t => some (.star (resolveTable (s :: up) t), s)

/-- RangeVar entries (postbound/parser.py:1395-1411, 1455-1472): the table that is registered. -/
def rangeTable (chain : List Scope) (v : RangeVar) : Tab :=
  match resolveTable chain v.name, v.als with
  | some t, none => if t.virt then t else ⟨some v.name, none, false⟩
  | some t, some a => ⟨some v.name, some a, t.virt⟩
  | none, als => ⟨some v.name, als, false⟩

/-- A query is a VALUES list (postbound/parser.py:1273, 1414-1428). -/
def isValues {R T : Type} : PQuery R T → Bool
  | .values _ => true
  | _ => false

mutual

/-- `_pglast_parse_expression` (postbound/parser.py:811-1195). -/
def parseExpr (x : Cfg) (up : List Scope) (s : Scope) : PExpr Raw RangeVar → Option (PExpr Bound Tab × Scope)
  | .ref r => (parseRef x up s r).map fun o => (.ref o.1, o.2)
  | .op args => (parseExprs x up s args).map fun o => (.op o.1, o.2)
  | .sub q tests =>
    if isValues q then none
    else (parseQuery x (s :: up) {} q).bind fun o => (parseExprs x up s tests).map fun p => (.sub o.1 p.1, p.2)

/-- Several expressions, one after the other. -/
def parseExprs (x : Cfg) (up : List Scope) (s : Scope) : PExprs Raw RangeVar → Option (PExprs Bound Tab × Scope)
  | .nil => some (.nil, s)
  | .cons e es => (parseExpr x up s e).bind fun o => (parseExprs x up o.2 es).map fun p => (.cons o.1 p.1, p.2)

/-- `_pglast_parse_from_entry` and `_pglast_parse_values` (postbound/parser.py:1431-1605). The column aliases of a subquery are ignored unless it is a VALUES list. -/
def parseFrom (x : Cfg) (up : List Scope) (s : Scope) : PFrom Raw RangeVar → Option (PFrom Bound Tab × Scope)
  | .rel v => some (.rel (rangeTable (s :: up) v), register s (rangeTable (s :: up) v))
  | .join l r quals =>
    (parseFrom x up s l).bind fun a => (parseFrom x up a.2 r).bind fun b => (parseExprs x up b.2 quals).map fun c => (.join a.1 b.1 c.1, c.2)
  | .sub q als cols => match als with
    | none => none
    | some a => (parseQuery x (openSub s a :: up) {} q).map fun o =>
      (.sub o.1 (some a) cols, { openSub s a with subs := (openSub s a).subs.set a (if isValues q then nameColumns o.2 cols else o.2).shape })
  | .func e als => (parseExpr x up s e).map fun o => (.func o.1 als, o.2)

/-- `_pglast_parse_from` (postbound/parser.py:1608-1664). -/
def parseFroms (x : Cfg) (up : List Scope) (s : Scope) : PFroms Raw RangeVar → Option (PFroms Bound Tab × Scope)
  | .nil => some (.nil, s)
  | .cons f fs => (parseFrom x up s f).bind fun o => (parseFroms x up o.2 fs).map fun p => (.cons o.1 p.1, p.2)

/-- The targets in `_pglast_parse_select` (postbound/parser.py:1371-1388). -/
def parseTargets (x : Cfg) (up : List Scope) (s : Scope) : PTargets Raw RangeVar → Option (PTargets Bound Tab × Scope)
  | .nil => some (.nil, s)
  | .cons e als ts => (parseExpr x up s e).bind fun o => (parseTargets x up o.2 ts).map fun p => (.cons o.1 als p.1, p.2)

/-- `_pglast_parse_ctes` (postbound/parser.py:1198-1297). The column aliases of a WITH query are ignored unless it is a VALUES list. -/
def parseCtes (x : Cfg) (up : List Scope) (s : Scope) : PCtes Raw RangeVar → Option (PCtes Bound Tab × Scope)
  | .nil => some (.nil, s)
  | .cons n q cols cs =>
    (parseQuery x (openCte s n :: up) {} q).bind fun o =>
      (parseCtes x up { openCte s n with ctes := (openCte s n).ctes.set n (if isValues q then nameColumns o.2 cols else o.2).shape } cs).map fun p =>
        (.cons n o.1 cols p.1, p.2)

/-- `_pglast_parse_query` and `_pglast_parse_setop` (postbound/parser.py:1899-2099), VALUES lists (postbound/parser.py:1218-1225, 1583-1592). -/
def parseQuery (x : Cfg) (up : List Scope) (s : Scope) : PQuery Raw RangeVar → Option (PQuery Bound Tab × Scope)
  | .select cs fs dist ts rest order =>
    (parseCtes x up s cs).bind fun a => (parseFroms x up a.2 fs).bind fun b => (parseExprs x up b.2 dist).bind fun c => (parseTargets x up c.2 ts).bind fun d =>
      (targetsShape x d.2 up d.1).bind fun sh =>
        let s' := { d.2 with shape := sh, produced := d.2.produced ++ aliases ts }
        (parseExprs x up s' rest).bind fun e => (parseExprs x up e.2 order).map fun f => (.select a.1 b.1 c.1 d.1 e.1 f.1, f.2)
  | .setop cs l r order =>
    if isValues l || isValues r then none
    else (parseCtes x up s cs).bind fun a =>
      let s1 := { a.2 with cache := [], setops := a.2.setops ++ [[]] }
      (parseQuery x (s1 :: up) {} l).bind fun b =>
        let s2 := { a.2 with cache := [], setops := a.2.setops ++ [b.2.shape] ++ [[]] }
        (parseQuery x (s2 :: up) {} r).bind fun c =>
          let s3 := { a.2 with cache := [], setops := a.2.setops ++ [b.2.shape] ++ [c.2.shape] }
          (parseExprs x up s3 order).map fun d => (.setop a.1 b.1 c.1 d.1, { d.2 with shape := d.2.setops.headD [] })
  | .values rows => (parseExprs x up s rows).map fun o => (.values o.1, o.2)

end

/-- The traversal started by `parse_query` (postbound/parser.py:2326-2332). -/
def parse (x : Cfg) (q : PQuery Raw RangeVar) : Option (PQuery Bound Tab) :=
  if isValues q then none else (parseQuery x [] {} q).map Prod.fst

/-! ### The schema cache -/

/-- `SchemaCache` (postbound/parser.py:117-130): the current schema and the columns found so far. -/
structure SchemaState (S : Type) where
  schema : Option S := none
  cache : Dict Name (List Name) := []

/-- `initialize_with` (postbound/parser.py:132-141). `same` is `==` of schemas. -/
def SchemaState.init {S : Type} (same : S → S → Bool) (st : SchemaState S) (new : Option S) : SchemaState S :=
  match st.schema with
  | some s => match new with
    | some n => if same s n then st else { schema := new, cache := [] }
    | none => { schema := none, cache := [] }
  | none => { st with schema := new }

/-- `columns_of` and `_inflate_cache` (postbound/parser.py:169-201). `cols` are the columns in the database. -/
def SchemaState.columns {S : Type} (cols : S → Name → List Name) (st : SchemaState S) (t : Name) : List Name × SchemaState S :=
  match st.schema with
  | none => ([], st)
  | some s => match st.cache.get? t with
    | some l => (l, st)
    | none => (cols s t, { st with cache := st.cache.set t (cols s t) })

end PB.Nsp
