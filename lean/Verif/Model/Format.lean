/-!
# The text of queries

The functions that turn queries into text: `format_quick` (postbound/qal/_formatter.py), which produces the text that is sent to the database systems, and `stringify`
(postbound/qal/_qal.py:9124-9137, 9948-9970), which produces the text of `str(query)`.

Texts are lists of characters. A query is modelled by its clauses. Expressions and predicates are given by their texts, which may contain nested queries and the
line breaks of CASE expressions (`Ex`). Names are given by their texts as well, i.e. after `quote` (postbound/_core.py). The tables of the queries are nested to an arbitrary depth:
`Nested n` are the queries with at most `n` levels of nested queries.

Not modelled: custom formatters, casts (Postgres casts are printed as `x::t` by postbound/qal/_formatter.py:1000-1030), the expressions of DISTINCT ON that contain nested queries,
the replacement of the expressions (postbound/transform.py:1208-1233, see `Verif.Model.QTransform`) and the warnings.
-/

namespace PB.Format

/-- A text. -/
abbrev Text := List Char

/-- A literal text. -/
def lit (s : String) : Text := s.toList

/-- `sep.join(texts)`. -/
def join (sep : Text) : List Text → Text
  | [] => []
  | [t] => t
  | t :: u :: us => t ++ sep ++ join sep (u :: us)

/-- `text.split("\n")`. -/
def lines : Text → List Text
  | [] => [[]]
  | c :: cs =>
    if c = '\n' then [] :: lines cs
    else match lines cs with
      | [] => [[c]]
      | l :: ls => (c :: l) :: ls

/-- `" " * n`. -/
def spaces (n : Nat) : Text := List.replicate n ' '

/-- `text.rstrip("; ")`. -/
def rstripSemi (t : Text) : Text := (t.reverse.dropWhile (fun c => c = ';' || c = ' ')).reverse

/-- `text.rstrip()`: the characters of `string.whitespace`. -/
def rstrip (t : Text) : Text := (t.reverse.dropWhile (fun c => c = ' ' || c = '\n' || c = '\t' || c = '\r')).reverse

/-- What is between two texts in an expression: a nested query (`SubqueryExpression`) or a line break of a CASE expression (postbound/qal/_formatter.py:148-159), which is
followed by the given number of spaces. -/
inductive Gap (Q : Type)
  | sub (q : Q)
  | brk (indent : Nat)

/-- The text of an expression or predicate, up to the nested queries and line breaks. -/
structure Ex (Q : Type) where
  head : Text
  tail : List (Gap Q × Text)

/-- A query of a WITH clause: a query or a list of values (postbound/qal/_qal.py:5344-5602). The rows are not empty; the formatter fails otherwise
(postbound/qal/_formatter.py:191). -/
inductive CteBody (Q : Type)
  | query (q : Q)
  | values (cols : List Text) (row : List Text) (rows : List (List Text))

/-- `WithQuery`/`ValuesWithQuery` (postbound/qal/_qal.py:5344-5602). -/
structure Cte (Q : Type) where
  name : Text
  mat : Option Bool
  body : CteBody Q

/-- `CommonTableExpression` (postbound/qal/_qal.py:5605-5722); there is at least one query. -/
structure With (Q : Type) where
  recursive : Bool
  first : Cte Q
  rest : List (Cte Q)

/-- The kinds of DISTINCT (postbound/qal/_qal.py:5858-6122). DISTINCT ON without expressions is printed as DISTINCT. -/
inductive Distinct
  | no
  | all
  | on (col : Text) (cols : List Text)

/-- `BaseProjection` (postbound/qal/_qal.py:5725-5855). -/
structure Proj (Q : Type) where
  ex : Ex Q
  name : Option Text

/-- `Select` (postbound/qal/_qal.py:5867-6122); there is at least one target. -/
structure Select (Q : Type) where
  distinct : Distinct
  first : Proj Q
  rest : List (Proj Q)

/-- `JoinType` (postbound/qal/_qal.py:6672-6708). -/
inductive JoinType
  | inner | outer | left | right | cross | natInner | natOuter | natLeft | natRight

/-- `TableSource` (postbound/qal/_qal.py:6125-6920): a table, a list of values with an optional name and its columns, a function with an optional name, a
nested query and a join. -/
inductive Source (Q : Type)
  | table (t : Text)
  | values (row : List Text) (rows : List (List Text)) (name : Option (Text × List Text))
  | func (e : Ex Q) (name : Option Text)
  | sub (lateral : Bool) (q : Q) (name : Option Text)
  | join (l r : Source Q) (typ : JoinType) (cond : Option (Ex Q))

/-- The FROM clauses (postbound/qal/_qal.py:6926-7100): `ImplicitFromClause`, `ExplicitFromClause` and `From`. The general clause has at least one source. -/
inductive FromC (Q : Type)
  | implicit (tables : List Text)
  | explicit (root : Source Q)
  | general (first : Source Q) (rest : List (Source Q))

/-- The predicate of the WHERE clause: the children of the conjunction at its root, or a single predicate (postbound/qal/_qal.py:3368-3380, 7103-7180). -/
structure WhereC (Q : Type) where
  first : Ex Q
  rest : List (Ex Q)

/-- `GroupBy` (postbound/qal/_qal.py:7183-7280). -/
structure GroupC (Q : Type) where
  distinct : Bool
  first : Ex Q
  rest : List (Ex Q)

/-- `OrderByExpression` (postbound/qal/_qal.py:7342-7449). -/
structure OrderE (Q : Type) where
  ex : Ex Q
  asc : Option Bool
  nullsFirst : Option Bool

/-- `OrderBy` (postbound/qal/_qal.py:7452-7545). -/
structure OrderC (Q : Type) where
  first : OrderE Q
  rest : List (OrderE Q)

/-- `FetchDirection` (postbound/qal/_qal.py:7548). -/
inductive Fetch
  | first | next | prior | last

/-- `Limit` (postbound/qal/_qal.py:7551-7658). -/
structure LimitC where
  limit : Option Nat
  offset : Option Nat
  fetch : Fetch

/-- `SetOperator` (postbound/qal/_qal.py:9600-9640). -/
inductive SetOp
  | union | unionAll | intersect | exc

/-- `SqlQuery` (postbound/qal/_qal.py:8560-9181) and `SetQuery` (postbound/qal/_qal.py:9660-9990) with nested queries in `Q`. -/
inductive Query (Q : Type)
  | sel (hint explain : Option Text) (cte : Option (With Q)) (select : Select Q) (src : Option (FromC Q)) (whr : Option (WhereC Q))
      (group : Option (GroupC Q)) (having : Option (Ex Q)) (order : Option (OrderC Q)) (limit : Option LimitC)
  | set (hint explain : Option Text) (cte : Option (With Q)) (l r : Q) (op : SetOp) (order : Option (OrderC Q)) (limit : Option LimitC)

/-- The queries with at most `n` levels of nested queries. -/
def Nested : Nat → Type
  | 0 => Empty
  | n + 1 => Query (Nested n)

/-- `SqlDialect` (postbound/qal/_formatter.py:62). -/
inductive Flavor
  | vanilla | postgres
  deriving DecidableEq

/-- Numbers (`str`). -/
def num (n : Nat) : Text := (Nat.repr n).toList

/-- The text of a join type (postbound/qal/_qal.py:6679-6694). -/
def JoinType.text : JoinType → Text
  | .inner => lit "JOIN"
  | .outer => lit "FULL OUTER JOIN"
  | .left => lit "LEFT OUTER JOIN"
  | .right => lit "RIGHT OUTER JOIN"
  | .cross => lit "CROSS JOIN"
  | .natInner => lit "NATURAL JOIN"
  | .natOuter => lit "NATURAL OUTER JOIN"
  | .natLeft => lit "NATURAL LEFT JOIN"
  | .natRight => lit "NATURAL RIGHT JOIN"

/-- `AutoJoins` (postbound/qal/_qal.py:6697-6703). -/
def JoinType.auto : JoinType → Bool
  | .cross | .natInner | .natOuter | .natLeft | .natRight => true
  | _ => false

/-- The text of a set operation (postbound/qal/_qal.py:9600-9640). -/
def SetOp.text : SetOp → Text
  | .union => lit "UNION"
  | .unionAll => lit "UNION ALL"
  | .intersect => lit "INTERSECT"
  | .exc => lit "EXCEPT"

/-- `fetch_direction.upper()`. -/
def Fetch.text : Fetch → Text
  | .first => lit "FIRST"
  | .next => lit "NEXT"
  | .prior => lit "PRIOR"
  | .last => lit "LAST"

/-- The text of an expression, given the text of nested queries and of line breaks. -/
def exText (sub : Q → Text) (brk : Nat → Text) (e : Ex Q) : Text :=
  e.head ++ (e.tail.map (fun p => (match p.1 with | .sub q => sub q | .brk k => brk k) ++ p.2)).flatten

/-- `MATERIALIZED ` (postbound/qal/_formatter.py:194-200, 216-232; postbound/qal/_qal.py:5462-5465). -/
def matText : Option Bool → Text
  | none => []
  | some true => lit "MATERIALIZED "
  | some false => lit "NOT MATERIALIZED "

/-- A row of values (postbound/qal/_qal.py:5589-5591, 6570-6572; postbound/qal/_formatter.py:188-190). -/
def rowText (row : List Text) : Text := lit "(" ++ join (lit ", ") row ++ lit ")"

/-- `BaseProjection.__str__` (postbound/qal/_qal.py:5852-5855). -/
def projText (ex : Ex Q → Text) (p : Proj Q) : Text :=
  match p.name with
  | none => ex p.ex
  | some n => ex p.ex ++ lit " AS " ++ n

/-- `ValuesTableSource.__str__` (postbound/qal/_qal.py:6568-6581). -/
def valuesText (rows : List (List Text)) (name : Option (Text × List Text)) : Text :=
  lit "(VALUES " ++ join (lit ", ") (rows.map rowText) ++ lit ")"
    ++ (match name with
        | none => []
        | some (n, cols) => lit " AS " ++ n ++ (if cols = [] then [] else lit " (" ++ join (lit ", ") cols ++ lit ")"))

/-- The name of a nested query (postbound/qal/_qal.py:6428; postbound/qal/_formatter.py:369-370). -/
def nameText : Option Text → Text
  | none => []
  | some n => lit " AS " ++ n

/-- `FunctionTableSource.__str__` (postbound/qal/_qal.py:6666-6669). -/
def funcText (ex : Ex Q → Text) (e : Ex Q) (name : Option Text) : Text :=
  match name with
  | none => ex e
  | some n => ex e ++ lit " AS " ++ n

/-- The direction of an ordering (postbound/qal/_qal.py:7441-7443). -/
def ascText : Option Bool → Text
  | none => []
  | some true => lit " ASC"
  | some false => lit " DESC"

/-- The position of null values in an ordering (postbound/qal/_qal.py:7444-7448). -/
def nullsText : Option Bool → Text
  | none => []
  | some true => lit " NULLS FIRST "
  | some false => lit " NULLS LAST"

/-- `OrderByExpression.__str__` (postbound/qal/_qal.py:7440-7449). -/
def orderText (ex : Ex Q → Text) (o : OrderE Q) : Text := ex o.ex ++ ascText o.asc ++ nullsText o.nullsFirst

/-- `OrderBy.__str__` (postbound/qal/_qal.py:7542-7545). -/
def orderByText (ex : Ex Q → Text) (o : OrderC Q) : Text :=
  lit "ORDER BY " ++ join (lit ", ") ((o.first :: o.rest).map (orderText ex))

/-- `Having.__str__` (postbound/qal/_qal.py:7338-7339). -/
def havingText (ex : Ex Q → Text) (e : Ex Q) : Text := lit "HAVING " ++ ex e

/-- The text of an offset in `Limit.__str__` (postbound/qal/_qal.py:7645). -/
def offsetText : Option Nat → Text
  | some n => lit "OFFSET " ++ num n ++ lit " ROWS"
  | none => []

/-- The text of a limit in `Limit.__str__` (postbound/qal/_qal.py:7646-7651). -/
def fetchText (f : Fetch) : Option Nat → Text
  | some n => lit "FETCH " ++ f.text ++ lit " " ++ num n ++ lit " ROWS ONLY"
  | none => []

/-- `Limit.__str__` (postbound/qal/_qal.py:7644-7658). -/
def limitText (l : LimitC) : Text :=
  if offsetText l.offset ≠ [] ∧ fetchText l.fetch l.limit ≠ [] then offsetText l.offset ++ lit " " ++ fetchText l.fetch l.limit
  else if offsetText l.offset ≠ [] then offsetText l.offset
  else if fetchText l.fetch l.limit ≠ [] then fetchText l.fetch l.limit
  else []

/-! ## `format_quick` -/

/-- `_increase_indentation` (postbound/qal/_formatter.py:66-85) with the default indentation. -/
def increase (t : Text) : Text := spaces 2 ++ join (lit "\n" ++ spaces 2) (lines t)

/-- `FormattingSubqueryExpression.__str__` (postbound/qal/_formatter.py:121-140), given the text of the query. The indentation is 2 for all expressions of a query and larger within CASE
expressions; it is 2 here. -/
def subText (t : Text) : Text :=
  if '\n' ∈ (lit "(" ++ t ++ lit ")") then
    match lines (lit "(" ++ t ++ lit ")") with
    | [] => []
    | l :: ls => join (lit "\n") ((lit "\n" ++ spaces 4 ++ l) :: ls.map (fun l => spaces 4 ++ l))
  else spaces 4 ++ (lit "(" ++ t ++ lit ")")

/-- A line break of a CASE expression (postbound/qal/_formatter.py:148-159). -/
def brkText (k : Nat) : Text := lit "\n" ++ spaces k

/-- The text of an expression after `_expression_prettifier` (postbound/qal/_formatter.py:625-924). -/
def fmtEx (rec : Q → Text) (e : Ex Q) : Text := exText (fun q => subText (rec q)) brkText e

/-- All entries but the last get a comma (postbound/qal/_formatter.py:290-291, 328-329, 562-563). -/
def commas : List Text → List Text
  | [] => []
  | [t] => [t]
  | t :: u :: us => (t ++ lit ",") :: commas (u :: us)

/-- The text of a query of a WITH clause with several queries. For values, `ValuesWithQuery` creates the query `SELECT * FROM (VALUES ...) AS name`
(postbound/qal/_qal.py:5513-5520), which is formatted by postbound/qal/_formatter.py:455-481. -/
def cteContent (rec : Q → Text) (c : Cte Q) : Text :=
  match c.body with
  | .query q => rec q
  | .values cols row rows => join (lit "\n") [lit "SELECT *", lit "FROM", spaces 2 ++ valuesText (row :: rows) (some (c.name, cols))]

/-- `_quick_format_cte` (postbound/qal/_formatter.py:162-243). -/
def fmtCte (rec : Q → Text) (w : With Q) : List Text :=
  let recInfo := if w.recursive then lit "RECURSIVE " else []
  match w.rest with
  | [] =>
    match w.first.body with
    | .values cols row rows =>
      [lit "WITH " ++ w.first.name ++ (if cols = [] then [] else lit "(" ++ join (lit ", ") cols ++ lit ")") ++ lit " AS (",
       increase (join (lit ",\n") ((lit "VALUES " ++ rowText row) :: rows.map rowText)),
       lit ")"]
    | .query q =>
      [lit "WITH " ++ recInfo ++ w.first.name ++ lit " AS " ++ matText w.first.mat ++ lit "(", increase (rec q), lit ")"]
  | _ =>
    [lit "WITH " ++ recInfo ++ lit " " ++ w.first.name ++ lit " AS " ++ matText w.first.mat ++ lit "(", increase (cteContent rec w.first)]
      ++ (w.rest.map (fun c => [lit "), " ++ c.name ++ lit " AS " ++ matText c.mat ++ lit "(", increase (cteContent rec c)])).flatten
      ++ [lit ")"]

/-- The start of a SELECT clause (postbound/qal/_formatter.py:273-280; postbound/qal/_qal.py:6112-6120). -/
def selectPrefix : Distinct → Text
  | .no => lit "SELECT"
  | .all => lit "SELECT DISTINCT"
  | .on c cs => lit "SELECT DISTINCT ON (" ++ join (lit ", ") (c :: cs) ++ lit ")"

/-- Whether there are expressions of DISTINCT ON (postbound/qal/_formatter.py:274, 279). -/
def Distinct.isOn : Distinct → Bool
  | .on _ _ => true
  | _ => false

/-- The text of an inlined hint block (postbound/qal/_formatter.py:272). -/
def hintText : Option Text → Text
  | none => []
  | some h => h ++ lit " "

/-- `_quick_format_select` (postbound/qal/_formatter.py:246-297). -/
def fmtSelect (ex : Ex Q → Text) (hint : Option Text) (s : Select Q) : List Text :=
  if 3 ≤ s.rest.length + 1 ∨ s.distinct.isOn = true then
    let first := if s.distinct.isOn then hintText hint ++ spaces 2 ++ projText ex s.first
      else selectPrefix s.distinct ++ lit " " ++ hintText hint ++ projText ex s.first
    let targets := commas (first :: s.rest.map (fun p => spaces 2 ++ projText ex p))
    if s.distinct.isOn then selectPrefix s.distinct :: targets else targets
  else [selectPrefix s.distinct ++ lit " " ++ hintText hint ++ join (lit ", ") ((s.first :: s.rest).map (projText ex))]

/-- `_quick_format_implicit_from` (postbound/qal/_formatter.py:300-333). -/
def fmtImplicit : List Text → List Text
  | [] => []
  | t :: ts =>
    if 3 < ts.length + 1 then commas ((lit "FROM " ++ t) :: ts.map (fun u => spaces 2 ++ u))
    else [lit "FROM " ++ join (lit ", ") (t :: ts)]

/-- `elems[-1] += suffix`. -/
def appendLast (suffix : Text) : List Text → List Text
  | [] => []
  | [t] => [t ++ suffix]
  | t :: u :: us => t :: appendLast suffix (u :: us)

/-- `elems[0] = prefix + elems[0]`. -/
def prependFirst (pre : Text) : List Text → List Text
  | [] => []
  | t :: ts => (pre ++ t) :: ts

/-- The text of a join condition (postbound/qal/_formatter.py:382-383, 391-395, 414-415, 422-423). -/
def condText (ex : Ex Q → Text) : Option (Ex Q) → Text
  | none => []
  | some c => lit " ON " ++ ex c

/-- The case of a join in `_quick_format_tablesource` (postbound/qal/_formatter.py:373-425), given the lines of both sides. -/
def fmtJoin (l r : Source Q) (typ : JoinType) (cond : Text) (ls rs : List Text) : List Text :=
  match l, r with
  | .table t, .table u => [t, spaces 2 ++ typ.text ++ lit " " ++ u ++ cond]
  | .join .., .table u => ls ++ [spaces 2 ++ typ.text ++ lit " " ++ u ++ cond]
  | .table t, .join .. =>
    [t] ++ (match rs with
      | [] => []
      | c :: cs => (typ.text ++ lit " (" ++ c) :: cs.map (fun x => spaces 2 ++ x)) ++ [lit ")" ++ cond]
  | _, _ => (appendLast cond (ls ++ [typ.text] ++ rs)).map (fun x => spaces 2 ++ x)

/-- `_quick_format_tablesource` (postbound/qal/_formatter.py:336-428). -/
def fmtSource (rec : Q → Text) (ex : Ex Q → Text) : Source Q → List Text
  | .table t => [t]
  | .values row rows name => [valuesText (row :: rows) name]
  | .func e name => [funcText ex e name]
  | .sub lateral q name =>
    (if lateral then lit "LATERAL (" else lit "(") :: (lines (rec q)).map (fun x => spaces 2 ++ x)
      ++ [lit ")" ++ nameText name]
  | .join l r typ cond => fmtJoin l r typ (condText ex cond) (fmtSource rec ex l) (fmtSource rec ex r)

/-- `_quick_format_general_from` (postbound/qal/_formatter.py:455-481): all lines are indented and every source but the last is followed by a comma. The code appends a comma to
every source and removes the last one. -/
def fmtGeneral (rec : Q → Text) (ex : Ex Q → Text) : List (Source Q) → List Text
  | [] => []
  | [s] => (fmtSource rec ex s).map (fun x => spaces 2 ++ x)
  | s :: u :: us => appendLast (lit ",") ((fmtSource rec ex s).map (fun x => spaces 2 ++ x)) ++ fmtGeneral rec ex (u :: us)

/-- The FROM clauses (postbound/qal/_formatter.py:300-333, 431-481, 1113-1124). -/
def fmtFrom (rec : Q → Text) (ex : Ex Q → Text) : FromC Q → List Text
  | .implicit ts => fmtImplicit ts
  | .explicit root => prependFirst (lit "FROM ") (fmtSource rec ex root)
  | .general s ss => lit "FROM" :: fmtGeneral rec ex (s :: ss)

/-- `_quick_format_where` (postbound/qal/_formatter.py:484-537). -/
def fmtWhere (ex : Ex Q → Text) (w : WhereC Q) : List Text :=
  (lit "WHERE " ++ ex w.first) :: w.rest.map (fun e => spaces 2 ++ (lit "AND " ++ ex e))

/-- `_quick_format_groupby` (postbound/qal/_formatter.py:540-567). -/
def fmtGroup (ex : Ex Q → Text) (g : GroupC Q) : List Text :=
  let distinct := if g.distinct then lit "DISTINCT " else []
  if 3 < g.rest.length + 1 then commas ((lit "GROUP BY " ++ distinct ++ ex g.first) :: g.rest.map (fun e => spaces 2 ++ ex e))
  else [lit "GROUP BY " ++ distinct ++ join (lit ", ") ((g.first :: g.rest).map ex)]

/-- The lines of an optional part. -/
def part (f : α → List Text) : Option α → List Text
  | none => []
  | some a => f a

/-- The value of a limit or offset, if it is neither `None` nor zero (postbound/qal/_formatter.py:591-610). -/
def given : Option Nat → Option Nat
  | some 0 => none
  | o => o

/-- `_quick_format_limit` (postbound/qal/_formatter.py:570-622). -/
def fmtLimit (fl : Flavor) (l : LimitC) : List Text :=
  match fl with
  | .vanilla =>
    part (fun n => [lit "FETCH " ++ l.fetch.text ++ lit " " ++ num n ++ lit " ROWS ONLY"]) (given l.limit)
      ++ part (fun n => [lit "OFFSET " ++ num n ++ lit " ROWS"]) (given l.offset)
  | .postgres =>
    match l.fetch with
    | .prior | .last => [limitText l]
    | _ => part (fun n => [lit "LIMIT " ++ num n]) (given l.limit) ++ part (fun n => [lit "OFFSET " ++ num n]) (given l.offset)

/-- `format_quick` (postbound/qal/_formatter.py:1033-1138) and `_quick_format_set_query` (postbound/qal/_formatter.py:927-997). `rec inline q` is the text of a nested query without semicolon;
hints are inlined in expressions and set operations, but not in the WITH and FROM clauses. -/
def format (fl : Flavor) (rec : Bool → Q → Text) (inline semicolon : Bool) : Query Q → Text
  | .sel hint explain cte select src whr group having order limit =>
    let ex := fmtEx (rec inline)
    let parts :=
      (if inline then [] else part (fun h => [h]) hint)
        ++ part (fun e => [e]) explain
        ++ part (fmtCte (rec false)) cte
        ++ fmtSelect ex (if inline then hint else none) select
        ++ part (fmtFrom (rec false) ex) src
        ++ part (fmtWhere ex) whr
        ++ part (fmtGroup ex) group
        ++ part (fun h => [havingText ex h]) having
        ++ part (fun o => [orderByText ex o]) order
        ++ part (fmtLimit fl) limit
    join (lit "\n") (if semicolon then appendLast (lit ";") parts else parts)
  | .set hint explain cte l r op order limit =>
    let parts :=
      part (fun h => [h]) hint
        ++ part (fun e => [e]) explain
        ++ part (fmtCte (rec false)) cte
        ++ [lit "(" ++ rstripSemi (rec inline l) ++ lit ")", spaces 2 ++ op.text, lit "(" ++ rstripSemi (rec inline r) ++ lit ")"]
        ++ part (fun o => [orderByText (fmtEx (rec inline)) o]) order
        ++ part (fun l => [limitText l]) limit
    join (lit "\n") (if semicolon then appendLast (lit ";") parts else parts)

/-- `format_quick` for nested queries. -/
def formatQuick (fl : Flavor) : (n : Nat) → (inline semicolon : Bool) → Nested n → Text
  | 0, _, _, q => nomatch q
  | n + 1, inline, semicolon, q => format fl (fun i => formatQuick fl n i false) inline semicolon q

/-! ## `stringify` -/

/-- `SubqueryExpression.__str__` (postbound/qal/_qal.py:1303-1305). -/
def strSub (t : Text) : Text := lit "(" ++ t ++ lit ")"

/-- The text of an expression: the cases of a CASE expression are separated by spaces (postbound/qal/_qal.py:1576-1586). -/
def strEx (rec : Q → Text) (e : Ex Q) : Text := exText (fun q => strSub (rec q)) (fun _ => lit " ") e

/-- `WithQuery.__str__` and `ValuesWithQuery.__str__` (postbound/qal/_qal.py:5460-5466, 5587-5602). -/
def strWith (rec : Q → Text) (c : Cte Q) : Text :=
  match c.body with
  | .query q => c.name ++ lit " AS " ++ matText c.mat ++ lit "(" ++ rec q ++ lit ")"
  | .values cols row rows =>
    c.name ++ (if cols = [] then [] else lit "(" ++ join (lit ", ") cols ++ lit ")") ++ lit " AS " ++ matText c.mat
      ++ lit "(VALUES " ++ join (lit ", ") ((row :: rows).map rowText) ++ lit ")"

/-- `CommonTableExpression.__str__` (postbound/qal/_qal.py:5719-5722). -/
def strCte (rec : Q → Text) (w : With Q) : Text :=
  lit "WITH" ++ (if w.recursive then lit " RECURSIVE" else []) ++ lit " " ++ join (lit ", ") ((w.first :: w.rest).map (strWith rec))

/-- `Select.__str__` (postbound/qal/_qal.py:6111-6122). -/
def strSelect (ex : Ex Q → Text) (s : Select Q) : Text :=
  selectPrefix s.distinct ++ lit " " ++ join (lit ", ") ((s.first :: s.rest).map (projText ex))

/-- `TableSource.__str__` (postbound/qal/_qal.py:6266-6267, 6425-6429, 6568-6581, 6666-6669, 6917-6920). -/
def strSource (rec : Q → Text) (ex : Ex Q → Text) : Source Q → Text
  | .table t => t
  | .values row rows name => valuesText (row :: rows) name
  | .func e name => funcText ex e name
  | .sub lateral q name =>
    (if lateral then lit "LATERAL " else []) ++ lit "(" ++ rec q ++ lit ")" ++ nameText name
  | .join l r typ cond =>
    strSource rec ex l ++ lit " " ++ typ.text ++ lit " " ++ strSource rec ex r
      ++ (if typ.auto then [] else match cond with | some c => lit " ON " ++ ex c | none => lit " ON None")

/-- `From.__str__` (postbound/qal/_qal.py:7014-7016). -/
def strFrom (rec : Q → Text) (ex : Ex Q → Text) : FromC Q → Text
  | .implicit ts => lit "FROM " ++ join (lit ", ") ts
  | .explicit root => lit "FROM " ++ strSource rec ex root
  | .general s ss => lit "FROM " ++ join (lit ", ") ((s :: ss).map (strSource rec ex))

/-- `Where.__str__` (postbound/qal/_qal.py:7179-7180, 3377-3378). -/
def strWhere (ex : Ex Q → Text) (w : WhereC Q) : Text := lit "WHERE " ++ join (lit " AND ") ((w.first :: w.rest).map ex)

/-- `GroupBy.__str__` (postbound/qal/_qal.py:7277-7280). -/
def strGroup (ex : Ex Q → Text) (g : GroupC Q) : Text :=
  lit "GROUP BY" ++ (if g.distinct then lit " DISTINCT" else []) ++ lit " " ++ join (lit ", ") ((g.first :: g.rest).map ex)

/-- `UnionClause.__str__`, `ExceptClause.__str__`, `IntersectClause.__str__` (postbound/qal/_qal.py:7782-7786, 7861-7864, 7956-7959). -/
def strSet (rec : Bool → Q → Text) (l r : Q) (op : SetOp) : Text := rec false l ++ lit " " ++ op.text ++ lit " " ++ rec true r

/-- `SqlQuery.stringify` (postbound/qal/_qal.py:9124-9137, 8038-8056) and `SetQuery.stringify` (postbound/qal/_qal.py:9948-9970): `rec semicolon q` is the text of a nested query. -/
def stringifyQ (rec : Bool → Q → Text) (semicolon : Bool) : Query Q → Text
  | .sel hint explain cte select src whr group having order limit =>
    let ex := strEx (rec false)
    rstrip ((part (fun h => [h ++ lit "\n"]) hint
        ++ part (fun e => [e ++ lit " "]) explain
        ++ part (fun w => [strCte (rec false) w ++ lit " "]) cte
        ++ [strSelect ex select ++ lit " "]
        ++ part (fun f => [strFrom (rec false) ex f ++ lit " "]) src
        ++ part (fun w => [strWhere ex w ++ lit " "]) whr
        ++ part (fun g => [strGroup ex g ++ lit " "]) group
        ++ part (fun h => [havingText ex h ++ lit " "]) having
        ++ part (fun o => [orderByText ex o ++ lit " "]) order
        ++ part (fun l => [limitText l ++ lit " "]) limit).flatten)
      ++ (if semicolon then lit ";" else [])
  | .set hint explain cte l r op order limit =>
    rstrip (((part (fun h => [h ++ lit "\n"]) hint
        ++ part (fun e => [e ++ lit " "]) explain
        ++ part (fun w => [strCte (rec false) w ++ lit " "]) cte
        ++ [strSet rec l r op ++ lit " "]
        ++ part (fun o => [orderByText (strEx (rec false)) o ++ lit " "]) order
        ++ part (fun l => [limitText l ++ lit " "]) limit).map rstripSemi).flatten)
      ++ (if semicolon then lit ";" else [])

/-- `stringify` for nested queries. -/
def stringify : (n : Nat) → (semicolon : Bool) → Nested n → Text
  | 0, _, q => nomatch q
  | n + 1, semicolon, q => stringifyQ (fun s => stringify n s) semicolon q

end PB.Format
