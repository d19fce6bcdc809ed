/-
Model of the translation of SELECT statements of PostgreSQL's syntax trees (postbound/parser.py:1198-1838, 1841-2099): clauses, FROM entries, WITH queries, set operations, LIMIT.
Expressions are abstract: `pe` translates expressions and `pp` conditions (they are modelled in Model/ParseExpr), names are not resolved (Model/Namespace).
-/
import Verif.Model.Dict

namespace PB.PStmt

/-- The kinds of JoinExpr nodes: JOIN_INNER, JOIN_LEFT, JOIN_RIGHT, JOIN_FULL. -/
inductive JKind
  | inner | left | right | full
deriving DecidableEq, Repr

/-- SETOP_UNION, SETOP_INTERSECT, SETOP_EXCEPT. -/
inductive SetKind
  | union | intersect | except
deriving DecidableEq, Repr

/-- LIMIT_OPTION_DEFAULT, LIMIT_OPTION_COUNT and LIMIT_OPTION_WITH_TIES. -/
inductive LimitOption
  | default | count | withTies
deriving DecidableEq, Repr

/-- Numbers of rows in the syntax tree: integer constants, the null constant of LIMIT ALL, other expressions. -/
inductive RLimit
  | const (n : Int)
  | all
  | other
deriving DecidableEq, Repr

/-- SORTBY_DEFAULT, SORTBY_ASC, SORTBY_DESC and SORTBY_USING. -/
inductive SortDir
  | default | asc | desc | usingOp
deriving DecidableEq, Repr

/-- SORTBY_NULLS_DEFAULT, SORTBY_NULLS_FIRST and SORTBY_NULLS_LAST. -/
inductive SortNulls
  | default | first | last
deriving DecidableEq, Repr

/-- CTEMaterializeDefault, CTEMaterializeAlways and CTEMaterializeNever. -/
inductive Mat
  | default | always | never
deriving DecidableEq, Repr

/-- SortBy nodes. -/
structure RSort (E : Type) where
  key : E
  dir : SortDir
  nulls : SortNulls

/-- The limitOption, limitCount and limitOffset of a statement. -/
structure RLimits where
  option : LimitOption
  count : Option RLimit
  offset : Option RLimit

mutual

/-- FROM entries. `cols` are column aliases, `only` is `ONLY t`. RangeFunction nodes have a list of functions for `ROWS FROM (…)`. -/
inductive RFrom (E : Type)
  | table (schema name : String) (aliasName : Option String) (cols : List String) (only : Bool)
  | join (kind : JKind) (l r : RFrom E) (quals : Option E) (usingCols : List String) (isNatural : Bool) (aliasName : Option String)
  | sub (lateral : Bool) (q : RSel E) (aliasName : Option String) (cols : List String)
  | func (fns : List E) (ordinality : Bool) (aliasName : Option String) (cols : List String)
  | other

inductive RFroms (E : Type)
  | nil
  | cons (f : RFrom E) (fs : RFroms E)

/-- WITH queries. -/
inductive RCtes (E : Type)
  | nil
  | cons (name : String) (cols : List String) (mat : Mat) (q : RSel E) (rest : RCtes E)

/-- SelectStmt nodes. `distinct` is `some []` for DISTINCT and the list of expressions for DISTINCT ON. `groupingSets` says whether the GROUP BY clause has a grouping set. For VALUES, `tail`
says whether there is an ORDER BY, LIMIT or OFFSET. `locked` is FOR UPDATE etc. -/
inductive RSel (E : Type)
  | plain (ctes : RCtes E) (isRec : Bool) (distinct : Option (List E)) (targets : List (E × Option String)) (sources : RFroms E) (wher : Option E) (group : List E) (groupingSets : Bool)
      (having : Option E) (order : List (RSort E)) (limits : RLimits) (locked : Bool)
  | setop (ctes : RCtes E) (isRec : Bool) (kind : SetKind) (all : Bool) (l r : RSel E) (order : List (RSort E)) (limits : RLimits)
  | values (rows : List (List E)) (tail : Bool)

end

/-- `JoinType` (postbound/qal/_qal.py:6672-6688) without the natural joins, which the parser does not create. -/
inductive PJoin
  | inner | outer | left | right | cross
deriving DecidableEq, Repr

/-- `SetOperator` (postbound/qal/_qal.py). -/
inductive PSetOp
  | union | unionAll | intersect | except
deriving DecidableEq, Repr

/-- `ImplicitFromClause`, `ExplicitFromClause` and `From` (postbound/qal/_qal.py:6926-7122). -/
inductive FromKind
  | implicit | explicit | mixed
deriving DecidableEq, Repr

/-- `Limit` (postbound/qal/_qal.py:7552-7589). -/
structure PLimit where
  limit : Option Int
  offset : Option Int
  direction : String
deriving DecidableEq, Repr

/-- `OrderByExpression` (postbound/qal/_qal.py:7342-7384). -/
structure PSort (X : Type) where
  key : X
  ascending : Option Bool
  nullsFirst : Option Bool

mutual

/-- The table sources (postbound/qal/_qal.py:6210-6753). Missing aliases of subqueries, values and functions are empty strings. -/
inductive PFrom (X : Type)
  | table (schema name : String) (aliasName : Option String)
  | join (kind : PJoin) (l r : PFrom X) (cond : Option X)
  | sub (lateral : Bool) (q : PSel X) (aliasName : String)
  | values (rows : List (List X)) (aliasName : String) (cols : List String)
  | func (f : X) (aliasName : String)

/-- `WithQuery` and `ValuesWithQuery` (postbound/qal/_qal.py:5304-5510). -/
inductive PCte (X : Type)
  | query (name : String) (q : PSel X) (mat : Option Bool)
  | values (name : String) (rows : List (List X)) (cols : List String) (mat : Option Bool)

/-- `SqlQuery` and `SetQuery` (postbound/qal/_qal.py:8390-9470). `kind` is the class of the FROM clause. -/
inductive PSel (X : Type)
  | plain (ctes : List (PCte X)) (isRec : Bool) (distinct : Option (List X)) (targets : List (X × String)) (kind : Option FromKind) (sources : List (PFrom X)) (wher : Option X) (group : List X)
      (having : Option X) (order : List (PSort X)) (limit : Option PLimit)
  | setop (ctes : List (PCte X)) (isRec : Bool) (op : PSetOp) (l r : PSel X) (order : List (PSort X)) (limit : Option PLimit)

end

variable {E X : Type}

/-- The translation of expressions: expressions, conditions, the test for `*`, and the expression that `Select.star` creates. -/
structure Exprs (E X : Type) where
  pe : E → Option X
  pp : E → Option X
  isStar : E → Bool
  starExpr : X

/-- The number of rows of `_pglast_parse_limit` (postbound/parser.py:1869-1874): the value 0 is not stored in the tree (`"ival": {}`) and becomes None, and LIMIT ALL and expressions raise a
KeyError. -/
def parseCount : Option RLimit → Option (Option Int)
  | none => some none
  | some (.const n) => some (if n = 0 then none else some n)
  | some _ => none

/-- The offset of `_pglast_parse_limit` (postbound/parser.py:1875-1878). -/
def parseOffset : Option RLimit → Option (Option Int)
  | none => some none
  | some (.const n) => some (some n)
  | some _ => none

/-- The direction in `_pglast_parse_limit` (postbound/parser.py:1880-1894). `has s` says whether `s` occurs in the lower-case text of the whole query. -/
def fetchDirection (has : String → Bool) (counted : Bool) : Option String :=
  if counted && !(has "limit" || has "fetch first") then
    if has "fetch next" then some "next"
    else if has "fetch prior" then some "prior"
    else if has "fetch last" then some "last"
    else none
  else some "first"

/-- `_pglast_parse_limit` (postbound/parser.py:1841-1896) with `Limit.__init__` (postbound/qal/_qal.py:7582-7583). `some none` is the result None. -/
def parseLimit (has : String → Bool) (l : RLimits) : Option (Option PLimit) :=
  if l.count.isNone && l.offset.isNone then some none
  else (parseCount l.count).bind fun n => (parseOffset l.offset).bind fun o => (fetchDirection has l.count.isSome).bind fun d =>
    if n.isNone && o.isNone then none else some (some ⟨n, o, d⟩)

/-- The sort direction in `_pglast_parse_orderby` (postbound/parser.py:1811-1819). -/
def parseDir : SortDir → Option (Option Bool)
  | .asc => some (some true)
  | .desc => some (some false)
  | .default => some none
  | .usingOp => none

/-- The placement of nulls in `_pglast_parse_orderby` (postbound/parser.py:1821-1831). -/
def parseNulls : SortNulls → Option Bool
  | .first => some true
  | .last => some false
  | .default => none

/-- `_pglast_parse_orderby` (postbound/parser.py:1803-1838). -/
def parseSort (x : Exprs E X) (s : RSort E) : Option (PSort X) := (x.pe s.key).bind fun k => (parseDir s.dir).map fun d => ⟨k, d, parseNulls s.nulls⟩

/-- The options of WITH queries in `_pglast_parse_ctes` (postbound/parser.py:1263-1269). -/
def parseMat : Mat → Option Bool
  | .default => none
  | .always => some true
  | .never => some false

/-- The join types in `_pglast_parse_from_entry` (postbound/parser.py:1476-1490). -/
def parseJoin (k : JKind) (quals : Bool) : PJoin := match k with
  | .inner => if quals then .inner else .cross
  | .left => .left
  | .right => .right
  | .full => .outer

/-- The rest of a JoinExpr in `_pglast_parse_from_entry` (postbound/parser.py:1498-1508): without condition only cross joins are created, other joins raise a KeyError. -/
def mkJoin (x : Exprs E X) (k : JKind) (l r : PFrom X) (quals : Option E) : Option (PFrom X) := match parseJoin k quals.isSome, quals with
  | .cross, _ => some (.join .cross l r none)
  | j, some q => (x.pp q).map fun c => .join j l r (some c)
  | _, none => none

/-- The rows of VALUES lists (postbound/parser.py:1218-1225, 1585-1592). -/
def parseRows (x : Exprs E X) (rows : List (List E)) : Option (List (List X)) := rows.mapM fun row => row.mapM x.pe

/-- `_pglast_parse_values` (postbound/parser.py:1580-1605). -/
def mkValues (rows : List (List X)) (aliasName : Option String) (cols : List String) : PFrom X := match aliasName with
  | none => .values rows "" []
  | some a => .values rows a cols

/-- Whether a table source is a plain table or a join. -/
def isTable : PFrom X → Bool
  | .table _ _ _ => true
  | _ => false

def isJoin : PFrom X → Bool
  | .join _ _ _ _ => true
  | _ => false

/-- The loop of `_pglast_parse_from` (postbound/parser.py:1628-1657): whether there are plain tables, joins, and mixtures. -/
def flags : List (PFrom X) → Bool × Bool × Bool → Bool × Bool × Bool
  | [], f => f
  | s :: l, (plain, join, mixed) =>
    if isTable s then flags l (true, join, mixed || join)
    else if isJoin s then flags l (plain, true, mixed || plain)
    else flags l (plain, join, true)

/-- The class of the FROM clause in `_pglast_parse_from` (postbound/parser.py:1659-1664) with `ExplicitFromClause.__init__` (postbound/qal/_qal.py:7083-7086). -/
def fromKind (l : List (PFrom X)) : Option FromKind := match flags l (false, false, false) with
  | (_, false, false) => some .implicit
  | (_, true, false) => if l.length = 1 then some .explicit else none
  | _ => some .mixed

/-- `_pglast_parse_select` (postbound/parser.py:1354-1392) for the targets. An empty list is missing in the tree (KeyError). -/
def parseTargets (x : Exprs E X) : List (E × Option String) → Option (List (X × String))
  | [] => none
  | [(e, a)] => if x.isStar e then some [(x.starExpr, "")] else (x.pe e).map fun v => [(v, a.getD "")]
  | l => l.mapM fun t => (x.pe t.1).map fun v => (v, t.2.getD "")

/-- The DISTINCT of `_pglast_parse_select` (postbound/parser.py:1354-1365). -/
def parseDistinct (x : Exprs E X) : Option (List E) → Option (Option (List X))
  | none => some none
  | some l => (l.mapM x.pe).map some

/-- Optional conditions (postbound/parser.py:1698-1721, 1757-1780, 2067-2083). -/
def parseCond (x : Exprs E X) : Option E → Option (Option X)
  | none => some none
  | some e => (x.pp e).map some

/-- `_pglast_parse_groupby` (postbound/parser.py:1744-1754). -/
def parseGroup (x : Exprs E X) (groupingSets : Bool) (l : List E) : Option (List X) := if groupingSets then none else l.mapM x.pe

/-- The LIMIT of `_pglast_parse_query` (postbound/parser.py:2091-2097). -/
def plainLimit (has : String → Bool) (l : RLimits) : Option (Option PLimit) :=
  if l.option = .count then (parseLimit has l).bind fun r => r.map some else some none

/-- The LIMIT of `_pglast_parse_setop` (postbound/parser.py:1963-1968). -/
def setLimit (has : String → Bool) (l : RLimits) : Option (Option PLimit) := if l.option = .count then parseLimit has l else some none

/-- The operators of `_pglast_parse_setop` (postbound/parser.py:1942-1954). -/
def parseSetOp (k : SetKind) (all : Bool) : PSetOp := match k with
  | .union => if all then .unionAll else .union
  | .intersect => .intersect
  | .except => .except

mutual

/-- `_pglast_parse_from_entry` (postbound/parser.py:1431-1554). -/
def parseFrom (x : Exprs E X) (has : String → Bool) : RFrom E → Option (PFrom X)
  | .table s n a _ _ => some (.table s n a)
  | .join k l r quals _ _ _ => (parseFrom x has l).bind fun l' => (parseFrom x has r).bind fun r' => mkJoin x k l' r' quals
  | .sub _ (.values rows _) a cols => (parseRows x rows).map fun rs => mkValues rs a cols
  | .sub lateral q a _ => (parseSel x has q).map fun q' => .sub lateral q' (a.getD "")
  | .func fns _ a _ => match fns with
    | [] => none
    | f :: _ => (x.pe f).map fun f' => .func f' (a.getD "")
  | .other => none

def parseFroms (x : Exprs E X) (has : String → Bool) : RFroms E → Option (List (PFrom X))
  | .nil => some []
  | .cons f fs => (parseFrom x has f).bind fun f' => (parseFroms x has fs).map fun l => f' :: l

/-- `_pglast_parse_ctes` (postbound/parser.py:1257-1297). -/
def parseCtes (x : Exprs E X) (has : String → Bool) : RCtes E → Option (List (PCte X))
  | .nil => some []
  | .cons name cols mat (.values rows _) rest => (parseRows x rows).bind fun rs => (parseCtes x has rest).map fun l => .values name rs cols (parseMat mat) :: l
  | .cons name _ mat q rest => (parseSel x has q).bind fun q' => (parseCtes x has rest).map fun l => .query name q' (parseMat mat) :: l

/-- `_pglast_parse_query` and `_pglast_parse_setop` (postbound/parser.py:1899-1978, 2018-2099). A statement without FROM has no class of FROM clause. -/
def parseSel (x : Exprs E X) (has : String → Bool) : RSel E → Option (PSel X)
  | .plain ctes isRec distinct targets sources wher group groupingSets having order limits _ =>
    (parseCtes x has ctes).bind fun cs => (parseFroms x has sources).bind fun ss => (if ss.isEmpty then some none else (fromKind ss).map some).bind fun kind =>
    (parseDistinct x distinct).bind fun ds => (parseTargets x targets).bind fun ts => (parseCond x wher).bind fun w => (parseGroup x groupingSets group).bind fun g =>
    (parseCond x having).bind fun h => (order.mapM (parseSort x)).bind fun o => (plainLimit has limits).map fun lim =>
    .plain cs isRec ds ts kind ss w g h o lim
  | .setop ctes isRec kind all l r order limits =>
    (parseCtes x has ctes).bind fun cs => (parseSel x has l).bind fun l' => (parseSel x has r).bind fun r' => (order.mapM (parseSort x)).bind fun o => (setLimit has limits).map fun lim =>
    .setop cs isRec (parseSetOp kind all) l' r' o lim
  | .values _ _ => none

end

end PB.PStmt
