import Verif.Model.Dict

/-! Model of the schema lookups, the dialect and the connection files of MySQL (postbound/mysql.py:90-126, 281-408, 456-506,
626-638, 675-705). The catalog `information_schema` is a list of rows for all databases that the user can see. Names are compared
literally. -/

namespace PB.Mysql
open PB

/-! ### Schema lookups -/

/-- A `TableReference` (postbound/_core.py:623-720); `name` is the full name. -/
structure Tab where
  schema : String
  name : String
  virt : Bool
deriving DecidableEq

/-- A row of `information_schema.columns`. -/
structure ColRow where
  db : String
  tab : String
  col : String
  typ : String
  key : String
  nullable : Bool
deriving DecidableEq

/-- A row of `information_schema.statistics`. -/
structure StatRow where
  db : String
  tab : String
  col : String
  index : String
deriving DecidableEq

/-- A row of `information_schema.key_column_usage`; `ref` is the referenced table and column. -/
structure KeyRow where
  db : String
  tab : String
  col : String
  ref : Option (String × String)
deriving DecidableEq

structure Catalog where
  cols : List ColRow
  stats : List StatRow
  keys : List KeyRow

/-- A `ColumnReference`. -/
structure Col where
  name : String
  tab : Option Tab
deriving DecidableEq

inductive Err where
  | unbound | virtualTable
  /-- `ProgrammingError` of the driver -/
  | driver
  /-- `ValueError` -/
  | notFound
  | assertion
deriving DecidableEq

/-- The second argument of `cursor.execute`: a tuple, or a plain text. -/
inductive Params where
  | tuple (l : List String)
  | text (s : String)

/-- How a driver understands the parameters; `none` is an exception. -/
abbrev Driver := Params → Option (List String)

/-- MySQL Connector/Python accepts tuples, lists and dictionaries only. -/
def connector : Driver
  | .tuple l => some l
  | .text _ => none

/-- `_fetch_columns` (postbound/mysql.py:387-394). -/
def fetchColumns (cat : Catalog) (t : Tab) : List String := (cat.cols.filter fun r => r.tab = t.name).map (·.col)

/-- The loop of `lookup_column` (postbound/mysql.py:293-296). -/
def lookupLoop (cat : Catalog) (c : String) : List Tab → Option Tab
  | [] => none
  | t :: ts => if c ∈ fetchColumns cat t then some t else lookupLoop cat c ts

/-- `lookup_column` (postbound/mysql.py:284-303). -/
def lookupColumn (cat : Catalog) (c : String) (cands : List Tab) (expect : Bool) : Except Err (Option Tab) :=
  match lookupLoop cat c cands with
  | some t => .ok (some t)
  | none => if expect then .error .notFound else .ok none

/-- The checks at the start of all other lookups (postbound/mysql.py:306-309, 314-317, 328-331, 342-345, 360-363, 374-377). -/
def guardCol (c : Col) : Except Err Tab :=
  match c.tab with
  | none => .error .unbound
  | some t => if t.virt then .error .virtualTable else .ok t

/-- The rows of a column in `information_schema.columns` (postbound/mysql.py:364-368, 378-382). -/
def colRows (cat : Catalog) (t : Tab) (c : String) : List ColRow := cat.cols.filter fun r => r.tab = t.name ∧ r.col = c

/-- `_fetch_indexes` (postbound/mysql.py:396-407): the name of the table is not wrapped in a tuple. -/
def fetchIndexes (drv : Driver) (cat : Catalog) (t : Tab) : Except Err (Dict String Bool) :=
  match drv (.text t.name) with
  | some [n] => .ok (Dict.ofList ((cat.cols.filter fun r => r.tab = n ∧ r.key ≠ "").map fun r => (r.col, r.key = "PRI")))
  | _ => .error .driver

/-- `is_primary_key` (postbound/mysql.py:305-311). -/
def isPrimaryKey (drv : Driver) (cat : Catalog) (c : Col) : Except Err Bool :=
  match guardCol c with
  | .error e => .error e
  | .ok t =>
    match fetchIndexes drv cat t with
    | .error e => .error e
    | .ok m => .ok ((m.get? c.name).getD false)

/-- `has_secondary_index` (postbound/mysql.py:313-325). -/
def hasSecondaryIndex (drv : Driver) (cat : Catalog) (c : Col) : Except Err Bool :=
  match guardCol c with
  | .error e => .error e
  | .ok t =>
    match fetchIndexes drv cat t with
    | .error e => .error e
    | .ok m => .ok (!(m.get? c.name).getD true)

/-- `indexes_on` (postbound/mysql.py:327-339); the set is a list. -/
def indexesOn (cat : Catalog) (c : Col) : Except Err (List String) :=
  match guardCol c with
  | .error e => .error e
  | .ok t => .ok ((cat.stats.filter fun r => r.tab = t.name ∧ r.col = c.name).map (·.index))

/-- The result rows of `foreign_keys_on` as references (postbound/mysql.py:354-357): table, then column. -/
def keyRef (r : KeyRow) : Option (String × String) := r.ref

/-- `foreign_keys_on` (postbound/mysql.py:341-357); the set is a list of tables and columns. -/
def foreignKeysOn (cat : Catalog) (c : Col) : Except Err (List (String × String)) :=
  match guardCol c with
  | .error e => .error e
  | .ok t => .ok ((cat.keys.filter fun r => r.tab = t.name ∧ r.col = c.name).filterMap keyRef)

/-- `datatype` (postbound/mysql.py:359-371). -/
def datatype (cat : Catalog) (c : Col) : Except Err String :=
  match guardCol c with
  | .error e => .error e
  | .ok t =>
    match colRows cat t c.name with
    | [] => .error .assertion
    | r :: _ => .ok r.typ

/-- `is_nullable` (postbound/mysql.py:373-385). -/
def isNullable (cat : Catalog) (c : Col) : Except Err Bool :=
  match guardCol c with
  | .error e => .error e
  | .ok t =>
    match colRows cat t c.name with
    | [] => .error .assertion
    | r :: _ => .ok r.nullable

/-! ### Texts of expressions -/

/-- The values of literals: `None`, numbers (with their text; booleans are numbers in Python), and others with their text. -/
inductive Lit where
  | null
  | num (text : List Char)
  | str (text : List Char)
deriving DecidableEq

/-- Expressions: literals, columns, casts with type parameters and the mark of arrays, and calls. -/
inductive Ex where
  | lit (l : Lit)
  | col (name : List Char)
  | cast (e : Ex) (typ : List Char) (params : List (List Char)) (arr : Bool)
  | call (fn : List Char) (arg : Ex)

/-- `str.replace` of a single character by two of them (postbound/qal/_qal.py:295). -/
def doubled (q : Char) : List Char → List Char
  | [] => []
  | c :: cs => if c = q then q :: q :: doubled q cs else c :: doubled q cs

/-- `StaticValueExpression.__str__` (postbound/qal/_qal.py:288-296). -/
def litText : Lit → List Char
  | .null => ['N', 'U', 'L', 'L']
  | .num t => t
  | .str s => '\'' :: doubled '\'' s ++ ['\'']

/-- `", ".join` -/
def commas : List (List Char) → List Char
  | [] => []
  | [a] => a
  | a :: b :: l => a ++ [',', ' '] ++ commas (b :: l)

/-- The type in a cast (postbound/qal/_qal.py:488-495). -/
def typeText (typ : List Char) (params : List (List Char)) (arr : Bool) : List Char :=
  (if params.isEmpty then typ else typ ++ '(' :: commas params ++ [')']) ++ (if arr then ['[', ']'] else [])

/-- The expressions without parentheses in a cast (postbound/qal/_qal.py:497-501). -/
def atomic : Ex → Bool
  | .lit _ => true
  | .col _ => true
  | _ => false

/-- Texts of expressions without MySQL (postbound/qal/_qal.py:288-296, 487-503); calls have a single argument here. -/
def exText : Ex → List Char
  | .lit l => litText l
  | .col n => n
  | .cast e typ ps arr =>
    let inner := if atomic e then exText e else '(' :: exText e ++ [')']
    ['C', 'A', 'S', 'T', '('] ++ inner ++ [' ', 'A', 'S', ' '] ++ typeText typ ps arr ++ [')']
  | .call fn a => fn ++ '(' :: exText a ++ [')']

/-- `_MysqlStaticValueExpression.__str__` (postbound/mysql.py:478-483); `str(None)` is `None`. -/
def mysqlLit : Lit → List Char
  | .null => ['"', 'N', 'o', 'n', 'e', '"']
  | .num t => t
  | .str s => '"' :: s ++ ['"']

/-- An expression of a query as `format_query` writes it (postbound/mysql.py:496-506, 632-636): the replacements are applied to the
expressions of the clauses and predicates only, not to the expressions inside of them (`_replace_expressions_in_clause`,
postbound/transform.py:1102-1205). -/
def mysqlText (ansiQuotes : Bool) : Ex → List Char
  | .lit l => if ansiQuotes then litText l else mysqlLit l
  | .cast e typ _ _ => ['C', 'A', 'S', 'T', '('] ++ exText e ++ [' ', 'A', 'S', ' '] ++ typ ++ [')']
  | e => exText e

/-- An `EXPLAIN` clause. -/
structure Explain where
  analyze : Bool
  format : List Char
deriving DecidableEq

/-- `Explain.__str__` (postbound/qal/_qal.py:5292-5301). -/
def explainText (e : Explain) : List Char :=
  ['E', 'X', 'P', 'L', 'A', 'I', 'N'] ++
    (if e.analyze && !e.format.isEmpty then [' ', '(', 'A', 'N', 'A', 'L', 'Y', 'Z', 'E', ',', ' ', 'F', 'O', 'R', 'M', 'A', 'T', ' '] ++ e.format ++ [')']
    else if e.analyze then [' ', 'A', 'N', 'A', 'L', 'Y', 'Z', 'E']
    else if !e.format.isEmpty then [' ', '(', 'F', 'O', 'R', 'M', 'A', 'T', ' '] ++ e.format ++ [')']
    else [])

/-- `_MysqlExplainClause.__str__` (postbound/mysql.py:465-471). -/
def mysqlExplainText (e : Explain) : List Char :=
  ['E', 'X', 'P', 'L', 'A', 'I', 'N'] ++ (if e.analyze then [' ', 'A', 'N', 'A', 'L', 'Y', 'Z', 'E'] else []) ++
    (if e.format.isEmpty then [] else [' ', 'F', 'O', 'R', 'M', 'A', 'T', '='] ++ e.format)

/-- The clause in the result of `format_query` (postbound/mysql.py:629-630): the updated query is thrown away. -/
def formatExplain (e : Explain) : List Char :=
  let _updated := mysqlExplainText e
  explainText e

/-! ### Connection files -/

/-- Values of the connection arguments. -/
inductive PyVal where
  | text (s : String)
  | int (n : Int)
  | bool (b : Bool)
deriving DecidableEq

/-- The fields of `MysqlConnectionArguments` with a default (postbound/mysql.py:108-114). -/
def defaults : Dict String PyVal :=
  [("password", .text ""), ("host", .text "127.0.0.1"), ("port", .int 3306), ("use_unicode", .bool true),
    ("charset", .text "utf8mb4"), ("autocommit", .bool true), ("sql_mode", .text "ANSI")]

/-- All characters but the first: an underscore before each capital letter (postbound/util/misc.py:21-26). -/
def snakeTail : List Char → List Char
  | [] => []
  | c :: cs => if c.isUpper then '_' :: c.toLower :: snakeTail cs else c.toLower :: snakeTail cs

/-- `camel_case2snake_case` (postbound/util/misc.py:24-26) for letters of ASCII. -/
def snake (s : String) : String :=
  match s.toList with
  | [] => ""
  | c :: cs => String.ofList (c.toLower :: snakeTail cs)

/-- The optional settings (postbound/mysql.py:691-699). -/
def optionalKeys : List String := ["Password", "Host", "Port", "UseUnicode", "Charset", "AutoCommit", "SqlMode"]

/-- `key.lower()`: how `configparser` stores keys. -/
def lowerKey (s : String) : String := String.ofList (s.toList.map Char.toLower)

/-- The loop over the optional settings (postbound/mysql.py:690-702). -/
def optionalSettings (sec : Dict String String) : List (String × String) :=
  optionalKeys.filterMap fun k => (sec.get? (lowerKey k)).map fun v => (snake k, v)

inductive ConnErr where
  /-- `ValueError` -/
  | malformed
  /-- `TypeError`: an unexpected keyword argument -/
  | keyword
deriving DecidableEq

/-- The constructor `MysqlConnectionArguments(user, database, **optional_settings)` (postbound/mysql.py:703). -/
def connArgs (user database : String) (opts : List (String × String)) : Except ConnErr (Dict String PyVal) :=
  if opts.all fun o => o.1 ∈ defaults.keys then
    .ok (opts.foldl (fun d o => d.set o.1 (.text o.2)) ([("user", .text user), ("database", .text database)] ++ defaults))
  else .error .keyword

/-- `_parse_mysql_connection` (postbound/mysql.py:675-703) for the sections of the file. -/
def parseConnection (file : Dict String (Dict String String)) : Except ConnErr (Dict String PyVal) :=
  match file.get? "MYSQL" with
  | none => .error .malformed
  | some sec =>
    match sec.get? "user", sec.get? "database" with
    | some u, some d => connArgs u d (optionalSettings sec)
    | _, _ => .error .malformed

end PB.Mysql
