import Verif.Model.Clauses

/-!
# Hinted queries: what the hint services do with the clauses of a query (postbound/postgres.py, duckdb.py, mysql.py)

The texts of the hints are modelled in `Model/DbHints`. Here they are arbitrary. Clauses that are neither hints, EXPLAIN nor LIMIT
clauses have arbitrary contents of a type `R`. Simplification: EXPLAIN and LIMIT clauses are plain ones or those of Postgres; the class
of MySQL is only used in a query that is thrown away (postbound/mysql.py:630, `Model/Mysql`).
-/

namespace PB.HintQuery

open PB.Clauses

/-- `Explain` and `Limit`, or `PostgresExplainClause` and `PostgresLimitClause` (postbound/postgres.py:2141, 2163). -/
inductive Dialect
  | plain | postgres
deriving DecidableEq, Repr

/-- `Explain` (postbound/qal/_qal.py:5234-5239). -/
structure Explain where
  analyze : Bool
  format : Option String
deriving DecidableEq, Repr

/-- `Limit` (postbound/qal/_qal.py:7575-7589). Simplification: the numbers are not negative. -/
structure Limit where
  limit : Option Nat
  offset : Option Nat
  dir : String
deriving DecidableEq, Repr

/-- The contents of clauses; the hints are those of postbound/qal/_qal.py:5101-5106. -/
inductive Pay (R : Type)
  | hint (prep hints : String)
  | explain (d : Dialect) (e : Explain)
  | limit (d : Dialect) (l : Limit)
  | other (r : R)
deriving DecidableEq

variable {R : Type}

/-- `PostgresExplainClause(clause)` and `PostgresLimitClause(clause)` (postbound/postgres.py:2152-2153, 2172-2177). -/
def toPg : Pay R → Pay R
  | .explain _ e => .explain .postgres e
  | .limit _ l => .limit .postgres l
  | p => p

/-- `isinstance(clause, PostgresExplainClause)`, `isinstance(clause, PostgresLimitClause)` (postbound/postgres.py:2609-2617). -/
def isPg : Pay R → Bool
  | .explain .postgres _ => true
  | .limit .postgres _ => true
  | _ => false

variable [DecidableEq R]

/-- The replacement of the EXPLAIN clause (postbound/postgres.py:2609-2614) and of the LIMIT clause (postbound/postgres.py:2615-2620,
duckdb.py:748-753). -/
def adapt (s : Slot) (q : Query (Pay R)) : Option (Query (Pay R)) :=
  match q.get s with
  | none => some q
  | some c => if isPg c.payload then some q else replaceClause q [⟨c.kind, toPg c.payload⟩]

/-- `PostgresHintService.generate_hints` (postbound/postgres.py:2608-2620, 2658-2659). -/
def pgQuery (q : Query (Pay R)) (prep hints : String) : Option (Query (Pay R)) :=
  (adapt .explain q).bind fun q => (adapt .limit q).bind fun q => addClause q [⟨.hint, .hint prep hints⟩]

/-- `DuckDBHintService.generate_hints` (postbound/duckdb.py:747-753, 784-787, 905-915). -/
def duckQuery (q : Query (Pay R)) (block : Option (String × String)) : Option (Query (Pay R)) :=
  (adapt .limit q).bind fun q =>
    match block with
    | none => some q
    | some (prep, hints) => addClause q [⟨.hint, .hint prep hints⟩]

/-- `MysqlHintService.generate_hints` (postbound/mysql.py:615-624). -/
def mysqlQuery (q : Query (Pay R)) (block : Option (String × String)) : Option (Query (Pay R)) :=
  match block with
  | none => some q
  | some (prep, hints) => addClause q [⟨.hint, .hint prep hints⟩]

/-- The query whose text is sent to Postgres (`PostgresHintService.format_query`, postbound/postgres.py:2661-2666). -/
def pgFormatted (q : Query (Pay R)) : Option (Query (Pay R)) :=
  match q.get .explain with
  | none => some q
  | some c => replaceClause q [⟨c.kind, toPg c.payload⟩]

/-- `PostgresExplainClause.__str__` (postbound/postgres.py:2155-2160). -/
def pgExplainText (e : Explain) : String :=
  let args := "(SETTINGS, "
  let args := if e.analyze then args ++ "ANALYZE, BUFFERS, " else args
  let args := args ++ "FORMAT " ++ (match e.format with | some f => f | none => "None") ++ ")"
  "EXPLAIN " ++ args

/-- `if self.limit` (postbound/postgres.py:2183-2187): neither `None` nor 0. -/
def truthy : Option Nat → Option Nat
  | some 0 => none
  | o => o

/-- `PostgresLimitClause.__str__` (postbound/postgres.py:2179-2190) for the direction "first". -/
def pgLimitText (l : Limit) : String :=
  match truthy l.limit, truthy l.offset with
  | some n, some m => "LIMIT " ++ toString n ++ " OFFSET " ++ toString m
  | some n, none => "LIMIT " ++ toString n
  | none, some m => "OFFSET " ++ toString m
  | none, none => ""

end PB.HintQuery
