import Verif.Model.DuckExec
import Verif.Model.PlanRead

/-!
# The optimizer interface of DuckDB

Models `DuckDBOptimizer` (postbound/duckdb.py 585-654) on top of the execution of queries (`DuckExec`) and the reader of plans
(`PlanRead`).

Simplifications: the text of an answer is represented by what `json.loads` makes of it; `str.upper` and `str.strip` act on ASCII
letters and on white space.  `none` is an exception.
-/
namespace PB.DuckOpt

open PB PB.PlanRead PB.DuckExec

/-- What `json.loads` makes of the text of an answer: an object, a list of objects, or an error. -/
inductive Json where
  | obj (d : DNode)
  | list (l : List DNode)
  | invalid

/-- A row of the result of an EXPLAIN query: its kind and its plan. -/
abbrev Row := String × Json

/-- `query.strip().upper().startswith("EXPLAIN")` (duckdb.py 593). -/
def isExplain (q : List Char) : Bool := "EXPLAIN".toList.isPrefixOf ((q.dropWhile Char.isWhitespace).map Char.toUpper)

/-- The text that is run for a query that is a text (duckdb.py 593-596). -/
def explainify (q : List Char) : List Char := if isExplain q then q else "EXPLAIN (FORMAT JSON) ".toList ++ q

/-- `json.loads(raw)[0]` and its plan (duckdb.py 603-607, 629-631): objects have no entry 0. -/
def firstPlan (lower : Char → Char) (q : Option DQuery) : Json → Option PNode
  | .list (d :: _) => parseDuck lower q d
  | _ => none

/-- `parse_duckdb_plan` on a text (duckdb.py 521-524): lists have no `get`. -/
def textPlan (lower : Char → Char) (q : Option DQuery) : Json → Option PNode
  | .obj d => parseDuck lower q d
  | _ => none

/-- `query_plan` after the execution (duckdb.py 598-607): the first row counts. -/
def queryPlan (lower : Char → Char) (q : Option DQuery) (rows : List Row) : Option PNode :=
  rows.head?.bind fun r => firstPlan lower q r.2

/-- `analyze_plan` (duckdb.py 617-631): the outer `none` is an exception, the inner one the result `None`. -/
def analyzePlan (lower : Char → Char) (q : DQuery) (st : St (List Row)) (text : String) (timeout : Bool) (run : Run (List Row)) :
    Option (Option PNode) × St (List Row) :=
  match executeQuery st text false timeout run with
  | (.rows rows, st') => ((queryPlan lower (some q) rows).map some, st')
  | (.timeoutError, st') => (some none, st')
  | (_, st') => (none, st')

/-- What can be given to `parse_plan`: the rows of a raw result, a single row, a text, an object, or a list of objects. -/
inductive Given where
  | rows (l : List Row)
  | row (r : Row)
  | text (j : Json)
  | doc (d : DNode)
  | docs (l : List DNode)

/-- `parse_plan` (duckdb.py 633-642): a list and then a tuple are unwrapped. -/
def parsePlan (lower : Char → Char) (q : Option DQuery) : Given → Option PNode
  | .rows l => l.head?.bind fun r => textPlan lower q r.2
  | .row r => textPlan lower q r.2
  | .text j => textPlan lower q j
  | .doc d => parseDuck lower q d
  | .docs l => l.head?.bind fun d => parseDuck lower q d

/-- `"AGGREGATE" in plan.node_type`. -/
def mentionsAggregate (t : List Char) : Bool := t.tails.any fun s => "AGGREGATE".toList.isPrefixOf s

/-- `cardinality_estimate` (duckdb.py 644-651): the estimate of the root, and whether a warning is shown. -/
def cardinalityEstimate (lower : Char → Char) (q : Option DQuery) (rows : List Row) : Option (Card × Bool) :=
  (queryPlan lower q rows).map fun p => (p.info.estCard, mentionsAggregate p.info.nodeType.toList)

end PB.DuckOpt
