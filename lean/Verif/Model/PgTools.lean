import Verif.Model.PgExplain

/-! Model of smaller parts of the Postgres interface (postbound/postgres.py): loading tables into and removing them from the shared
buffer, the detection of the hinting backend, and the optimizer interface. -/

namespace PB.PgTools

/-! ### Prewarming and cooling down -/

/-- A table of the server: its name and its indexes (name, is it the index of the primary key). -/
structure Table where
  name : String
  indexes : List (String × Bool)
  deriving DecidableEq, Repr

/-- The server: the tables that are found by their plain name (those of the search path), the tables of other schemas, and the
installed extensions. Simplification: names are lower case and need no quotes. -/
structure Server where
  visible : List Table
  hidden : List Table
  extensions : List String

/-- A `TableReference` as far as it matters: `full_name` (the name without a schema) and `virtual`. -/
structure Ref where
  name : String
  virtual : Bool
  deriving DecidableEq, Repr

/-- The exceptions: the extension is missing, a relation does not exist. -/
inductive Err where
  | inactive
  | unknownRelation
  deriving DecidableEq, Repr

/-- `has_extension(…, is_shared_object=False)` and `_assert_active_extension` (postbound/postgres.py:1155-1203, 1297-1327). -/
def hasExtension (s : Server) (name : String) : Bool := s.extensions.contains name

/-- `_fetch_index_relnames` (postbound/postgres.py:1269-1295): the tables of all schemas are searched. -/
def fetchIndexes (s : Server) (table : String) : List (String × Bool) :=
  ((s.visible ++ s.hidden).filter fun t => t.name == table).flatMap fun t => t.indexes

/-- Does `pg_prewarm` or `pg_cooldown` find the relation (as a `regclass`)? -/
def Server.finds (s : Server) (name : String) : Bool :=
  s.visible.any fun t => t.name == name || t.indexes.any fun i => i.1 == name

/-- The options of both functions (postbound/postgres.py:942-944, 1017-1019). -/
structure Options where
  excludePages : Bool := false
  primary : Bool := true
  secondary : Bool := true

/-- The indexes of the tables that are selected by the options (postbound/postgres.py:990-1000, 1065-1075). -/
def selectedIndexes (s : Server) (o : Options) (tables : List String) : List String :=
  let all := if o.primary || o.secondary then tables.flatMap (fetchIndexes s) else []
  (all.filter fun i => (i.2 && o.primary) || (!i.2 && o.secondary)).map Prod.fst

/-- The relations for which the function is called (postbound/postgres.py:1001-1005, 1076-1080). Sets are lists here. -/
def relations (s : Server) (o : Options) (tables : List String) : List String :=
  if o.excludePages then selectedIndexes s o tables else tables ++ selectedIndexes s o tables

/-- The query `SELECT pg_prewarm('…'), …` (postbound/postgres.py:1007-1011, 1082-1086): the relations that it is executed for.
Simplification: a query that fails has no effect on the buffer. -/
def invoke (s : Server) (names : List String) : Except Err (List String) :=
  if names.all s.finds then .ok names else .error .unknownRelation

/-- `prewarm_tables` (postbound/postgres.py:938-1011): the relations that are loaded. -/
def prewarm (s : Server) (o : Options) (tables : List Ref) : Except Err (List String) :=
  if hasExtension s "pg_prewarm" then
    invoke s (relations s o ((tables.filter fun t => !t.virtual).map Ref.name))
  else .error .inactive

/-- `cooldown_tables` (postbound/postgres.py:1013-1086): the relations that are removed. Virtual tables are not left out. -/
def cooldown (s : Server) (o : Options) (tables : List Ref) : Except Err (List String) :=
  if hasExtension s "pg_temperature" then
    invoke s (relations s o (tables.map Ref.name))
  else .error .inactive

/-! ### The hinting backend -/

/-- `PostgresHintingBackend` (postbound/postgres.py:2193). -/
inductive Backend where
  | pgHintPlan | pgLab | none
  deriving DecidableEq, Repr

/-- What `_infer_pg_backend` finds: the values of the two settings (`none`: there is no such setting), whether PostBOUND runs on a
POSIX system, the host of the server, whether a local Postgres process has been found, and the open files of the backend. -/
structure World where
  hintPlanSetting : Option String
  pglabSetting : Option String
  posix : Bool
  host : String
  foundProcess : Bool
  openFiles : List String
  lib : String

/-- The state of the hint service (postbound/postgres.py:2582-2586). -/
structure Service where
  inactive : Bool
  backend : Backend
  deriving DecidableEq, Repr

/-- `_infer_pg_backend` (postbound/postgres.py:2682-2812). -/
def infer (w : World) : Service :=
  if w.hintPlanSetting = some "on" then ⟨false, .pgHintPlan⟩
  else if w.pglabSetting = some "on" then ⟨false, .pgLab⟩
  else if !w.posix then ⟨false, .pgHintPlan⟩
  else if w.host ∉ ["localhost", "127.0.0.1", "::1"] || !w.foundProcess then ⟨false, .pgHintPlan⟩
  else if w.openFiles.any fun f => ("pg_lab." ++ w.lib).toList.isSuffixOf f.toList then ⟨false, .pgLab⟩
  else if w.openFiles.any fun f => ("pg_hint_plan." ++ w.lib).toList.isSuffixOf f.toList then ⟨false, .pgHintPlan⟩
  else ⟨true, .none⟩

/-- `_set_backend` (postbound/postgres.py:2591-2593). -/
def setBackend (b : Backend) : Service := ⟨b == .none, b⟩

/-- `_assert_active_backend` (postbound/postgres.py:2814-2826), called by `generate_hints` and `supports_hint`. -/
def Service.usable (s : Service) : Bool := !s.inactive

/-! ### The optimizer interface -/

open PB.PgExplain

/-- `str.upper` on ASCII letters. Simplification: other letters are not changed; no other letter becomes one of the prefix. -/
def upper (s : List Char) : List Char := s.map Char.toUpper

/-- The prefix of `_explainify` -/
def prefixJson : List Char := "EXPLAIN (FORMAT JSON)".toList

/-- `_explainify` (postbound/postgres.py:2947-2950). -/
def explainify (q : List Char) : List Char :=
  if prefixJson.isPrefixOf (upper q) then q else prefixJson ++ ' ' :: q

/-- The shapes of an EXPLAIN result: the rows as they are fetched (one row with one list of documents), the simplified result
(a list of documents), or a single document. -/
inductive Answer where
  | raw (rows : List (List (List Doc)))
  | simplified (docs : List Doc)
  | single (doc : Doc)

/-- `simplify_result_set` for the result of an EXPLAIN query (postbound/db/_db.py:257-286): one row with one value. -/
def simplifyAnswer : List (List (List Doc)) → Option (List Doc)
  | [[docs]] => some docs
  | _ => none

/-- `parse_plan` (postbound/postgres.py:2885-2900): lists and then tuples are unwrapped once; `none` is an exception. -/
def parsePlan : Answer → Option QNode
  | .raw (row :: _) =>
    match row with
    | docs :: _ => (mkPlan (.list docs)).map XPlan.normalized
    | [] => none
  | .raw [] => none
  | .simplified (d :: _) => (mkPlan (.obj d)).map XPlan.normalized
  | .simplified [] => none
  | .single d => (mkPlan (.obj d)).map XPlan.normalized

/-- The first document of a simplified result (postbound/postgres.py:2856, 2878, 2909, 2919). -/
def firstDoc (rows : List (List (List Doc))) : Option Doc := (simplifyAnswer rows).bind List.head?

/-- `query_plan` after the execution of the EXPLAIN query (postbound/postgres.py:2847-2857). -/
def queryPlan (rows : List (List (List Doc))) : Option QNode :=
  (firstDoc rows).bind fun d => (mkPlan (.obj d)).map XPlan.normalized

/-- What `execute_query` with a timeout does: it returns rows or raises a TimeoutError. -/
inductive Timed where
  | rows (r : List (List (List Doc)))
  | timeout

/-- `analyze_plan` (postbound/postgres.py:2870-2883): the outer `none` is an exception, the inner one is the result `None`. -/
def analyzePlan : Timed → Option (Option QNode)
  | .timeout => some none
  | .rows r => (queryPlan r).map some

/-- `cardinality_estimate` (postbound/postgres.py:2902-2910): `none` is a KeyError. -/
def cardinalityEstimate (rows : List (List (List Doc))) : Option Flt :=
  (firstDoc rows).bind fun d => d.plan.bind fun x => x.raw.planRows

/-- `cost_estimate` (postbound/postgres.py:2912-2920). -/
def costEstimate (rows : List (List (List Doc))) : Option Flt :=
  (firstDoc rows).bind fun d => d.plan.bind fun x => x.raw.totalCost

end PB.PgTools
