import Verif.Model.Hints
import Mathlib.Data.Finset.Basic
import Mathlib.Data.List.Sort

/-! Model of the readers of DuckDB and MySQL plans (postbound/duckdb.py:458-582, postbound/mysql.py:756-1225) and of the
text similarity they use (postbound/util/stats.py:18-43). -/

namespace PB.PlanRead
open PB PB.Hints

/-- A table reference: full name and alias. -/
structure Tab where
  name : String
  al : String
deriving DecidableEq

/-- The attributes of a `QueryPlan` that the readers set (postbound/duckdb.py:575-582,
postbound/mysql.py:1062-1068, 1119-1125, 1154-1160). -/
structure PInfo where
  nodeType : String
  op : Option PhysOp
  table : Option Tab
  estCard : Card
  actCard : Card
  cost : Flt
  time : Flt
deriving DecidableEq

/-- The resulting `QueryPlan`. -/
inductive PNode where
  | node (info : PInfo) (children : List PNode)

/-- The root's attributes. -/
def PNode.info : PNode → PInfo
  | .node i _ => i

/-- `children` -/
def PNode.children : PNode → List PNode
  | .node _ cs => cs

/-! ### Similarity of texts -/

/-- `jaccard` (postbound/util/stats.py:18-20); `none` is the `ZeroDivisionError`. -/
def jaccard {α : Type} [DecidableEq α] (a b : Finset α) : Option Rat :=
  if (a ∪ b).card = 0 then none else some ((a ∩ b).card / (a ∪ b).card)

/-- All windows of three characters. -/
def windows : List Char → List (List Char)
  | a :: b :: c :: rest => [a, b, c] :: windows (b :: c :: rest)
  | _ => []

/-- `trigrams` (postbound/util/stats.py:40-43); simplification: `lower` is given per character. -/
def trigrams (lower : Char → Char) (text : List Char) : List (List Char) :=
  windows ([' ', ' '] ++ text.map lower ++ [' ', ' '])

/-! ### DuckDB -/

/-- The keys of a DuckDB plan node that are read (postbound/duckdb.py:524-573); missing texts are "". -/
structure DRaw where
  name : String := ""
  operatorName : String := ""
  typ : String := ""
  table : String := ""
  filters : List Char := []
  estimate : Option Flt := none
  actual : Option Flt := none
  timing : Option Flt := none

/-- A DuckDB plan node. -/
inductive DNode where
  | node (raw : DRaw) (children : List DNode)

/-- What the reader needs from the query: its tables (in the order of iteration of the set) and the texts of their
filters without white space (postbound/duckdb.py:461, 477-482). -/
structure DQuery where
  tables : List Tab
  filter : Tab → List Char

/-- One step of `max(d, key=d.get)`: the earlier entry wins a tie. -/
def better (best : Tab × Rat) (e : Tab × Rat) : Tab × Rat := if best.2 < e.2 then e else best

/-- `dicts.argmax` (postbound/util/dicts.py:219-224) -/
def argmax : List (Tab × Rat) → Option Tab
  | [] => none
  | e :: l => some (l.foldl better e).1

/-- The sorting and comparison of the scores and the final choice (postbound/duckdb.py:498-506). -/
def decideTable (scores : List (Tab × Rat)) : Option Tab :=
  match (scores.map Prod.snd).insertionSort (· ≥ ·) with
  | s0 :: s1 :: _ => if (99 / 100 : Rat) * s0 ≤ s1 then none else argmax scores
  | _ => none

/-- The scores of the candidates (postbound/duckdb.py:488-497); `none` is an exception. -/
def scoresOf (lower : Char → Char) (q : DQuery) (node : List Char) : List Tab → Option (List (Tab × Rat))
  | [] => some []
  | t :: ts => (jaccard (trigrams lower node).toFinset (trigrams lower (q.filter t)).toFinset).bind fun s =>
      (scoresOf lower q node ts).map fun l => (t, s) :: l

/-- `_bind_node_to_table` (postbound/duckdb.py:458-506); the outer `none` is an exception. -/
def bind (lower : Char → Char) (q : DQuery) (r : DRaw) : Option (Option Tab) :=
  if r.table = "" then some none
  else
    let candidates := q.tables.filter fun t => t.name = r.table
    if candidates = [] then some none
    else if candidates.length = 1 then some candidates.head?
    else (scoresOf lower q r.filters candidates).map decideTable

/-- `node_type` (postbound/duckdb.py:524) -/
def DRaw.nodeType (r : DRaw) : String := if r.name ≠ "" then r.name else r.operatorName

/-- The wrapper nodes that are skipped (postbound/duckdb.py:525-535). -/
def isWrapper (t : String) : Bool := t = "" || t = "EXPLAIN" || t = "EXPLAIN_ANALYZE"

/-- The operator and the final node type (postbound/duckdb.py:538-554; an operator's name becomes the node type,
postbound/_qep.py:1015-1017). -/
def DRaw.operator (r : DRaw) : Option PhysOp × String :=
  if r.nodeType = "HASH_JOIN" then (some (.join .hash), "HashJoin")
  else if (r.nodeType = "SEQ_SCAN" ∨ r.nodeType = "SEQ_SCAN ") ∧ r.typ = "Sequential Scan" then
    (some (.scan .seqScan), "SequentialScan")
  else if (r.nodeType = "SEQ_SCAN" ∨ r.nodeType = "SEQ_SCAN ") ∧ r.typ = "Index Scan" then
    (some (.scan .idxScan), "IndexScan")
  else (none, r.nodeType)

/-- `node_type in ScanOperator` (postbound/duckdb.py:556; since Python 3.12 this also compares with the values of the
members, postbound/_core.py:408-411). -/
def isScanType (o : Option PhysOp × String) : Bool :=
  match o.1 with
  | some (.scan _) => true
  | some _ => false
  | none => o.2 = "Seq. Scan" || o.2 = "Idx. Scan" || o.2 = "Idx-only Scan" || o.2 = "Bitmap Scan"

/-- The base table of a node (postbound/duckdb.py:556-561); the outer `none` is an exception. -/
def DRaw.baseTable (lower : Char → Char) (q : Option DQuery) (r : DRaw) : Option (Option Tab) :=
  if isScanType r.operator then
    match q with
    | some q => bind lower q r
    | none => some none
  else some none

/-- `own_runtime + sum(…)` (postbound/duckdb.py:572-573) -/
def totalTime (r : DRaw) (children : List PNode) : Flt :=
  Flt.add (r.timing.getD .nan) (children.foldl (fun acc c => Flt.add acc c.info.time) (.fin 0))

/-- The plan node (postbound/duckdb.py:563-582). -/
def DRaw.build (r : DRaw) (tab : Option Tab) (children : List PNode) : PNode :=
  .node { nodeType := r.operator.2, op := r.operator.1, table := tab,
          estCard := Card.ofFlt (r.estimate.getD .nan), actCard := Card.ofFlt (r.actual.getD .nan),
          cost := .nan, time := totalTime r children } children

mutual
/-- `parse_duckdb_plan` (postbound/duckdb.py:508-582); `none` is an exception. -/
def parseDuck (lower : Char → Char) (q : Option DQuery) : DNode → Option PNode
  | .node r cs =>
    if isWrapper r.nodeType then parseOnly lower q cs
    else (r.baseTable lower q).bind fun tab => (parseAll lower q cs).map fun l => r.build tab l
/-- The single child of a wrapper node (postbound/duckdb.py:526-535); `none` is the `AssertionError`. -/
def parseOnly (lower : Char → Char) (q : Option DQuery) : List DNode → Option PNode
  | [] => none
  | c :: cs => if cs.isEmpty then parseDuck lower q c else none
/-- The children (postbound/duckdb.py:568-570). -/
def parseAll (lower : Char → Char) (q : Option DQuery) : List DNode → Option (List PNode)
  | [] => some []
  | c :: cs => (parseDuck lower q c).bind fun p => (parseAll lower q cs).map fun l => p :: l
end

/-! ### MySQL -/

/-- `_lookup_table` (postbound/mysql.py:756-791): the aliases overwrite the full names, later tables overwrite earlier
ones; `none` is the `KeyError`. -/
def lookupTable (name : String) (tables : List Tab) : Option Tab :=
  match tables.reverse.find? fun t => t.al = name with
  | some t => some t
  | none => tables.reverse.find? fun t => t.name = name

/-- The cost and cardinality entries of a node (postbound/mysql.py:857-914). Costs and the filter percentage are texts
in the JSON document (a missing or empty text is `none`), the row counts are numbers. -/
structure Stats where
  hasCost : Bool := true
  readCost : Option Rat := none
  evalCost : Option Rat := none
  prefixCost : Option Rat := none
  rows : Option Int := none
  filtered : Option Rat := none
  produced : Option Int := none

/-- A number as a float, nan if missing. -/
def optFlt (o : Option Rat) : Flt := match o with
  | some q => .fin q
  | none => .nan

/-- `float(x) if x else nan` for a number `x` (postbound/mysql.py:905-906, 912-913) -/
def truthyInt (o : Option Int) : Flt := match o with
  | some n => if n = 0 then .nan else .fin n
  | none => .nan

/-- `_parse_cost_info` (postbound/mysql.py:857-886) -/
def costInfo (s : Stats) : Flt × Flt :=
  if s.hasCost then
    let scan := s.readCost.getD 0 + s.evalCost.getD 0
    (if scan = 0 then .nan else .fin scan, optFlt s.prefixCost)
  else (.nan, .nan)

/-- `_parse_cardinality_info` (postbound/mysql.py:889-914) -/
def cardInfo (s : Stats) : Flt × Flt :=
  (Flt.mul (Flt.mul (optFlt s.filtered) (.fin (1 / 100))) (truthyInt s.rows), truthyInt s.produced)

/-- `_MysqlJoinSourceTypes` (postbound/mysql.py:825-838) -/
def sourceTypes : List (String × String) :=
  [("system", "Const"), ("const", "Const"), ("eq_ref", "Index Lookup"), ("ref", "Index Lookup"),
   ("fulltext", "Index Lookup"), ("ref_or_null", "Index Lookup"), ("index_merge", "Index Merge"),
   ("unique_subquery", "Index Lookup"), ("index_subquery", "Index Lookup"), ("range", "Index Lookup"),
   ("index", "Index Lookup"), ("ALL", "Table Scan")]

/-- `_MysqlJoinTypes` (postbound/mysql.py:845-850) -/
def joinTypes : List (String × String) :=
  [("Block Nested Loop", "Block Nested Loop"), ("Batched Key Access", "Batched Key Access"),
   ("Batched Key Access (unique)", "Batched Key Access"), ("hash join", "Hash Join")]

/-- `_determine_join_type` (postbound/mysql.py:917-920); `none` is the `KeyError`. -/
def joinType (buffer : Option String) : Option String :=
  match buffer with
  | none => some "Nested Loop"
  | some b => joinTypes.lookup b

/-- The "table" entry of the JSON document (postbound/mysql.py:936-968). -/
structure TRaw where
  name : String
  access : String
  buffer : Option String := none
  stats : Stats := {}

/-- An entry of the JSON document. `wrap` stands for the other operator keys with an object as value (its
"query_block", if present, is already unfolded, postbound/mysql.py:1003-1007), `blank` for an operator key with an
empty value, `listed` for an operator key other than "nested_loop" whose value is a list, `other` for every key that
is no operator (this includes a "query_block" inside of a materialized subquery). -/
inductive Val where
  | nested (items : List (List Val))
  | table (t : TRaw) (materialized : Option (List Val))
  | wrap (title : String) (stats : Stats) (body : List Val)
  | blank
  | listed
  | other

/-- The attributes of a `MysqlExplainNode` (postbound/mysql.py:1088-1112). -/
structure MData where
  scanType : String := ""
  joinType : String := ""
  nodeType : Option String := none
  table : Option Tab := none
  scanCost : Flt := .nan
  joinCost : Flt := .nan
  scanCard : Flt := .nan
  joinCard : Flt := .nan

/-- `MysqlExplainNode` (postbound/mysql.py:1088-1112) -/
inductive MNode where
  | node (data : MData) (next : Option MNode) (sub : Option MNode)

/-- The attributes. -/
def MNode.data : MNode → MData
  | .node d _ _ => d

/-- Assignment of `next_node` (postbound/mysql.py:931) -/
def MNode.setNext (n : MNode) (next : Option MNode) : MNode := match n with
  | .node d _ s => .node d next s

/-- The loop of `_parse_mysql_join_node` (postbound/mysql.py:926-933); the outer `none` is the `AttributeError` for a
missing node that is not the last one. -/
def chain : List (Option MNode) → Option (Option MNode)
  | [] => none
  | [n] => some n
  | none :: _ :: _ => none
  | some n :: m :: rest => (chain (m :: rest)).map fun r => some (n.setNext r)

/-- The scanned table (postbound/mysql.py:939-943); the outer `none` is the `KeyError`. -/
def scannedTable (tables : Option (List Tab)) (name : String) : Option (Option Tab) :=
  match tables with
  | none => some none
  | some l => (lookupTable name l).map some

/-- `_parse_mysql_table_node` (postbound/mysql.py:936-968) with the parsed subquery. -/
def tableNode (tables : Option (List Tab)) (t : TRaw) (sub : Option MNode) : Option MNode :=
  (scannedTable tables t.name).bind fun tab => (sourceTypes.lookup t.access).bind fun scan =>
    (joinType t.buffer).map fun join =>
      .node { scanType := scan, joinType := join, table := tab, scanCost := (costInfo t.stats).1,
              joinCost := (costInfo t.stats).2, scanCard := (cardInfo t.stats).1,
              joinCard := (cardInfo t.stats).2 } none sub

/-- `_parse_mysql_wrapper_node` (postbound/mysql.py:971-987) with the parsed source. -/
def wrapNode (title : String) (s : Stats) (source : Option MNode) : MNode :=
  .node { nodeType := some title, scanCost := (costInfo s).1, joinCost := (costInfo s).2, scanCard := (cardInfo s).1,
          joinCard := (cardInfo s).2 } none source

mutual
/-- `_parse_next_mysql_explain_node` (postbound/mysql.py:1011-1017): the first operator key counts; the outer `none` is
an exception. -/
def parseNext (tables : Option (List Tab)) : List Val → Option (Option MNode)
  | [] => none
  | .other :: vs => parseNext tables vs
  | v :: _ => parseVal tables v
/-- `_parse_mysql_explain_node` (postbound/mysql.py:990-1008) -/
def parseVal (tables : Option (List Tab)) : Val → Option (Option MNode)
  | .nested items => if items.isEmpty then some none else (parseItems tables items).bind chain
  | .table t mat => (parseMat tables mat).bind fun sub => (tableNode tables t sub).map some
  | .wrap title s body => (parseNext tables body).map fun source => some (wrapNode title s source)
  | .blank => some none
  | .listed => none
  | .other => none
/-- The items of a join (postbound/mysql.py:926-930). -/
def parseItems (tables : Option (List Tab)) : List (List Val) → Option (List (Option MNode))
  | [] => some []
  | i :: is => (parseNext tables i).bind fun n => (parseItems tables is).map fun l => n :: l
/-- The materialized subquery of a table (postbound/mysql.py:952-958). -/
def parseMat (tables : Option (List Tab)) : Option (List Val) → Option (Option MNode)
  | none => some none
  | some b => parseNext tables b
end

/-- `_MysqlExplainScanNodes` (postbound/mysql.py:1036-1040) -/
def scanOperators : List (String × ScanOp) :=
  [("Index Lookup", .idxScan), ("Index Merge", .bitmapScan), ("Table Scan", .seqScan)]

/-- `_MysqlExplainJoinNodes` (postbound/mysql.py:1043-1047) -/
def joinOperators : List (String × JoinOp) :=
  [("Block Nested Loop", .nlj), ("Batched Key Access", .nlj), ("Hash Join", .hash)]

/-- `QueryPlan(…)`; `none` is the `ValueError` for an empty node type (postbound/_qep.py:952-953). -/
def mkNode (nodeType : String) (op : Option PhysOp) (tab : Option Tab) (card cost : Flt) (cs : List PNode) :
    Option PNode :=
  if nodeType = "" then none
  else some (.node { nodeType := nodeType, op := op, table := tab, estCard := Card.ofFlt card, actCard := Card.unknown,
                     cost := cost, time := .nan } cs)

/-- `_make_qep_node_for_scan` (postbound/mysql.py:1153-1160) -/
def scanQep (d : MData) : Option PNode :=
  mkNode d.scanType ((scanOperators.lookup d.scanType).map .scan) d.table d.scanCard d.scanCost []

/-- The join node of `_node_sequence_to_qep` (postbound/mysql.py:1055-1085). -/
def joinQep (d : MData) (outer inner : PNode) : Option PNode :=
  mkNode d.joinType (some (.join ((joinOperators.lookup d.joinType).getD .nlj))) none d.joinCard d.joinCost
    [outer, inner]

/-- `_node_sequence_to_qep` (postbound/mysql.py:1049-1085), the last node first -/
def sequenceQep : List MData → Option PNode
  | [] => none
  | [d] => scanQep d
  | d :: ds => (sequenceQep ds).bind fun former => (scanQep d).bind fun final => joinQep d former final

/-- `_collect_node_sequence` (postbound/mysql.py:1148-1151) -/
def MNode.sequence : MNode → List MData
  | .node d none _ => [d]
  | .node d (some n) _ => n.sequence ++ [d]

mutual
/-- `MysqlExplainNode.as_qep` (postbound/mysql.py:1114-1132) -/
def asQep : MNode → Option PNode
  | .node d next sub =>
    match d.nodeType with
    | some t => (subQep sub).bind fun cs => mkNode t none d.table d.joinCard d.joinCost cs
    | none =>
      if next.isNone then scanQep d
      else sequenceQep (MNode.sequence (.node d next sub))
/-- The children of a wrapper node (postbound/mysql.py:1116-1118). -/
def subQep : Option MNode → Option (List PNode)
  | none => some []
  | some s => (asQep s).map fun p => [p]
end

/-- `parse_mysql_explain_plan` and `as_qep` (postbound/mysql.py:1020-1033, 1211-1212, 657-659); `none` is an
exception. -/
def readMysql (tables : Option (List Tab)) (block : List Val) : Option PNode :=
  (parseNext tables block).bind fun root => root.bind asQep

end PB.PlanRead
