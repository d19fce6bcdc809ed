import Verif.Model.JsonText
import Verif.Model.Hints

/-! Model of the JSON representation of query plans and of operator assignments (postbound/_qep.py:149-150, 375-376,
518-519, 688-689, 781-782, 1889-1898, postbound/_hints.py:955-960, 1092-1098, 1194-1201) and of reading it
(postbound/opt/_helpers.py:32-86, 530-627, postbound/parser.py:2379-2400, 2475-2512). Strings are lists of characters. -/

namespace PB.PlanJson
open PB PB.JsonText
open PB.Hints (ScanOp JoinOp InterOp PhysOp)

abbrev Str := List Char

variable {F P E : Type}

/-- Conversions between floats and integers: `float(i)` (`none` is an `OverflowError`), `round(x)` and `x == 0`. -/
structure Num (F : Type) where
  ofInt : Int → Option F
  round : F → Int
  isZero : F → Bool

/-- What is needed of predicates and expressions: the tables (in the order in which the set is iterated), the text, and
the predicate that is parsed from a text if these tables are in the FROM clause (`none` is an exception). -/
structure Sql (P E : Type) where
  predTables : P → List (Str × Str × Str × Bool)
  predText : P → Str
  exprTables : E → List (Str × Str × Str × Bool)
  exprText : E → Str
  parse : List (Str × Str × Str × Bool) → Str → Option P

/-- A `TableReference` (postbound/_core.py:694-697): full name, alias, schema and whether it is virtual. -/
abbrev Table := Str × Str × Str × Bool

/-- `TableReference.__init__` (postbound/_core.py:689-697); `none` is a `ValueError`. -/
def mkTable (name als : Str) (virt : Bool) (schema : Str) : Option Table :=
  if name = [] ∧ als = [] then none
  else if schema ≠ [] ∧ name = [] then none
  else some (name, als, schema, virt)

/-- `Cardinality` (postbound/_core.py:67-71) -/
inductive Count where
  | nan
  | inf
  | val (i : Int)
deriving DecidableEq

/-- An operator, or an assignment of an operator to tables with a number of workers (postbound/_hints.py:896-905,
1006-1019, 1151-1165). Sets of tables are lists in iteration order. -/
inductive Operator (F : Type) where
  | op (o : PhysOp)
  | scan (o : ScanOp) (t : Table) (workers : Val F)
  | join (o : JoinOp) (ts : List Table) (workers : Val F)
  | djoin (o : JoinOp) (inner outer : List Table) (workers : Val F)

/-- `SortKey` (postbound/_qep.py:104-110) -/
structure SortKey (E : Type) where
  members : List E
  asc : Bool

/-- The lookup key of a plan node: an expression, or another value (nothing checks the type). -/
inductive Lookup (F E : Type) where
  | none
  | expr (e : E)
  | raw (v : Val F)

/-- `PlanParams` (postbound/_qep.py:222-241) -/
structure Params (F P E : Type) where
  base : Option Table
  filter : Option P
  sortKeys : List (SortKey E)
  workers : Val F
  index : Val F
  lookup : Lookup F E
  extra : List (Str × Val F)

/-- `PlanEstimates` (postbound/_qep.py:446-458) -/
structure Estimates (F : Type) where
  card : Count
  cost : Val F
  extra : List (Str × Val F)

/-- `PlanMeasures` (postbound/_qep.py:592-612) -/
structure Measures (F : Type) where
  card : Count
  time : Val F
  hits : Val F
  misses : Val F
  extra : List (Str × Val F)

/-- One node of a `QueryPlan` (postbound/_qep.py:1019-1031) without the nodes below; `target` is the name of the
subplan, if there is one. -/
structure Node (F P E : Type) where
  type : Str
  operator : Option (Operator F)
  params : Params F P E
  est : Estimates F
  meas : Measures F
  target : Str

/-- `QueryPlan`: node, children and the root of the subplan. -/
inductive Plan (F P E : Type) where
  | node (n : Node F P E) (children : List (Plan F P E)) (sub : Option (Plan F P E))

/-! ### Writing -/

/-- A key. -/
def key (s : String) : Key F := .str s.toList

/-- An instance with a `__json__` method that returns a dictionary with these entries. -/
def obj (l : List (Key F × Val F)) : Val F := .inst (some (.dict l)) none

/-- `TableReference.__json__` (postbound/_core.py:889-895) -/
def tableVal (t : Table) : Val F :=
  obj [(key "full_name", .str t.1), (key "alias", .str t.2.1), (key "virtual", .bool t.2.2.2), (key "schema", .str t.2.2.1)]

/-- `AbstractPredicate.__json__` (postbound/qal/_qal.py:2439-2444) -/
def predVal (sql : Sql P E) (p : P) : Val F :=
  obj [(key "node_type", .str "predicate".toList), (key "tables", .set ((sql.predTables p).map tableVal)),
    (key "predicate", .str (sql.predText p))]

/-- `SqlExpression.__json__` (postbound/qal/_qal.py:197-202) -/
def exprVal (sql : Sql P E) (e : E) : Val F :=
  obj [(key "node_type", .str "expression".toList), (key "tables", .set ((sql.exprTables e).map tableVal)),
    (key "expression", .str (sql.exprText e))]

/-- `Cardinality.__json__` (postbound/_core.py:117-118, 343-348): a value without representation stands for the
`OverflowError` of large integers. -/
def cardVal (num : Num F) : Count → Val F
  | .nan => .inst (some (.flt .nan)) none
  | .inf => .inst (some (.flt .inf)) none
  | .val i => match num.ofInt i with
    | some x => .inst (some (.flt (.fin x))) none
    | none => .inst none none

/-- The values of the operator enumerations (postbound/_core.py:408-411, 430-433, 451-453). -/
def opText : PhysOp → String
  | .scan .seqScan => "Seq. Scan"
  | .scan .idxScan => "Idx. Scan"
  | .scan .idxOnlyScan => "Idx-only Scan"
  | .scan .bitmapScan => "Bitmap Scan"
  | .join .nlj => "NLJ"
  | .join .hash => "Hash Join"
  | .join .merge => "Sort-Merge Join"
  | .join .indexNlj => "Idx. NLJ"
  | .inter .sort => "Sort"
  | .inter .memoize => "Memoize"
  | .inter .materialize => "Materialize"

/-- `__json__` of operators and assignments (postbound/_core.py:413-414, 435-436, 455-456, postbound/_hints.py:955-960,
1092-1098, 1194-1201) -/
def operatorVal : Operator F → Val F
  | .op o => .enum (.str (opText o).toList)
  | .scan o t w => obj [(key "operator", .str (opText (.scan o)).toList), (key "table", tableVal t), (key "parallel_workers", w)]
  | .join o ts w => obj [(key "directional", .bool false), (key "operator", .str (opText (.join o)).toList),
      (key "join", .set (ts.map tableVal)), (key "parallel_workers", w)]
  | .djoin o i u w => obj [(key "directional", .bool true), (key "operator", .enum (.str (opText (.join o)).toList)),
      (key "inner", .set (i.map tableVal)), (key "outer", .set (u.map tableVal)), (key "parallel_workers", w)]

/-- `None` or the representation. -/
def optVal {α : Type} (f : α → Val F) : Option α → Val F
  | none => .none
  | some a => f a

/-- `SortKey.__json__` (postbound/_qep.py:149-150) -/
def sortVal (sql : Sql P E) (s : SortKey E) : Val F :=
  obj [(key "equivalence_class", .set (s.members.map (exprVal sql))), (key "ascending", .bool s.asc)]

/-- The lookup key. -/
def lookupVal (sql : Sql P E) : Lookup F E → Val F
  | .none => .none
  | .expr e => exprVal sql e
  | .raw v => v

/-- The entries of additional parameters. -/
def extraEntries (l : List (Str × Val F)) : List (Key F × Val F) := l.map fun e => (.str e.1, e.2)

/-- `PlanParams.__json__` (postbound/_qep.py:233-241, 375-376) -/
def paramsVal (sql : Sql P E) (p : Params F P E) : Val F :=
  obj ([(key "base_table", optVal tableVal p.base), (key "filter_predicate", optVal (predVal sql) p.filter),
    (key "sort_keys", .tuple (p.sortKeys.map (sortVal sql))), (key "parallel_workers", p.workers), (key "index", p.index),
    (key "lookup_key", lookupVal sql p.lookup)] ++ extraEntries p.extra)

/-- `PlanEstimates.__json__` (postbound/_qep.py:458, 518-519) -/
def estVal (num : Num F) (e : Estimates F) : Val F :=
  obj ([(key "cardinality", cardVal num e.card), (key "cost", e.cost)] ++ extraEntries e.extra)

/-- `PlanMeasures.__json__` (postbound/_qep.py:606-612, 688-689) -/
def measVal (num : Num F) (m : Measures F) : Val F :=
  obj ([(key "cardinality", cardVal num m.card), (key "execution_time", m.time), (key "cache_hits", m.hits),
    (key "cache_misses", m.misses)] ++ extraEntries m.extra)

mutual
/-- `QueryPlan.__json__` and `Subplan.__json__` (postbound/_qep.py:781-782, 1889-1898) -/
def planVal (num : Num F) (sql : Sql P E) : Plan F P E → Val F
  | .node n cs sub => obj [(key "node_type", .str n.type), (key "operator", optVal operatorVal n.operator),
      (key "children", .tuple (planVals num sql cs)), (key "plan_params", paramsVal sql n.params),
      (key "estimates", estVal num n.est), (key "measures", measVal num n.meas), (key "subplan", subVal num sql n.target sub)]
/-- The children. -/
def planVals (num : Num F) (sql : Sql P E) : List (Plan F P E) → List (Val F)
  | [] => []
  | p :: ps => planVal num sql p :: planVals num sql ps
/-- The subplan. -/
def subVal (num : Num F) (sql : Sql P E) (target : Str) : Option (Plan F P E) → Val F
  | none => .none
  | some r => obj [(key "root", planVal num sql r), (key "target_name", .str target)]
end

/-! ### Reading -/

mutual
/-- The Python value of a document. -/
def loaded : Json F → Val F
  | .null => .none
  | .bool b => .bool b
  | .int i => .int i
  | .flt f => .flt f
  | .str s => .str s
  | .arr l => .list (loadedL l)
  | .obj l => .dict (loadedE l)
/-- The elements of a list. -/
def loadedL : List (Json F) → List (Val F)
  | [] => []
  | v :: l => loaded v :: loadedL l
/-- The entries of a dictionary. -/
def loadedE : List (Str × Json F) → List (Key F × Val F)
  | [] => []
  | (k, v) :: l => (.str k, loaded v) :: loadedE l
end

/-- `bool(v)` -/
def truthy (num : Num F) : Val F → Bool
  | .none => false
  | .bool b => b
  | .int i => decide (i ≠ 0)
  | .flt (.fin x) => !num.isZero x
  | .str s => !s.isEmpty
  | .list l => !l.isEmpty
  | .tuple l => !l.isEmpty
  | .set l => !l.isEmpty
  | .dict l => !l.isEmpty
  | _ => true

/-- The entries of a dictionary; `none` is the `AttributeError` or `TypeError` of other values. -/
def entries : Json F → Option (List (Str × Json F))
  | .obj l => some l
  | _ => none

/-- `json_data.get(key)` -/
def field (l : List (Str × Json F)) (k : String) : Option (Json F) := Dict.get? l k.toList

/-- A string or `None`; other values are refused (Python refuses them when it normalises the name, unless they are
falsy). -/
def strField (l : List (Str × Json F)) (k : String) : Option Str :=
  match field l k with
  | none => some []
  | some .null => some []
  | some (.str s) => some s
  | _ => none

/-- A boolean; other values are refused (a simplification: Python stores any value). -/
def boolField (l : List (Str × Json F)) (k : String) : Option Bool :=
  match field l k with
  | none => some false
  | some (.bool b) => some b
  | _ => none

/-- `load_table_json` for non-empty dictionaries (postbound/parser.py:2379-2400); strings that contain a table are not
modelled. -/
def readTable (j : Json F) : Option Table :=
  (entries j).bind fun l => (strField l "full_name").bind fun n => (strField l "alias").bind fun a =>
    (boolField l "virtual").bind fun v => (strField l "schemaname").bind fun s => mkTable n a v s

/-- A list of tables. -/
def readTables : Json F → Option (List Table)
  | .arr l => l.mapM readTable
  | _ => none

/-- `load_predicate_json` (postbound/parser.py:2475-2512) for non-empty dictionaries. -/
def readPred (sql : Sql P E) (j : Json F) : Option P :=
  (entries j).bind fun l => (readTables ((field l "tables").getD (.arr []))).bind fun ts =>
    if ts.isEmpty then none
    else match field l "predicate" with
      | some (.str s) => sql.parse ts s
      | _ => none

/-- The operator with a given value (`ScanOperator(value)` etc.). -/
def opOf (s : Str) : Option PhysOp := PB.Hints.allOps.find? fun o => (opText o).toList = s

/-- A scan operator. -/
def scanOpOf : Option (Json F) → Option ScanOp
  | some (.str s) => match opOf s with
    | some (.scan o) => some o
    | _ => none
  | _ => none

/-- A join operator. -/
def joinOpOf : Option (Json F) → Option JoinOp
  | some (.str s) => match opOf s with
    | some (.join o) => some o
    | _ => none
  | _ => none

/-- The second part of `read_operator_json` (postbound/opt/_helpers.py:60-86). The assignments store sets of tables. -/
def readAssignment (num : Num F) (j : Json F) : Option (Operator F) :=
  (entries j).bind fun l =>
    let w := loaded ((field l "parallel_workers").getD (.flt .nan))
    match field l "table" with
    | some t => (readTable t).bind fun t => (scanOpOf (field l "operator")).map fun o => .scan o t w
    | none =>
      if (field l "join").isNone ∧ ¬ ((field l "inner").isSome ∧ (field l "outer").isSome) then none
      else (field l "directional").bind fun d => (joinOpOf (field l "operator")).bind fun o =>
        if truthy num (loaded d) then
          (field l "inner").bind fun i => (readTables i).bind fun i =>
            (field l "outer").bind fun u => (readTables u).bind fun u =>
              if i.isEmpty ∨ u.isEmpty ∨ (i ++ u).dedup.length < 2 then none else some (.djoin o i.dedup u.dedup w)
        else (field l "join").bind fun ts => (readTables ts).bind fun ts =>
          if ts.length < 2 then none else some (.join o ts.dedup w)

/-- `read_operator_json` (postbound/opt/_helpers.py:32-86): the outer `none` is an exception, the inner one is `None`. -/
def readOperator (ft : FloatText F) (num : Num F) (j : Json F) : Option (Option (Operator F)) :=
  if !truthy num (loaded j) then some none
  else match j with
    | .str s => match opOf s with
      | some o => some (some (.op o))
      | none => (loads ft s).bind fun j => (readAssignment num j).map some
    | j => (readAssignment num j).map some

/-- `Cardinality(value)` (postbound/_core.py:67-71) for values of JSON documents; `none` is a `TypeError`. -/
def readCard (num : Num F) : Json F → Option Count
  | .int i => some (.val i)
  | .bool b => some (.val (if b then 1 else 0))
  | .flt (.fin x) => some (.val (num.round x))
  | .flt .nan => some .nan
  | .flt _ => some .inf
  | _ => none

/-- The entries with other keys. -/
def others (names : List String) (l : List (Str × Json F)) : List (Str × Val F) :=
  (l.filter fun e => !(names.map String.toList).contains e.1).map fun e => (e.1, loaded e.2)

/-- A falsy value is replaced by a default (postbound/_qep.py:237-239). -/
def orElse (num : Num F) (v : Option (Json F)) (d : Val F) : Val F :=
  match v with
  | none => d
  | some j => if truthy num (loaded j) then loaded j else d

/-- An optional entry: absent and falsy values yield `None`. -/
def optRead {α : Type} (num : Num F) (read : Json F → Option α) (v : Option (Json F)) : Option (Option α) :=
  match v with
  | none => some none
  | some j => if truthy num (loaded j) then (read j).map some else some none

/-- The loop over the sort keys (postbound/opt/_helpers.py:556-563): `SortKey.of` is called with two positional
arguments, which is a `TypeError` in the first iteration. -/
def readSortKeys : Option (Json F) → Option (List (SortKey E))
  | none => some []
  | some (.arr []) => some []
  | some (.obj []) => some []
  | some (.str []) => some []
  | _ => none

/-- The lookup key: the value is stored as it is in the document. -/
def readLookup (num : Num F) : Option (Json F) → Lookup F E
  | none => .none
  | some j => if truthy num (loaded j) then .raw (loaded j) else .none

/-- The parameters (postbound/opt/_helpers.py:546-577): `parallel_workers` and `lookup_key` are among the additional
parameters and arrive as they are in the document. -/
def readParams (num : Num F) (sql : Sql P E) (j : Json F) : Option (Params F P E) :=
  (entries j).bind fun l => (optRead num readTable (field l "base_table")).bind fun b =>
    (optRead num (readPred sql) (field l "filter_predicate")).bind fun f =>
      (readSortKeys (field l "sort_keys")).map fun s =>
        { base := b, filter := f, sortKeys := s,
          workers := orElse num (field l "parallel_workers") (.int 0),
          index := orElse num (field l "index") (.str []),
          lookup := readLookup num (field l "lookup_key"),
          extra := others ["base_table", "filter_predicate", "sort_keys", "parallel_workers", "index", "lookup_key"] l }

/-- The estimates (postbound/opt/_helpers.py:579-589). -/
def readEst (num : Num F) (j : Json F) : Option (Estimates F) :=
  (entries j).bind fun l => (readCard num ((field l "cardinality").getD (.flt .nan))).map fun c =>
    ⟨c, loaded ((field l "cost").getD (.flt .nan)), others ["cardinality", "cost"] l⟩

/-- The measures (postbound/opt/_helpers.py:591-607). -/
def readMeas (num : Num F) (j : Json F) : Option (Measures F) :=
  (entries j).bind fun l => (readCard num ((field l "cardinality").getD (.flt .nan))).map fun c =>
    ⟨c, loaded ((field l "execution_time").getD (.flt .nan)), loaded ((field l "cache_hits").getD .null),
      loaded ((field l "cache_misses").getD .null), others ["cardinality", "execution_time", "cache_hits", "cache_misses"] l⟩

/-- The children. -/
def readList {α : Type} (read : Json F → Option α) : Json F → Option (List α)
  | .arr l => l.mapM read
  | _ => none

/-- The type of a node (postbound/_qep.py:952-953); other values than strings are refused (a simplification). -/
def readType : Option (Json F) → Option Str
  | some (.str s) => if s.isEmpty then none else some s
  | _ => none

/-- `read_query_plan_json` (postbound/opt/_helpers.py:530-627) for documents up to the given depth. The root of a subplan
is passed to the parser of SQL queries, which does not accept dictionaries. -/
def readPlan (ft : FloatText F) (num : Num F) (sql : Sql P E) : Nat → Json F → Option (Plan F P E)
  | 0, _ => none
  | n + 1, j => (entries j).bind fun l => (readType (field l "node_type")).bind fun ty =>
      (readOperator ft num ((field l "operator").getD .null)).bind fun op =>
        (readList (readPlan ft num sql n) ((field l "children").getD (.arr []))).bind fun cs =>
          (readParams num sql ((field l "plan_params").getD (.obj []))).bind fun ps =>
            (readEst num ((field l "estimates").getD (.obj []))).bind fun es =>
              (readMeas num ((field l "measures").getD (.obj []))).bind fun ms =>
                if truthy num (loaded ((field l "subplan").getD (.obj []))) then none
                else some (.node ⟨ty, op, ps, es, ms, []⟩ cs none)

mutual
/-- The depth of a document. -/
def depth : Json F → Nat
  | .arr l => depthL l + 1
  | .obj l => depthE l + 1
  | _ => 0
/-- The elements of a list. -/
def depthL : List (Json F) → Nat
  | [] => 0
  | v :: l => max (depth v) (depthL l)
/-- The entries of a dictionary. -/
def depthE : List (Str × Json F) → Nat
  | [] => 0
  | (_, v) :: l => max (depth v) (depthE l)
end

/-- `read_query_plan_json` for texts. -/
def readPlanText (ft : FloatText F) (num : Num F) (sql : Sql P E) (s : Str) : Option (Plan F P E) :=
  (loads ft s).bind fun j => readPlan ft num sql (depth j) j

/-- `read_operator_json` for texts. The text of an operator is in quotes; it is loaded by `json.loads` if it is not the
value of an operator. -/
def readOperatorText (ft : FloatText F) (num : Num F) (s : Str) : Option (Option (Operator F)) :=
  readOperator ft num (.str s)

end PB.PlanJson
