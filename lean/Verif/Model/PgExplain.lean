import Verif.Model.QueryPlan

/-! Model of `PostgresExplainNode` and `PostgresExplainPlan` (postbound/postgres.py:3881-4533): how the JSON output of
Postgres' EXPLAIN becomes a query plan. -/

namespace PB.PgExplain
open PB PB.Hints PB.QP

/-- The keys of one EXPLAIN object that `PostgresExplainNode.__init__` reads (postbound/postgres.py:4046-4084); `none`
is a missing key (or null for the texts). The node type is always present. Plan width, temp blocks and sort keys are
left out: nothing modelled here depends on them. -/
structure Raw where
  nodeType : String
  totalCost : Option Flt := none
  planRows : Option Flt := none
  actualTime : Option Flt := none
  actualRows : Option Flt := none
  actualLoops : Option Flt := none
  relation : Option String := none
  relAlias : Option String := none
  index : Option String := none
  subplanName : Option String := none
  cteName : Option String := none
  filter : Option String := none
  indexCond : Option String := none
  joinFilter : Option String := none
  hashCond : Option String := none
  recheckCond : Option String := none
  parentRel : Option String := none
  launched : Option Nat := none
  planned : Option Nat := none
  sharedRead : Option Flt := none
  sharedHit : Option Flt := none
deriving DecidableEq

/-- `PostgresExplainNode`: the attributes and `children` (postbound/postgres.py:4085-4087). -/
inductive XNode where
  | node (raw : Raw) (children : List XNode)

/-- The attributes of a node. -/
def XNode.raw : XNode → Raw
  | .node r _ => r

/-- `children` (postbound/postgres.py:4085-4087) -/
def XNode.children : XNode → List XNode
  | .node _ cs => cs

/-- `cost` (postbound/postgres.py:4049) -/
def Raw.cost (r : Raw) : Flt := r.totalCost.getD .nan

/-- `cardinality_estimate` (postbound/postgres.py:4050) -/
def Raw.estimate (r : Raw) : Flt := r.planRows.getD .nan

/-- Division of a number by 1000 (postbound/postgres.py:4052, 4445, 4448). -/
def toSeconds : Flt → Flt
  | .fin q => .fin (q / 1000)
  | f => f

/-- `execution_time` (postbound/postgres.py:4051-4053) -/
def Raw.time (r : Raw) : Flt := toSeconds (r.actualTime.getD .nan)

/-- `loops` (postbound/postgres.py:4058) -/
def Raw.loops (r : Raw) : Flt := r.actualLoops.getD (.fin 1)

/-- `launched_workers` (postbound/postgres.py:4074) -/
def Raw.launchedWorkers (r : Raw) : Nat := r.launched.getD 0

/-- `planned_workers` (postbound/postgres.py:4075) -/
def Raw.plannedWorkers (r : Raw) : Nat := r.planned.getD 0

/-- `true_cardinality` (postbound/postgres.py:4109-4119) -/
def Raw.trueCard (r : Raw) : Flt :=
  if r.nodeType = "BitmapAnd" ∨ r.nodeType = "BitmapOr" then .nan else r.actualRows.getD .nan

/-- `PostgresExplainJoinNodes` (postbound/postgres.py:3881-3885) -/
def joinNodes : List (String × JoinOp) := [("Nested Loop", .nlj), ("Hash Join", .hash), ("Merge Join", .merge)]

/-- `PostgresExplainScanNodes` (postbound/postgres.py:3888-3893) -/
def scanNodes : List (String × ScanOp) :=
  [("Seq Scan", .seqScan), ("Index Scan", .idxScan), ("Index Only Scan", .idxOnlyScan),
   ("Bitmap Heap Scan", .bitmapScan)]

/-- `PostgresExplainIntermediateNodes` (postbound/postgres.py:3896-3900) -/
def interNodes : List (String × InterOp) := [("Materialize", .materialize), ("Memoize", .memoize), ("Sort", .sort)]

/-- `is_scan` (postbound/postgres.py:4121-4132) -/
def Raw.isScan (r : Raw) : Bool := (scanNodes.lookup r.nodeType).isSome

/-- `is_join` (postbound/postgres.py:4134-4142) -/
def Raw.isJoin (r : Raw) : Bool := (joinNodes.lookup r.nodeType).isSome

/-- Whether a number is nan (`math.isnan`). -/
def isNan : Flt → Bool
  | .nan => true
  | _ => false

/-- `is_analyze` (postbound/postgres.py:4144-4157) -/
def Raw.isAnalyze (r : Raw) : Bool := !isNan r.time

/-- `parse_table` (postbound/postgres.py:4202-4218): the full name and the alias of a table reference. -/
def Raw.table (r : Raw) : Option (String × String) :=
  match r.relation with
  | none => none
  | some n =>
    if n = "" then none
    else some (n, match r.relAlias with
      | none => ""
      | some a => if a ≠ n then a else "")

/-- The selection of the operator in `_generate_qep` (postbound/postgres.py:4284-4289). -/
def Raw.operator (r : Raw) : Option PhysOp :=
  if r.isScan then (scanNodes.lookup r.nodeType).map PhysOp.scan
  else if r.isJoin then (joinNodes.lookup r.nodeType).map PhysOp.join
  else (interNodes.lookup r.nodeType).map PhysOp.inter

/-- The selection of the parallel workers in `_generate_qep` (postbound/postgres.py:4303-4308). -/
def Raw.parWorkers (r : Raw) : Option Nat :=
  if r.launchedWorkers > 0 then some r.launchedWorkers
  else if r.plannedWorkers > 0 then some r.plannedWorkers
  else none

/-- `shared_hits`, `shared_misses` (postbound/postgres.py:4296-4301) -/
def blocks (f : Option Flt) : Option Flt :=
  if isNan (f.getD .nan) then none else some (f.getD .nan)

/-- `a or b` on texts that may be None (postbound/postgres.py:4279). -/
def orElseText (a b : Option String) : Option String :=
  match a with
  | some s => if s = "" then b else some s
  | none => b

/-- The attributes of a `QueryPlan` that `_generate_qep` sets (postbound/postgres.py:4310-4326). `planName` is the extra
parameter `subplan_name`, `target` the name of the subplan (`subplan.target_name`, postbound/_qep.py:1010-1011). -/
structure QInfo where
  nodeType : String
  op : Option PhysOp
  table : Option (String × String)
  workers : Nat
  index : String
  cost : Flt
  estCard : Card
  actCard : Card
  time : Flt
  hits : Option Flt
  misses : Option Flt
  planName : Option String
  target : String
deriving DecidableEq

/-- The resulting `QueryPlan`. -/
inductive QNode where
  | node (info : QInfo) (children : List QNode) (subplan : Option QNode)

/-- The root's attributes. -/
def QNode.info : QNode → QInfo
  | .node i _ _ => i

/-- `children` -/
def QNode.children : QNode → List QNode
  | .node _ cs _ => cs

/-- `subplan.root` -/
def QNode.subplan : QNode → Option QNode
  | .node _ _ s => s

/-- The variables of the loop in `_generate_qep` (postbound/postgres.py:4243-4244). -/
structure Acc where
  inner : Option QNode
  outer : Option QNode
  sub : Option QNode
  members : List QNode

/-- `child_adjustment` (postbound/postgres.py:4249-4251) -/
def childAdj (adj : Nat) (r : Raw) : Nat := if adj > 1 then adj else r.plannedWorkers + 1

/-- The dispatch on the parent relationship (postbound/postgres.py:4257-4269); `none` is the `ValueError` (or the
`AssertionError` of formatting its message). -/
def Acc.add (a : Acc) (rel : Option String) (q : QNode) : Option Acc :=
  match rel with
  | none => none
  | some s =>
    if s = "Inner" then some { a with inner := some q }
    else if s = "Outer" then some { a with outer := some q }
    else if s = "SubPlan" ∨ s = "InitPlan" ∨ s = "Subquery" then some { a with sub := some q }
    else if s = "Member" then some { a with members := a.members ++ [q] }
    else none

/-- The assembly of `child_nodes` (postbound/postgres.py:4271-4276). A plan is always true in a boolean context
(its depth is at least one, postbound/_qep.py:1922-1923). -/
def Acc.childNodes (a : Acc) : List QNode :=
  match a.inner, a.outer with
  | some i, some o => [o, i] ++ a.members
  | none, some o => o :: a.members
  | some i, none => i :: a.members
  | none, none => a.members

/-- Multiplication with the adjustment (postbound/postgres.py:4282). -/
def times (f : Flt) (n : Nat) : Flt := Flt.mul f (.fin n)

/-- The keyword arguments of the `QueryPlan` (postbound/postgres.py:4278-4326). The name of the subplan is passed as
`subplan_name`, which is not a parameter of `QueryPlan` and becomes an extra plan parameter; `subplan_target_name`
keeps its default. Missing workers and indexes become 0 and "" (postbound/_qep.py:237-238). -/
def Raw.info (r : Raw) (adj : Nat) : QInfo where
  nodeType := r.nodeType
  op := r.operator
  table := r.table
  workers := r.parWorkers.getD 0
  index := r.index.getD ""
  cost := r.cost
  estCard := Card.ofFlt (times r.estimate adj)
  actCard := Card.ofFlt (Flt.mul r.trueCard r.loops)
  time := r.time
  hits := blocks r.sharedHit
  misses := blocks r.sharedRead
  planName := orElseText r.subplanName r.cteName
  target := ""

/-- `QueryPlan(…)` at the end of `_generate_qep` (postbound/postgres.py:4310-4328); `none` is the `ValueError` for an
empty node type (postbound/_qep.py:952-953). -/
def finish (adj : Nat) (r : Raw) (a : Acc) : Option QNode :=
  if r.nodeType = "" then none else some (.node (r.info adj) a.childNodes a.sub)

mutual
/-- `_generate_qep` (postbound/postgres.py:4242-4328) -/
def qep (adj : Nat) : XNode → Option QNode
  | .node r cs => (collect (childAdj adj r) ⟨none, none, none, []⟩ cs).bind (finish adj r)
/-- The loop over the children (postbound/postgres.py:4253-4269). -/
def collect (adj : Nat) (acc : Acc) : List XNode → Option Acc
  | [] => some acc
  | c :: cs => (qep adj c).bind fun q => (acc.add c.raw.parentRel q).bind fun acc' => collect adj acc' cs
end

/-- `as_qep` (postbound/postgres.py:4220-4240) -/
def asQep (x : XNode) : Option QNode := qep 1 x

/-- `__eq__` (postbound/postgres.py:4372-4379) -/
def XNode.pyEq : XNode → XNode → Bool
  | .node r cs, .node r' cs' =>
    r.nodeType == r'.nodeType && r.relation == r'.relation && r.relAlias == r'.relAlias &&
      cs.length == cs'.length && ((cs.map fun c => c.pyEq).zip cs').all fun e => e.1 e.2

/-- The hashed tuple (postbound/postgres.py:4090-4107). -/
inductive HKey
  | mk (texts : List (Option String)) (launched : Nat) (children : List HKey)

/-- `__hash__` (postbound/postgres.py:4090-4107, 4369-4370) -/
def XNode.hashKey : XNode → HKey
  | .node r cs =>
    .mk [some r.nodeType, r.relation, r.relAlias, r.index, r.subplanName, r.cteName, r.filter, r.indexCond,
         r.joinFilter, r.hashCond, r.recheckCond, r.parentRel] r.launchedWorkers (cs.map fun c => c.hashKey)

/-- `inner_outer_children` (postbound/postgres.py:4180-4200): for two children the pair (inner, outer); `none` is the
`AssertionError`. -/
def XNode.innerOuter : XNode → Option (List XNode)
  | .node _ [] => some []
  | .node _ [c] => some [c]
  | .node _ [a, b] =>
    let inner := if a.raw.parentRel = some "Inner" then a else b
    let outer := if b.pyEq inner then a else b
    some [inner, outer]
  | .node _ _ => none

/-- One line of `inspect` (postbound/postgres.py:4344-4352): its indentation and either the header of a subplan (with
its name) or a node. -/
inductive Line where
  | header (indent : Nat) (rel : String) (name : String)
  | entry (indent : Nat) (raw : Raw)
deriving DecidableEq

/-- The lines of one node (postbound/postgres.py:4344-4352). -/
def ownLines (indent : Nat) (r : Raw) : List Line :=
  (if r.parentRel = some "InitPlan" ∨ r.parentRel = some "SubPlan" then
    [Line.header (indent - 2) (r.parentRel.getD "") (r.subplanName.getD "")] else []) ++ [.entry indent r]

/-- `inspect` (postbound/postgres.py:4330-4356) as a list of lines -/
def XNode.inspect (indent : Nat) : XNode → List Line
  | .node r cs => ownLines indent r ++ (cs.map fun c => c.inspect (indent + 2)).flatten

/-- The JSON document that `PostgresExplainPlan` receives: an object (with or without "Plan") or a list of them
(postbound/postgres.py:4435-4442). -/
structure Doc where
  plan : Option XNode
  planning : Option Flt := none
  execution : Option Flt := none

/-- `explain_data` (postbound/postgres.py:4435) -/
inductive Input where
  | obj (d : Doc)
  | list (ds : List Doc)

/-- `PostgresExplainPlan` (postbound/postgres.py:4444-4451) -/
structure XPlan where
  planningTime : Flt
  executionTime : Flt
  root : XNode
  normalized : QNode

/-- The document that is used (postbound/postgres.py:4436-4438); `none` is the `IndexError` for an empty list. -/
def Input.doc : Input → Option Doc
  | .obj d => some d
  | .list ds => ds.head?

/-- `PostgresExplainPlan.__init__` (postbound/postgres.py:4435-4451); `none` is any exception. -/
def mkPlan (inp : Input) : Option XPlan :=
  inp.doc.bind fun d => d.plan.bind fun x => (asQep x).bind fun q =>
    some ⟨toSeconds (d.planning.getD .nan), toSeconds (d.execution.getD .nan), x, q⟩

/-- The plan as the plan model of `Model/QueryPlan` sees it; `enc` numbers the table references, the filter and the
lookup key are never set by `_generate_qep`. -/
def QNode.toPlan (enc : String × String → Nat) : QNode → Plan
  | .node i cs s =>
    .node { nodeType := i.nodeType, op := i.op, base := i.table.map enc, filterTables := ∅, lookupTables := ∅,
            workers := i.workers, estCard := i.estCard, estCost := i.cost, actCard := i.actCard,
            execTime := i.time, hits := i.hits.map fun _ => 0, subTarget := none }
      (cs.map fun c => c.toPlan enc) (match s with | none => none | some r => some (r.toPlan enc))

end PB.PgExplain
