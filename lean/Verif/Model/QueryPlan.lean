import Verif.Model.Hints
import Verif.Model.JoinTree

/-! Model of `QueryPlan` (postbound/_qep.py:736-1974), of the extraction functions in
postbound/_hints.py:1766-1872, of `compare_query_plans` (postbound/opt/_analysis.py:562-673) and of the plan
builders in postbound/opt/_helpers.py:309-627. -/

namespace PB.QP
open PB PB.Hints

/-- The attributes of one plan node (`PlanParams`, `PlanEstimates`, `PlanMeasures`, postbound/_qep.py:222-241,
446-458, 592-612) as far as they matter here. Filter predicate and lookup key are represented by their tables;
`hits` stands for the cache counters, `subTarget` is the virtual table of a named subplan. -/
structure Info where
  nodeType : String
  op : Option PhysOp
  base : Option Nat
  filterTables : Finset Nat
  lookupTables : Finset Nat
  workers : Nat
  estCard : Card
  estCost : Flt
  actCard : Card
  execTime : Flt
  hits : Option Nat
  subTarget : Option Nat
deriving DecidableEq

/-- A plan node with children and an optional subplan (postbound/_qep.py:1013-1031). -/
inductive Plan where
  | node (info : Info) (children : List Plan) (subplan : Option Plan)

/-- The root's attributes. -/
def Plan.info : Plan → Info
  | .node i _ _ => i

/-- `children` (postbound/_qep.py:1055-1062) -/
def Plan.children : Plan → List Plan
  | .node _ cs _ => cs

/-- `subplan` (postbound/_qep.py:1230-1232) -/
def Plan.subplan : Plan → Option Plan
  | .node _ _ s => s

/-- `is_join` (postbound/_qep.py:1256-1258) -/
def Info.isJoin (i : Info) : Bool := match i.op with
  | some (.join _) => true
  | _ => false

/-- `is_scan` (postbound/_qep.py:1260-1262) -/
def Info.isScan (i : Info) : Bool := match i.op with
  | some (.scan _) => true
  | _ => false

/-- `is_auxiliary` (postbound/_qep.py:1264-1266) -/
def Info.isAux (i : Info) : Bool := !i.isJoin && !i.isScan

/-- `is_analyze` (postbound/_qep.py:1268-1270, 722-726): some measure is neither missing nor nan. -/
def Info.isAnalyze (i : Info) : Bool :=
  !i.actCard.nan || (match i.execTime with | .nan => false | _ => true) || i.hits.isSome

/-- The set holding a table, if there is one. -/
def optSet (o : Option Nat) : Finset Nat := match o with
  | some t => {t}
  | none => ∅

/-- `PlanParams.tables` (postbound/_qep.py:299-318) -/
def Info.ownTables (i : Info) : Finset Nat :=
  optSet i.base ∪ i.filterTables ∪ i.lookupTables

/-- `set_union` (postbound/util/collections.py:303-319) -/
def setUnion (l : List (Finset Nat)) : Finset Nat := l.foldl (fun acc s => acc ∪ s) ∅

/-- `tables` (postbound/_qep.py:1392-1404, 753-764) -/
def Plan.tables : Plan → Finset Nat
  | .node i cs s =>
    i.ownTables ∪ setUnion (cs.map fun c => c.tables) ∪
      (match s with
       | none => ∅
       | some r => r.tables ∪ optSet i.subTarget)

/-- `plan_depth` (postbound/_qep.py:1360-1366) -/
def Plan.depth : Plan → Nat
  | .node _ cs _ => 1 + (cs.map fun c => c.depth).foldl max 0

/-- `iternodes` (postbound/_qep.py:1418-1420) -/
def Plan.iternodes : Plan → List Plan
  | .node i cs s => (cs.map fun c => c.iternodes).flatten ++ [.node i cs s]

/-- `__iter__` (postbound/_qep.py:1948-1953) -/
def Plan.iter : Plan → List Plan
  | .node i cs s =>
    .node i cs s :: ((cs.map fun c => c.iter).flatten ++
      (match s with | none => [] | some r => r.iter))

/-- `lookup` (postbound/_qep.py:1422-1455) -/
def Plan.lookup (n : Finset Nat) : Plan → Option Plan
  | .node i cs s =>
    if n = (Plan.node i cs s).tables then some (.node i cs s)
    else if ¬ n ⊆ (Plan.node i cs s).tables then none
    else (cs.map fun c => c.lookup n).findSome? id

/-- `find_first_node` (postbound/_qep.py:1457-1517); the outer `none` is an exception (`None.find_first_node` for a
node with three or more children); `outer` is `direction == "outer"`. -/
def Plan.findFirst (p : Plan → Bool) (outer : Bool) : Plan → Option (Option Plan)
  | .node i cs s =>
    if p (.node i cs s) then some (some (.node i cs s))
    else match cs.map fun c => c.findFirst p outer with
      | [] => some none
      | [r] => r
      | [a, b] =>
        match (if outer then a else b) with
        | none => none
        | some (some m) => some (some m)
        | some none =>
          match (if outer then b else a) with
          | none => none
          | some (some m) => some (some m)
          | some none =>
            match s with
            | none => some none
            | some r => r.findFirst p outer
      | _ => none

/-- `find_all_nodes` (postbound/_qep.py:1519-1548) -/
def Plan.findAll (p : Plan → Bool) : Plan → List Plan
  | .node i cs s =>
    (if p (.node i cs s) then [.node i cs s] else []) ++ (cs.map fun c => c.findAll p).flatten ++
      (match s with | none => [] | some r => r.findAll p)

/-- `is_scan_branch` (postbound/_qep.py:1334-1344) -/
def Plan.isScanBranch : Plan → Bool
  | .node i cs _ => i.isScan || (match cs.map fun c => c.isScanBranch with | [b] => b | _ => false)

/-- `is_base_join` (postbound/_qep.py:1346-1358) -/
def Plan.isBaseJoin (p : Plan) : Bool := p.info.isJoin && p.children.all Plan.isScanBranch

/-- `is_linear` (postbound/_qep.py:1276-1288); `none` is an exception. -/
def Plan.isLinear : Plan → Option Bool
  | .node i cs _ =>
    if i.isScan then some true
    else match cs with
      | [o, n] => do
        let oj ← o.findFirst (·.info.isJoin) true
        let ij ← n.findFirst (·.info.isJoin) true
        some (oj.isNone || ij.isNone)
      | _ => none

/-- `is_bushy` (postbound/_qep.py:1290-1299); `none` is an exception. -/
def Plan.isBushy : Plan → Option Bool
  | .node i cs _ =>
    if i.isScan then some false
    else match cs with
      | [o, n] => do
        let oj ← o.findFirst (·.info.isJoin) true
        let ij ← n.findFirst (·.info.isJoin) true
        some (oj.isSome && ij.isSome)
      | _ => none

/-- `is_left_deep` (postbound/_qep.py:1301-1310) -/
def Plan.isLeftDeep : Plan → Option Bool
  | .node i cs _ =>
    if i.isScan then some true
    else match cs with
      | [_, n] => do
        let ij ← n.findFirst (·.info.isJoin) true
        some ij.isNone
      | _ => none

/-- `is_right_deep` (postbound/_qep.py:1312-1321) -/
def Plan.isRightDeep : Plan → Option Bool
  | .node i cs _ =>
    if i.isScan then some true
    else match cs with
      | [o, _] => do
        let oj ← o.findFirst (·.info.isJoin) true
        some oj.isNone
      | _ => none

/-- `fetch_base_table` (postbound/_qep.py:1368-1380) -/
def Plan.fetchBase : Plan → Option Nat
  | .node i cs _ =>
    if i.isScan then i.base
    else if i.isJoin then none
    else match cs.map fun c => c.fetchBase with
      | [r] => r
      | _ => none

/-- Evaluating a list comprehension whose elements may raise. -/
def allSome {α : Type} : List (Option α) → Option (List α)
  | [] => some []
  | none :: _ => none
  | some a :: l => (allSome l).map (a :: ·)

/-- `canonical` (postbound/_qep.py:1793-1839); `none` is an exception (`None.canonical()`). -/
def Plan.canonical : Plan → Option Plan
  | .node i cs s =>
    match (match s with | none => some none | some r => r.canonical.map some) with
    | none => none
    | some s' =>
      if i.isScan then some (.node i [] s')
      else if i.isJoin then
        (allSome (cs.map fun c => c.canonical)).map fun cs' => .node i cs' s'
      else match cs.map fun c => c.canonical with
        | [r] => r
        | _ => none

/-- `qerror` (postbound/_qep.py:1575-1596). `max(a, b)`/`min(a, b)` return `a` unless `b > a` / `b < a`; the quotient
of two cardinalities is again a `Cardinality` and hence rounded (postbound/_core.py:163-165). The first `none` is a
`ZeroDivisionError`. -/
def Info.qerror (i : Info) : Option Card :=
  if !i.isAnalyze then some Card.unknown
  else
    let larger := (if i.actCard.gt i.estCard then i.actCard else i.estCard).add (Card.ofInt 1)
    let smaller := (if i.actCard.lt i.estCard then i.actCard else i.estCard).add (Card.ofInt 1)
    larger.truediv smaller

/-- `with_estimates` (postbound/_qep.py:1615-1649) -/
def Plan.withEstimates (card : Option Card) (cost : Option Flt) (keepMeasures : Bool) : Plan → Plan
  | .node i cs s =>
    let i' := { i with estCard := card.getD i.estCard, estCost := cost.getD i.estCost }
    .node (if keepMeasures then i'
           else { i' with actCard := Card.unknown, execTime := .nan, hits := none }) cs s

/-- The updated attributes of `with_actual_card` (postbound/_qep.py:1678-1697). -/
def Info.withActual (i : Info) (newCost : Card → Flt) (ignoreNan : Bool) : Info :=
  let i' := { i with actCard := Card.unknown, execTime := .nan, hits := none }
  if i.actCard.valid then
    let card := if ignoreNan && i.actCard.nan then i.estCard else i.actCard
    { i' with estCard := card, estCost := newCost card }
  else i'

/-- `with_actual_card` (postbound/_qep.py:1651-1720) -/
def Plan.withActual (cost : Option (Plan → Card → Flt)) (ignoreNan : Bool) : Plan → Plan
  | .node i cs s =>
    .node (i.withActual (fun c => match cost with | some f => f (.node i cs s) c | none => .nan) ignoreNan)
      (cs.map fun c => c.withActual cost ignoreNan)
      (match s with | none => none | some r => some (r.withActual cost ignoreNan))

/-- The `kind` argument of `scale_cardinality`. -/
inductive ScaleKind | estimated | actual | both
deriving DecidableEq

/-- The updated attributes of `scale_cardinality` (postbound/_qep.py:1750-1765): new measures keep the execution time
but not the cache counters. `factor * card` is `Cardinality.__rmul__`. -/
def Info.scale (i : Info) (factor : Flt) (k : ScaleKind) : Info :=
  let i' := if k = .estimated ∨ k = .both then { i with estCard := Card.ofFlt (Flt.mul factor i.estCard.get) } else i
  if k = .actual ∨ k = .both then
    { i' with actCard := Card.ofFlt (Flt.mul factor i.actCard.get), hits := none }
  else i'

/-- `scale_cardinality` (postbound/_qep.py:1722-1791) -/
def Plan.scale (factor : Flt) (k : ScaleKind) (recursive : Bool) : Plan → Plan
  | .node i cs s =>
    .node (i.scale factor k)
      (if recursive then cs.map fun c => c.scale factor k recursive else cs)
      (match s with | none => none | some r => some (r.scale factor k recursive))

/-- `__eq__` (postbound/_qep.py:1955-1961): node type, base table and children. -/
def Plan.pyEq : Plan → Plan → Bool
  | .node i cs _, .node i' cs' _ =>
    i.nodeType == i'.nodeType && i.base == i'.base && cs.length == cs'.length &&
      ((cs.map fun c => c.pyEq).zip cs').all fun e => e.1 e.2

/-- The hashed tuple (postbound/_qep.py:1963-1964). -/
inductive HashKey
  | mk (nodeType : String) (base : Option Nat) (children : List HashKey)

/-- `__hash__` (postbound/_qep.py:1963-1964) -/
def Plan.hashKey : Plan → HashKey
  | .node i cs _ => .mk i.nodeType i.base (cs.map fun c => c.hashKey)

/-! ### Extraction -/

/-- Which cardinality to read (postbound/_hints.py:1810-1819). -/
inductive CardSource | estimated | actual | actualOrEstimated
deriving DecidableEq

/-- postbound/_hints.py:1774-1778 and 1810-1819 -/
def Info.card (i : Info) : CardSource → Card
  | .estimated => i.estCard
  | .actual => i.actCard
  | .actualOrEstimated => if i.actCard.valid then i.actCard else i.estCard

/-- `jointree_from_plan` (postbound/_hints.py:1766-1787). A scan without base table yields `JoinTree(base_table=None)`,
i.e. an empty tree. `none` is an exception. -/
def Plan.jointree (src : CardSource) : Plan → Option (JT.Tree Card)
  | .node i cs _ =>
    if i.isScan then
      match i.base with
      | some t => some (.scan .generic t (some (i.card src)))
      | none => some (.empty .generic)
    else if i.isJoin then
      match cs.map fun c => c.jointree src with
      | [o, n] => do
        let o' ← o
        let n' ← n
        some (.join .generic o' n' (some (i.card src)))
      | _ => none
    else match cs.map fun c => c.jointree src with
      | [r] => r
      | _ => none

/-- `parameters_from_plan` (postbound/_hints.py:1790-1835) for query plans. -/
def Plan.params (src : CardSource) : Plan → Params
  | .node i cs s =>
    let tabs := (Plan.node i cs s).tables
    let own : Params :=
      { cards := if (i.card src).nan then [] else [(tabs, i.card src)]
        workers := if i.workers = 0 then [] else [(tabs, i.workers)]
        settings := [], mode := none }
    (cs.map fun c => c.params src).foldl Params.mergeWith own

/-- The assignment for a single node (postbound/_hints.py:1850-1867); `none` is a `ValueError` (unknown operator, or
fewer than two joined tables). Simplification: a scan without base table is treated as an error as well. -/
def nodeOp (i : Info) (tabs : Finset Nat) (workers : Workers) : Option OpAssign :=
  match i.op with
  | some (.scan o) => i.base.map fun t => OpAssign.empty.setScan ⟨o, t, workers⟩
  | some (.join o) =>
    if tabs.card < 2 then none else some (OpAssign.empty.setJoin ⟨o, tabs, workers, none⟩)
  | some (.inter o) => some (OpAssign.empty.setInter o tabs)
  | none => none

/-- Merging the children's assignments (postbound/_hints.py:1869-1871). -/
def mergeOps (acc : Option OpAssign) (c : Option OpAssign) : Option OpAssign := do
  let a ← acc
  let b ← c
  some (a.mergeWith b)

/-- `operators_from_plan` (postbound/_hints.py:1838-1872); `include_workers` is not passed on to the children. -/
def Plan.ops (includeWorkers : Bool) : Plan → Option OpAssign
  | .node i cs s =>
    let results := cs.map fun c => c.ops false
    match i.op, results with
    | none, [r] => r
    | _, _ =>
      results.foldl mergeOps
        (nodeOp i (Plan.node i cs s).tables (if includeWorkers then some i.workers else none))

/-- The cardinality `_make_simple_plan` puts on a node (postbound/opt/_helpers.py:321-327). -/
def simpleCard (cls : JT.Cls) (ann : Option Card) (hint : Option Card) : Card :=
  match hint with
  | some c => if c.valid then c else (match cls with | .logical => ann.getD Card.unknown | .generic => Card.unknown)
  | none => match cls with | .logical => ann.getD Card.unknown | .generic => Card.unknown

/-- A fresh node built from an operator (postbound/_qep.py:952-1031). -/
def opInfo (nodeType : String) (o : PhysOp) (card : Card) : Info :=
  { nodeType := nodeType, op := some o, base := none, filterTables := ∅, lookupTables := ∅, workers := 0,
    estCard := card, estCost := .nan, actCard := Card.unknown, execTime := .nan, hits := none, subTarget := none }

/-- `_make_simple_plan` (postbound/opt/_helpers.py:309-366), reached from `to_query_plan` with default operators. The
base table is not passed to the node, and the predicate is passed as `filter_condition`, which is not the attribute
`filter_predicate`. `hints` are the cardinalities of the plan parameters. `none` is the `StateError` of empty trees. -/
def simplePlan (scanOp : ScanOp) (joinOp : JoinOp) (hints : Finset Nat → Option Card) :
    JT.Tree Card → Option Plan
  | .empty _ => none
  | .scan c t a => some (.node (opInfo "scan" (.scan scanOp) (simpleCard c a (hints {t}))) [] none)
  | .join c o i a => do
    if o.isEmpty || i.isEmpty then none
    let o' ← simplePlan scanOp joinOp hints o
    let i' ← simplePlan scanOp joinOp hints i
    some (.node (opInfo "join" (.join joinOp) (simpleCard c a (hints (o.tables ∪ i.tables)))) [o', i'] none)

/-! ### Comparison -/

/-- `PlanChangeEntry.change_type` (postbound/opt/_analysis.py:487-494) -/
inductive Change | treeStructure | joinDirection | physicalOp | cardEst | costEst | actualCard
deriving DecidableEq

/-- `a != b` for floats. -/
def fltNe : Flt → Flt → Bool
  | .fin a, .fin b => a ≠ b
  | .pinf, .pinf => false
  | .ninf, .ninf => false
  | _, _ => true

/-- `a != b` for cardinalities (postbound/_core.py:364-371); `none` is a `StateError`. -/
def cardNe (a b : Card) : Option Bool :=
  match Card.eq a b with
  | .ok r => some (!r)
  | .error _ => none

/-- The node-level comparison (postbound/opt/_analysis.py:596-648); the cost check tests `left_cost` twice. -/
def compareInfo (l r : Info) : Option (List Change) := do
  let ce ← cardNe l.estCard r.estCard
  let ca ← cardNe l.actCard r.actCard
  some ((if ce && !(l.estCard.nan && r.estCard.nan) then [.cardEst] else []) ++
    (if ca && !(l.actCard.nan && r.actCard.nan) then [.actualCard] else []) ++
    (if fltNe l.estCost r.estCost && !(l.estCost = .nan && l.estCost = .nan) then [.costEst] else []) ++
    (if l.nodeType ≠ r.nodeType then [.physicalOp] else []))

/-- The check for auxiliary nodes (postbound/opt/_analysis.py:578-584); `none` is an exception. -/
def checkNoAux (p : Plan) : Option Unit :=
  match p.findFirst (·.info.isAux) true with
  | some none => some ()
  | _ => none

/-- `compare_query_plans` (postbound/opt/_analysis.py:562-673); `none` is an exception. The last comparison is between
the left plan's outer child and the right plan's inner child. -/
def comparePlans : Plan → Plan → Option (List Change)
  | .node i [lo, li] s, r => do
    let l := Plan.node i [lo, li] s
    checkNoAux l
    checkNoAux r
    if l.tables ≠ r.tables then some [.treeStructure]
    else
      let own ← compareInfo i r.info
      if i.isJoin then
        match r.children with
        | [ro, ri] =>
          if li.tables = ro.tables then do
            let a ← comparePlans li ro
            let b ← comparePlans lo ri
            some (own ++ [.joinDirection] ++ a ++ b)
          else do
            let a ← comparePlans li ri
            let b ← comparePlans lo ri
            some (own ++ a ++ b)
        | _ => none
      else some own
  | .node i cs s, r => do
    let l := Plan.node i cs s
    checkNoAux l
    checkNoAux r
    if l.tables ≠ r.tables then some [.treeStructure]
    else
      let own ← compareInfo i r.info
      if i.isJoin then none else some own

end PB.QP
