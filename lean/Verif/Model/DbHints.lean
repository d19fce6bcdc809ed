import Verif.Model.QueryPlan

/-! Model of the hint generation of the database backends: pg_hint_plan and pg_lab (postbound/postgres.py:2058-2659),
quack_lab (postbound/duckdb.py:658-919) and MySQL (postbound/mysql.py:508-624). Hint lines are structured data; the text
of the join order and of lists of tables is modelled as well. Warnings are not modelled. An exception is `none`. -/

namespace PB.DbHints
open PB PB.Hints PB.QP

variable {A : Type}

deriving instance DecidableEq for JT.Nested

/-- One line of a hint block. -/
inductive Line where
  /-- `Set(geqo off)` (postbound/postgres.py:2229) -/
  | geqoOff
  /-- `Leading(…)` and `JoinOrder(…)`: the tables in the nesting that `_walk_join_order` prints. -/
  | order (t : JT.Nested)
  /-- `JOIN_ORDER(…)` of MySQL (postbound/mysql.py:513) -/
  | orderList (ts : List Nat)
  /-- An operator for an intermediate, with a number of parallel workers if given. -/
  | op (name : String) (tabs : Finset Nat) (workers : Option Nat)
  /-- `Parallel(… n hard)` (postbound/postgres.py:2241, 2263, 2316) -/
  | parallel (tabs : Finset Nat) (n : Nat)
  /-- `Set(…)` for an operator that is globally enabled or disabled. -/
  | set (name : String) (enabled : Bool)
  /-- `Set(…)` for a system setting (postbound/postgres.py:2443). -/
  | setting (name val : String)
  /-- `Rows(… #n)` and `Card(… #n)` -/
  | card (tabs : Finset Nat) (n : Int)
  /-- `Result(workers=n)` (postbound/postgres.py:2499) -/
  | result (n : Nat)
  /-- `Config(plan_mode=…)` (postbound/postgres.py:2374, 2484) -/
  | planMode (s : String)
  /-- `Config(exec_mode=…)` (postbound/postgres.py:2451) -/
  | execMode (s : String)
  /-- The empty line between merged parts (postbound/duckdb.py:726). -/
  | blank
deriving DecidableEq

/-- A generated `Hint` clause: preparatory statements as pairs of a setting and its value, and the lines of the hint
block. -/
structure Block where
  prep : List (String × String)
  lines : List Line

/-! ### Join orders -/

/-- `_walk_join_order` (postbound/postgres.py:2201-2207) and `recurse` (postbound/duckdb.py:811-818) without the text; an
empty tree raises an AttributeError. -/
def walk : JT.Tree A → Option JT.Nested
  | .empty _ => none
  | .scan _ t _ => some (.table t)
  | .join _ o i _ => (walk o).bind fun x => (walk i).map fun y => .pair x y

/-- The text of a join order (postbound/postgres.py:2207). -/
def orderText (name : Nat → List Char) : JT.Nested → List Char
  | .table t => name t
  | .pair a b => '(' :: (orderText name a ++ ' ' :: (orderText name b ++ [')']))

/-- `" ".join(tab.identifier() for tab in tables)` (postbound/postgres.py:2252) -/
def tablesText (name : Nat → List Char) : List Nat → List Char
  | [] => []
  | [t] => name t
  | t :: ts => name t ++ ' ' :: tablesText name ts

/-- The line for the join order: none for fewer than `least` tables (postbound/postgres.py:2231-2233, 2376-2378 with
`least = 2`, postbound/duckdb.py:806-822 with `least = 3`). -/
def orderLine (least : Nat) : Option (JT.Tree A) → Option (List Line)
  | none => some []
  | some t => if t.len < least then some [] else (walk t).map fun n => [.order n]

/-! ### Names -/

/-- Scan operators in `PGHintPlanOptimizerHints` (postbound/postgres.py:2076-2079) -/
def hpScan : ScanOp → String
  | .seqScan => "SeqScan"
  | .idxScan => "IndexOnlyScan"
  | .idxOnlyScan => "IndexOnlyScan"
  | .bitmapScan => "BitmapScan"

/-- Join operators in `PGHintPlanOptimizerHints` and `PGLabOptimizerHints` (postbound/postgres.py:2073-2075, 2093-2095)
and in `_generate_operator_hints` (postbound/duckdb.py:841-849); `none` is the KeyError or the
UnsupportedDatabaseFeatureError. -/
def joinName : JoinOp → Option String
  | .nlj => some "NestLoop"
  | .hash => some "HashJoin"
  | .merge => some "MergeJoin"
  | .indexNlj => none

/-- Other operators in `PGHintPlanOptimizerHints` (postbound/postgres.py:2080); `none`: the operator is ignored. -/
def hpInter : InterOp → Option String
  | .memoize => some "Memoize"
  | _ => none

/-- Scan operators in `PGLabOptimizerHints` (postbound/postgres.py:2096-2099) -/
def labScan : ScanOp → String
  | .seqScan => "SeqScan"
  | .idxScan => "IdxScan"
  | .idxOnlyScan => "IdxScan"
  | .bitmapScan => "BitmapScan"

/-- Other operators in `PGLabOptimizerHints` (postbound/postgres.py:2100-2101) -/
def labInter : InterOp → Option String
  | .materialize => some "Material"
  | .memoize => some "Memo"
  | .sort => none

/-- `PGLabOptimizerHints` (postbound/postgres.py:2092-2102) -/
def labName : PhysOp → Option String
  | .scan o => some (labScan o)
  | .join o => joinName o
  | .inter o => labInter o

/-- `PostgresOptimizerSettings` (postbound/postgres.py:2058-2069) -/
def pgSetting : PhysOp → Option String
  | .join .nlj => some "enable_nestloop"
  | .join .hash => some "enable_hashjoin"
  | .join .merge => some "enable_mergejoin"
  | .join .indexNlj => none
  | .scan .seqScan => some "enable_seqscan"
  | .scan .idxScan => some "enable_indexscan"
  | .scan .idxOnlyScan => some "enable_indexonlyscan"
  | .scan .bitmapScan => some "enable_bitmapscan"
  | .inter .memoize => some "enable_memoize"
  | .inter .materialize => some "enable_material"
  | .inter .sort => some "enable_sort"

/-- `workers > 1`, which is false for nan. -/
def many : Workers → Option Nat
  | some n => if 1 < n then some n else none
  | none => none

/-- All results of a partial function, or none if one of them is missing. -/
def mapAll {α β : Type} (f : α → Option β) : List α → Option (List β)
  | [] => some []
  | x :: xs => (f x).bind fun y => (mapAll f xs).map fun ys => y :: ys

/-! ### pg_hint_plan -/

/-- The loop over the scan operators (postbound/postgres.py:2236-2248): lines and `used_parallel`. -/
def hpScans : Bool → List ScanAssign → List Line × Bool
  | used, [] => ([], used)
  | used, s :: ss =>
    if used = false ∧ (many s.workers).isSome then
      let r := hpScans true ss
      (.op (hpScan s.op) {s.table} none :: .parallel {s.table} ((many s.workers).getD 0) :: r.1, r.2)
    else
      let r := hpScans used ss
      (.op (hpScan s.op) {s.table} none :: r.1, r.2)

/-- The body of the loop over the join operators (postbound/postgres.py:2250-2270). `enum` is the iteration order of a
set of tables. `used_parallel` does not change. -/
def hpJoin (enum : Finset Nat → List Nat) (used : Bool) (j : JoinAssign) : Option (List Line) :=
  (joinName j.op).map fun n =>
    .op n j.join none ::
      (if used then [] else
        match many j.workers with
        | some w => (enum j.join).map fun t => .parallel {t} w
        | none => [])

/-- The lines for other operators (postbound/postgres.py:2272-2282). -/
def hpInters (l : List (Finset Nat × InterOp)) : List Line :=
  l.filterMap fun e => (hpInter e.2).map fun n => .op n e.1 none

/-- The lines for global settings (postbound/postgres.py:2284-2286, 2421-2424). -/
def setLines (l : List (PhysOp × Bool)) : Option (List Line) :=
  mapAll (fun e => (pgSetting e.1).map fun n => .set n e.2) l

/-- The lines for physical operators (postbound/postgres.py:2235-2286) and `used_parallel`. -/
def hpOps (enum : Finset Nat → List Nat) (a : OpAssign) : Option (List Line × Bool) :=
  let s := hpScans false a.scans.values
  (mapAll (hpJoin enum s.2) a.joins.values).bind fun js =>
    (setLines a.globals).map fun gs => (s.1 ++ js.flatten ++ hpInters a.inters ++ gs, s.2)

/-- The lines for cardinalities (postbound/postgres.py:2289-2302, 2427-2440, postbound/duckdb.py:885-889). -/
def cardLines (l : List (Finset Nat × Card)) : List Line :=
  l.filterMap fun e => if e.2.nan then none else if e.2.inf then none else some (.card e.1 e.2.value)

/-- The lines for parallel workers (postbound/postgres.py:2304-2317): the first entry that does not ask for exactly one
worker. -/
def hpWorkers (used : Bool) (l : List (Finset Nat × Nat)) : List Line :=
  if used then [] else ((l.find? fun e => e.2 != 1).map fun e => Line.parallel e.1 e.2).toList

/-- `if phys_ops` (postbound/postgres.py:2235): assignments without any entry contribute no lines anyway. -/
def hpOps? (enum : Finset Nat → List Nat) : Option OpAssign → Option (List Line × Bool)
  | some a => hpOps enum a
  | none => some ([], false)

/-- `if plan_params` (postbound/postgres.py:2288) -/
def hpParams (used : Bool) : Option Params → List Line
  | some p => cardLines p.cards ++ hpWorkers used p.workers
  | none => []

/-- The settings of optional parameters (postbound/postgres.py:2319-2327). -/
def settings? : Option Params → List (String × String)
  | some p => p.settings
  | none => []

/-- `_generate_pghintplan_hints` (postbound/postgres.py:2210-2340). `geqo` is the value of `geqo_threshold`, `n` the
number of tables of the query. -/
def pgHintPlan (enum : Finset Nat → List Nat) (geqo n : Nat) (order : Option (JT.Tree A)) (ops : Option OpAssign)
    (params : Option Params) : Option Block :=
  (orderLine 2 order).bind fun ol =>
    (hpOps? enum ops).map fun os =>
      { prep := settings? params
        lines := (if geqo < n then [Line.geqoOff] else []) ++ ol ++ os.1 ++ hpParams os.2 params }

/-! ### pg_lab -/

/-- The local variables of the loops over the operators (postbound/postgres.py:2381-2414): `used_parallel`, `hint` (the
line of the previous iteration) and the lines. -/
structure Lab where
  used : Bool
  last : Option Line
  lines : List Line

/-- One iteration (postbound/postgres.py:2382-2397, 2400-2414): if the operator should run in parallel, but there is
already a parallel one, `hint` keeps its value. -/
def Lab.step (st : Lab) (e : Option String × Finset Nat × Workers) : Option Lab :=
  e.1.bind fun name =>
    match many e.2.2 with
    | some w =>
      if st.used then st.last.map fun h => { st with lines := st.lines ++ [h] }
      else
        let h := Line.op name e.2.1 (some w)
        some ⟨true, some h, st.lines ++ [h]⟩
    | none =>
      let h := Line.op name e.2.1 none
      some ⟨st.used, some h, st.lines ++ [h]⟩

/-- The operators in the order of the loops. -/
def labEntries (a : OpAssign) : List (Option String × Finset Nat × Workers) :=
  a.scans.values.map (fun s => (some (labScan s.op), {s.table}, s.workers)) ++
    a.joins.values.map fun j => (joinName j.op, j.join, j.workers)

/-- Both loops. -/
def labLoop (st : Lab) (l : List (Option String × Finset Nat × Workers)) : Option Lab := l.foldlM Lab.step st

/-- The lines for physical operators (postbound/postgres.py:2380-2424). -/
def labOps (a : OpAssign) : Option (List Line) :=
  (labLoop ⟨false, none, []⟩ (labEntries a)).bind fun st =>
    (mapAll (fun e => (labInter e.2).map fun n => Line.op n e.1 none) a.inters).bind fun is =>
      (setLines a.globals).map fun gs => st.lines ++ is ++ gs

/-- Integration of the workers (postbound/postgres.py:2351-2372). -/
def labIntegrate (ops : Option OpAssign) (params : Option Params) : Option (Option OpAssign) :=
  match ops, params with
  | some a, some p => if p.workers.isEmpty then some (some a) else (a.integrateWorkers p false).map some
  | ops, _ => some ops

/-- The lines for parameters (postbound/postgres.py:2426-2451). -/
def labParams (p : Params) : List Line :=
  cardLines p.cards ++ p.settings.map (fun e => .setting e.1 e.2) ++
    (match p.mode with
     | none => []
     | some m => [.execMode (if m = "sequential" then "sequential" else "parallel")])

/-- `if phys_ops` (postbound/postgres.py:2380): assignments without any entry contribute no lines anyway. -/
def labOps? : Option OpAssign → Option (List Line)
  | some a => labOps a
  | none => some []

/-- `if plan_params` (postbound/postgres.py:2426) -/
def labParams? : Option Params → List Line
  | some p => labParams p
  | none => []

/-- `_generate_pglab_hints` (postbound/postgres.py:2343-2457). -/
def pgLab (order : Option (JT.Tree A)) (ops : Option OpAssign) (params : Option Params) : Option Block :=
  (labIntegrate ops params).bind fun ops =>
    (orderLine 2 order).bind fun ol =>
      (labOps? ops).map fun os =>
        { prep := [], lines := .planMode "anchored" :: (ol ++ os ++ labParams? params) }

/-! ### Complete plans with pg_lab -/

/-- `_extract_plan_join_order` (postbound/postgres.py:2460-2470); `none` is a failed assertion. -/
def planOrder : Plan → Option JT.Nested
  | .node i cs _ =>
    if i.isScan then i.base.map .table
    else match cs.map fun c => planOrder c with
      | [r] => r
      | [o, n] => o.bind fun x => n.map fun y => .pair x y
      | _ => none

/-- Number of nodes (without subplans). -/
def planSize : Plan → Nat
  | .node _ cs _ => 1 + (cs.map fun c => planSize c).sum

/-- `_iter_plan_bfs` (postbound/postgres.py:2473-2478); the first argument bounds the number of iterations. -/
def bfsLoop : Nat → List Plan → List Plan
  | 0, _ => []
  | _ + 1, [] => []
  | n + 1, p :: queue => p :: bfsLoop n (queue ++ p.children)

/-- `_iter_plan_bfs` (postbound/postgres.py:2473-2478) -/
def bfs (p : Plan) : List Plan := bfsLoop (planSize p) [p]

/-- The local variables of the loop of `_generate_pglab_plan` (postbound/postgres.py:2488-2490). -/
structure Full where
  used : Bool
  upper : Bool
  workers : Option Nat
  lines : List Line

/-- The first part of an iteration (postbound/postgres.py:2492-2507). -/
def Full.enter (st : Full) (i : Info) : Full :=
  let upper := st.upper && !(i.isScan || i.isJoin)
  let workers := if 0 < i.workers then some i.workers else st.workers
  match workers with
  | some w => if upper && !st.used then ⟨true, upper, none, st.lines ++ [.result w]⟩ else ⟨st.used, upper, some w, st.lines⟩
  | none => ⟨st.used, upper, none, st.lines⟩

/-- The line for the operator of a node and the resulting variables (postbound/postgres.py:2516-2529). -/
def Full.emit (st : Full) (name : String) (tabs : Finset Nat) : Full :=
  match st.workers with
  | some w =>
    if st.used then { st with lines := st.lines ++ [.op name tabs none] }
    else ⟨true, st.upper, none, st.lines ++ [.op name tabs (some w)]⟩
  | none => { st with lines := st.lines ++ [.op name tabs none] }

/-- The cardinality of a node (postbound/postgres.py:2531-2533): `or` skips invalid cardinalities. -/
def planCard (i : Info) (tabs : Finset Nat) : List Line :=
  let card := if i.actCard.valid then i.actCard else i.estCard
  if card.valid then [.card tabs card.value] else []

/-- One iteration (postbound/postgres.py:2491-2533). -/
def Full.step (st : Full) (n : Plan) : Full :=
  let st := st.enter n.info
  match n.info.op.bind labName with
  | none => st
  | some name =>
    let st := st.emit name n.tables
    { st with lines := st.lines ++ planCard n.info n.tables }

/-- `_generate_pglab_plan` (postbound/postgres.py:2481-2538) -/
def pgLabPlan (p : Plan) : Option Block :=
  (planOrder p).map fun o =>
    { prep := []
      lines := .planMode "full" :: .order o :: ((bfs p).foldl Full.step ⟨false, true, none, []⟩).lines }

/-! ### The Postgres hint service -/

/-- The hinting backends (postbound/postgres.py:2193); `other` is any other string that has been assigned. -/
inductive Backend | pgHintPlan | pgLab | none | other
deriving DecidableEq

/-- `PostgresHintService.generate_hints` (postbound/postgres.py:2597-2659) without the adaptation of the query. -/
def pgGenerate (enum : Finset Nat → List Nat) (geqo n : Nat) (b : Backend) (plan : Option Plan)
    (order : Option (JT.Tree Card)) (ops : Option OpAssign) (params : Option Params) : Option Block :=
  if b = .none then none
  else match plan with
    | some p =>
      if order.isSome ∨ ops.isSome ∨ params.isSome then none
      else match b with
        | .pgHintPlan =>
          (p.jointree .estimated).bind fun t => (p.ops false).bind fun a =>
            pgHintPlan enum geqo n (some t) (some a) (some (p.params .actualOrEstimated))
        | .pgLab => pgLabPlan p
        | _ => none
    | none => match b with
      | .pgHintPlan => pgHintPlan enum geqo n order ops params
      | .pgLab => pgLab order ops params
      | _ => none

/-! ### quack_lab -/

/-- Scan operators (postbound/duckdb.py:830-836); `none` is an UnsupportedDatabaseFeatureError. -/
def quackScan : ScanOp → Option String
  | .seqScan => some "SeqScan"
  | .idxScan => some "IdxScan"
  | _ => none

/-- Settings (postbound/duckdb.py:861-873) -/
def quackSetting : PhysOp → Option String
  | .scan .seqScan => some "enable_seqscan"
  | .scan .idxScan => some "enable_indexscan"
  | .join .nlj => some "enable_nestloop"
  | .join .hash => some "enable_hashjoin"
  | .join .merge => some "enable_mergejoin"
  | _ => none

/-- `_generate_operator_hints` (postbound/duckdb.py:824-878) -/
def quackOps (a : OpAssign) : Option (List Line) :=
  (mapAll (fun e => (quackScan e.2.op).map fun n => Line.op n {e.1} none) a.scans).bind fun ss =>
    (mapAll (fun e => (joinName e.2.op).map fun n => Line.op n e.1 none) a.joins).bind fun js =>
      if a.inters.isEmpty then
        (mapAll (fun e => (quackSetting e.1).map fun n => Line.set n e.2) a.globals).map fun gs => ss ++ js ++ gs
      else none

/-- `_generate_parameter_hints` (postbound/duckdb.py:880-903) -/
def quackParams (p : Params) : Option Block :=
  if p.workers.isEmpty then some ⟨p.settings, cardLines p.cards⟩ else none

/-- `HintParts.merge_with` (postbound/duckdb.py:707-728) -/
def Block.merge (a b : Block) : Block :=
  { prep := a.prep ++ b.prep.filter fun x => x ∉ a.prep
    lines := a.lines ++ [.blank] ++ b.lines.filter fun x => x ∉ a.lines }

/-- `if physical_operators` (postbound/_hints.py:540-546) -/
def hasEntries (a : OpAssign) : Bool :=
  !a.globals.isEmpty || !a.joins.isEmpty || !a.scans.isEmpty || !a.inters.isEmpty

/-- Hints for operators (postbound/duckdb.py:776-778) -/
def quackOps? (ol : List Line) : Option OpAssign → Option Block
  | some a => if hasEntries a then (quackOps a).map fun ls => (Block.mk [] ol).merge ⟨[], ls⟩ else some ⟨[], ol⟩
  | none => some ⟨[], ol⟩

/-- Hints for parameters (postbound/duckdb.py:780-782) -/
def quackParams? (b : Block) : Option Params → Option Block
  | some p => (quackParams p).map fun q => b.merge q
  | none => some b

/-- `DuckDBHintService.generate_hints` (postbound/duckdb.py:738-787) for given parts. -/
def quackParts (order : Option (JT.Tree A)) (ops : Option OpAssign) (params : Option Params) : Option Block :=
  (orderLine 3 order).bind fun ol => (quackOps? ol ops).bind fun b => quackParams? b params

/-- `DuckDBHintService.generate_hints` (postbound/duckdb.py:738-787) without the adaptation of the query. A block without
statements and lines stands for the unchanged query. -/
def quackGenerate (plan : Option Plan) (order : Option (JT.Tree Card)) (ops : Option OpAssign)
    (params : Option Params) : Option Block :=
  match plan with
  | some p =>
    if order.isSome ∨ ops.isSome ∨ params.isSome then none
    else (p.jointree .estimated).bind fun t => (p.ops false).bind fun a =>
      quackParts (some t) (some a) (some (p.params .estimated))
  | none => quackParts order ops params

/-! ### MySQL -/

/-- Scan operators in `MysqlOptimizerHints` (postbound/mysql.py:519-522) -/
def myScan : ScanOp → String
  | .seqScan => "NO_INDEX"
  | .idxScan => "INDEX"
  | .idxOnlyScan => "INDEX"
  | .bitmapScan => "INDEX_MERGE"

/-- Join operators in `MysqlOptimizerHints` (postbound/mysql.py:517-518) -/
def myJoin : JoinOp → Option String
  | .nlj => some "NO_BNL"
  | .hash => some "BNL"
  | _ => none

/-- `MysqlSwitchableOptimizations` (postbound/mysql.py:550) -/
def mySwitch : PhysOp → Option String
  | .join .hash => some "block_nested_loop"
  | _ => none

/-- `_generate_operator_hints` (postbound/mysql.py:527-547) -/
def myOps (a : OpAssign) : Option (List Line) :=
  (mapAll (fun e => (myJoin e.2.op).map fun n => Line.op n e.1 none) a.joins).map fun js =>
    a.scans.map (fun e => Line.op (myScan e.2.op) {e.1} none) ++ js

/-- The switches of optional operators (postbound/mysql.py:568-577) -/
def mySwitches : Option OpAssign → Option (List (String × String))
  | some a => mapAll (fun e => (mySwitch e.1).map fun n => (n, if e.2 then "on" else "off")) a.globals
  | none => some []

/-- `_generate_prep_statements` (postbound/mysql.py:563-583): optimizer switches and settings. -/
def myPrep (ops : Option OpAssign) (params : Option Params) : Option (List (String × String)) :=
  (mySwitches ops).map fun sw => sw ++ settings? params

/-- `_generate_join_order_hint` (postbound/mysql.py:508-513) -/
def myOrder : Option (JT.Tree A) → List Line
  | some t => if t.isEmpty then [] else [.orderList t.itertables]
  | none => []

/-- Operators, if given (postbound/mysql.py:530-531) -/
def myOps? : Option OpAssign → Option (List Line)
  | some a => myOps a
  | none => some []

/-- The generation of the hint block (postbound/mysql.py:611-624); the inner `none` stands for the unchanged query. -/
def myParts (order : Option (JT.Tree A)) (ops : Option OpAssign) (params : Option Params) : Option (Option Block) :=
  (myOps? ops).bind fun os => (myPrep ops params).map fun prep =>
    if myOrder order ++ os = [] then none else some ⟨prep, myOrder order ++ os⟩

/-- `MysqlHintService.generate_hints` (postbound/mysql.py:591-624); the outer `none` is an exception. -/
def myGenerate (plan : Option Plan) (order : Option (JT.Tree Card)) (ops : Option OpAssign)
    (params : Option Params) : Option (Option Block) :=
  if (order.bind fun t => t.isLinear) = some false then none
  else match plan with
    | some p => (p.jointree .estimated).bind fun t => (p.ops false).bind fun a =>
        myParts (some t) (some a) (some (p.params .estimated))
    | none => myParts order ops params

end PB.DbHints
