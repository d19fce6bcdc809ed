import Mathlib.Data.Rat.Floor
import Verif.Model.JoinGraph

/-!
Model of the UES join order optimizer (postbound/opt/ues.py).

Simplifications: queries are given by their tables and binary join predicates, filters only appear through the base table
estimates. Numbers are rational, `none` is infinity for bounds. Bounds of join trees, which are only used for logging, are
not modelled. `none` as the result of an optimizer is an exception.
-/

namespace PB.Ues

open PB PB.JoinGraph

/-- A finite number or infinity (`none`). -/
abbrev Bound := Option Rat

/-- `a < b` for bounds. -/
def Bound.lt : Bound → Bound → Bool
  | some a, some b => a < b
  | some _, none => true
  | none, _ => false

/-- The state of the optimizer: the join graph and the statistics container (postbound/opt/ues.py:121-125). -/
structure St where
  g : JG
  base : Nat → Rat
  ub : Dict Nat Rat
  freq : Col → Rat

/-- A `LogicalJoinTree` with its cardinality annotations. -/
inductive UTree
  | scan (t : Nat) (ann : Bound)
  | join (l r : UTree) (ann : Bound)
deriving DecidableEq, Repr

/-- The tables of a join tree, from left to right. -/
def UTree.leaves : UTree → List Nat
  | .scan t _ => [t]
  | .join l r _ => l.leaves ++ r.leaves

/-- The annotation of the root. -/
def UTree.ann : UTree → Bound
  | .scan _ a => a
  | .join _ _ a => a

/-! ### Estimation -/

/-- `_fetch_bound` (postbound/opt/ues.py:783-806). -/
def fetchBound (s : St) (c : Col) : Rat := (Dict.get? s.ub c.tab).getD (s.base c.tab)

/-- `_estimate_pk_fk_join` (postbound/opt/ues.py:723-744). -/
def pkFkBound (s : St) (fk pk : Col) : Rat := (Int.ceil (s.freq fk * s.base pk.tab) : Int)

/-- `_estimate_n_m_join` (postbound/opt/ues.py:746-781). -/
def nmBound (s : St) (a b : Col) : Rat :=
  if fetchBound s a = 0 ∨ fetchBound s b = 0 ∨ s.freq a = 0 ∨ s.freq b = 0 then 0
  else (Int.ceil (min (fetchBound s a / s.freq a) (fetchBound s b / s.freq b) * s.freq a * s.freq b) : Int)

/-- The bound of one base predicate (postbound/opt/ues.py:702-708). -/
def predBound (s : St) (j : Col × Col) : Rat :=
  if s.g.isPkFk j.1.tab j.2.tab then pkFkBound s j.1 j.2
  else if s.g.isPkFk j.2.tab j.1.tab then pkFkBound s j.2 j.1
  else nmBound s j.1 j.2

/-- `UESBoundEstimator.estimate_for` (postbound/opt/ues.py:696-713). -/
def uesEstimate (s : St) (c : Cond) : Bound :=
  c.foldl (fun m j => if Bound.lt (some (predBound s j)) m then some (predBound s j) else m) none

/-- The columns of a condition that belong to tables of the query, in order. -/
def condCols (c : Cond) : List Col := c.flatMap fun j => [j.1, j.2]

/-- The third party columns of a frequency update (postbound/opt/ues.py:194-204). -/
def thirdParty (qjoins : Cond) (treeTables : List Nat) (joined : Nat) : List Col :=
  let partners := treeTables.filter (· ≠ joined)
  partners.flatMap fun t => ((joinsBetween qjoins t (partners.filter (· ≠ t))).map condCols).getD []

/-- `_update_partner_column_frequency` (postbound/opt/ues.py:333-339). -/
def updatePair (freq : Col → Rat) (a b : Col) : Col → Rat :=
  let fa := freq a
  let fb := freq b
  let f1 : Col → Rat := fun x => if x = a then freq x * fb else freq x
  fun x => if x = b then f1 x * fa else f1 x

/-- The loop over the join partners in `trigger_frequency_update` (postbound/opt/ues.py:206-210). -/
def updatePairs (joined : Nat) (freq : Col → Rat) (c : Cond) : Col → Rat :=
  c.foldl (fun f j => if j.1.tab = joined then updatePair f j.1 j.2 else updatePair f j.2 j.1) freq

/-- `util.argmin` (postbound/util/dicts.py:211-216) for columns: the first column with a minimal value. -/
def argminCol (f : Col → Rat) : List Col → Option Col
  | [] => none
  | c :: cs => some (cs.foldl (fun m x => if f x < f m then x else m) c)

/-- `trigger_frequency_update` (postbound/opt/ues.py:161-220) for maximum frequencies (postbound/opt/ues.py:333-346). -/
def uesUpdate (s : St) (treeTables : List Nat) (joined : Nat) (c : Cond) : Col → Rat :=
  let f := updatePairs joined s.freq c
  match argminCol f ((condCols c).filter fun x => x.tab = joined) with
  | none => f
  | some low => fun x => if x ∈ thirdParty s.g.qjoins treeTables joined then f x * f low else f x

/-- One pair of join partners in `generate_subquery_for` (postbound/opt/ues.py:937-951): the table whose bounds are compared. -/
def subqueryTable (s : St) (j : Col × Col) : Option Nat :=
  if s.g.isPkFk j.1.tab j.2.tab then some j.1.tab
  else if s.g.isPkFk j.2.tab j.1.tab then some j.2.tab
  else none

/-- The loop of `generate_subquery_for`; `none` is the `KeyError` for tables without upper bound. -/
def subqueryLoop (s : St) : Cond → Option Bool
  | [] => some false
  | j :: c =>
    match subqueryTable s j with
    | none => subqueryLoop s c
    | some t => (Dict.get? s.ub t).bind fun u => if u < s.base t then some true else subqueryLoop s c

/-- `UESSubqueryPolicy.generate_subquery_for` (postbound/opt/ues.py:930-953). -/
def uesSubquery (s : St) (c : Cond) : Option Bool := if s.g.countConsumed < 2 then some false else subqueryLoop s c

/-! ### The optimizer -/

/-- The strategies of the optimizer: join estimator, branching policy and statistics updates; whether primary key tables are pulled
eagerly; the iteration order of sets of tables; the number of iterations of the breadth-first search for primary key joins. -/
structure Policy where
  estimate : St → Cond → Bound
  subquery : St → Cond → Option Bool
  update : St → List Nat → Nat → Cond → Col → Rat
  eager : Bool
  ord : List Nat → List Nat
  k : Nat

/-- The default strategies (postbound/opt/ues.py:1023-1034). -/
def uesPolicy (eager : Bool) (ord : List Nat → List Nat) (k : Nat) : Policy := ⟨uesEstimate, uesSubquery, uesUpdate, eager, ord, k⟩

/-- `join_graph.mark_joined` on the state. -/
def St.mark (P : Policy) (s : St) (t : Nat) (edge : Option Cond) : Option St :=
  (s.g.markJoined P.ord t edge).map fun g => { s with g }

/-- `min([filter_estimate] + pk_fk_bounds)` (postbound/opt/ues.py:1140-1151). -/
def minBound (P : Policy) (s : St) (t : Nat) : Rat :=
  (s.g.pkFkFor t).foldl (fun m p => match P.estimate s p.cond with
    | some b => if b < m then b else m
    | none => m) (s.base t)

/-- One iteration of the loop that updates the upper bounds and selects the table with the lowest bound
(postbound/opt/ues.py:1136-1156). -/
def boundStep (P : Policy) (a : St × Bound × Option Nat) (p : Path) : St × Bound × Option Nat :=
  let b := minBound P a.1 p.target
  let s := { a.1 with ub := Dict.set a.1.ub p.target b }
  if Bound.lt (some b) a.2.1 then (s, some b, some p.target) else (s, a.2.1, a.2.2)

/-- The loop (postbound/opt/ues.py:1134-1156). -/
def updateBounds (P : Policy) (s : St) : St × Bound × Option Nat :=
  (s.g.availableNM true).foldl (boundStep P) (s, none, none)

/-- The loop over the initial primary key joins (postbound/opt/ues.py:1171-1184). -/
def initialPk (P : Policy) : List Path → UTree → St → Option (UTree × St)
  | [], tree, s => some (tree, s)
  | p :: ps, tree, s =>
    let b := P.estimate s p.cond
    (s.mark P p.target (some p.cond)).bind fun s' =>
      initialPk P ps (.join tree (.scan p.target (some (s.base p.target))) b) s'

/-- `_insert_pk_joins` (postbound/opt/ues.py:1435-1477). -/
def insertPk (P : Policy) : List Path → UTree → St → Option (UTree × St)
  | [], tree, s => some (tree, s)
  | p :: ps, tree, s =>
    if s.g.isFree p.target then
      let b := P.estimate s p.cond
      (s.mark P p.target (some p.cond)).bind fun s' =>
        insertPk P ps (.join tree (.scan p.target (some (s.base p.target))) b) s'
    else insertPk P ps tree s

/-- One candidate in the search for the join with the lowest bound (postbound/opt/ues.py:1194-1200, 1329-1334). -/
def candStep (P : Policy) (s : St) (a : Bound × Option Path) (p : Path) : Bound × Option Path :=
  if Bound.lt (P.estimate s p.cond) a.1 then (P.estimate s p.cond, some p) else a

/-- The candidate with the lowest bound; the first one if there are several (postbound/opt/ues.py:1190-1200). -/
def selectPath (P : Policy) (s : St) (ps : List Path) : Bound × Option Path := ps.foldl (candStep P s) (none, none)

/-- `any(...)` over the policy (postbound/opt/ues.py:1206-1211). -/
def anySubquery (P : Policy) (s : St) : List Path → Option Bool
  | [] => some false
  | p :: ps => (P.subquery s p.cond).bind fun b => if b then some true else anySubquery P s ps

/-- The selection of the first table (postbound/opt/ues.py:1162-1188). -/
def firstStep (P : Policy) (s : St) (low : Bound) (t : Nat) : Option (UTree × St) :=
  (s.mark P t none).bind fun s => initialPk P (s.g.deepPk P.k t) (.scan t low) s

/-- The n:m join of a selected candidate with its primary key joins (postbound/opt/ues.py:1203-1256). -/
def nmStep (P : Policy) (s : St) (tree : UTree) (low : Bound) (cand : Path) : Option (UTree × St) :=
  let t := cand.target
  (anySubquery P s (s.g.pkFkFor t)).bind fun sub =>
    let pks := if P.eager then s.g.deepPk P.k t else s.g.pkFkFor t
    let scan := UTree.scan t (some (s.base t))
    (if sub then
      (s.mark P t none).bind fun s => (insertPk P pks scan s).map fun r => (UTree.join tree r.1 low, r.2)
    else
      (s.mark P t (some cand.cond)).bind fun s => insertPk P pks (.join tree scan low) s).map fun r =>
        (r.1, { r.2 with freq := P.update r.2 r.1.leaves t cand.cond })

/-- One iteration of the main loop (postbound/opt/ues.py:1132-1256). -/
def iteration (P : Policy) (tree : Option UTree) (s : St) : Option (UTree × St) :=
  let r := updateBounds P s
  match tree with
  | none => r.2.2.bind fun t => firstStep P r.1 r.2.1 t
  | some tree =>
    let c := selectPath P r.1 (r.1.g.availableNM false)
    c.2.bind fun cand => nmStep P r.1 tree c.1 cand

/-- The main loop of the default optimizer, at most `n` iterations; `none` if an exception is raised or there are more
iterations. -/
def mainLoop (P : Policy) : Nat → Option UTree → St → Option (Option UTree × St)
  | 0, tree, s => if s.g.containsFreeNM then none else some (tree, s)
  | n + 1, tree, s =>
    if s.g.containsFreeNM then (iteration P tree s).bind fun r => mainLoop P n (some r.1) r.2
    else some (tree, s)

/-- `_default_ues_optimizer` (postbound/opt/ues.py:1106-1260). -/
def defaultOptimizer (P : Policy) (n : Nat) (s : St) : Option UTree :=
  (mainLoop P n none s).bind fun r => if r.2.g.containsFree then none else r.1

/-- `_binary_join_optimization` (postbound/opt/ues.py:1262-1303). -/
def binaryOptimizer (P : Policy) (s : St) (t1 t2 : Nat) : Option UTree :=
  let small := if s.base t1 < s.base t2 then t1 else t2
  let large := if s.base t1 < s.base t2 then t2 else t1
  (joinsBetween s.g.qjoins large [small]).map fun c =>
    .join (.scan large (some (s.base large))) (.scan small (some (s.base small))) (P.estimate s c)

/-- `_apply_pk_fk_join` (postbound/opt/ues.py:1397-1433). -/
def applyJoin (P : Policy) (p : Path) (bound : Bound) (tree : UTree) (s : St) : Option (UTree × St) :=
  (s.mark P p.target (some p.cond)).map fun s' => (.join tree (.scan p.target (some (s.base p.target))) bound, s')

/-- The loop of the star query optimizer, at most `n` iterations (postbound/opt/ues.py:1349-1366). -/
def starLoop (P : Policy) : Nat → UTree → St → Option UTree
  | 0, tree, s => if s.g.containsFree then none else some tree
  | n + 1, tree, s =>
    if s.g.containsFree then
      let c := selectPath P s (s.g.availablePaths false)
      c.2.bind fun p => (applyJoin P p c.1 tree s).bind fun r => starLoop P n r.1 r.2
    else some tree

/-- `_star_query_optimizer` (postbound/opt/ues.py:1305-1368). -/
def starOptimizer (P : Policy) (n : Nat) (s : St) : Option UTree :=
  let c := selectPath P s (s.g.availablePaths false)
  c.2.bind fun p => (s.mark P p.start none).bind fun s' =>
    (applyJoin P p c.1 (.scan p.start (some (s.base p.start))) s').bind fun r => starLoop P n r.1 r.2

/-- The combination of the components of a query with cross products (postbound/opt/ues.py:1066-1074); the result of `sorted`
is discarded by the code. -/
def crossJoin : List UTree → Option UTree
  | [] => none
  | t :: ts => some (ts.foldl (fun a b => .join a b (match a.ann, b.ann with
      | some x, some y => some (x * y)
      | _, _ => none)) t)

/-- The part of `optimize_join_order` for connected queries (postbound/opt/ues.py:1040-1041, 1053-1054, 1075-1078): `none` for
exceptions, `some none` for queries with less than two tables. -/
def optimizeConnected (P : Policy) (s : St) : Option (Option UTree) :=
  match Dict.keys s.g.nodes with
  | [] => some none
  | [_] => some none
  | [t1, t2] => (binaryOptimizer P s t1 t2).map some
  | ts => ((if s.g.containsFreeNM then defaultOptimizer P ts.length s else starOptimizer P ts.length s)).map some

/-- `optimize_join_order` (postbound/opt/ues.py:1037-1080). `components` are the states for the join components of the query;
a query without cross products has one component. A single component is only reached for connected queries. -/
def optimize (P : Policy) (s : St) (components : List St) : Option (Option UTree) :=
  if (Dict.keys s.g.nodes).length < 2 then some none
  else if (Dict.keys s.g.nodes).length = 2 ∨ components.length < 2 then optimizeConnected P s
  else (components.mapM fun c => (optimizeConnected P c).bind id).bind fun ts => (crossJoin ts).map some

end PB.Ues
