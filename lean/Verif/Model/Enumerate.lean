import Verif.Model.JoinTree
import Verif.Model.Hints
import Verif.Model.Nx
import Mathlib.Data.List.Dedup
import Mathlib.Data.Nat.Choose.Basic

/-! Model of exhaustive enumeration (postbound/opt/enumeration.py) and of `possible_plans_bound`
(postbound/opt/_analysis.py:30-67). -/

namespace PB.Enumerate
open PB PB.Hints

variable {A : Type} [DecidableEq A]

/-- A NetworkX graph with the iteration order of its nodes and edges. Every edge is listed once, in some direction. -/
structure LGraph (α : Type) where
  nodes : List α
  edges : List (α × α)
deriving DecidableEq, Repr

/-- Remove repeated edges. Edges have no direction. -/
def dedupEdges {α : Type} [DecidableEq α] : List (α × α) → List (α × α)
  | [] => []
  | e :: es => if e ∈ es ∨ (e.2, e.1) ∈ es then dedupEdges es else e :: dedupEdges es

/-- `nx.contracted_nodes(graph, u, v, self_loops=False, copy=True)`: `v` is merged into `u` -/
def LGraph.contract {α : Type} [DecidableEq α] (g : LGraph α) (u v : α) : LGraph α where
  nodes := g.nodes.filter fun x => x ≠ v
  edges := dedupEdges ((g.edges.map fun e => (if e.1 = v then u else e.1, if e.2 = v then u else e.2)).filter
    fun e => e.1 ≠ e.2)

/-- `nx.relabel_nodes(graph, {u: w}, copy=True)` -/
def LGraph.relabel {α : Type} [DecidableEq α] (g : LGraph α) (u w : α) : LGraph α where
  nodes := g.nodes.map fun x => if x = u then w else x
  edges := g.edges.map fun e => (if e.1 = u then w else e.1, if e.2 = u then w else e.2)

/-- `_merge_nodes` (postbound/opt/enumeration.py:29-54). A table is represented by its scan. -/
def mergeNodes (s e : JT.Tree A) : JT.Tree A := .join .generic s e none

/-- `_enumerate_join_graph` (postbound/opt/enumeration.py:57-106). The first argument bounds the recursion, which is as deep
as there are nodes. `ord` is the order in which the edges of a graph are visited. -/
def enumGraph (ord : LGraph (JT.Tree A) → List (JT.Tree A × JT.Tree A)) : Nat → LGraph (JT.Tree A) → List (JT.Tree A)
  | 0, _ => []
  | n + 1, g =>
    if g.nodes.length = 1 then g.nodes
    else (ord g).flatMap fun e =>
      enumGraph ord n ((g.contract e.1 e.2).relabel e.1 (mergeNodes e.1 e.2)) ++
      enumGraph ord n ((g.contract e.1 e.2).relabel e.1 (mergeNodes e.2 e.1))

/-- The loop that skips join orders whose hash has been seen (postbound/opt/enumeration.py:173-181) -/
def skipSeen {H : Type} [DecidableEq H] (hash : JT.Tree A → H) : List H → List (JT.Tree A) → List (JT.Tree A)
  | _, [] => []
  | seen, t :: ts =>
    if hash t ∈ seen then skipSeen hash seen ts else t :: skipSeen hash (seen ++ [hash t]) ts

/-- `tree_structure` (postbound/opt/enumeration.py:128-131) -/
inductive Shape | bushy | leftDeep | rightDeep
deriving DecidableEq, Repr

/-- The graph as a set of nodes and edges. -/
def LGraph.toNx {α : Type} [DecidableEq α] (g : LGraph α) : Nx.Graph α := ⟨g.nodes.toFinset, g.edges.toFinset⟩

/-- The join graph with tables as scans. -/
def scanGraph (g : LGraph Nat) : LGraph (JT.Tree A) where
  nodes := g.nodes.map fun t => .scan .generic t none
  edges := g.edges.map fun e => (.scan .generic e.1 none, .scan .generic e.2 none)

/-- `ExhaustiveJoinOrderEnumerator.all_join_orders_for` (postbound/opt/enumeration.py:133-181) for a query with join graph `g`.
The generator of the linear join orders is created but never consumed (lines 156-158). `none` is the `ValueError`. -/
def allJoinOrders {H : Type} [DecidableEq H] (hash : JT.Tree A → H) (ord : LGraph (JT.Tree A) → List (JT.Tree A × JT.Tree A))
    (shape : Shape) (g : LGraph Nat) : Option (List (JT.Tree A)) :=
  if shape = .leftDeep ∨ shape = .rightDeep then some []
  else match g.nodes with
    | [] => some []
    | [t] => some [.scan .generic t none]
    | _ =>
      if g.toNx.isConnected? = some true then
        some (skipSeen hash [] (enumGraph ord g.nodes.length (scanGraph g)))
      else none

/-! ### Operators -/

/-- `itertools.product(*ls)` -/
def product {α : Type} : List (List α) → List (List α)
  | [] => [[]]
  | l :: ls => l.flatMap fun x => (product ls).map fun xs => x :: xs

/-- The scan operators of all tables (postbound/opt/enumeration.py:307-312) -/
def assignScans (a : OpAssign) (ps : List (Nat × ScanOp)) : OpAssign :=
  ps.foldl (fun a p => a.setScan ⟨p.2, p.1, none⟩) a

/-- The join operators of all joins (postbound/opt/enumeration.py:315-320) -/
def assignJoins (a : OpAssign) (ps : List (Finset Nat × JoinOp)) : OpAssign :=
  ps.foldl (fun a p => a.setJoin ⟨p.2, p.1, none, none⟩) a

/-- `ExhaustiveOperatorEnumerator.all_operator_assignments_for` (postbound/opt/enumeration.py:275-322). It is a generator, so
`return ...` in lines 297 and 299 yields nothing. `tables` is the iteration order of the query's tables. -/
def allAssignments (scans : List ScanOp) (joins : List JoinOp) (inclScans inclJoins : Bool) (tables : List Nat)
    (tree : JT.Tree A) : List OpAssign :=
  if !inclScans then []
  else if !inclJoins then []
  else
    let js := tree.iterjoins.map JT.Tree.tables
    (product (tables.map fun _ => scans)).flatMap fun ss =>
      (product (js.map fun _ => joins)).map fun jo =>
        assignJoins (assignScans OpAssign.empty (tables.zip ss)) (js.zip jo)

/-- The constructor (postbound/opt/enumeration.py:244-273); `none` is the `ValueError`. Empty lists also stand for arguments that
are not given. `supports` is the hinting backend. -/
def allowedOps (scanOps : List ScanOp) (joinOps : List JoinOp) (inclScans inclJoins : Bool)
    (supports : PhysOp → Bool) : Option (List ScanOp × List JoinOp) :=
  if !inclJoins && !inclScans then none
  else
    let ss := if scanOps.isEmpty then [.seqScan, .idxScan, .idxOnlyScan, .bitmapScan] else scanOps
    let js := if joinOps.isEmpty then [.nlj, .hash, .merge, .indexNlj] else joinOps
    some ((ss.filter fun o => supports (.scan o)).dedup, (js.filter fun o => supports (.join o)).dedup)

/-- The events of a generator: either all items or an exception after some of them. -/
inductive Gen (β : Type) where
  | done (items : List β)
  | raised (items : List β)
deriving DecidableEq, Repr

/-- `ExhaustivePlanEnumerator.all_plans_for` (postbound/opt/enumeration.py:411-433). The second argument of `to_query_plan` is
keyword-only (postbound/opt/_helpers.py:454-462), but passed as positional argument: a `TypeError`. -/
def allPlans {β : Type} (assignments : JT.Tree A → List OpAssign) : List (JT.Tree A) → Gen β
  | [] => .done []
  | t :: ts => if (assignments t).isEmpty then allPlans assignments ts else .raised []

/-- `catalan_number` (postbound/util/stats.py:13-15) in exact arithmetic. -/
def catalan (n : Nat) : Nat := (2 * n).choose n / (n + 1)

/-- `possible_plans_bound` (postbound/opt/_analysis.py:30-67) for a query over `n` tables and the given numbers of operators. The
query has tables, hence no negative numbers. -/
def plansBound (n joinOps scanOps : Nat) : Nat := catalan n * ((n - 1) * joinOps) * (n * scanOps)

end PB.Enumerate
