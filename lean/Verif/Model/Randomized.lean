import Verif.Model.JoinTree
import Verif.Model.Walk
import Verif.Model.Hints

/-! Model of the random generation of join orders and operators (postbound/opt/randomized.py). All random choices are
parameters: `Choices` gives, for the `k`-th step, the position that `random.choice` selects (modulo the number of
options) and the outcome of `random.random() < 0.5`. -/

namespace PB.Randomized
open PB PB.Hints

/-- Join trees without annotations. -/
abbrev T := JT.Tree Unit

/-- The random choices of one run. -/
structure Choices where
  pos : Nat → Nat
  flip : Nat → Bool

/-- `random.choice(l)`; `none` is the `IndexError` for empty sequences. -/
def choose {α : Type} (l : List α) (k : Nat) : Option α := l[k % l.length]?

/-- The NetworkX graph during sampling. Its nodes are join trees; simplification: a table reference stands for its scan,
which is what `_merge_nodes` makes of it (postbound/opt/randomized.py:58-59). Edges are unordered, they are stored in
one direction. Parallel entries for the same edge may occur (they are one edge in NetworkX, which only changes
the probabilities). -/
structure Gr where
  nodes : List T
  edges : List (T × T)

/-- Replace node `v` by node `u`. -/
def redirect (u v x : T) : T := if x = v then u else x

/-- `nx.contracted_nodes(graph, u, v, self_loops=False)`: the edges between `u` and `v` disappear, all other edges of `v`
become edges of `u`. -/
def Gr.contract (g : Gr) (u v : T) : Gr where
  nodes := g.nodes.filter (· ≠ v)
  edges := (g.edges.filter fun e => !(e = (u, v) || e = (v, u))).map fun e => (redirect u v e.1, redirect u v e.2)

/-- `nx.relabel_nodes(graph, {u: w})` -/
def Gr.relabel (g : Gr) (u w : T) : Gr where
  nodes := g.nodes.map (redirect w u)
  edges := g.edges.map fun e => (redirect w u e.1, redirect w u e.2)

/-- `_merge_nodes` (postbound/opt/randomized.py:32-60): `start.join_with(end)`, the new partner becomes the inner
relation; `none` is an exception. -/
def mergeNodes (a b : T) : Option T := a.joinWith (.tree b) none none true

/-- `right, left = …` (postbound/opt/randomized.py:100-104, 115-119) -/
def orient (flip : Bool) (a b : T) : T × T := if flip then (a, b) else (b, a)

/-- The loop of `_sample_join_graph` (postbound/opt/randomized.py:111-128); the first argument is the number of nodes
that remain to be merged, the second the number of the step. -/
def sampleLoop (c : Choices) : Nat → Nat → Gr → Option T
  | 0, _, g => g.nodes.head?
  | n + 1, k, g =>
    if g.nodes.length > 1 then
      (choose g.edges (c.pos k)).bind fun e =>
        (mergeNodes (orient (c.flip k) e.1 e.2).1 (orient (c.flip k) e.1 e.2).2).bind fun t =>
          sampleLoop c n (k + 1) ((g.contract e.1 e.2).relabel e.1 t)
    else g.nodes.head?

/-- The join graph of the query as a graph of scans. -/
def Gr.ofTables (tables : List Nat) (edges : List (Nat × Nat)) : Gr where
  nodes := tables.map fun t => JT.Tree.scan .generic t none
  edges := edges.map fun e => (JT.Tree.scan .generic e.1 none, JT.Tree.scan .generic e.2 none)

/-- `list(join_graph.adj[base_table])` (postbound/opt/randomized.py:98) -/
def neighbours (edges : List (Nat × Nat)) (b : Nat) : List Nat :=
  edges.filterMap fun e => if e.1 = b then some e.2 else if e.2 = b then some e.1 else none

/-- `_sample_join_graph` (postbound/opt/randomized.py:63-128); `none` is an exception. -/
def sample (c : Choices) (tables : List Nat) (edges : List (Nat × Nat)) (base : Option Nat) : Option T :=
  match base with
  | none => sampleLoop c tables.length 0 (Gr.ofTables tables edges)
  | some b =>
    (choose (neighbours edges b) (c.pos 0)).bind fun p =>
      let sb := JT.Tree.scan .generic b none
      let sp := JT.Tree.scan .generic p none
      (mergeNodes (orient (c.flip 0) sb sp).1 (orient (c.flip 0) sb sp).2).bind fun t =>
        sampleLoop c tables.length 1 (((Gr.ofTables tables edges).contract sb sp).relabel sb t)

/-- The body of the loop of `_linear_join_orders` (postbound/opt/randomized.py:253-255); `inner` is
`direction == "inner"`. -/
def linearTree (inner : Bool) : List Nat → T → Option T
  | [], t => some t
  | x :: xs, t => (t.joinWith (.table x) none none inner).bind fun t' => linearTree inner xs t'

/-- One join order of `_linear_join_orders` (postbound/opt/randomized.py:220-256). -/
def linear (leftDeep : Bool) (tables : List Nat) (edges : List (Nat × Nat)) (pick : Nat → List Nat → Nat)
    (base : Option Nat) : Option T :=
  linearTree leftDeep (Walk.randomWalk ⟨tables, neighbours edges⟩ pick base) (.empty .generic)

/-- The elimination of duplicates (postbound/opt/randomized.py:209-218, 436-443): what is yielded for the given samples.
`seen` are the hashes of the earlier samples. -/
def yielded {α H : Type} [DecidableEq H] (hash : α → H) (eliminate : Bool) : List H → List α → List α
  | _, [] => []
  | seen, s :: ss =>
    if eliminate then
      if hash s ∈ seen then yielded hash eliminate seen ss
      else s :: yielded hash eliminate (seen ++ [hash s]) ss
    else s :: yielded hash eliminate seen ss

/-- The outcome of asking the generator for join orders (`random_join_orders_for`,
postbound/opt/randomized.py:162-218). -/
inductive Orders
  | yields (l : List T)
  | valueError
deriving DecidableEq

/-- The first join orders of `random_join_orders_for` (postbound/opt/randomized.py:190-218): `samples` are the first
trees that the selected sampler produces, `connected` is `nx.is_connected(join_graph)`; for a single table, `n` is
the number of requested orders. -/
def joinOrders (eliminate : Bool) (tables : List Nat) (connected : Bool) (samples : List T) (n : Nat) : Orders :=
  match tables with
  | [] => .yields []
  | [t] => .yields (List.replicate n (.scan .generic t none))
  | _ => if connected then .yields (yielded JT.Tree.hashKey eliminate [] samples) else .valueError

/-! ### Operators -/

/-- `allowed_scan_ops` resp. `allowed_join_ops` (postbound/opt/randomized.py:381-392): the given operators, or all if none
are given, as far as the database supports them; in some order. -/
def allowed {O : Type} (given : Option (List O)) (all : List O) (supported : O → Bool) : List O :=
  (match given with
   | some (o :: os) => o :: os
   | _ => all).filter supported

/-- The loop over the joins (postbound/opt/randomized.py:422-427); `k` numbers the random choices; `none` is the
`IndexError` of `random.choice`. -/
def assignJoins (c : Nat → Nat) (ops : List JoinOp) : Nat → List (Finset Nat) → OpAssign → Option OpAssign
  | _, [], a => some a
  | k, j :: js, a => (choose ops (c k)).bind fun o => assignJoins c ops (k + 1) js (a.setJoin { op := o, join := j, workers := none, dir := none })

/-- The loop over the tables (postbound/opt/randomized.py:429-434). -/
def assignScans (c : Nat → Nat) (ops : List ScanOp) : Nat → List Nat → OpAssign → Option OpAssign
  | _, [], a => some a
  | k, t :: ts, a => (choose ops (c k)).bind fun o => assignScans c ops (k + 1) ts (a.setScan { op := o, table := t, workers := none })

/-- One assignment of `random_operator_assignments_for` (postbound/opt/randomized.py:415-434). `join_order.tables()` is a
set: `tables` are its elements in some order. A missing join order (`None`) has no `iterjoins`: `AttributeError`. -/
def randomOperators (cj cs : Nat → Nat) (scans : List ScanOp) (joins : List JoinOp) (inclScans inclJoins : Bool)
    (order : Option T) (tables : List Nat) : Option OpAssign :=
  order.bind fun t =>
    (if inclJoins then assignJoins cj joins 0 (t.iterjoins.map JT.Tree.tables) OpAssign.empty
     else some OpAssign.empty).bind fun a =>
      if inclScans then assignScans cs scans 0 tables a else some a

/-- The arguments of a call: positional ones and keywords. `to_query_plan` accepts one positional argument
(postbound/opt/_helpers.py:454-462). -/
def toQueryPlanCall (positional : Nat) : Bool := positional ≤ 1

/-- `random_plans_for` (postbound/opt/randomized.py:560-579): `to_query_plan(join_order, physical_operators)` passes two
positional arguments. `none` is the `TypeError`; `build` is what the call would compute. -/
def randomPlan {P : Type} (build : T → OpAssign → P) (t : Option T) (a : Option OpAssign) : Option P :=
  t.bind fun t => a.bind fun a => if toQueryPlanCall 2 then some (build t a) else none

end PB.Randomized
