/-! Model of the graph walks in postbound/util/nx.py. A NetworkX graph is its list of nodes and the adjacency
lists; edge data are represented by the origin of the traversed edge. -/

namespace PB.Walk

/-- An undirected NetworkX graph: `graph.nodes` and `graph.adj`. -/
structure Graph where
  nodes : List Nat
  adj : Nat → List Nat

/-- `set.add` -/
def addSet (l : List Nat) (x : Nat) : List Nat := if x ∈ l then l else l ++ [x]

/-- `a |= b` on sets -/
def unionSet (a b : List Nat) : List Nat := b.foldl addSet a

/-- The `while` loop of `nx_random_walk` (postbound/util/nx.py:114-130). `pick k l` is the result of the `k`-th
`random.choice(l)`; `k` counts the calls downwards and also bounds the number of iterations. `visited` is in the
order of insertion. Returns the yielded nodes. -/
def randomLoop (g : Graph) (pick : Nat → List Nat → Nat) :
    Nat → (visited shell : List Nat) → (current : Nat) → List Nat
  | 0, _, _, _ => []
  | k + 1, visited, shell, current =>
    if visited.length < g.nodes.length then
      let shell := unionSet shell ((g.adj current).filter (· ∉ visited))
      if shell = [] then
        let current := pick k (g.nodes.filter (· ∉ visited))
        current :: randomLoop g pick k (addSet visited current) shell current
      else
        let current := pick k shell
        current :: randomLoop g pick k (addSet visited current) (shell.filter (· ≠ current)) current
    else []

/-- `nx_random_walk` (postbound/util/nx.py:75-130). The iteration bound `|nodes|` is never reached by the loop
(proved in Verif.Props.Walk: the result always has `|nodes|` elements). -/
def randomWalk (g : Graph) (pick : Nat → List Nat → Nat) (startingNode : Option Nat) : List Nat :=
  let current := match startingNode with
    | none => pick g.nodes.length g.nodes
    | some n => n
  current :: randomLoop g pick g.nodes.length [current] [] current

/-- A `GraphWalk` (postbound/util/nx.py:190-295): the visited nodes, each with the origin of the edge that was
traversed (`none` for the start node and for jumps). -/
abbrev GWalk := List (Nat × Option Nat)

/-- `GraphWalk.nodes` (postbound/util/nx.py:223-231). -/
def GWalk.nodes (w : GWalk) : List Nat := List.map Prod.fst w

/-- `available_edges` in `_walk_frontier` (postbound/util/nx.py:324-332). -/
def available (g : Graph) (w : GWalk) (frontier : List Nat) : List (Nat × Option Nat) :=
  frontier.flatMap fun f =>
    ((g.adj f).filter fun t => t ∉ w.nodes ∧ t ∉ frontier).map fun t => (t, some f)

/-- `_walk_frontier` (postbound/util/nx.py:298-348). The first argument bounds the recursion depth; it is never
exhausted when it is at least the number of unvisited nodes. -/
def walkFrontier (g : Graph) : Nat → GWalk → List Nat → List GWalk
  | 0, w, frontier =>
    if available g w frontier = [] ∧ w.length < g.nodes.length then []
    else if available g w frontier = [] then [w] else []
  | k + 1, w, frontier =>
    let avail := available g w frontier
    if avail = [] ∧ w.length < g.nodes.length then
      (g.nodes.filter (· ∉ frontier)).flatMap fun j =>
        walkFrontier g k (w ++ [(j, none)]) (addSet frontier j)
    else if avail = [] then [w]
    else avail.flatMap fun e => walkFrontier g k (w ++ [e]) (addSet frontier e.1)

/-- `nx_frontier_walks` (postbound/util/nx.py:351-395). -/
def frontierWalks (g : Graph) : List GWalk :=
  g.nodes.flatMap fun n => walkFrontier g g.nodes.length [(n, none)] [n]

/-- The `while` loop of `nx_bfs_tree` (postbound/util/nx.py:172-187), for at most `k` iterations; the sorting of the
neighbours has no effect in the code (its result is discarded). The condition is a predicate on nodes. The queue's
`pop` removes the head (entries are non-empty tuples). -/
def bfsLoop (g : Graph) (cond : Nat → Bool) : Nat → (queue visited : List Nat) → List Nat
  | 0, _, _ => []
  | _ + 1, [], _ => []
  | k + 1, x :: queue, visited =>
    let visited := addSet visited x
    if cond x then x :: bfsLoop g cond k (queue ++ (g.adj x).filter (· ∉ visited)) visited
    else bfsLoop g cond k queue visited

/-- `nx_bfs_tree` (postbound/util/nx.py:133-187), first `k` iterations. -/
def bfsTree (g : Graph) (start : Nat) (cond : Nat → Bool) (k : Nat) : List Nat :=
  bfsLoop g cond k (g.adj start) [start]

end PB.Walk
