import Verif.Model.JoinGraph
import Verif.Model.Nx

/-!
Cross products and components of join graphs (/repo/postbound/opt/_joingraph.py 405-450, 462-473, 519-535, 557-565, 1134-1148),
on top of the model of the join graph.

A join predicate is represented by its columns (without duplicates).  The query is a conjunction of such predicates and filters;
the fragment of the query for some tables consists of these tables and the predicates that only refer to them
(`extract_query_fragment`, see `Model/QTransform`).
-/
namespace PB.JoinParts
open PB.JoinGraph

/-- _joingraph.py 433-435: predicates without exactly two columns are skipped. -/
def pair : List Col → Option (Col × Col)
  | [a, b] => some (a, b)
  | _ => none

/-- _joingraph.py 405-450: the join graph of a query with the given tables and join predicates. `extra` are the predicates from
the equivalence classes, if requested. -/
def ofPredicates (tables : List Nat) (preds : List (List Col)) (extra : Cond) (index : Col → Index) : JG :=
  JG.build tables (preds.filterMap pair) extra index

/-- The NetworkX graph `_graph` without its attributes. -/
def toNx (g : JG) : Nx.Graph Nat := ⟨(Dict.keys g.nodes).toFinset, (g.edges.map fun e => (e.1, e.2.1)).toFinset⟩

/-- _joingraph.py 462-473 `contains_cross_products`; none is the exception of NetworkX for graphs without nodes. -/
def containsCross (g : JG) : Option Bool := (toNx g).isConnected?.map fun b => !b

/-- _joingraph.py 557-565 `all_joins`. -/
def allJoins (g : JG) : List (Nat × Nat) := g.edges.map fun e => (e.1, e.2.1)

/-- `nx.connected_components`: for each node that has not been seen, its component. -/
def comps (n : Nx.Graph Nat) : List Nat → Finset Nat → List (Finset Nat)
  | [], _ => []
  | v :: vs, seen => if v ∈ seen then comps n vs seen else n.component v :: comps n vs (seen ∪ n.component v)

/-- A predicate refers to the given tables only. -/
def inside (ts : Finset Nat) (cols : List Col) : Bool := cols.all fun c => decide (c.tab ∈ ts)

/-- _joingraph.py 533-534: the join graph of the fragment; the equivalence classes are not requested. -/
def restrict (tables : List Nat) (preds : List (List Col)) (index : Col → Index) (ts : Finset Nat) : JG :=
  ofPredicates (tables.filter fun t => decide (t ∈ ts)) (preds.filter (inside ts)) [] index

/-- _joingraph.py 519-535 `join_components` of a graph `g` for the query. -/
def joinComponents (tables : List Nat) (preds : List (List Col)) (index : Col → Index) (g : JG) : List JG :=
  (comps (toNx g) (Dict.keys g.nodes) ∅).map (restrict tables preds index)

/-- _joingraph.py 1114-1132, 1143-1148: `graph[table]`, the flag and the indexes of the columns (`cols` are those of the edges); none
is a KeyError. -/
def info (g : JG) (cols : List Col) (t : Nat) : Option (Bool × List Index) :=
  if t ∈ Dict.keys g.nodes then some (g.isFree t, (cols.filter fun c => decide (c.tab = t)).map g.idx) else none

end PB.JoinParts
