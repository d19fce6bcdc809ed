import Verif.Model.JoinGraph

/-!
Model of the pictures of join trees, query plans, join graphs and QEP synopses (postbound/vis/trees.py, postbound/vis/optimizer.py, postbound/vis/tonic.py).

A Graphviz object is the list of the statements in its DOT source. Rendering to files, the layout and the escaping of labels (`gv.escape`, which keeps the displayed
text) are not modelled, nor are `vis/fdl.py`, `vis/graphs.py`, `vis/plots.py` and the labels of relational algebra trees. Hash values are free of collisions: the hash value
of an object is the structure of the values it is computed from.
-/

namespace PB.Vis

open PB.JoinGraph

/-- The attributes of boxes that are used (postbound/vis/optimizer.py:22-29, 340-346). -/
structure Style where
  style : Option String := none
  color : Option String := none
deriving DecidableEq, Repr

/-- A statement of the DOT source: `Graph.node(key, label, …)` and `Graph.edge(tail, head, …)`; `arrow` is false for `dir="none"`. -/
inductive Stmt (K : Type) where
  | box (key : K) (label : String) (style : Style)
  | line (tail head : K) (arrow : Bool)
deriving DecidableEq, Repr

/-- A tree of objects: an object together with what the child supplier reaches from it. -/
inductive Tree (T : Type) where
  | node (obj : T) (kids : List (Tree T))

/-- The object at the root. -/
def Tree.obj {T : Type} : Tree T → T
  | .node o _ => o

mutual
/-- `plot_tree` (postbound/vis/trees.py:29-105). `key` is the node id generator, `label` the label generator. Lines of an undirected graph have no arrow. -/
def plotTree {T K : Type} (key : T → K) (label : T → String × Style) : Tree T → List (Stmt K)
  | .node o ks => .box (key o) (label o).1 (label o).2 :: plotKids key label (key o) ks

/-- The loop over the children (postbound/vis/trees.py:91-101). -/
def plotKids {T K : Type} (key : T → K) (label : T → String × Style) (parent : K) : List (Tree T) → List (Stmt K)
  | [] => []
  | k :: ks => .line parent (key k.obj) false :: (plotTree key label k ++ plotKids key label parent ks)
end

/-- The structure behind a hash value: a pair of texts and the hash values of the children. -/
inductive Hash where
  | node (type : String) (table : String) (kids : List Hash)

/-! ### Join trees -/

/-- `JoinTree` and `LogicalJoinTree` (postbound/_hints.py:1230-1346, 1648-1700); the text is that of the cardinality of a logical join tree. -/
inductive JTree where
  | scan (table : String) (card : Option String)
  | join (outer inner : JTree) (card : Option String)
deriving DecidableEq, Repr

/-- `hash((base_table, outer_child, inner_child))` (postbound/_hints.py:1346). -/
def JTree.hash : JTree → Hash
  | .scan t _ => .node "" t []
  | .join l r _ => .node "" "" [l.hash, r.hash]

/-- The annotation (postbound/vis/optimizer.py:31-32). -/
def cardText : Option String → String
  | none => ""
  | some c => "\n Card = " ++ c

/-- `_join_tree_labels` (postbound/vis/optimizer.py:22-34). -/
def JTree.label : JTree → String × Style
  | .scan t c => (t ++ cardText c, { color := some "grey" })
  | .join _ _ c => ("⋈" ++ cardText c, { style := some "bold" })

/-- A join tree with the children that `_join_tree_traversal` supplies (postbound/vis/optimizer.py:37-38). -/
def JTree.unfold : JTree → Tree JTree
  | .scan t c => .node (.scan t c) []
  | .join l r c => .node (.join l r c) [l.unfold, r.unfold]

/-- `plot_join_tree` (postbound/vis/optimizer.py:41-45); `none` is the empty join tree. -/
def plotJoinTree : Option JTree → List (Stmt Hash)
  | none => []
  | some t => plotTree JTree.hash JTree.label t.unfold

/-! ### Query plans -/

/-- The kind of the operator of a plan node (postbound/_qep.py:1256-1266). -/
inductive Kind where
  | join | scan | auxiliary
deriving DecidableEq, Repr

/-- The information of a plan node that is shown; `target` is the name of its subplan. -/
structure Info where
  kind : Kind
  nodeType : String
  table : String := ""
  target : String := ""
deriving DecidableEq, Repr

/-- `QueryPlan` (postbound/_qep.py:791-800, 1955-1964): node, children, root of the subplan. -/
inductive Plan where
  | node (info : Info) (kids : List Plan) (sub : Option Plan)

/-- The node itself. -/
def Plan.info : Plan → Info
  | .node i _ _ => i

/-- `is_auxiliary` (postbound/_qep.py:1264-1266). -/
def Plan.isAux (p : Plan) : Bool := decide (p.info.kind = .auxiliary)

mutual
/-- `QueryPlan.__hash__` (postbound/_qep.py:1963-1964). -/
def Plan.hash : Plan → Hash
  | .node i ks _ => .node i.nodeType i.table (hashAll ks)

/-- The hash values of the children. -/
def hashAll : List Plan → List Hash
  | [] => []
  | k :: ks => k.hash :: hashAll ks
end

/-- The label and style of a node that has no subplan (postbound/vis/optimizer.py:341-346). -/
def plainLabel (i : Info) : String × Style :=
  match i.kind with
  | .join => (i.nodeType, { style := some "bold" })
  | .scan => ("<<" ++ i.nodeType ++ ">>\n" ++ i.table, { color := some "grey" })
  | .auxiliary => (i.nodeType, { style := some "dashed", color := some "grey" })

mutual
/-- `_query_plan_labels` (postbound/vis/optimizer.py:327-353). The annotation generator returns the empty text if there is none. -/
def planLabel (ann : Plan → String) (target : String) : Plan → String × Style
  | .node i ks s =>
    let x := match subLabel ann i.target s with
      | none => plainLabel i
      | some y => ("<<SubPlan>> " ++ target ++ "\n" ++ y.1 ++ "\nSubplan: " ++ i.target, { y.2 with style := some "dashed" })
    let a := ann (.node i ks s)
    (if a = "" then x.1 else x.1 ++ "\n" ++ a, x.2)

/-- The label of the root of the subplan (postbound/vis/optimizer.py:333-340). -/
def subLabel (ann : Plan → String) (target : String) : Option Plan → Option (String × Style)
  | none => none
  | some p => some (planLabel ann target p)
end

mutual
/-- `_query_plan_traversal` (postbound/vis/optimizer.py:356-371). -/
def traverse (skip : Bool) : Plan → List Plan
  | .node _ ks s => traverseAll skip ks ++ traverseSub skip s

/-- What is supplied for the children (postbound/vis/optimizer.py:359, 363-370). -/
def traverseAll (skip : Bool) : List Plan → List Plan
  | [] => []
  | k :: ks => (if skip && k.isAux then traverse skip k else [k]) ++ traverseAll skip ks

/-- What is supplied for the subplan (postbound/vis/optimizer.py:360-370). -/
def traverseSub (skip : Bool) : Option Plan → List Plan
  | none => []
  | some p => if skip && p.isAux then traverse skip p else [p]
end

mutual
/-- The trees below a plan that `_query_plan_traversal` (postbound/vis/optimizer.py:356-371) leads to. -/
def below (skip : Bool) : Plan → List (Tree Plan)
  | .node _ ks s => belowAll skip ks ++ belowSub skip s

/-- The part for the children. -/
def belowAll (skip : Bool) : List Plan → List (Tree Plan)
  | [] => []
  | k :: ks => (if skip && k.isAux then below skip k else [.node k (below skip k)]) ++ belowAll skip ks

/-- The part for the subplan. -/
def belowSub (skip : Bool) : Option Plan → List (Tree Plan)
  | none => []
  | some p => if skip && p.isAux then below skip p else [.node p (below skip p)]
end

/-- A plan with the children that `_query_plan_traversal` supplies (postbound/vis/optimizer.py:356-371). -/
def Plan.unfold (skip : Bool) (p : Plan) : Tree Plan := .node p (below skip p)

/-- `plot_query_plan` and `plot_analyze_plan` (postbound/vis/optimizer.py:384-446). -/
def plotPlan (ann : Plan → String) (skip : Bool) (p : Plan) : List (Stmt Hash) := plotTree Plan.hash (planLabel ann "") (p.unfold skip)

/-! ### Join graphs -/

/-- The label of a table (postbound/vis/optimizer.py:92-95); no annotation function is `none`. -/
def tableLabel (name : Nat → String) (ann : Option (Nat → String)) (t : Nat) : String :=
  match ann with
  | none => name t
  | some a => name t ++ "\n" ++ a t

/-- The edge for two tables that are joined (postbound/vis/optimizer.py:48-79). `partners` are the pairs of joined columns, `none` if `joins_between` finds no
predicate, `pk` and `secondary` the tests of the schema. -/
def queryEdge (name : Nat → String) (partners : Nat → Nat → Option (List (Col × Col))) (pk secondary : Col → Bool) (a b : Nat) : Stmt String :=
  match partners a b with
  | some [(c, d)] =>
    if pk c && secondary d then .line (name d.tab) (name c.tab) true
    else if pk d && secondary c then .line (name c.tab) (name d.tab) true
    else .line (name a) (name b) false
  | _ => .line (name a) (name b) false

/-- `_plot_join_graph_from_query` (postbound/vis/optimizer.py:82-102). `nodes` and `edges` are those of `query.predicates().join_graph()`; `none` is the `TypeError`
that calling a method of the class `gv.Graph` (instead of an object) raises. The class itself, which is returned for graphs without nodes, is represented as empty picture, as is the result
for queries without predicates. -/
def plotQueryGraph (name : Nat → String) (ann : Option (Nat → String)) (pkFk : Bool) (nodes : List Nat) (edges : List (Nat × Nat))
    (partners : Nat → Nat → Option (List (Col × Col))) (pk secondary : Col → Bool) : Option (List (Stmt String)) :=
  if pkFk then
    some (nodes.map (fun t => .box (name t) (tableLabel name ann t) {}) ++ edges.map fun e => queryEdge name partners pk secondary e.1 e.2)
  else if nodes = [] then some [] else none

/-- `_plot_join_graph_directly` (postbound/vis/optimizer.py:105-128). -/
def plotJoinGraph (name : Nat → String) (ann : Option (Nat → String)) (g : JG) : List (Stmt String) :=
  (Dict.keys g.nodes).map (fun t => .box (name t) (tableLabel name ann t) { color := some (if g.isFree t then "black" else "blue") }) ++
    g.edges.map fun e =>
      if g.isPkFk e.1 e.2.1 then .line (name e.1) (name e.2.1) true
      else if g.isPkFk e.2.1 e.1 then .line (name e.2.1) (name e.1) true
      else .line (name e.1) (name e.2.1) false

/-- `setup_annotations` and `merged_annotation` (postbound/vis/optimizer.py:294-324); `none` is the `ValueError`. `fns` are the three annotation functions. -/
def setupAnnotations (fns : List (String × (Nat → String))) (names : List String) : Option (Nat → String) :=
  match names.mapM fun n => fns.lookup n with
  | none => none
  | some [] => none
  | some fs => some fun t => "\n".intercalate (fs.map fun f => f t)

/-! ### QEP synopses -/

/-- `QEPsNode` (postbound/opt/tonic.py:354-368): costs, children with their identifiers, subquery root. -/
inductive QNode where
  | node (costs : List (String × String)) (kids : List (String × QNode)) (sub : Option QNode)

/-- `QEPsNode.__bool__` (postbound/opt/tonic.py:872-873). -/
def QNode.truthy : QNode → Bool
  | .node c ks _ => !ks.isEmpty || !c.isEmpty

/-- The costs of a node. -/
def QNode.costs : QNode → List (String × String)
  | .node c _ _ => c

/-- `_make_node_label` (postbound/vis/tonic.py:26-37). -/
def qLabel (id : String) (n : QNode) : String :=
  id ++ "\n" ++ (if n.costs = [] then "" else "[" ++ ", ".intercalate (n.costs.map fun c => c.1 ++ "=" ++ c.2) ++ "]")

/-- A step from a node of the synopsis to one below it: a child, or a child of the subquery root. -/
inductive Step where
  | child (i : Nat)
  | sub (i : Nat)
deriving DecidableEq, Repr

mutual
/-- `_render_subquery_path` (postbound/vis/tonic.py:15-23) for a node whose children hang below `cur`; `step` names the steps to them. The random identifiers of nodes
(postbound/vis/tonic.py:11-12) are modelled by their positions, hence are different. -/
def renderSub (cur : List Step) (step : Nat → Step) : QNode → List (Stmt (List Step))
  | .node _ ks _ => renderSubKids cur step 0 ks

/-- The loop over the children (postbound/vis/tonic.py:18-23). -/
def renderSubKids (cur : List Step) (step : Nat → Step) (i : Nat) : List (String × QNode) → List (Stmt (List Step))
  | [] => []
  | (id, k) :: ks =>
    .box (cur ++ [step i]) (qLabel id k) { style := some "dashed" } :: .line cur (cur ++ [step i]) true ::
      (renderSub (cur ++ [step i]) .child k ++ renderSubKids cur step (i + 1) ks)
end

/-- Is there a subquery root that is not empty? (postbound/vis/tonic.py:54, 60) -/
def hasSub : QNode → Bool
  | .node _ _ none => false
  | .node _ _ (some r) => r.truthy

mutual
/-- `plot_tonic_qeps` for a node with the box `cur` (postbound/vis/tonic.py:40-70). -/
def plotQ (cur : List Step) : QNode → List (Stmt (List Step))
  | .node _ ks s => plotQSub cur s ++ plotQKids cur 0 ks

/-- The subquery paths (postbound/vis/tonic.py:54-55). -/
def plotQSub (cur : List Step) : Option QNode → List (Stmt (List Step))
  | none => []
  | some r => if r.truthy then renderSub cur .sub r else []

/-- The loop over the children (postbound/vis/tonic.py:57-68). -/
def plotQKids (cur : List Step) (i : Nat) : List (String × QNode) → List (Stmt (List Step))
  | [] => []
  | (id, k) :: ks =>
    .box (cur ++ [.child i]) (qLabel id k) (if hasSub k then { style := some "dashed" } else {}) :: .line cur (cur ++ [.child i]) true ::
      (plotQ (cur ++ [.child i]) k ++ plotQKids cur (i + 1) ks)
end

/-- `plot_tonic_qeps` for a synopsis (postbound/vis/tonic.py:50-53). The box of the root has no label of its own, Graphviz shows its name. -/
def plotSynopsis (root : QNode) : List (Stmt (List Step)) := .box [] "∅" { style := some "dotted" } :: plotQ [] root

mutual
/-- What `plot_tonic_qeps` leaves behind: the access to `subquery_root` creates the missing subquery roots (postbound/vis/tonic.py:54, 60, postbound/opt/tonic.py:370-386). -/
def touch : QNode → QNode
  | .node c ks s => .node c (touchKids ks) (some (s.getD (.node [] [] none)))

/-- The children. -/
def touchKids : List (String × QNode) → List (String × QNode)
  | [] => []
  | (id, k) :: ks => (id, touch k) :: touchKids ks
end

/-- The JSON text of a node has the structure of its costs, children and subquery (postbound/opt/tonic.py:858-870). -/
inductive Json where
  | null
  | node (costs : List (String × String)) (kids : List (String × Json)) (sub : Json)

mutual
/-- `QEPsNode.__json__` (postbound/opt/tonic.py:858-870). -/
def QNode.json : QNode → Json
  | .node c ks s => .node c (jsonKids ks) (jsonSub s)

/-- The children. -/
def jsonKids : List (String × QNode) → List (String × Json)
  | [] => []
  | (id, k) :: ks => (id, k.json) :: jsonKids ks

/-- The subquery. -/
def jsonSub : Option QNode → Json
  | none => .null
  | some r => r.json
end

end PB.Vis
