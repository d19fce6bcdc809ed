/-
Copying relational algebra trees with a changed node: `RelNode.mutate` and `_RelNodeUpdateManager`
(/repo/postbound/relalg.py 101-106, 142-152, 239-292, 319-396, 2524-2716), and `accept_visitor` of the operators.

The nodes live in a heap: a list of objects in the order in which they have been created.  Since the
constructors receive their inputs as finished nodes, the inputs of a node have smaller addresses.  The
copies that `mutate` creates are only ever reached through the dictionary of updated nodes and through
each other, hence they are terms here.  Operators have no input (base relations), one input
(`_input_node`) or two inputs (`_left_input`, `_right_input`).  The remaining attributes are name/value
pairs, values are opaque texts.  A hash value is represented by the term it has been computed from: two
hash values are the same if they have been computed from the same term.

Not modelled: relations with a subquery input, semi joins and anti joins (they copy their subquery),
the parent links of the copies.
-/
namespace PB.RelMutate

/-- relalg.py 338-369: the number of inputs decides which attributes hold them. -/
inductive Shape (α : Type) where
  | leaf
  | un (a : α)
  | bin (a b : α)
  deriving DecidableEq, Repr

namespace Shape
/-- relalg.py 502-503, 612-613, 1068-1069: `children()`. -/
def toList {α} : Shape α → List α
  | leaf => []
  | un a => [a]
  | bin a b => [a, b]

def map {α β} (f : α → β) : Shape α → Shape β
  | leaf => leaf
  | un a => un (f a)
  | bin a b => bin (f a) (f b)

/-- relalg.py 2600-2602: the list of the copies of all inputs, if there is a copy of each of them. -/
def all? {α β} (f : α → Option β) : Shape α → Option (Shape β)
  | leaf => some leaf
  | un a => match f a with
    | some x => some (un x)
    | none => none
  | bin a b => match f a, f b with
    | some x, some y => some (bin x y)
    | _, _ => none
end Shape

/-- relalg.py 104 `_node_type` and the attributes of a node that are no nodes (476-478 for selections). -/
structure Lab where
  ty : String
  fields : List (String × String)
  deriving DecidableEq, Repr

/-- What `==` compares (relalg.py 548-553, 658-663, 1129-1130): the type, the attributes and, recursively, the inputs. -/
inductive Term where
  | leaf (lab : Lab)
  | un (lab : Lab) (a : Term)
  | bin (lab : Lab) (a b : Term)
  deriving DecidableEq, Repr

/-- A node with the given attributes and inputs. -/
def mkTerm (lab : Lab) : Shape Term → Term
  | .leaf => .leaf lab
  | .un a => .un lab a
  | .bin a b => .bin lab a b

/-- A copy of a node (relalg.py 282-292) with its cached hash value `_hash_val`. -/
inductive Clone where
  | leaf (lab : Lab) (hash : Term)
  | un (lab : Lab) (hash : Term) (a : Clone)
  | bin (lab : Lab) (hash : Term) (a b : Clone)
  deriving DecidableEq, Repr

def mkClone (lab : Lab) (h : Term) : Shape Clone → Clone
  | .leaf => .leaf lab h
  | .un a => .un lab h a
  | .bin a b => .bin lab h a b

/-- relalg.py 433-434: `hash(node)` is the cached value. -/
def Clone.hash : Clone → Term
  | .leaf _ h => h
  | .un _ h _ => h
  | .bin _ h _ _ => h

/-- What `==` sees of a copy. -/
def Clone.term : Clone → Term
  | .leaf l _ => .leaf l
  | .un l _ a => .un l a.term
  | .bin l _ a b => .bin l a.term b.term

/-- relalg.py 392-396 `_rehash`: the node is hashed from the hash values that its inputs have at that time,
the inputs are hashed afterwards. -/
def Clone.rehash : Clone → Clone
  | .leaf l _ => .leaf l (.leaf l)
  | .un l _ a => .un l (.un l a.hash) a.rehash
  | .bin l _ a b => .bin l (.bin l a.hash b.hash) a.rehash b.rehash

/-- One node object. -/
structure Obj where
  lab : Lab
  kids : Shape Nat
  deriving DecidableEq, Repr

instance : Inhabited Obj := ⟨⟨⟨"", []⟩, .leaf⟩⟩

/-- The heap: all nodes, their links (relalg.py 102-103) and their cached hash values (105).  `side` is a set, the list
is the order in which it is iterated. -/
structure Heap where
  objs : List Obj
  parent : Nat → Option Nat
  side : Nat → List Nat
  hash : Nat → Term

namespace Heap
def obj (g : Heap) (i : Nat) : Obj := g.objs.getD i default

/-- relalg.py 167-177: `children()`. -/
def kids (g : Heap) (i : Nat) : List Nat := (g.obj i).kids.toList

/-- The content of a node, to depth `n`. -/
def contentF (g : Heap) : Nat → Nat → Term
  | 0, _ => .leaf ⟨"", []⟩
  | n + 1, i => mkTerm (g.obj i).lab ((g.obj i).kids.map (contentF g n))

/-- The content of a node, which is what `==` compares.  Inputs are created before the node, so its address bounds the
depth. -/
def content (g : Heap) (i : Nat) : Term := contentF g (i + 1) i

/-- Whether a dictionary or set takes two nodes for the same: identical, or equal and with equal hash values. -/
def same (g : Heap) (i j : Nat) : Bool :=
  i == j || (g.hash i == g.hash j && g.content i == g.content j)

/-- `==` on nodes (relalg.py 2605, 2614, 2670, 2690). -/
def eqv (g : Heap) (i j : Nat) : Bool := g.content i == g.content j

/-- relalg.py 142-152 `root()`.  The fuel is the number of links followed. -/
def rootF (g : Heap) : Nat → Nat → Nat
  | 0, i => i
  | n + 1, i => match g.parent i with
    | none => i
    | some p => rootF g n p

def root (g : Heap) (i : Nat) : Nat := rootF g g.objs.length i

/-- Adding a node to a set. -/
def setAdd (g : Heap) (s : List Nat) (i : Nat) : List Nat :=
  if s.any (fun j => g.same j i) then s else s ++ [i]

/-- relalg.py 2524-2543 `_collect_leaf_nodes`. -/
def leavesF (g : Heap) : Nat → Nat → List Nat
  | 0, _ => []
  | n + 1, i => match (g.obj i).kids with
    | .leaf => [i]
    | .un a => leavesF g n a
    | .bin a b => (leavesF g n b).foldl g.setAdd (leavesF g n a)

def leaves (g : Heap) (i : Nat) : List Nat := leavesF g (i + 1) i

/-- relalg.py 2713-2716: the nodes that receive the node as an input. -/
def ups (g : Heap) (i : Nat) : List Nat := (g.parent i).toList ++ g.side i
end Heap

/-- `_updated_nodes` (relalg.py 2568): copies by original node. -/
abbrev Upd := List (Nat × Clone)

/-- `self._updated_nodes[child]`. -/
def lookup (g : Heap) (u : Upd) (i : Nat) : Option Clone :=
  (u.find? (fun e => g.same e.1 i)).map (fun e => e.2)

/-- `self._updated_nodes[node] = copy`. -/
def put (g : Heap) (u : Upd) (i : Nat) (c : Clone) : Upd :=
  if u.any (fun e => g.same e.1 i) then u.map (fun e => if g.same e.1 i then (e.1, c) else e)
  else u ++ [(i, c)]

/-- relalg.py 2599-2603: the copy of a node on top of the copies of its inputs; nothing if some input has no copy yet
(2593-2597).  The copy keeps the cached hash value of the original. -/
def copyNode (g : Heap) (u : Upd) (i : Nat) : Option Clone :=
  ((g.obj i).kids.all? (lookup g u)).map (mkClone (g.obj i).lab (g.hash i))

/-- An argument of `mutate`: not given, a value, or a node. -/
inductive Arg where
  | none
  | val (v : String)
  | node (i : Nat)
  deriving DecidableEq, Repr

/-- The outcome: finished, failed with an `AssertionError`, or not finished within the fuel. -/
inductive Out (α : Type) where
  | done (a : α)
  | assertion
  | running
  deriving DecidableEq, Repr

/-- relalg.py 2662-2699 `_merge_new_child`: copy the nodes below `child` that have no copy yet, bottom-up along the
parent links. -/
def mergeLoop (g : Heap) (child : Nat) : Nat → List Nat → Upd → Out (Upd × Clone)
  | _, [], _ => .assertion
  | 0, _ :: _, _ => .running
  | n + 1, i :: q, u =>
    match lookup g u i with
    | some c =>
      if g.eqv i child then .done (u, c)
      else mergeLoop g child n (q ++ g.ups i) u
    | none =>
      match copyNode g u i with
      | none => mergeLoop g child n q u
      | some c =>
        if g.eqv i child then .done (put g u i c, c)
        else mergeLoop g child n (q ++ g.ups i) (put g u i c)

/-- `setattr(node, attr, value)` for an attribute that is no node. -/
def setField (lab : Lab) (k v : String) : Lab :=
  { lab with fields := lab.fields.map (fun f => if f.1 == k then (f.1, v) else f) }

def Clone.setVal : Clone → String → String → Clone
  | .leaf l h, k, v => .leaf (setField l k v) h
  | .un l h a, k, v => .un (setField l k v) h a
  | .bin l h a b, k, v => .bin (setField l k v) h a b

/-- Whether the node has an input attribute of that name (relalg.py 361-365, 2641-2643). -/
def Clone.hasInput : Clone → String → Bool
  | .leaf _ _, _ => false
  | .un _ _ _, k => k == "input_node"
  | .bin _ _ _ _, k => k == "left_input" || k == "right_input"

def Clone.setInput : Clone → String → Clone → Clone
  | .leaf l h, _, _ => .leaf l h
  | .un l h a, k, c => if k == "input_node" then .un l h c else .un l h a
  | .bin l h a b, k, c =>
    if k == "left_input" then .bin l h c b else if k == "right_input" then .bin l h a c else .bin l h a b

/-- relalg.py 2627-2647 `_perform_node_update`: arguments that are `None` and names without an attribute are skipped,
nodes are merged into the copy first.  `ord` is the order in which a set is iterated. -/
def perform (g : Heap) (ord : List Nat → List Nat) (n : Nat) : List (String × Arg) → Upd → Clone → Out (Upd × Clone)
  | [], u, c => .done (u, c)
  | (_, .none) :: r, u, c => perform g ord n r u c
  | (k, .val v) :: r, u, c => perform g ord n r u (c.setVal k v)
  | (k, .node i) :: r, u, c =>
    if c.hasInput k then
      match mergeLoop g i n (ord (g.leaves i)) u with
      | .done (u', d) => perform g ord n r u' (c.setInput k d)
      | .assertion => .assertion
      | .running => .running
    else perform g ord n r u c

/-- relalg.py 2584-2615: the loop of `make_relalg_copy`.  Returns `updated_root` and `updated_initiator`. -/
def copyLoop (g : Heap) (ord : List Nat → List Nat) (m root init : Nat) (asRoot : Bool) (args : List (String × Arg)) :
    Nat → List Nat → Upd → Option Clone → Option Clone → Out (Option Clone × Option Clone)
  | _, [], _, ur, ui => .done (ur, ui)
  | 0, _ :: _, _, _, _ => .running
  | n + 1, i :: q, u, ur, ui =>
    let q' := q ++ g.ups i
    match lookup g u i with
    | some _ => copyLoop g ord m root init asRoot args n q' u ur ui
    | none =>
      match copyNode g u i with
      | none => copyLoop g ord m root init asRoot args n q' u ur ui
      | some c =>
        if g.eqv i init then
          match perform g ord m args u c with
          | .assertion => .assertion
          | .running => .running
          | .done (u', c') =>
            if asRoot then .done (some c', some c')
            else copyLoop g ord m root init asRoot args n q' (put g u' i c')
              (if g.eqv i root then some c' else ur) (some c')
        else copyLoop g ord m root init asRoot args n q' (put g u i c)
          (if !asRoot && g.eqv i root then some c else ur) ui

namespace Heap
/-- relalg.py 379-380: a node forgets its parent and the other nodes that use it. -/
def unlink (i : Nat) (g : Heap) : Heap :=
  { g with parent := fun j => if j = i then none else g.parent j,
           side := fun j => if j = i then [] else g.side j }

/-- relalg.py 371-385 `_clear_parent_links(recursive=True)`. -/
def clearF : Nat → Nat → Heap → Heap
  | 0, _, g => g
  | n + 1, i, g => (g.kids i).foldl (fun g c => clearF n c g) (unlink i g)

/-- relalg.py 327-331: the node becomes the parent of the input, or is added to `_sideways_pass` if there is one. -/
def link (i : Nat) (g : Heap) (c : Nat) : Heap :=
  match g.parent c with
  | none => { g with parent := fun j => if j = c then some i else g.parent j }
  | some _ => { g with side := fun j => if j = c then g.setAdd (g.side c) i else g.side j }

/-- relalg.py 319-336 `_maintain_child_links(recursive=True)`. -/
def maintainF : Nat → Nat → Heap → Heap
  | 0, _, g => g
  | n + 1, i, g => (g.kids i).foldl (fun g c => maintainF n c g) ((g.kids i).foldl (link i) g)

/-- relalg.py 392-396 `_rehash` on the nodes of the heap. -/
def rehashF : Nat → Nat → Heap → Heap
  | 0, _, g => g
  | n + 1, i, g =>
    (g.kids i).foldl (fun g c => rehashF n c g)
      { g with hash := fun j => if j = i then mkTerm (g.obj i).lab ((g.obj i).kids.map g.hash) else g.hash j }

/-- relalg.py 387-390, 2622-2623: what happens to the original tree at the end. -/
def refresh (g : Heap) (r : Nat) : Heap :=
  rehashF (r + 1) r (maintainF (r + 1) r (clearF (r + 1) r g))

/-- relalg.py 102-105: a new node, not yet known to its inputs. -/
def alloc (g : Heap) (o : Obj) : Heap :=
  { objs := g.objs ++ [o],
    parent := fun j => if j = g.objs.length then none else g.parent j,
    side := fun j => if j = g.objs.length then [] else g.side j,
    hash := fun j => if j = g.objs.length then mkTerm o.lab (o.kids.map g.hash) else g.hash j }

/-- relalg.py 101-106, 319-331: creating a node on top of existing ones. -/
def new (g : Heap) (o : Obj) : Heap := o.kids.toList.foldl (link g.objs.length) (alloc g o)

/-- The heap without nodes. -/
def empty : Heap := ⟨[], fun _ => none, fun _ => [], fun _ => .leaf ⟨"", []⟩⟩
end Heap

/-- What is left after `mutate`: the copied tree, the content of the returned node, and the heap of the originals. -/
structure Result where
  root : Clone
  init : Term
  heap : Heap

/-- relalg.py 239-280, 2571-2625: `node.mutate(as_root=..., **args)`. -/
def mutate (g : Heap) (ord : List Nat → List Nat) (n : Nat) (i : Nat) (asRoot : Bool) (args : List (String × Arg)) :
    Out Result :=
  let r := g.root i
  match copyLoop g ord n r i asRoot args n (ord (g.leaves r)) [] none none with
  | .running => .running
  | .assertion => .assertion
  | .done (some ur, some ui) => .done ⟨ur.rehash, ui.term, g.refresh r⟩
  | .done _ => .assertion

/-! ### Visitors -/

/-- The operators (relalg.py 449-2437). -/
inductive Op where
  | selection | crossProduct | union | intersection | difference | relation | thetaJoin | projection | grouping
  | rename | sort | map | duplicateElim | semiJoin | antiJoin | subqueryScan
  deriving DecidableEq, Repr

/-- An operator with its inputs. -/
inductive Tree where
  | leaf (op : Op)
  | un (op : Op) (a : Tree)
  | bin (op : Op) (a b : Tree)
  deriving DecidableEq, Repr

def Tree.op : Tree → Op
  | .leaf o => o
  | .un o _ => o
  | .bin o _ _ => o

/-- What a method of a visitor is called with. -/
inductive Arg1 where
  | node (t : Tree)
  | visitor
  deriving DecidableEq, Repr

/-- relalg.py 506, 616, 728, 839, 951, 1080, 1211, 1322, 1458, 1597, 1723, 1855, 1958, 2097, 2255, 2383:
`accept_visitor` calls the method for the operator with this argument. -/
def visitArg (t : Tree) : Arg1 :=
  match t.op with
  | .union | .intersection | .difference => .visitor
  | _ => .node t

/-- A visitor whose methods return the operators below the node they receive, in pre-order; they call `accept_visitor` on
the children of the node.  A visitor has no `children()`: none is the `AttributeError`. -/
def collect : Tree → Option (List Op)
  | .leaf o => match visitArg (.leaf o) with
    | .visitor => none
    | .node _ => some [o]
  | .un o a => match visitArg (.un o a) with
    | .visitor => none
    | .node _ => (collect a).map (fun l => o :: l)
  | .bin o a b => match visitArg (.bin o a b) with
    | .visitor => none
    | .node _ => match collect a, collect b with
      | some l, some m => some (o :: l ++ m)
      | _, _ => none

end PB.RelMutate
