import Verif.Model.Dicts
import Verif.Model.Hints
import Verif.Model.JoinTree

/-!
Model of the TONIC operator selection (postbound/opt/tonic.py).

Table references are numbers. `none` is an exception. A synopsis is a tree of nodes, see `Node` for its JSON representation; the traversals work
on the costs at each address, that is, at each path of steps from the root. Nodes without costs are not distinguished from missing nodes:
they are created whenever they are visited.
-/

namespace PB.Tonic

open PB PB.Hints

/-! ### Costs of a node -/

/-- `operator_costs` (postbound/opt/tonic.py:364). -/
abbrev Costs := Dict JoinOp Rat

/-- `update_costs` (postbound/opt/tonic.py:716-734): the operator is given, and `none` stands for costs that are infinite or nan. -/
def updateCosts (gamma : Rat) (d : Costs) (op : JoinOp) (cost : Option Rat) : Option Costs :=
  cost.map fun c => Dict.set d op (c + gamma * (Dict.get? d op).getD 0)

/-- `current_recommendation` (postbound/opt/tonic.py:704-714). -/
def recommendation (d : Costs) : Option JoinOp := if d.length > 1 then Dicts.argmin d else none

/-! ### Traversals -/

variable {F : Type} [DecidableEq F]

/-- `QepsIdentifier` (postbound/opt/tonic.py:196-299). -/
abbrev Ident (F : Type) := Finset Nat × Option F

/-- A step from a node to one of its children or to the root of its subquery (postbound/opt/tonic.py:364-386). -/
inductive Step (F : Type)
  | child (id : Ident F)
  | sub
deriving DecidableEq

/-- The path from the root to a node, the last step first. -/
abbrev Addr (F : Type) := List (Step F)

/-- A synopsis: the costs of its nodes. -/
abbrev Store (F : Type) := Dict (Addr F) Costs

/-- The query, as far as it matters: `drop` is `drop_alias`, `filter` gives the normalized filter predicate of a table if the synopsis is filter
aware (postbound/opt/tonic.py:146-175, 798-823), `lt` is the order of table references. -/
structure Env (F : Type) where
  gamma : Rat
  drop : Nat → Nat
  filter : Nat → Option F
  lt : Nat → Nat → Bool

/-- `_make_identifier` (postbound/opt/tonic.py:798-823). -/
def Env.ident (e : Env F) (t : Nat) : Ident F := ({e.drop t}, e.filter t)

/-- `QepsIdentifier(tables)` (postbound/opt/tonic.py:221-230), used for subqueries. -/
def Env.subIdent (e : Env F) (ts : Finset Nat) : Ident F := (ts.image e.drop, none)

/-- `tables` (postbound/opt/tonic.py:398-422): roots of subqueries have no parent. -/
def addrTables : Addr F → Finset Nat
  | [] => ∅
  | .sub :: _ => ∅
  | .child id :: a => addrTables a ∪ id.1

/-- The costs at an address. -/
def costsAt (s : Store F) (a : Addr F) : Costs := (Dict.get? s a).getD []

/-- The assignment of join operators (postbound/_hints.py:980-1019). -/
abbrev Asg := Dict (Finset Nat) JoinOp

/-- The recommendation of the current node (postbound/opt/tonic.py:458-462); assignments need at least two tables
(postbound/_hints.py:1013-1014). -/
def record (s : Store F) (a : Addr F) (asg : Asg) : Option Asg :=
  match recommendation (costsAt s a) with
  | none => some asg
  | some op => if (addrTables a).card < 2 then none else some (Dict.set asg (addrTables a) op)

/-- `base_table` of a join tree (postbound/_hints.py:1348-1356). -/
def baseTable {A : Type} : JT.Tree A → Option Nat
  | .scan _ t _ => some t
  | _ => none

/-- `outer_child` of a join tree (postbound/_hints.py:1358-1366). -/
def outerChild {A : Type} : JT.Tree A → Option (JT.Tree A)
  | .join _ o _ _ => some o
  | _ => none

/-- The two tables of a base join in their order (postbound/opt/tonic.py:482-490). -/
def ordered (e : Env F) (a b : Nat) : Nat × Nat := if e.lt b a then (b, a) else (a, b)

/-- The next table for a join of an intermediate result and a base table (postbound/opt/tonic.py:503-507). -/
def nextTable {A : Type} (i : JT.Tree A) : Option Nat :=
  if i.isScan then baseTable i else (outerChild i).bind baseTable

/-- `recommend_operators` along `_iterate_join_tree` (postbound/opt/tonic.py:121-143, 424-511). The state is the current node and the
assignment. The loop over the sequence of joins is a recursion over the tree: the joins of the deeper child come first. -/
def recommend {A : Type} (e : Env F) (s : Store F) : JT.Tree A → Addr F × Asg → Option (Addr F × Asg)
  | .empty _, _ => none
  | .scan _ _ _, st => some st
  | .join _ o i _, st =>
    (if i.planDepth < o.planDepth then recommend e s o st else recommend e s i st).bind fun st =>
      (record s st.1 st.2).bind fun asg =>
        if !o.isScan && !i.isScan then
          if i.planDepth ≤ o.planDepth then
            (recommend e s o (.sub :: .child (e.subIdent o.tables) :: st.1, asg)).map fun r => (.child (e.subIdent o.tables) :: st.1, r.2)
          else
            (recommend e s i (.sub :: .child (e.subIdent i.tables) :: st.1, asg)).map fun r => (.child (e.subIdent i.tables) :: st.1, r.2)
        else if o.isScan && i.isScan then
          (baseTable o).bind fun a => (baseTable i).bind fun b =>
            (record s (.child (e.ident (ordered e a b).1) :: st.1) asg).map fun asg =>
              (.child (e.ident (ordered e a b).2) :: .child (e.ident (ordered e a b).1) :: st.1, asg)
        else (nextTable i).map fun t => (.child (e.ident t) :: st.1, asg)

/-- `QEPSynopsis.recommend_operators` (postbound/opt/tonic.py:926-947). -/
def recommendOperators {A : Type} (e : Env F) (s : Store F) (t : JT.Tree A) : Option Asg := (recommend e s t ([], [])).map Prod.snd

/-- A query plan, as far as it matters (postbound/_qep.py:1013-1082): scans, auxiliary nodes with one input, and joins with two inputs, an
operator and estimated costs. Other shapes are not modelled. -/
inductive Plan
  | scan (t : Nat)
  | aux (child : Plan)
  | join (op : JoinOp) (cost : Option Rat) (outer inner : Plan)
deriving DecidableEq

/-- `plan_depth` (postbound/_qep.py:1360-1366). -/
def Plan.depth : Plan → Nat
  | .scan _ => 1
  | .aux p => 1 + p.depth
  | .join _ _ o i => 1 + max o.depth i.depth

/-- `is_scan_branch` (postbound/_qep.py:1334-1344). -/
def Plan.isScanBranch : Plan → Bool
  | .scan _ => true
  | .aux p => p.isScanBranch
  | .join _ _ _ _ => false

/-- `fetch_base_table` (postbound/_qep.py:1368-1380). -/
def Plan.fetchBase : Plan → Option Nat
  | .scan t => some t
  | .aux p => p.fetchBase
  | .join _ _ _ _ => none

/-- `tables` (postbound/_qep.py:1382-1402). -/
def Plan.tables : Plan → Finset Nat
  | .scan t => {t}
  | .aux p => p.tables
  | .join _ _ o i => o.tables ∪ i.tables

/-- `update_costs` of a child node (postbound/opt/tonic.py:569-571, 601, 716-734). -/
def learn (e : Env F) (s : Store F) (a : Addr F) (op : JoinOp) (cost : Option Rat) : Option (Store F) :=
  (updateCosts e.gamma (costsAt s a) op cost).map fun d => Dict.set s a d

/-- `integrate_costs` along `_iterate_query_plan` (postbound/opt/tonic.py:91-118, 513-602). The state is the current node and the synopsis. For
these plans `is_bushy` means that both inputs have joins (postbound/_qep.py:1290-1299), and `is_base_join` that none has
(postbound/_qep.py:1346-1358). -/
def integrate (e : Env F) : Plan → Addr F × Store F → Option (Addr F × Store F)
  | .scan _, st => some st
  | .aux p, st => integrate e p st
  | .join op cost o i, st =>
    (if i.depth < o.depth then integrate e o st else integrate e i st).bind fun st =>
      if !o.isScanBranch && !i.isScanBranch then
        if i.depth < o.depth then
          (learn e st.2 (.child (e.subIdent i.tables) :: st.1) op cost).bind fun s =>
            (integrate e i (.sub :: .child (e.subIdent i.tables) :: st.1, s)).map fun r => (.child (e.subIdent i.tables) :: st.1, r.2)
        else
          (learn e st.2 (.child (e.subIdent o.tables) :: st.1) op cost).bind fun s =>
            (integrate e o (.sub :: .child (e.subIdent o.tables) :: st.1, s)).map fun r => (.child (e.subIdent o.tables) :: st.1, r.2)
      else if o.isScanBranch && i.isScanBranch then
        o.fetchBase.bind fun a => i.fetchBase.bind fun b =>
          (learn e st.2 (.child (e.ident (ordered e a b).2) :: .child (e.ident (ordered e a b).1) :: st.1) op cost).map fun s =>
            (.child (e.ident (ordered e a b).2) :: .child (e.ident (ordered e a b).1) :: st.1, s)
      else
        (if o.isScanBranch then o.fetchBase else i.fetchBase).bind fun t =>
          (learn e st.2 (.child (e.ident t) :: st.1) op cost).map fun s => (.child (e.ident t) :: st.1, s)

/-- `QEPSynopsis.integrate_costs` (postbound/opt/tonic.py:949-960). -/
def integrateCosts (e : Env F) (s : Store F) (p : Plan) : Option (Store F) := (integrate e p ([], s)).map Prod.snd

/-- A history of plans for several queries. -/
def integrateAll : List (Env F × Plan) → Store F → Option (Store F)
  | [], s => some s
  | (e, p) :: l, s => (integrateCosts e s p).bind (integrateAll l)

/-- `detect_unknown_costs` along `_iterate_join_tree` (postbound/opt/tonic.py:604-702), as far as exceptions are concerned: `_tables_in_qeps_path` calls
the property `tables` (193). The state is the depth of the current node below its root. -/
def detect {A : Type} : JT.Tree A → Nat → Option Nat
  | .empty _, _ => none
  | .scan _ _ _, n => some n
  | .join _ o i _, n =>
    (if i.planDepth < o.planDepth then detect o n else detect i n).bind fun n =>
      if 2 ≤ n then none
      else if !o.isScan && !i.isScan then
        (if i.planDepth ≤ o.planDepth then detect o 0 else detect i 0).map fun _ => n + 1
      else if o.isScan && i.isScan then if 2 ≤ n + 1 then none else some (n + 2)
      else some (n + 1)

/-! ### JSON -/

/-- A node of a synopsis: its costs, its children and its subquery (postbound/opt/tonic.py:354-386). -/
inductive Node (F : Type)
  | mk (costs : Costs) (children : List (Ident F × Node F)) (subquery : Option (Node F))

/-- The JSON representation: `null` or an object, in which each key may be missing. Identifiers and costs are not modelled further. -/
inductive J (F : Type)
  | null
  | obj (costs : Option Costs) (children : Option (List (Ident F × J F))) (subquery : Option (J F)) (node : Option (J F))

mutual
/-- `QEPsNode.__json__` (postbound/opt/tonic.py:858-870). -/
def Node.json : Node F → J F
  | .mk costs children subquery => .obj (some costs) (some (jsonChildren children)) (some (jsonOpt subquery)) none

/-- The children (postbound/opt/tonic.py:862-865). -/
def jsonChildren : List (Ident F × Node F) → List (Ident F × J F)
  | [] => []
  | (id, n) :: l => (id, n.json) :: jsonChildren l

/-- `_subquery_root`, which may be `None` (postbound/opt/tonic.py:869). -/
def jsonOpt : Option (Node F) → J F
  | none => .null
  | some n => n.json
end

/-- The children that are loaded, if the node that is loaded for each of them is given (postbound/opt/tonic.py:1094-1100). -/
def loadChildren (node : Option (Node F)) : List (Ident F) → Option (List (Ident F × Node F))
  | [] => some []
  | id :: l => node.bind fun n => (loadChildren node l).map fun r => (id, n) :: r

/-- `_load_qeps_from_json` (postbound/opt/tonic.py:1049-1105): children are loaded from the key `node` of the object itself (1097-1099). -/
def load : J F → Option (Node F)
  | .null => none
  | .obj costs children subquery node =>
    (match subquery with
      | none => some none
      | some j => (load j).map some).bind fun sub =>
    (loadChildren (match node with
      | none => none
      | some j => load j) ((children.getD []).map Prod.fst)).map fun cs => .mk (costs.getD []) cs sub

end PB.Tonic
