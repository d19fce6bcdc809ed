import Verif.Model.QueryPlan

/-! Model of the entries of plan comparisons and of their texts (postbound/opt/_analysis.py:461-673): `compare_query_plans`
with the states it stores in each entry, `PlanChangeEntry.inspect` and `PlanChangeset.inspect`. -/

namespace PB.PlanDiff
open PB PB.Hints PB.QP

/-- `PlanChangeEntry` (postbound/opt/_analysis.py:461-497), one constructor per change type. Each has the left and the right state
and, for differences between two nodes, the context. A swapped join stores the join nodes themselves (lines 656-658). -/
inductive Entry where
  | tree (left right : Finset Nat)
  | dir (left right : Plan)
  | op (left right : String) (ctx : Finset Nat)
  | card (left right : Card) (ctx : Finset Nat)
  | cost (left right : Flt) (ctx : Finset Nat)
  | actual (left right : Card) (ctx : Finset Nat)

/-- `change_type` (postbound/opt/_analysis.py:487-494) -/
def Entry.kind : Entry → Change
  | .tree .. => .treeStructure
  | .dir .. => .joinDirection
  | .op .. => .physicalOp
  | .card .. => .cardEst
  | .cost .. => .costEst
  | .actual .. => .actualCard

/-- The entries for two nodes on the same tables `ctx` (postbound/opt/_analysis.py:596-648). -/
def diffInfo (ctx : Finset Nat) (l r : Info) : Option (List Entry) := do
  let ce ← cardNe l.estCard r.estCard
  let ca ← cardNe l.actCard r.actCard
  some ((if ce && !(l.estCard.nan && r.estCard.nan) then [.card l.estCard r.estCard ctx] else []) ++
    (if ca && !(l.actCard.nan && r.actCard.nan) then [.actual l.actCard r.actCard ctx] else []) ++
    (if fltNe l.estCost r.estCost && !(l.estCost = .nan && l.estCost = .nan) then [.cost l.estCost r.estCost ctx] else []) ++
    (if l.nodeType ≠ r.nodeType then [.op l.nodeType r.nodeType ctx] else []))

/-- `compare_query_plans` (postbound/opt/_analysis.py:562-673) with all attributes of the entries; `none` is an exception. -/
def diff : Plan → Plan → Option (List Entry)
  | .node i [lo, li] s, r => do
    let l := Plan.node i [lo, li] s
    checkNoAux l
    checkNoAux r
    if l.tables ≠ r.tables then some [.tree l.tables r.tables]
    else
      let own ← diffInfo l.tables i r.info
      if i.isJoin then
        match r.children with
        | [ro, ri] =>
          if li.tables = ro.tables then do
            let a ← diff li ro
            let b ← diff lo ri
            some (own ++ [.dir l r] ++ a ++ b)
          else do
            let a ← diff li ri
            let b ← diff lo ri
            some (own ++ a ++ b)
        | _ => none
      else some own
  | .node i cs s, r => do
    let l := Plan.node i cs s
    checkNoAux l
    checkNoAux r
    if l.tables ≠ r.tables then some [.tree l.tables r.tables]
    else
      let own ← diffInfo l.tables i r.info
      if i.isJoin then none else some own

/-- How Python prints the states: lists of identifiers of a set of tables, sets of tables, cardinalities and floats. The order in
which a set is iterated is part of it. -/
structure Repr where
  ids : Finset Nat → String
  set : Finset Nat → String
  card : Card → String
  flt : Flt → String

/-- `[tab.identifier() for tab in plan]` for a plan (postbound/opt/_analysis.py:513-514, postbound/_qep.py:1948-1953). The iteration
yields plan nodes, beginning with the plan, and plan nodes have no `identifier`; `none` is the `AttributeError`. -/
def planIds (p : Plan) : Option (List String) := p.iter.mapM fun _ => none

/-- `PlanChangeEntry.inspect` (postbound/opt/_analysis.py:499-535); `none` is an exception. -/
def Entry.inspect (sh : Repr) : Entry → Option String
  | .tree l r => some ("Different subtrees: left=" ++ sh.ids l ++ " right=" ++ sh.ids r)
  | .dir l r => do
    let l' ← planIds l
    let r' ← planIds r
    some ("Swapped join direction: left=" ++ toString l' ++ " right=" ++ toString r')
  | .op l r c => some ("Different physical operators on node " ++ sh.set c ++ ": left=" ++ l ++ " right=" ++ r)
  | .card l r c => some ("Different cardinality estimates on node " ++ sh.set c ++ ": left=" ++ sh.card l ++ " right=" ++ sh.card r)
  | .cost l r c => some ("Different cost estimates on node " ++ sh.set c ++ ": left=" ++ sh.flt l ++ " right=" ++ sh.flt r)
  | .actual l r c => some ("Different actual cardinality on node " ++ sh.set c ++ ": left=" ++ sh.card l ++ " right=" ++ sh.card r)

/-- `PlanChangeset.inspect` (postbound/opt/_analysis.py:549-559) -/
def inspect (sh : Repr) (es : List Entry) : Option String := (es.mapM (Entry.inspect sh)).map (String.intercalate "\n")

end PB.PlanDiff
