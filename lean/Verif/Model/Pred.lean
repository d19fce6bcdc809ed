import Mathlib.Data.List.Dedup
import Verif.Model.Expr
import Verif.Model.Nx
import Verif.Model.Dict
import Verif.Model.Collections

/-! Model of the predicate handling of postbound/qal/_qal.py: joins and filters, join partners, `CompoundPredicate`
construction, join equivalence classes and `QueryPredicates`. An exception is modelled by `none`. -/

namespace PB.Qal

variable {Q : Type}

/-! ### Joins and join partners -/

/-- `_normalize_join_pair` (postbound/qal/_qal.py:1899-1918) -/
def normalizePair (p : Col × Col) : Col × Col := if p.2.lt p.1 then (p.2, p.1) else p

/-- `_generate_join_pairs` (postbound/qal/_qal.py:2050-2075) -/
def generateJoinPairs (a b : Finset Col) : Finset (Col × Col) :=
  ((a ×ˢ b).filter fun p => p.1.tab ≠ p.2.tab).image normalizePair

/-- `set_union` (postbound/util/collections.py:303-319) over computations that may raise. -/
def optUnion {α : Type} [DecidableEq α] : List (Option (Finset α)) → Option (Finset α)
  | [] => some ∅
  | o :: l => o.bind fun s => (optUnion l).map fun r => s ∪ r

namespace Expr

/-- `is_join` (postbound/qal/_qal.py:2572-2585, 2733-2741, 2902-2910, 3047-3048, 3301-3302) -/
def isJoin : Expr Q → Bool
  | binary _ a b =>
    decide (1 < a.baseTabs.card) || decide (1 < b.baseTabs.card) ||
      (decide a.baseTabs.Nonempty && decide b.baseTabs.Nonempty &&
        decide (0 < ((a.baseTabs \ b.baseTabs) ∪ (b.baseTabs \ a.baseTabs)).card))
  | between e l u =>
    decide (1 < e.baseTabs.card) || decide (1 < (e.baseTabs ∪ l.baseTabs).card) ||
      decide (1 < (e.baseTabs ∪ u.baseTabs).card)
  | inP e vs => decide (1 < e.baseTabs.card) || vs.any fun v => decide (1 < (e.baseTabs ∪ v.baseTabs).card)
  | unary e _ => decide (1 < e.baseTabs.card)
  | compound _ cs => cs.attach.any fun ⟨c, _⟩ => c.isJoin
  | _ => false
termination_by e => sizeOf e

/-- `is_filter` (postbound/qal/_qal.py:2153-2166) -/
def isFilter (e : Expr Q) : Bool := !e.isJoin

/-- `join_partners` (postbound/qal/_qal.py:2598-2606, 2760-2769, 2926-2934, 3059-3061, 3326-3327); `none` is the
`NoJoinPredicateError` raised by `_assert_join_predicate` (postbound/qal/_qal.py:2413-2424). -/
def joinPartners : Expr Q → Option (Finset (Col × Col))
  | binary op a b =>
    if (binary op a b).isJoin then
      some (generateJoinPairs a.baseCols a.baseCols ∪ generateJoinPairs b.baseCols b.baseCols ∪
        generateJoinPairs a.baseCols b.baseCols)
    else none
  | between e l u =>
    if (between e l u).isJoin then
      some (generateJoinPairs e.baseCols e.baseCols ∪ generateJoinPairs e.baseCols l.baseCols ∪
        generateJoinPairs e.baseCols u.baseCols)
    else none
  | inP e vs =>
    if (inP e vs).isJoin then
      some (generateJoinPairs e.baseCols e.baseCols ∪ unionAll (vs.map fun v => generateJoinPairs e.baseCols v.baseCols))
    else none
  | unary e _ => some (generateJoinPairs e.baseCols e.baseCols)
  | compound _ cs => optUnion (cs.map fun c => c.joinPartners)
  | _ => some ∅
termination_by e => sizeOf e

/-- `contains_table` (postbound/qal/_qal.py:2236-2249) -/
def containsTable (ops : QOps Q) (t : Tab) (e : Expr Q) : Bool := decide (t ∈ e.tables ops)

/-- `joins_table` (postbound/qal/_qal.py:2251-2269) -/
def joinsTable (t : Tab) (e : Expr Q) : Option Bool :=
  if e.isJoin then e.joinPartners.map fun ps => decide (∃ p ∈ ps, p.1.tab = some t ∨ p.2.tab = some t) else some false

/-- The partner in one pair of columns (postbound/qal/_qal.py:2325-2328). -/
def partnerIn (t : Tab) (p : Col × Col) : Finset Col :=
  if p.1.tab = some t then {p.2} else if p.2.tab = some t then {p.1} else ∅

/-- `join_partners_of` (postbound/qal/_qal.py:2306-2329) -/
def joinPartnersOf (t : Tab) (e : Expr Q) : Option (Finset Col) :=
  e.joinPartners.map fun ps => ps.biUnion (partnerIn t)

/-- `required_tables` (postbound/qal/_qal.py:2367-2397) -/
def requiredTables (ops : QOps Q) (e : Expr Q) : Finset Tab :=
  unionAll (e.iterExpressions.map fun c => c.baseTabs) ∪
    unionAll ((e.iterExpressions.flatMap fun c => c.collectBase.flatMap subqOf).map ops.unbound)

/-- `base_predicates` (postbound/qal/_qal.py:2500-2501, 3329-3330), as a list. -/
def basePredicates : Expr Q → List (Expr Q)
  | compound _ cs => cs.flatMap fun c => c.basePredicates
  | e => [e]
termination_by e => sizeOf e

/-- `CompoundPredicate.create_and` (postbound/qal/_qal.py:3169-3197); `none` is a `ValueError`. -/
def createAnd : List (Expr Q) → Option (Expr Q)
  | [] => none
  | [p] => some p
  | ps => some (compound .and ps)

/-- `CompoundPredicate.create_or` (postbound/qal/_qal.py:3216-3244) -/
def createOr : List (Expr Q) → Option (Expr Q)
  | [] => none
  | [p] => some p
  | ps => some (compound .or ps)

/-- `CompoundPredicate.create` (postbound/qal/_qal.py:3124-3167) -/
def create (op : CompOp) (ps : List (Expr Q)) : Option (Expr Q) :=
  match op, ps with
  | .not, [p] => some (compound .not [p])
  | .not, _ => none
  | _, [] => none
  | _, [p] => some p
  | op, ps => some (compound op ps)

/-- `_collect_filter_predicates` (postbound/qal/_qal.py:4178-4239). The set is a duplicate-free list. -/
def collectFilters [DecidableEq Q] : Expr Q → List (Expr Q)
  | compound .or cs =>
    let fcs := cs.filter isFilter
    if fcs.length < 2 then fcs else [compound .or fcs]
  | compound .not cs => if cs.any isJoin then [] else [compound .not cs]
  | compound .and cs => (cs.flatMap fun c => c.collectFilters).dedup
  | e => if e.isFilter then [e] else []
termination_by e => sizeOf e

/-- `_collect_join_predicates` (postbound/qal/_qal.py:4242-4301). The set is a duplicate-free list. -/
def collectJoins [DecidableEq Q] : Expr Q → List (Expr Q)
  | compound .or cs =>
    let jcs := cs.filter isJoin
    if jcs.length < 2 then jcs else [compound .or jcs]
  | compound .not cs => if cs.any isJoin then [compound .not cs] else []
  | compound .and cs => (cs.flatMap fun c => c.collectJoins).dedup
  | e => if e.isJoin then [e] else []
termination_by e => sizeOf e

end Expr
open Expr

/-! ### Join equivalence classes -/

/-- Is the predicate used by `determine_join_equivalence_classes` (postbound/qal/_qal.py:3577-3589)? -/
def isEquiJoin (ops : QOps Q) : Expr Q → Bool
  | e@(.binary .eq ..) => e.isJoin && decide ((e.columns ops).card = 2)
  | _ => false

/-- The graph of `determine_join_equivalence_classes` (postbound/qal/_qal.py:3585-3591). The edges are added in both
directions; `nx.Graph` is undirected. -/
def equivalenceGraph (ops : QOps Q) (ps : List (Expr Q)) : Nx.Graph Col :=
  let eqs := ps.filter (isEquiJoin ops)
  ⟨unionAll (eqs.map fun p => p.columns ops),
    unionAll (eqs.map fun p => (p.columns ops ×ˢ p.columns ops).filter fun e => e.1 ≠ e.2)⟩

/-- `determine_join_equivalence_classes` (postbound/qal/_qal.py:3557-3596) -/
def equivalenceClasses (ops : QOps Q) (ps : List (Expr Q)) : Finset (Finset Col) := (equivalenceGraph ops ps).components

/-- `as_predicate(a, LogicalOperator.Equal, b)` for two columns (postbound/qal/_qal.py:3553-3554) -/
def equalCols (a b : Col) : Expr Q := .binary .eq (.col a) (.col b)

/-- `generate_predicates_for_equivalence_classes` (postbound/qal/_qal.py:3599-3631) for classes given in some order. -/
def generatePredicates (classes : List (List Col)) : List (Expr Q) :=
  classes.flatMap fun c => (Coll.pairs c).map fun p => equalCols p.1 p.2

/-! ### QueryPredicates -/

/-- `QueryPredicates` (postbound/qal/_qal.py:4304-4955). `filters` and `joins` are the cached sets of
postbound/qal/_qal.py:4364-4408 and `tabs` is `root.tables()`, each in its (arbitrary) iteration order; `map` is
`_join_predicate_map`. See `QueryPreds.Valid` for what the constructor establishes. -/
structure QueryPreds (Q : Type) where
  root : Option (Expr Q)
  filters : List (Expr Q)
  joins : List (Expr Q)
  tabs : List Tab
  map : Dict (Finset (Option Tab)) (Expr Q)

/-- `d[k].append(v)` on a `defaultdict(list)` (postbound/qal/_qal.py:4549) -/
def addGroup {κ ν : Type} [DecidableEq κ] (d : Dict κ (List ν)) (e : κ × ν) : Dict κ (List ν) :=
  Dict.set d e.1 ((Dict.get? d e.1).getD [] ++ [e.2])

/-- The joins that mention a table with the tables of their partners (postbound/qal/_qal.py:4539-4548). -/
def partnerKeys (ops : QOps Q) (joins : List (Expr Q)) (t : Tab) : Option (List (Finset (Option Tab) × Expr Q)) :=
  (joins.filter (containsTable ops t)).mapM fun j => (j.joinPartnersOf t).map fun cs => (cs.image Col.tab, j)

/-- `joins_for` (postbound/qal/_qal.py:4516-4554) -/
def joinsForAux (ops : QOps Q) (joins : List (Expr Q)) (t : Tab) : Option (List (Expr Q)) :=
  (partnerKeys ops joins t).bind fun l => (Dict.values (l.foldl addGroup [])).mapM createAnd

/-- Add the joins of one table to the map (postbound/qal/_qal.py:4797-4804). -/
def addJoins (t : Tab) : Dict (Finset (Option Tab)) (Expr Q) → List (Expr Q) →
    Option (Dict (Finset (Option Tab)) (Expr Q))
  | d, [] => some d
  | d, j :: js =>
    (j.joinPartnersOf t).bind fun cs =>
      let key := insert (some t) (cs.image Col.tab)
      addJoins t (if d.has key then d else d.set key j) js

/-- `_init_join_predicate_map` (postbound/qal/_qal.py:4778-4805) -/
def initMap (ops : QOps Q) (joins : List (Expr Q)) : Dict (Finset (Option Tab)) (Expr Q) → List Tab →
    Option (Dict (Finset (Option Tab)) (Expr Q))
  | d, [] => some d
  | d, t :: ts => (joinsForAux ops joins t).bind fun js => (addJoins t d js).bind fun d' => initMap ops joins d' ts

/-- What `QueryPredicates(root)` (postbound/qal/_qal.py:4329-4332) creates if it does not raise. -/
structure QueryPreds.Valid [DecidableEq Q] (ops : QOps Q) (qp : QueryPreds Q) : Prop where
  filters : ∀ p, p ∈ qp.filters ↔ ∃ r, qp.root = some r ∧ p ∈ r.collectFilters
  joins : ∀ p, p ∈ qp.joins ↔ ∃ r, qp.root = some r ∧ p ∈ r.collectJoins
  filtersNodup : qp.filters.Nodup
  joinsNodup : qp.joins.Nodup
  tabs : ∀ t, t ∈ qp.tabs ↔ ∃ r, qp.root = some r ∧ t ∈ r.tables ops
  map : initMap ops qp.joins [] qp.tabs = some qp.map

namespace QueryPreds

/-- `filters_for` (postbound/qal/_qal.py:4483-4513); `none` is Python's `None`. -/
def filtersFor (ops : QOps Q) (qp : QueryPreds Q) (t : Tab) : Option (Expr Q) :=
  createAnd (qp.filters.filter (containsTable ops t))

/-- `joins_for` (postbound/qal/_qal.py:4515-4554) -/
def joinsFor (ops : QOps Q) (qp : QueryPreds Q) (t : Tab) : Option (List (Expr Q)) := joinsForAux ops qp.joins t

/-- The map entries for all pairs of tables (postbound/qal/_qal.py:4926-4934). -/
def matchingJoins (qp : QueryPreds Q) (as bs : List Tab) : List (Expr Q) :=
  as.flatMap fun a => bs.flatMap fun b => (Dict.get? qp.map {some a, some b}).toList

/-- `joins_between` (postbound/qal/_qal.py:4606-4614, 4902-4937): the conjunction of a set of predicates; `none` is
Python's `None`. -/
def joinsBetween [DecidableEq Q] (qp : QueryPreds Q) (as bs : List Tab) : Option (Expr Q) :=
  createAnd (qp.matchingJoins as bs).dedup

/-- `_legacy_joins_between` for two tables (postbound/qal/_qal.py:4831-4842). The outer `none` is an exception. -/
def legacyJoinsBetween [DecidableEq Q] (ops : QOps Q) (qp : QueryPreds Q) (a b : Tab) : Option (Option (Expr Q)) :=
  if a = b then some none
  else (qp.joinsFor ops a).bind fun js =>
    (js.mapM fun j => (joinsTable b j).map fun r => (r, j)).map fun l =>
      createAnd ((l.filter fun p => p.1).map fun p => p.2).dedup

/-- The edges added for one table (postbound/qal/_qal.py:4760-4764). -/
def tableEdges (ops : QOps Q) (qp : QueryPreds Q) (ts : Finset Tab) (t : Tab) : Option (Finset (Tab × Tab)) :=
  (qp.joinsFor ops t).bind fun js =>
    optUnion (js.map fun j => (j.joinPartnersOf t).map fun cs =>
      ((cs.biUnion fun c => tabSet c.tab) ∩ ts).image fun u => (t, u))

/-- `_join_tables_check` (postbound/qal/_qal.py:4744-4765) -/
def joinTablesCheck (ops : QOps Q) (qp : QueryPreds Q) (ts : Finset Tab) : Option Bool :=
  if ∀ t ∈ ts, (qp.tableEdges ops ts t).isSome then
    (Nx.Graph.mk ts (ts.biUnion fun t => (qp.tableEdges ops ts t).getD ∅)).isConnected?
  else none

/-- `joins_tables` (postbound/qal/_qal.py:4621-4673); `none` is an exception. -/
def joinsTables (ops : QOps Q) (qp : QueryPreds Q) (ts : Finset Tab) : Option Bool :=
  match qp.root with
  | none => some false
  | some r =>
    if ts = ∅ then none
    else if ts.card = 1 then some (decide (ts ⊆ r.tables ops))
    else qp.joinTablesCheck ops ts

/-- The edges of the join graph for one join (postbound/qal/_qal.py:4447-4451). -/
def graphEdges (j : Expr Q) : Option (Finset (Option Tab × Option Tab)) :=
  j.joinPartners.map fun ps => ps.image fun p => (p.1.tab, p.2.tab)

/-- `join_graph()` (postbound/qal/_qal.py:4437-4453) without its attributes. The node `none` is Python's `None`, the
table of unbound columns. -/
def joinGraph (qp : QueryPreds Q) : Option (Nx.Graph (Option Tab)) :=
  (optUnion (qp.joins.map graphEdges)).map fun es =>
    ⟨qp.tabs.toFinset.image some ∪ es.image Prod.fst ∪ es.image Prod.snd, es⟩

/-- `join_graph(merge_aliases=True)` (postbound/qal/_qal.py:4455-4481) without its attributes: nodes are tables
without alias (`Sum.inl`) and, as the edges are added between the *columns* of the joins (line 4474), columns
(`Sum.inr`). `dropAlias` is `TableReference.drop_alias`. Two columns that become equal raise, since they cannot be
unpacked (line 4478). -/
def mergedGraph (dropAlias : Tab → Tab) (qp : QueryPreds Q) : Option (Nx.Graph (Tab ⊕ Col)) :=
  let strip (c : Col) : Col := { c with tab := c.tab.map dropAlias }
  (optUnion (qp.joins.map fun j => j.joinPartners)).bind fun ps =>
    if ∃ p ∈ ps, strip p.1 = strip p.2 then none
    else
      let es := ps.image fun p => (strip p.1, strip p.2)
      some ⟨(qp.tabs.toFinset.image fun t => Sum.inl (dropAlias t)) ∪ (es.image fun e => Sum.inr e.1) ∪
          (es.image fun e => Sum.inr e.2),
        es.image fun e => (Sum.inr e.1, Sum.inr e.2)⟩

/-- `and_` (postbound/qal/_qal.py:4702-4741), on the root predicates: the root of the result. -/
def andRoots (a b : Option (Expr Q)) : Option (Expr Q) :=
  match a, b with
  | none, b => b
  | a, none => a
  | some p, some q => createAnd [p, q]

end QueryPreds
end PB.Qal
