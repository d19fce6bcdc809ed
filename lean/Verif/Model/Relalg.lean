import Mathlib.Data.Finset.Lattice.Fold
import Verif.Model.Pred

/-!
Model of the translation of queries to relational algebra (postbound/relalg.py): the nodes of the algebra, the evaluation phases of predicates and
`_ImplicitRelalgParser`. An exception is modelled by `none`.

Python's sets have no fixed order. Where the code iterates over a set and the order is visible in the result, the order is given by the functions in
`Ctx.predOrder` and `Ctx.relOrder`, about which the theorems only assume that they permute their argument.

Simplifications: the items of the FROM clause are tables. Subqueries and explicit joins in the FROM clause and WITH clauses are left out. Subqueries in
predicates are translated by an arbitrary function `Ctx.sub`, which stands for the recursive call in `_add_subquery`. The final `mutate()` of
`parse_relalg`, which copies the tree, is left out.
-/

namespace PB.Relalg

open PB PB.Qal PB.Qal.Expr

/-- `RelNode` and its subclasses (postbound/relalg.py:87-2437). The mapping of a `Map` is represented by the list of the expressions it computes (their
inputs, the keys of the mapping, are the children of these expressions), the aggregates of a `Grouping` by the list of the aggregate functions. The
flags of `Sort` are true for "asc". `Rename` is never generated and left out. -/
inductive Rel (Q : Type) where
  | relation (t : Tab) (cols : Finset Col)
  | select (i : Rel Q) (p : Expr Q)
  | cross (l r : Rel Q)
  | theta (l r : Rel Q) (p : Expr Q)
  | project (i : Rel Q) (ts : List (Expr Q))
  | group (i : Rel Q) (ks aggs : List (Expr Q))
  | sort (i : Rel Q) (ks : List (Expr Q × Bool))
  | map (i : Rel Q) (es : List (Expr Q))
  | semi (i s : Rel Q) (p : Option (Expr Q))
  | anti (i s : Rel Q) (p : Option (Expr Q))
  | union (l r : Rel Q)
  | inter (l r : Rel Q)
  | diff (l r : Rel Q)
  | dedup (i : Rel Q)
  | scan (i : Rel Q) (q : Q)
deriving DecidableEq

variable {Q : Type}

/-- `RelNode.tables` (postbound/relalg.py:179-199, 1071-1074, 2369-2374). -/
def Rel.tables (ignoreSub : Bool) : Rel Q → List Tab
  | .relation t _ => [t]
  | .select i _ | .project i _ | .group i _ _ | .sort i _ | .map i _ | .dedup i => i.tables ignoreSub
  | .cross l r | .theta l r _ | .semi l r _ | .anti l r _ | .union l r | .inter l r | .diff l r => l.tables ignoreSub ++ r.tables ignoreSub
  | .scan i _ => if ignoreSub then [] else i.tables ignoreSub

/-- `RelNode.provided_expressions` (postbound/relalg.py:201-212, 1076-1077, 1453-1455, 1849-1852, 2379-2380). -/
def Rel.provided [DecidableEq Q] : Rel Q → Finset (Expr Q)
  | .relation _ cols => cols.image Expr.col
  | .select i _ | .project i _ | .sort i _ | .dedup i => i.provided
  | .group _ ks aggs => ks.toFinset ∪ aggs.toFinset
  | .map i es => i.provided ∪ es.toFinset
  | .cross l r | .theta l r _ | .semi l r _ | .anti l r _ | .union l r | .inter l r | .diff l r => l.provided ∪ r.provided
  | .scan i q => {Expr.subq q} ∪ i.provided

/-- What the translation uses of subqueries and of the iteration order of sets. `sub` is `_add_subquery` (postbound/relalg.py:4124-4136) for the current
`_base_table_fragments`. -/
structure Ctx (Q : Type) where
  ops : QOps Q
  /-- `bound_tables` -/
  bound : Q → Finset Tab
  /-- `is_dependent` -/
  dependent : Q → Bool
  /-- `is_scalar` -/
  scalar : Q → Bool
  sub : Dict Tab (Rel Q) → Q → Option (Rel Q)
  predOrder : List (Expr Q) → List (Expr Q)
  relOrder : List (Rel Q) → List (Rel Q)

/-! ### Expressions -/

/-- `AggregateFunctions` and `FunctionExpression.is_aggregate` (postbound/qal/_qal.py:770-792, 966-976). -/
def isAgg : Expr Q → Bool
  | .func n _ _ _ => n.toUpper ∈ ["COUNT", "SUM", "MIN", "MAX", "AVG", "EVERY", "CORR", "STDDEV", "ANY_VALUE", "ARRAY_AGG", "BIT_AND", "BIT_OR", "BIT_XOR",
      "BOOL_AND", "BOOL_OR", "BOOL_XOR", "STRING_AGG", "JSON_AGG", "XML_AGG"]
  | _ => false

/-- `_needs_mapping` (postbound/relalg.py:2754-2770). -/
def needsMapping : Expr Q → Bool
  | .static _ | .star _ => false
  | _ => true

/-- `_collect_all_expressions` with `traverse_aggregations = False` (postbound/relalg.py:3127-3156). -/
def collectAll (e : Expr Q) : List (Expr Q) :=
  if isAgg e then [e]
  else (e :: e.iterChildren.attach.flatMap fun ⟨c, h⟩ => have := sizeOf_iterChildren e c h; collectAll c).filter needsMapping
termination_by sizeOf e

/-- `_collect_all_expressions` with `traverse_aggregations = True` (postbound/relalg.py:3127-3156). The flag is not passed on to the children. -/
def collectAllT (e : Expr Q) : List (Expr Q) := (e :: e.iterChildren.flatMap collectAll).filter needsMapping

/-- `functools.reduce(operator.add, …)` over the results of the children: fails without children. -/
def reduceAll {α : Type} : List (Option (List α)) → Option (List α)
  | [] => none
  | [o] => o
  | o :: l => o.bind fun x => (reduceAll l).map fun y => x ++ y

/-- The visited expressions that have a result of their own (postbound/relalg.py:2898-2904, 2915-2919). -/
def detectLeaf : Expr Q → Option (List Q)
  | .static _ | .col _ | .star _ => some []
  | .subq q => some [q]
  | _ => none

/-- The parts that are visited: `iterexpressions` of predicates (postbound/relalg.py:2936-2946) and `iterchildren` of expressions (postbound/relalg.py:2948-2956). -/
def detectParts (e : Expr Q) : List (Expr Q) := if e.isPred then e.iterExpressions else e.iterChildren

theorem sizeOf_detectParts (e : Expr Q) : ∀ c ∈ detectParts e, sizeOf c < sizeOf e := by
  intro c hc
  unfold detectParts at hc
  split at hc
  · exact sizeOf_iterExpressions e c hc
  · exact sizeOf_iterChildren e c hc

/-- `_SubqueryDetector` (postbound/relalg.py:2866-2956). -/
def detect (e : Expr Q) : Option (List Q) :=
  match detectLeaf e with
  | some r => some r
  | none => reduceAll ((detectParts e).attach.map fun ⟨c, h⟩ => have := sizeOf_detectParts e c h; detect c)
termination_by sizeOf e

/-- `EvaluationPhase` (postbound/relalg.py:2813-2825). -/
inductive Phase where
  | base | join | postJoin | postAgg
deriving DecidableEq, Repr

/-- The value of the enum member. -/
def Phase.num : Phase → Nat
  | .base => 1 | .join => 2 | .postJoin => 3 | .postAgg => 4

/-- `max` of two phases. -/
def Phase.max (a b : Phase) : Phase := if a.num < b.num then b else a

/-- `max` over a generator: fails if it is empty. -/
def maxPhase : List (Option Phase) → Option Phase
  | [] => none
  | [o] => o
  | o :: l => o.bind fun x => (maxPhase l).map fun y => x.max y

/-- The expressions whose phase does not depend on their children (postbound/relalg.py:3162-3165, 3184-3195). The inner `none` is the exception for unknown
expressions (array accesses and predicates). -/
def phaseLeaf (x : Ctx Q) (e : Expr Q) : Option (Option Phase) :=
  match e with
  | .col _ | .static _ | .star _ => some (some .base)
  | .subq q => some (some (if (x.ops.unbound q).card < 2 then .base else .postJoin))
  | .window .. => some (some .postAgg)
  | .func .. => if isAgg e then some (some .postAgg) else none
  | .math .. | .cast .. | .case .. | .quant .. | .array .. => none
  | _ => some none

/-- `_determine_expression_phase` (postbound/relalg.py:3159-3197). -/
def exprPhase (x : Ctx Q) (e : Expr Q) : Option Phase :=
  match phaseLeaf x e with
  | some r => r
  | none =>
    (maxPhase (e.iterChildren.attach.map fun ⟨c, h⟩ => have := sizeOf_iterChildren e c h; exprPhase x c)).map fun p =>
      Phase.max (if 1 < (e.tables x.ops).card then .join else .base) p
termination_by sizeOf e

/-- The expressions that are not static values or `*` (postbound/relalg.py:3227). -/
def isProper : Expr Q → Bool
  | .static _ | .star _ => false
  | _ => true

/-- `isinstance(predicate, BinaryPredicate)` -/
def isBinary : Expr Q → Bool
  | .binary .. => true
  | _ => false

/-- `_determine_predicate_phase` (postbound/relalg.py:3200-3236). -/
def predPhase (x : Ctx Q) (p : Expr Q) : Option Phase :=
  (detect p).bind fun qs =>
    let subTabs := unionAll (qs.map x.bound)
    if (p.tables x.ops).card = subTabs.card + 1 then some .base
    else if subTabs.card ≠ 0 then some .postJoin
    else (maxPhase ((p.iterExpressions.filter isProper).map (exprPhase x))).map fun ph =>
      if Phase.join.num < ph.num then ph else if isBinary p then .join else .postJoin

/-- All results, or a failure. -/
def allSome {α : Type} : List (Option α) → Option (List α)
  | [] => some []
  | o :: l => o.bind fun a => (allSome l).map fun as => a :: as

/-- The children that belong to a phase (postbound/relalg.py:3276-3280). -/
def childrenOf (x : Ctx Q) (ph : Phase) (cs : List (Expr Q)) : Option (List (Expr Q)) :=
  (allSome (cs.map (predPhase x))).map fun phs => ((cs.zip phs).filter fun e => decide (e.2 = ph)).map Prod.fst

/-- `_filter_eval_phase` (postbound/relalg.py:3239-3285). -/
def filterPhase (x : Ctx Q) (ph : Phase) (p : Expr Q) : Option (Option (Expr Q)) :=
  (predPhase x p).bind fun own =>
    if own.num < ph.num then some none
    else match p with
      | .compound .and cs => (childrenOf x ph cs).map createAnd
      | p => some (if own = ph then some p else none)

/-! ### Base tables of predicates -/

/-- `_fetch_valid_base_tables` (postbound/relalg.py:3082-3113). The flag `accept_empty` has no effect. -/
def fetch (s : Finset Tab) : Option (Option Tab) := if s.card = 1 then some (some (s.sup id)) else none

/-- The tables found in several parts, without `None`. -/
def found (l : List (Option (Option Tab))) : Option (Finset Tab) := (allSome l).map fun ts => unionAll (ts.map tabSet)

/-- The visited expressions that have a result of their own (postbound/relalg.py:3017-3025, 3044-3060). The inner `none` is an exception: for array accesses
the visitor uses an attribute that does not exist. -/
def lookupLeaf (x : Ctx Q) : Expr Q → Option (Option (Option Tab))
  | .static _ | .window .. => some (some none)
  | .col c => some (some c.tab)
  | .star t => some (some t)
  | .subq q => some (if x.dependent q then fetch (x.ops.unbound q) else some none)
  | .arrGet .. => some none
  | _ => none

/-- The parts that are visited (postbound/relalg.py:2977-3015, 3027-3042, 3062-3080). -/
def lookupParts : Expr Q → List (Expr Q)
  | .cast e _ _ _ => [e]
  | .func _ args _ _ => args
  | e@(.math ..) => e.iterChildren
  | e@(.case ..) => e.iterChildren
  | e => e.subs

/-- The expressions whose result is that of their only part (postbound/relalg.py:2989-2992, 3014-3015, 3027-3028, 3068-3071). -/
def passesOn : Expr Q → Bool
  | .cast .. | .quant .. | .unary .. | .compound .not _ => true
  | _ => false

theorem sizeOf_lookupParts (e : Expr Q) : ∀ c ∈ lookupParts e, sizeOf c < sizeOf e := by
  intro c hc
  unfold lookupParts at hc
  split at hc
  · exact sizeOf_subs (by simp [subs] at hc ⊢; simp [hc])
  · exact sizeOf_subs (by simp [subs]; simp [hc])
  · exact sizeOf_iterChildren _ c hc
  · exact sizeOf_iterChildren _ c hc
  · exact sizeOf_subs hc

/-- The visitor `_BaseTableLookup` (postbound/relalg.py:2959-3080). The outer `none` is an exception. -/
def lookupV (x : Ctx Q) (e : Expr Q) : Option (Option Tab) :=
  match lookupLeaf x e with
  | some r => r
  | none =>
    let rs := (lookupParts e).attach.map fun ⟨c, h⟩ => have := sizeOf_lookupParts e c h; lookupV x c
    if passesOn e then rs.head?.getD none else (found rs).bind fetch
termination_by sizeOf e

/-- `_BaseTableLookup.__call__` (postbound/relalg.py:3115-3124). -/
def baseTable (x : Ctx Q) (p : Expr Q) : Option Tab :=
  if p.isJoin then none
  else if (p.tables x.ops).card = 1 then some ((p.tables x.ops).sup id)
  else (lookupV x p).bind id

/-- The predicates of one table and those found so far (postbound/relalg.py:4166-4168); the sets are duplicate-free lists. -/
def addPred [DecidableEq Q] (d : Dict Tab (List (Expr Q))) (e : Tab × Expr Q) : Dict Tab (List (Expr Q)) :=
  let old := (d.get? e.1).getD []
  d.set e.1 (if e.2 ∈ old then old else old ++ [e.2])

/-- `_split_filter_predicate` (postbound/relalg.py:4138-4172). -/
def splitFilter [DecidableEq Q] (x : Ctx Q) (p : Expr Q) : Option (Dict Tab (Expr Q)) :=
  if p.isJoin then none
  else match p with
    | .compound .and cs =>
      (allSome (cs.attach.map fun ⟨c, _⟩ => splitFilter x c)).bind fun ds =>
        allSome ((ds.flatten.foldl addPred []).map fun e => (createAnd (x.predOrder e.2)).map fun q => (e.1, q))
    | p => (baseTable x p).map fun t => [(t, p)]
termination_by sizeOf p

/-- `_split_join_predicate` (postbound/relalg.py:4174-4189). -/
def splitJoin [DecidableEq Q] (x : Ctx Q) (p : Expr Q) : Option (List (Expr Q)) :=
  if p.isJoin then some (match p with
    | .compound .and cs => x.predOrder cs.dedup
    | p => [p])
  else none

/-! ### Conversion of predicates -/

/-- The state of the parser: `_base_table_fragments` and `_provided_base_tables` (postbound/relalg.py:3341-3348). -/
structure St (Q : Type) where
  frags : Dict Tab (Rel Q)
  outer : Dict Tab (Rel Q)

/-- The expressions provided by the tables of the outer query (postbound/relalg.py:4256-4259). -/
def St.outerExprs [DecidableEq Q] (s : St Q) : Finset (Expr Q) := unionAll (s.outer.values.map Rel.provided)

/-- `Map(input_node, …)` for the expressions that are missing, if any (for example postbound/relalg.py:4216-4221). -/
def mapMissing [DecidableEq Q] (req : List (Expr Q)) (have_ : Finset (Expr Q)) (i : Rel Q) : Rel Q :=
  let missing := req.dedup.filter fun e => decide (e ∉ have_)
  if missing = [] then i else .map i missing

/-- `_ensure_predicate_applicability` (postbound/relalg.py:4191-4221, 4254-4263). -/
def ensurePred [DecidableEq Q] (s : St Q) (p : Expr Q) (i : Rel Q) : Rel Q :=
  mapMissing (p.iterExpressions.flatMap collectAll) (i.provided ∪ s.outerExprs) i

/-- `_ensure_expression_applicability` (postbound/relalg.py:4223-4252). -/
def ensureExpr [DecidableEq Q] (s : St Q) (e : Expr Q) (i : Rel Q) : Rel Q :=
  mapMissing (e.iterChildren.flatMap collectAll) (i.provided ∪ s.outerExprs) i

/-- `subquery_target` and `in_column` (postbound/relalg.py:4052-4060). -/
inductive Target (Q : Type) where
  | semijoin | antijoin | scalar
  | inCol (c : Expr Q)

/-- The single column of the projection below a subquery scan (postbound/relalg.py:4108-4112). -/
def scanColumn : Rel Q → Option (Expr Q)
  | .scan (.project _ [c]) _ => some c
  | _ => none

/-- `_add_expression` (postbound/relalg.py:4052-4122). -/
def addExpr [DecidableEq Q] (x : Ctx Q) (s : St Q) (tgt : Target Q) (e : Expr Q) (i : Rel Q) : Option (Rel Q) :=
  if e ∈ i.provided then some i
  else match e with
    | .col _ | .static _ => some i
    | .subq q => (x.sub s.frags q).bind fun root =>
      match tgt with
      | .semijoin => some (.semi i root none)
      | .antijoin => some (.anti i root none)
      | .scalar => some (.cross i root)
      | .inCol c =>
        if x.scalar q then some (.cross i root)
        else (scanColumn root).map fun d => .semi i root (some (.binary .eq c d))
    | .cast .. | .func .. | .math .. | .window .. | .case .. => some (ensureExpr s e i)
    | _ => none

/-- One step per element, stopping at the first exception. -/
def stepAll {α β : Type} (f : α → β → Option β) : List α → β → Option β
  | [], b => some b
  | a :: l, b => (f a b).bind (stepAll f l)

/-- `detect` found subqueries. -/
def hasSub (e : Expr Q) : Option Bool := (detect e).map fun qs => !qs.isEmpty

/-- Splits a list by the result of a test that may fail: the elements without and with the property (for example postbound/relalg.py:3886-3892). -/
def splitBy {α : Type} (f : α → Option Bool) : List α → Option (List α × List α)
  | [] => some ([], [])
  | a :: l => (f a).bind fun b => (splitBy f l).map fun r => if b then (r.1, a :: r.2) else (a :: r.1, r.2)

/-- Adds an expression if it contains subqueries (postbound/relalg.py:3864-3875). -/
def addIfSub [DecidableEq Q] (x : Ctx Q) (s : St Q) (e : Expr Q) (i : Rel Q) : Option (Rel Q) :=
  (hasSub e).bind fun b => if b then addExpr x s .scalar e i else some i

/-- The values of an IN predicate that contain a non-scalar subquery (postbound/relalg.py:3830-3839). -/
def isInSub (x : Ctx Q) (v : Expr Q) : Option Bool := (detect v).map fun qs => !qs.isEmpty && !qs.all x.scalar

/-- `Selection` of an optional predicate. -/
def selectOpt (p : Option (Expr Q)) (i : Rel Q) : Rel Q := match p with
  | none => i
  | some p => .select i p

/-- `_convert_predicate` for base predicates (postbound/relalg.py:3742-3880). -/
def convertBase [DecidableEq Q] (x : Ctx Q) (s : St Q) (p : Expr Q) (i : Rel Q) : Option (Rel Q) :=
  (hasSub p).bind fun b =>
    match p with
    | .unary e op =>
      if b then addExpr x s (if op = some .existsOp then .semijoin else .antijoin) e i else some (.select (ensurePred s p i) p)
    | .between e l u =>
      if b then
        (addExpr x s .scalar e i).bind fun i1 => (addExpr x s .scalar l i1).bind fun i2 => (addExpr x s .scalar u i2).map fun i3 => .select i3 p
      else some (.select (ensurePred s p i) p)
    | .inP e vs =>
      if b then
        (splitBy (isInSub x) vs).bind fun r =>
          (stepAll (addExpr x s .scalar) r.1 i).bind fun i1 => (addExpr x s .scalar e i1).bind fun i2 =>
            stepAll (addExpr x s (.inCol e)) r.2 (selectOpt (if r.1 = [] then none else some (.inP e r.1)) i2)
      else some (.select (ensurePred s p i) p)
    | .binary _ a c =>
      if b then (addIfSub x s a i).bind fun i1 => (addIfSub x s c i1).map fun i2 => .select (ensurePred s p i2) p
      else some (.select (ensurePred s p i) p)
    | _ => none

/-- `_convert_predicate` (postbound/relalg.py:3742-3929). -/
def convert [DecidableEq Q] (x : Ctx Q) (s : St Q) (p : Expr Q) (i : Rel Q) : Option (Rel Q) :=
  match p with
  | .compound .not cs =>
    match cs with
    | [c] => (hasSub c).bind fun b =>
      if b then (convert x s c i).map fun j => .diff i j
      else some (.select (ensurePred s (.compound .not [c]) i) (.compound .not [c]))
    | _ => none
  | .compound op cs =>
    (splitBy (fun c : { c // c ∈ cs } => hasSub c.1) cs.attach).bind fun r =>
      let start := match create op (r.1.map Subtype.val) with
        | none => i
        | some q => .select (ensurePred s q i) q
      if op = .and then stepAll (fun c j => convert x s c.1 j) r.2 start
      else stepAll (fun c j => (convert x s c.1 i).map fun b => .union j b) r.2 start
  | p => convertBase x s p i
termination_by sizeOf p
decreasing_by
  all_goals simp_wf
  all_goals first
    | (have := List.sizeOf_lt_of_mem c.2; omega)
    | omega

/-! ### Join predicates -/

/-- `_resolve` (postbound/relalg.py:3470-3474). -/
def resolve (s : St Q) (t : Tab) : Option (Rel Q) := match s.frags.get? t with
  | some r => some r
  | none => s.outer.get? t

/-- The different fragments of a set of tables (postbound/relalg.py:3946-3949). A table without fragment raises a KeyError. -/
def fragmentsOf [DecidableEq Q] (s : St Q) (ts : Finset Tab) : Option (List (Rel Q)) :=
  let known := (s.frags.keys ++ s.outer.keys).filter fun t => decide (t ∈ ts)
  if ts ⊆ known.toFinset then (allSome (known.map (resolve s))).map List.dedup else none

/-- All tables of an expression belong to a fragment, ignoring its subqueries (postbound/relalg.py:3976-3982). -/
def belongs (x : Ctx Q) (e : Expr Q) (r : Rel Q) : Bool := decide (e.tables x.ops ⊆ (r.tables true).toFinset)

/-- The inputs of a join for the two arguments of the predicate (postbound/relalg.py:3974-3985). -/
def sides (x : Ctx Q) (a b : Expr Q) (f g : Rel Q) : Option (Rel Q × Rel Q) :=
  if belongs x a f && belongs x b g then some (f, g)
  else if belongs x a g && belongs x b f then some (g, f)
  else none

/-- The missing expressions that are computed on the left input and those that are computed on the right input (postbound/relalg.py:3993-4005). -/
def assign (x : Ctx Q) (l r : Rel Q) : List (Expr Q) → Option (List (Expr Q) × List (Expr Q))
  | [] => some ([], [])
  | e :: es =>
    if e.tables x.ops ⊆ (l.tables false).toFinset then (assign x l r es).map fun m => (e :: m.1, m.2)
    else if e.tables x.ops ⊆ (r.tables false).toFinset then (assign x l r es).map fun m => (m.1, e :: m.2)
    else none

/-- `Map` if there is something to compute (postbound/relalg.py:4006-4013). -/
def mapIf (es : List (Expr Q)) (i : Rel Q) : Rel Q := match es with
  | [] => i
  | es => .map i es

/-- `ThetaJoin` of the two inputs of a join predicate (postbound/relalg.py:3973-4014). -/
def joinFragments [DecidableEq Q] (x : Ctx Q) (s : St Q) (op : LogOp) (a b : Expr Q) (f g : Rel Q) : Option (Rel Q) :=
  (sides x a b f g).bind fun fg => (addExpr x s .scalar a fg.1).bind fun l => (addExpr x s .scalar b fg.2).bind fun r =>
    let have_ := l.provided ∪ r.provided ∪ s.outerExprs
    (assign x l r (([a, b].flatMap collectAll).dedup.filter fun e => decide (e ∉ have_))).map fun m =>
      .theta (mapIf m.1 l) (mapIf m.2 r) (.binary op a b)

/-- `_convert_join_predicate` (postbound/relalg.py:3931-4050) for binary predicates. It is never called with other predicates: the join phase consists of
binary predicates only (postbound/relalg.py:3232-3236, 4174-4189), hence the code for compound predicates (postbound/relalg.py:4016-4050) is not modelled. -/
def convertJoin [DecidableEq Q] (x : Ctx Q) (s : St Q) (p : Expr Q) : Option (Rel Q) :=
  match p with
  | .binary op a b => (detect p).bind fun qs => (fragmentsOf s (p.tables x.ops \ unionAll (qs.map x.bound))).bind fun fs =>
    match x.relOrder fs with
    | [i] => some (.select (ensurePred s p i) p)
    | [f, g] => joinFragments x s op a b f g
    | _ => none
  | _ => none

/-! ### Queries -/

/-- The base-table phase of `_add_predicate` (postbound/relalg.py:3703-3711): one table. -/
def addBase [DecidableEq Q] (x : Ctx Q) (e : Tab × Expr Q) (s : St Q) : Option (St Q) :=
  (s.frags.get? e.1).bind fun i => (convert x s e.2 i).map fun r => { s with frags := s.frags.set e.1 r }

/-- The join phase of `_add_predicate` (postbound/relalg.py:3712-3717): one predicate. -/
def addJoin [DecidableEq Q] (x : Ctx Q) (p : Expr Q) (s : St Q) : Option (St Q) :=
  (convertJoin x s p).map fun r => { s with frags := (r.tables false).foldl (fun d t => d.set t r) s.frags }

/-- The cross products with tables of the outer query (postbound/relalg.py:3727-3735). -/
def addOuter (x : Ctx Q) (s : St Q) (p : Expr Q) (i : Rel Q) : Rel Q :=
  (s.outer.filter fun e => decide (e.1 ∈ p.tables x.ops) && decide (e.1 ∉ i.tables false)).foldl (fun j e => .cross j e.2) i

/-- `_add_predicate` with `EvaluationPhase.BaseTable` (postbound/relalg.py:3698-3711). -/
def addBasePhase [DecidableEq Q] (x : Ctx Q) (p : Expr Q) (s : St Q) : Option (St Q) :=
  (filterPhase x .base p).bind fun f => match f with
    | none => some s
    | some q => (splitFilter x q).bind fun d => stepAll (addBase x) d s

/-- `_add_predicate` with `EvaluationPhase.Join` (postbound/relalg.py:3698-3701, 3712-3717). -/
def addJoinPhase [DecidableEq Q] (x : Ctx Q) (p : Expr Q) (s : St Q) : Option (St Q) :=
  (filterPhase x .join p).bind fun f => match f with
    | none => some s
    | some q => (splitJoin x q).bind fun l => stepAll (addJoin x) l s

/-- `_add_predicate` with one of the later phases (postbound/relalg.py:3698-3701, 3718-3736). -/
def addLate [DecidableEq Q] (x : Ctx Q) (s : St Q) (ph : Phase) (p : Expr Q) (i : Rel Q) : Option (Rel Q) :=
  (filterPhase x ph p).bind fun f => match f with
    | none => some i
    | some q => convert x s q (addOuter x s q i)

/-- `ImplicitSqlQuery` (postbound/qal/_qal.py:9184-9230) with tables in its FROM clause. `distinct` and `limit` are the DISTINCT keyword and the LIMIT
clause. An empty list stands for a missing GROUP BY or ORDER BY clause. The flags in `order` are true for ascending. -/
structure Sel (Q : Type) where
  targets : List (Expr Q)
  distinct : Bool
  from_ : List Tab
  where_ : Option (Expr Q)
  group : List (Expr Q)
  having : Option (Expr Q)
  order : List (Expr Q × Bool)
  limit : Option Nat

/-- `SqlQuery.columns` (postbound/qal/_qal.py:8770-8782). -/
def Sel.columns (x : Ctx Q) (q : Sel Q) : Finset Col :=
  unionAll ((q.targets ++ q.where_.toList ++ q.group ++ q.having.toList ++ q.order.map Prod.fst).map fun e => e.columns x.ops)

/-- `_add_table` for all tables of the FROM clause (postbound/relalg.py:3380, 3476-3512). -/
def addTables (cols : Finset Col) (ts : List Tab) (s : St Q) : St Q :=
  { s with frags := ts.foldl (fun d t => d.set t (.relation t (cols.filter fun c => c.tab = some t))) s.frags }

/-- Cross products of a list of nodes (postbound/relalg.py:3548-3555). -/
def crossAll : List (Rel Q) → Option (Rel Q)
  | [] => none
  | h :: l => some (l.foldl Rel.cross h)

/-- The steps for the WHERE clause before and within `_generate_initial_join_order` (postbound/relalg.py:3382-3387, 3538-3546). -/
def addWhere [DecidableEq Q] (x : Ctx Q) (w : Option (Expr Q)) (s : St Q) : Option (St Q) := match w with
  | none => some s
  | some p => (addBasePhase x p s).bind (addJoinPhase x p)

/-- The steps for a predicate that is evaluated on the whole result so far (postbound/relalg.py:3389-3403). -/
def addLateOpt [DecidableEq Q] (x : Ctx Q) (s : St Q) (ph : Phase) (p : Option (Expr Q)) (i : Rel Q) : Option (Rel Q) := match p with
  | none => some i
  | some p => addLate x s ph p i

/-- The aggregate functions of a query (postbound/relalg.py:3572-3584). -/
def aggregates [DecidableEq Q] (q : Sel Q) : List (Expr Q) :=
  ((q.targets ++ q.having.toList.flatMap iterExpressions).flatMap fun e => e.collectMatches isAgg false).dedup

/-- The arguments of a function. -/
def argsOf : Expr Q → List (Expr Q)
  | .func _ args _ _ => args
  | _ => []

/-- `_add_aggregation` (postbound/relalg.py:3557-3618). -/
def addAggregation [DecidableEq Q] (q : Sel Q) (i : Rel Q) : Rel Q :=
  if q.group = [] ∧ aggregates q = [] then i
  else .group (mapMissing ((aggregates q).flatMap fun f => (argsOf f).flatMap collectAllT) i.provided i) q.group (aggregates q)

/-- `_add_ordering` (postbound/relalg.py:3653-3666). -/
def addOrdering [DecidableEq Q] (x : Ctx Q) (s : St Q) (order : List (Expr Q × Bool)) (i : Rel Q) : Option (Rel Q) :=
  if order = [] then some i else (stepAll (fun o j => addExpr x s .scalar o.1 j) order i).map fun j => .sort j order

/-- `Select.is_star` (postbound/qal/_qal.py:6005-6007). -/
def isStar : List (Expr Q) → Bool
  | [.star none] => true
  | _ => false

/-- `_add_final_projection` (postbound/relalg.py:3620-3651). -/
def addProjection [DecidableEq Q] (q : Sel Q) (i : Rel Q) : Rel Q :=
  if isStar q.targets then i else .project (mapMissing (q.targets.flatMap collectAll) i.provided i) q.targets

/-- `generate_relnode` for ordinary queries (postbound/relalg.py:3356-3411). `cols` are the columns in `_required_columns`. The resulting fragments are
returned, too. -/
def generate [DecidableEq Q] (x : Ctx Q) (cols : Finset Col) (s : St Q) (q : Sel Q) : Option (Rel Q × St Q) :=
  (addWhere x q.where_ (addTables cols q.from_ s)).bind fun s =>
    (crossAll (x.relOrder s.frags.values.dedup)).bind fun i =>
      (addLateOpt x s .postJoin q.where_ i).bind fun i =>
        (addLateOpt x s .postAgg q.having (addAggregation q i)).bind fun i =>
          (addOrdering x s q.order i).map fun i => (addProjection q i, s)

/-- `SetOperator` (postbound/qal/_qal.py:7782-7800). -/
inductive SetOp where
  | union | unionAll | intersect | except
deriving DecidableEq, Repr

/-- A query or set query (postbound/qal/_qal.py:9396-10024) without WITH clause. -/
inductive Qry (Q : Type) where
  | sel (q : Sel Q)
  | set (op : SetOp) (l r : Qry Q) (order : List (Expr Q × Bool))

/-- `columns` (postbound/qal/_qal.py:8770, 9696-9708). -/
def Qry.columns (x : Ctx Q) : Qry Q → Finset Col
  | .sel q => q.columns x
  | .set _ l r _ => l.columns x ∪ r.columns x

/-- The node of a set operation (postbound/relalg.py:3450-3461). -/
def setNode : SetOp → Rel Q → Rel Q → Rel Q
  | .union, l, r => .dedup (.union l r)
  | .unionAll, l, r => .union l r
  | .intersect, l, r => .inter l r
  | .except, l, r => .diff l r

/-- `generate_relnode` and `_parse_set_query` (postbound/relalg.py:3356-3365, 3413-3468). Both parts of a set query are translated by the same new parser, which
keeps its fragments and required columns. -/
def generateQ [DecidableEq Q] (x : Ctx Q) (cols : Finset Col) (s : St Q) : Qry Q → Option (Rel Q × St Q)
  | .sel q => generate x cols s q
  | .set op l r order =>
    (generateQ x (l.columns x) ⟨[], []⟩ l).bind fun a =>
      (generateQ x (l.columns x ∪ r.columns x) a.2 r).bind fun b =>
        (addOrdering x s order (setNode op a.1 b.1)).map fun i => (i, s)

/-- `parse_relalg` (postbound/relalg.py:4266-4284) without the final copy. -/
def parseRelalg [DecidableEq Q] (x : Ctx Q) (q : Qry Q) : Option (Rel Q) := (generateQ x (q.columns x) ⟨[], []⟩ q).map Prod.fst

end PB.Relalg
