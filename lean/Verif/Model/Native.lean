import Verif.Model.QueryPlan

/-!
# The native stages

The stages that use the optimizer of the database system (postbound/opt/native.py), the stages that do nothing (postbound/opt/noopt.py) and the emulation of complete optimizers by
single stages (postbound/_stages.py:947-1085).

The database system is a parameter (`System`): it answers requests for cost estimates and plans, and it attaches hints to queries. Queries are an arbitrary type `Qy`; the operations of
postbound/transform.py on them are parameters as well. Sort keys and lookup keys are not part of `Info`; they are given by `sortKeys` and `lookupKey`. Warnings and descriptions are not modelled.
-/

namespace PB.Native
open PB PB.Hints PB.QP

/-- The errors of a database system: `DatabaseServerError` or `DatabaseUserError`, and all others. -/
inductive DbErr
  | database | other
  deriving DecidableEq

/-- What the methods can raise: a `ValueError`, an error of the database system, `StopIteration` and errors because of missing values (`AttributeError`). -/
inductive Exc
  | value | db (e : DbErr) | stop | missing
  deriving DecidableEq

/-- The lookup key of a plan node: none, a column of a table or another expression. -/
inductive LookupKey
  | none | column (tab : Nat) | other

/-- A database system and the operations on queries. -/
structure System (Qy : Type) where
  /-- `query.tables()` -/
  tables : Qy → Finset Nat
  /-- `transform.extract_query_fragment` -/
  fragment : Qy → Finset Nat → Option Qy
  /-- `transform.as_star_query` -/
  star : Qy → Qy
  /-- `transform.as_count_star_query` -/
  count : Qy → Qy
  /-- `hinting().generate_hints(query, plan)` -/
  hint : Qy → Plan → Qy
  /-- `hinting().generate_hints(query, join_order=..., physical_operators=..., plan_parameters=...)` -/
  hintParts : Qy → Option (JT.Tree Card) → Option OpAssign → Option Params → Qy
  /-- `optimizer().cost_estimate(query)` -/
  cost : Qy → Except DbErr Flt
  /-- `optimizer().query_plan(query)` -/
  plan : Qy → Except DbErr Plan
  /-- The tables of `query.predicates().joins_between(first, second)`, if there are any joins. -/
  joinsBetween : Qy → Finset Nat → Finset Nat → Option (Finset Nat)
  /-- `util.collections.get_any` -/
  pick : Finset Nat → Nat
  /-- `isinstance(target_db, PostgresInterface)` -/
  postgres : Bool
  /-- The columns of a table: `schema().columns(table)` -/
  columns : Nat → List Nat
  /-- The sort keys: the members of the equivalence class (`none` for expressions that are no columns) and whether the order is ascending. -/
  sortKeys : Plan → List (List (Option Nat) × Bool)
  /-- The lookup key. -/
  lookupKey : Plan → LookupKey

variable {Qy : Type} (S : System Qy)

/-- `Materialize` or `Memoize` (postbound/opt/native.py:79-82). -/
def isIntermediate (i : Info) : Bool := i.op == some (.inter .materialize) || i.op == some (.inter .memoize)

/-- `outermost_scan` (postbound/_qep.py:1382-1390): `none` is an error (a join without two children, or another node without a single child). -/
def outermostScan : Plan → Option Plan
  | .node i cs s =>
    if i.isScan then some (.node i cs s)
    else if i.isJoin then
      match cs with
      | [c, _] => outermostScan c
      | _ => none
    else
      match cs with
      | [c] => outermostScan c
      | _ => none

/-- The request for a cost estimate (postbound/opt/native.py:103-113). -/
def costPlain (raiseOnError : Bool) (q : Qy) (p : Plan) : Except Exc Flt :=
  match S.cost (S.hint q (p.withActual none true)) with
  | .ok c => .ok c
  | .error .database => if raiseOnError then .error (.db .database) else .ok .pinf
  | .error e => .error (.db e)

/-- The use of the plan of a COUNT(*) query (postbound/opt/native.py:158-169). -/
def costFromCount (raiseOnError : Bool) (p countPlan : Plan) : Except Exc Flt :=
  match outermostScan countPlan with
  | none => .error .missing
  | some n => if n.info.op = p.info.op then .ok n.info.estCost else if raiseOnError then .error (.db .database) else .ok .pinf

/-- `_cost_index_op` (postbound/opt/native.py:126-169). -/
def costIndex (raiseOnError : Bool) (q : Qy) (p : Plan) : Except Exc Flt :=
  match S.cost (S.hint q (p.withActual none true)) with
  | .ok c => .ok c
  | .error .database =>
    match S.plan (S.hint (S.count q) (p.withActual none true)) with
    | .ok r => costFromCount raiseOnError p r
    | .error .database => if raiseOnError then .error (.db .database) else .ok .pinf
    | .error e => .error (.db e)
  | .error e => .error (.db e)

/-- The plan with an additional join (postbound/opt/native.py:227-230, 333-336). -/
def topped (t : Nat) (p : Plan) : Plan :=
  .node { nodeType := "NestedLoopJoin", op := some (.join .nlj), base := none, filterTables := ∅, lookupTables := ∅, workers := 0, estCard := Card.unknown, estCost := .nan,
          actCard := Card.unknown, execTime := .nan, hits := none, subTarget := none }
    [.node { nodeType := "SequentialScan", op := some (.scan .seqScan), base := some t, filterTables := ∅, lookupTables := ∅, workers := 0, estCard := Card.unknown, estCost := .nan,
             actCard := Card.unknown, execTime := .nan, hits := none, subTarget := none } [] none, p] none

/-- The test for the requested node (postbound/opt/native.py:250-253, 356-359). The node type is a string and is compared to an enum member, and the method `tables` itself is compared to a set: both
comparisons are false. -/
def isRequested (_ : Plan) : Bool := false

/-- The common part of `_cost_materialize_op` and `_cost_memoize_op` (postbound/opt/native.py:212-260, 316-366), given the tables for the join. -/
def costWithin (q : Qy) (p : Plan) (anchor : Finset Nat) : Except Exc Flt :=
  match S.joinsBetween q (S.tables q \ p.tables) anchor with
  | none => .ok .pinf
  | some ts =>
    let t := S.pick ((S.tables q \ p.tables) ∩ ts)
    match S.fragment q (p.tables ∪ {t}) with
    | none => .error .missing
    | some f =>
      match S.plan (S.hint (S.star f) (topped t p)) with
      | .error .database => .ok .pinf
      | .error e => .error (.db e)
      | .ok r =>
        match r.findFirst isRequested true with
        | none => .error .missing
        | some none => .ok .pinf
        | some (some n) => .ok n.info.estCost

/-- `_cost_materialize_op` (postbound/opt/native.py:171-260). -/
def costMaterialize (q : Qy) (p : Plan) : Except Exc Flt :=
  if !S.postgres then .ok .pinf else costWithin S q p p.tables

/-- `_cost_memoize_op` (postbound/opt/native.py:262-366). -/
def costMemoize (q : Qy) (p : Plan) : Except Exc Flt :=
  if !S.postgres then .ok .pinf
  else match S.lookupKey p with
    | .none => .error .value
    | .other => .ok .pinf
    | .column t => costWithin S q p {t}

/-- The columns of the tables of the plan (postbound/opt/native.py:387-389). -/
def isTargetColumn (p : Plan) (c : Nat) : Prop := ∃ t ∈ p.tables, c ∈ S.columns t

instance (p : Plan) (c : Nat) : Decidable (isTargetColumn S p c) := by unfold isTargetColumn; infer_instance

/-- The first member of an equivalence class that is a column of the plan (postbound/opt/native.py:393-400). -/
def sortColumn (p : Plan) : List (Option Nat) → Option Nat
  | [] => none
  | some c :: rest => if isTargetColumn S p c then some c else sortColumn p rest
  | none :: rest => sortColumn p rest

/-- The columns of the ORDER BY clause (postbound/opt/native.py:391-401); `none` is `StopIteration`. -/
def sortColumns (p : Plan) : List (List (Option Nat) × Bool) → Option (List Nat)
  | [] => some []
  | k :: ks =>
    match sortColumn S p k.1 with
    | none => none
    | some c => (sortColumns p ks).map (c :: ·)

/-- `_cost_sort_op` (postbound/opt/native.py:368-405). An ORDER BY clause without expressions raises a `ValueError` (postbound/qal/_qal.py:7493-7494). `OrderBy.create_for` wraps its arguments in
`ColumnExpression`s (postbound/qal/_qal.py:7369-7371, 7479-7488), and the arguments are `ColumnExpression`s already. Hence `tables()` of the clause fails with an `AttributeError` in
`self.column.table` (postbound/qal/_qal.py:742-745), and `estimate_cost` begins with a call of `query.tables()` (postbound/opt/native.py:78). -/
def costSort (q : Qy) (p : Plan) : Except Exc Flt :=
  match S.fragment q p.tables with
  | none => .error .missing
  | some _ =>
    match sortColumns S p (S.sortKeys p) with
    | none => .error .stop
    | some [] => .error .value
    | some _ => .error .missing

/-- The choice of the method (postbound/opt/native.py:90-113). -/
def dispatch (raiseOnError : Bool) (q : Qy) (p : Plan) : Except Exc Flt :=
  match p.info.op with
  | some (.scan .idxScan) | some (.scan .idxOnlyScan) => costIndex S raiseOnError q p
  | some (.inter .materialize) => costMaterialize S q p
  | some (.inter .memoize) => costMemoize S q p
  | some (.inter .sort) => costSort S q p
  | _ => costPlain S raiseOnError q p

/-- `estimate_cost` (postbound/opt/native.py:77-113). -/
def estimateCost (raiseOnError : Bool) (q : Qy) (p : Plan) : Except Exc Flt :=
  if isIntermediate p.info = true ∧ S.tables q = p.tables then .error .value
  else if isIntermediate p.info = false ∧ S.tables q ≠ p.tables then
    match S.fragment q p.tables with
    | none => .error .missing
    | some f => dispatch S raiseOnError f p
  else dispatch S raiseOnError q p

/-! ## Stages -/

/-- Requests for a plan. -/
def planOf (q : Qy) : Except Exc Plan :=
  match S.plan q with
  | .ok p => .ok p
  | .error e => .error (.db e)

/-- `NativeJoinOrderOptimizer.optimize_join_order` (postbound/opt/native.py:453-455). -/
def nativeJoinOrder (q : Qy) : Except Exc (Option (JT.Tree Card)) :=
  match planOf S q with
  | .error e => .error e
  | .ok p => match p.jointree .estimated with
    | none => .error .missing
    | some t => .ok (some t)

/-- `NativePhysicalOperatorSelection.select_physical_operators` (postbound/opt/native.py:477-485); `if join_order`: join trees are true unless they are empty. -/
def nativeOperators (q : Qy) (order : Option (JT.Tree Card)) : Except Exc (Option OpAssign) :=
  let given := order.filter fun t => !t.isEmpty
  match planOf S (if given.isSome then S.hintParts q given none none else q) with
  | .error e => .error e
  | .ok p => match p.ops false with
    | none => .error .missing
    | some a => .ok (some a)

/-- `NativePlanParameterization.generate_plan_parameters` (postbound/opt/native.py:507-518): the parameters are not returned. -/
def nativeParameters (q : Qy) (order : Option (JT.Tree Card)) (ops : Option OpAssign) : Except Exc (Option Params) :=
  match planOf S (if (order.any fun t => !t.isEmpty) || (ops.any fun a => !a.globals.isEmpty || !a.joins.isEmpty || !a.scans.isEmpty || !a.inters.isEmpty) then
      S.hintParts q order ops none else q) with
  | .error e => .error e
  | .ok _ => .ok none

/-- `NativeOptimizer.optimize_query` (postbound/opt/native.py:537-538). -/
def nativeOptimizer (q : Qy) : Except Exc Plan := planOf S q

/-- A stage: what it does and its pre check (postbound/_stages.py:394-920). A class can be a subclass of several stages. -/
structure Stage (Qy : Type) where
  order : Option (Qy → Except Exc (Option (JT.Tree Card)))
  ops : Option (Qy → Option (JT.Tree Card) → Except Exc (Option OpAssign))
  params : Option (Qy → Option (JT.Tree Card) → Option OpAssign → Except Exc (Option Params))

/-- The stages of `postbound/opt/noopt.py:16-53`. -/
def emptyOrder : Stage Qy := ⟨some fun _ => .ok none, none, none⟩
def emptyOps : Stage Qy := ⟨none, some fun _ _ => .ok (some OpAssign.empty), none⟩
def emptyParams : Stage Qy := ⟨none, none, some fun _ _ _ => .ok none⟩

/-- The native stages as stages. -/
def nativeOrderStage : Stage Qy := ⟨some (nativeJoinOrder S), none, none⟩
def nativeOpsStage : Stage Qy := ⟨none, some (nativeOperators S), none⟩
def nativeParamsStage : Stage Qy := ⟨none, none, some (nativeParameters S)⟩

/-- `as_complete_algorithm` and `_CompleteAlgorithmEmulator.__init__` (postbound/_stages.py:973-998, 1077-1085): whether they accept a stage. -/
def accepts (st : Stage Qy) : Bool := st.order.isSome || st.ops.isSome || st.params.isSome

/-- The result of an optional stage. -/
def runOpt {α β : Type} (f : α → Except Exc (Option β)) : Option α → Except Exc (Option β)
  | none => .ok none
  | some a => f a

/-- `_CompleteAlgorithmEmulator.optimize_query` (postbound/_stages.py:1019-1041). -/
def complete (st : Stage Qy) (q : Qy) : Except Exc Plan :=
  if !accepts st then .error .value
  else
    match runOpt (fun f => f q) st.order with
    | .error e => .error e
    | .ok order =>
      match runOpt (fun f => f q none) st.ops with
      | .error e => .error e
      | .ok ops =>
        match runOpt (fun f => f q none none) st.params with
        | .error e => .error e
        | .ok params => planOf S (S.hintParts q order ops params)

end PB.Native
