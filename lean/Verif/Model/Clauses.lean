import Mathlib.Logic.Function.Basic
import Mathlib.Data.List.Basic

/-! Model of how queries are assembled from clauses: `build_query` and `clauses()` (postbound/qal/_qal.py) and the clause
editing functions (postbound/transform.py). The content of a clause is opaque. -/

namespace PB.Clauses

/-- The clause classes (postbound/qal/_qal.py:5061-7867). `fromMixed` is the class `From`, the superclass of
`ImplicitFromClause` and `ExplicitFromClause`. -/
inductive Kind where
  | hint | explain | cte | select | fromImplicit | fromExplicit | fromMixed | where_ | groupBy | having | orderBy | limit
  | union | except | intersect
  deriving DecidableEq, Repr

/-- A clause: its class and its content. Clauses are never falsy: their constructors reject empty content. -/
structure Clause (P : Type) where
  kind : Kind
  payload : P
  deriving DecidableEq, Repr

/-- The local variables of `build_query`, and the attributes of a query object (postbound/qal/_qal.py:10087-10092,
8488-8497, 9466-9473). -/
inductive Slot where
  | hint | explain | cte | select | from_ | where_ | groupBy | having | orderBy | limit | union | except | intersect
  deriving DecidableEq, Repr

/-- The variable a clause is stored in (postbound/qal/_qal.py:10097-10134) -/
def slotOf : Kind → Slot
  | .hint => .hint
  | .explain => .explain
  | .cte => .cte
  | .select => .select
  | .fromImplicit | .fromExplicit | .fromMixed => .from_
  | .where_ => .where_
  | .groupBy => .groupBy
  | .having => .having
  | .orderBy => .orderBy
  | .limit => .limit
  | .union => .union
  | .except => .except
  | .intersect => .intersect

/-- `ImplicitSqlQuery`, `ExplicitSqlQuery`, `MixedSqlQuery`, `SetQuery` -/
inductive QClass where
  | implicit | explicit | mixed | set
  deriving DecidableEq, Repr

/-- A query object: its class and its attributes. For a set query the operation and the input queries are represented by
the set clause. Simplification: the input queries of a set query are no EXPLAIN queries. -/
structure Query (P : Type) where
  cls : QClass
  get : Slot → Option (Clause P)

/-- The attributes returned by `clauses()` of ordinary queries, in this order (postbound/qal/_qal.py:8936-8947) -/
def plainSlots : List Slot :=
  [.hint, .explain, .cte, .select, .from_, .where_, .groupBy, .having, .orderBy, .limit]

/-- The attributes returned by `clauses()` of set queries, in this order (postbound/qal/_qal.py:9793-9815) -/
def setSlots : List Slot := [.hint, .explain, .cte, .union, .except, .intersect, .orderBy, .limit]

variable {P : Type}

/-- `SqlQuery.clauses` and `SetQuery.clauses` (postbound/qal/_qal.py:8919-8952, 9776-9817) -/
def Query.clauses (q : Query P) : List (Clause P) :=
  (if q.cls = .set then setSlots else plainSlots).filterMap q.get

/-- The loop of `build_query` (postbound/qal/_qal.py:10093-10134) -/
def buildLoop (cs : List (Clause P)) : Slot → Option (Clause P) :=
  cs.foldl (fun st c => Function.update st (slotOf c.kind) (some c)) fun _ => none

/-- The class of an ordinary query, decided by its FROM clause (postbound/qal/_qal.py:10085, 10101-10109, 10178-10216) -/
def classOf : Option (Clause P) → QClass
  | none => .implicit
  | some c => if c.kind = .fromExplicit then .explicit else if c.kind = .fromImplicit then .implicit else .mixed

/-- The attributes of a new set query (postbound/qal/_qal.py:10136-10173) -/
def setGet (st : Slot → Option (Clause P)) : Slot → Option (Clause P)
  | .hint => st .hint
  | .explain => st .explain
  | .cte => st .cte
  | .orderBy => st .orderBy
  | .limit => st .limit
  | .union => st .union
  | .except => if st .union = none then st .except else none
  | .intersect => if st .union = none then (if st .except = none then st .intersect else none) else none
  | _ => none

/-- The attributes of a new ordinary query (postbound/qal/_qal.py:10178-10216) -/
def plainGet (st : Slot → Option (Clause P)) : Slot → Option (Clause P)
  | .union | .except | .intersect => none
  | s => st s

/-- `build_query` (postbound/qal/_qal.py:10054-10216); `none` is a ValueError. -/
def buildQuery [DecidableEq P] (cs : List (Clause P)) : Option (Query P) :=
  let st := buildLoop cs
  if (st .union).isSome || (st .except).isSome || (st .intersect).isSome then
    if (st .select).isSome || (st .from_).isSome || (st .where_).isSome || (st .groupBy).isSome || (st .having).isSome
    then none
    else some ⟨.set, setGet st⟩
  else if (st .select).isNone then none
  else some ⟨classOf (st .from_), plainGet st⟩

/-- `add_clause` (postbound/transform.py:833-859) -/
def addClause [DecidableEq P] (q : Query P) (new : List (Clause P)) : Option (Query P) :=
  buildQuery ((q.clauses.filter fun c => decide (c.kind ∉ new.map (·.kind))) ++ new)

/-- `drop_clause` (postbound/transform.py:873-913); instances of clauses have been replaced by their types. -/
def dropClause [DecidableEq P] (q : Query P) (types : List Kind) : Option (Query P) :=
  buildQuery (q.clauses.filter fun c => decide (c.kind ∉ types))

/-- `isinstance(replacement, type(current))` (postbound/transform.py:950) -/
def isInstance (r c : Clause P) : Bool :=
  r.kind = c.kind || (c.kind = .fromMixed && (r.kind = .fromImplicit || r.kind = .fromExplicit))

/-- The loop of `replace_clause` (postbound/transform.py:942-955). The set of available replacements is a list in its
(arbitrary) iteration order. -/
def replaceLoop [DecidableEq P] : List (Clause P) → List (Clause P) → List (Clause P)
  | [], _ => []
  | c :: cs, avail =>
    if avail = [] then c :: replaceLoop cs avail
    else
      let final := (avail.find? fun r => isInstance r c).getD c
      final :: replaceLoop cs (avail.erase final)

/-- `replace_clause` (postbound/transform.py:916-957) -/
def replaceClause [DecidableEq P] (q : Query P) (replacements : List (Clause P)) : Option (Query P) :=
  buildQuery (replaceLoop q.clauses replacements)

/-- `as_star_query`, `as_count_star_query`, `as_explain` and `as_explain_analyze` (postbound/transform.py:672-717,
749-786): all clauses of the type of `c` are replaced by `c`. -/
def withClause [DecidableEq P] (q : Query P) (c : Clause P) : Option (Query P) :=
  buildQuery ((q.clauses.filter fun d => decide (d.kind ≠ c.kind)) ++ [c])

/-- `drop_hints` (postbound/transform.py:720-746). `keep` yields the hint that remains when only the preparatory
statements should be dropped. -/
def dropHints [DecidableEq P] (q : Query P) (preparatoryOnly : Bool) (keep : P → P) : Option (Query P) :=
  let new : Option (Clause P) := if preparatoryOnly then (q.get .hint).map fun h => ⟨.hint, keep h.payload⟩ else none
  buildQuery ((q.clauses.filter fun c => decide (c.kind ≠ .hint)) ++ new.toList)

end PB.Clauses
