import Verif.Model.Pred

/-! Model of postbound/validation.py. `none` is an exception. -/

namespace PB.Validation
open PB PB.Qal PB.Qal.Expr

/-- `PreCheckResult.failure_reason`: a string or a list of strings (postbound/validation.py:71). -/
inductive Reason where
  | one (s : String)
  | many (l : List String)
  deriving DecidableEq, Repr

/-- `PreCheckResult` (postbound/validation.py:70-71) -/
structure Res where
  passed : Bool
  reason : Reason
  deriving DecidableEq, Repr

/-- `PreCheckResult.with_all_passed` (postbound/validation.py:73-82) -/
def Res.ok : Res := ⟨true, .one ""⟩

/-- `util.enlist` on failure reasons, and the contribution of one reason to `util.flatten`
(postbound/util/collections.py:40-52, 113-162) -/
def Reason.list : Reason → List String
  | .one s => [s]
  | .many l => l

/-- `PreCheckResult.merge` (postbound/validation.py:84-110) -/
def mergeResults (rs : List Res) : Res :=
  let failures := (rs.filter fun r => !r.passed).flatMap fun r => r.reason.list
  if failures = [] then Res.ok else ⟨false, .many failures⟩

/-- The context of `ensure_all_passed`: nothing, a plain query (`SqlQuery`), a `SetQuery` (which is no subclass of
`SqlQuery`), or a database. -/
inductive Context where
  | nothing | sqlQuery | setQuery | database
  deriving DecidableEq, Repr

/-- The exceptions of `ensure_all_passed`. -/
inductive Err where
  | state | unsupportedQuery | unsupportedSystem
  deriving DecidableEq, Repr

/-- `ensure_all_passed` (postbound/validation.py:127-155): the exception that is raised, if any. -/
def ensureAllPassed (r : Res) (ctx : Context) : Option Err :=
  if r.passed then none
  else match ctx with
    | .nothing => some .state
    | .sqlQuery => some .unsupportedQuery
    | .database => some .unsupportedSystem
    | .setQuery => none

variable {Qy D : Type}

/-- A check that is neither empty nor compound. `key` represents what `__eq__` and `__hash__` use: the class, the name and,
for `EquiJoinPreCheck`, the settings (postbound/validation.py:290-294, 558-566). -/
structure Atom (Qy D : Type) where
  key : Nat
  onQuery : Qy → Res
  onDb : D → Res

/-- Checks. A compound check has atomic children only (see `mkCompound`). -/
inductive Check (Qy D : Type) where
  | empty
  | atom (a : Atom Qy D)
  | compound (as : List (Atom Qy D))

/-- The children that a check contributes to a compound check (postbound/validation.py:329-338) -/
def Check.atoms : Check Qy D → List (Atom Qy D)
  | .empty => []
  | .atom a => [a]
  | .compound as => as

/-- `CompoundCheck.__init__` (postbound/validation.py:327-338) -/
def mkCompound (cs : List (Check Qy D)) : Check Qy D := .compound (cs.flatMap Check.atoms)

/-- `CompoundCheck.check_supported_query` (postbound/validation.py:340-348) -/
def compoundQuery (as : List (Atom Qy D)) (q : Qy) : Res :=
  let rs := as.map fun a => a.onQuery q
  let passed := rs.all fun r => r.passed
  ⟨passed, .many (if !passed then rs.flatMap fun r => r.reason.list else [])⟩

/-- `check_supported_query` (postbound/validation.py:309-310, 340-348) -/
def Check.onQuery (c : Check Qy D) (q : Qy) : Res :=
  match c with
  | .empty => Res.ok
  | .atom a => a.onQuery q
  | .compound as => compoundQuery as q

/-- `check_supported_database_system`: `CompoundCheck` inherits the default (postbound/validation.py:253-270) -/
def Check.onDb (c : Check Qy D) (d : D) : Res :=
  match c with
  | .empty => Res.ok
  | .atom a => a.onDb d
  | .compound _ => Res.ok

/-- What `==` of checks compares: the kind of the check and the keys (postbound/validation.py:293-294, 361-362) -/
def Check.key : Check Qy D → Nat × List Nat
  | .empty => (0, [])
  | .atom a => (1, [a.key])
  | .compound as => (2, as.map (·.key))

/-- Python sets: of several equal elements the first one remains. -/
def pySet {α κ : Type} [DecidableEq κ] (key : α → κ) : List α → List α
  | [] => []
  | a :: as => a :: (pySet key as).filter fun b => decide (key a ≠ key b)

/-- The children of all atomic checks and, afterwards, of all compound checks (postbound/validation.py:397-406), each
group being a set. `ord` is the iteration order of sets. -/
def mergedAtoms (ord : List (Check Qy D) → List (Check Qy D)) (all : List (Check Qy D)) : List (Atom Qy D) :=
  let all := ord (pySet Check.key all)
  let atomic := all.flatMap fun c => match c with | .atom a => [a] | _ => []
  let children := all.flatMap fun c => match c with | .compound as => as | _ => []
  pySet Atom.key (atomic ++ children)

/-- `merge_checks(checks, *more_checks)` with a list as first argument (postbound/validation.py:369-416); `None` entries
have been dropped. -/
def mergeChecks (ord : List (Check Qy D) → List (Check Qy D)) (checks more : List (Check Qy D)) : Check Qy D :=
  if checks.isEmpty then .empty
  else
    match mergedAtoms ord (checks ++ more) with
    | [] => .empty
    | [a] => .atom a
    | as => .compound as

/-! ### Concrete checks -/

variable {Q : Type}

/-- `CrossProductPreCheck.check_supported_query` (postbound/validation.py:440-443): does the check pass? -/
def crossProductCheck (qp : QueryPreds Q) : Option Bool := qp.joinGraph.bind fun g => g.isConnected?

/-- `isinstance(e, ColumnExpression)` -/
def isCol : Expr Q → Bool
  | .col _ => true
  | _ => false

mutual
/-- `EquiJoinPreCheck._perform_predicate_check` (postbound/validation.py:492-556) -/
def equiCheck (ops : QOps Q) (conj nest : Bool) : Expr Q → Bool
  | .binary op a b =>
    if ((Expr.binary op a b).columns ops).card ≠ 2 then false
    else if op ≠ .eq then false
    else nest || (isCol a && isCol b)
  | .compound op cs => if !conj then false else if op ≠ .and then false else equiChecks ops conj nest cs
  | _ => false
/-- The check of all children (postbound/validation.py:553-556) -/
def equiChecks (ops : QOps Q) (conj nest : Bool) : List (Expr Q) → Bool
  | [] => true
  | c :: cs => equiCheck ops conj nest c && equiChecks ops conj nest cs
end

/-- `EquiJoinPreCheck.check_supported_query` (postbound/validation.py:477-483) -/
def equiJoinCheck (ops : QOps Q) (conj nest : Bool) (qp : QueryPreds Q) : Bool :=
  qp.joins.all (equiCheck ops conj nest)

/-- `JoinType` (postbound/qal/_qal.py:6672-6688) -/
inductive JoinType where
  | inner | outer | left | right | cross | naturalInner | naturalOuter | naturalLeft | naturalRight
  deriving DecidableEq, Repr

/-- The classes of FROM clauses. -/
inductive FromKind where
  | absent | implicit | explicit | mixed
  deriving DecidableEq, Repr

/-- Table sources. A subquery is represented by its FROM clause. -/
inductive TSrc where
  | direct
  | values
  | function
  | subquery (kind : FromKind) (items : List TSrc)
  | join (l r : TSrc) (type : JoinType)

/-- `join_type != "INNER"` (postbound/validation.py:603): a member of an enumeration is never equal to a string. -/
def differsFromString (_ : JoinType) : Bool := true

mutual
/-- `InnerJoinPreCheck._check_table_source` (postbound/validation.py:593-611): does it pass? -/
def innerSource : TSrc → Option Bool
  | .direct => some true
  | .values => some true
  | .function => none
  | .subquery k items =>
    match k with
    | .absent => some true
    | .implicit => some true
    | .explicit => innerSources items
    | .mixed => innerSources items
  | .join l r t => (innerSource l).bind fun a => (innerSource r).map fun b => !differsFromString t && a && b
/-- The check of several sources (postbound/validation.py:584-586) -/
def innerSources : List TSrc → Option Bool
  | [] => some true
  | s :: ss => (innerSource s).bind fun a => (innerSources ss).map fun b => a && b
end

/-- `InnerJoinPreCheck.check_supported_query` (postbound/validation.py:575-588). The FROM clause of an explicit query
consists of a single join. -/
def innerJoinCheck (k : FromKind) (items : List TSrc) : Option Bool := innerSource (.subquery k items)

end PB.Validation
