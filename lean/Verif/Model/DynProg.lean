import Verif.Model.Collections
import Verif.Model.Dict
import Verif.Model.Hints
import Mathlib.Data.Finset.Card
import Mathlib.Algebra.Order.Ring.Rat

/-! Model of the dynamic programming enumerator (postbound/opt/dynprog.py:53-435).

Simplifications: plans carry the operators and the index only, since filter predicates, join conditions and estimates are
functions of the query and the plan; costs are numbers (no NaN); the cost of a plan is a function of the plan
(`_calc_plan_estimates`, lines 53-64, called with the estimator and the cost model). -/

namespace PB.DynProg
open PB PB.Hints

/-- Plans: scans of a table with an optional index, and joins. -/
inductive Path where
  | scan (op : ScanOp) (table : Nat) (index : Option (Nat × Nat))
  | join (op : JoinOp) (outer inner : Path)
deriving DecidableEq, Repr

/-- `min(candidates, key=...)`: the first of the smallest elements; `none` is the `ValueError` of an empty sequence. -/
def minBy {α : Type} (key : α → Rat) : List α → Option α
  | [] => none
  | x :: xs =>
    match minBy key xs with
    | none => some x
    | some y => if key x ≤ key y then some x else some y

/-- The indexes of one column (postbound/opt/dynprog.py:264-289) -/
def indexScans (ops : List ScanOp) (t : Nat) (idxOnly : Bool) (c : Nat × List Nat) : List Path :=
  c.2.flatMap fun i =>
    (if .idxScan ∈ ops then [.scan .idxScan t (some (c.1, i))] else []) ++
    (if idxOnly && decide (.idxOnlyScan ∈ ops) then [.scan .idxOnlyScan t (some (c.1, i))] else [])

/-- `_determine_index_paths` (postbound/opt/dynprog.py:241-304). `cols` are the columns of the table that the query uses, with
their indexes. -/
def indexPaths (ops : List ScanOp) (t : Nat) (cols : List (Nat × List Nat)) : List Path :=
  if cols.isEmpty then []
  else cols.flatMap (indexScans ops t (decide (cols.length ≤ 1))) ++
    (if .bitmapScan ∈ ops then [.scan .bitmapScan t none] else [])

/-- The candidates for a base table (postbound/opt/dynprog.py:213-224) -/
def baseCandidates (ops : List ScanOp) (t : Nat) (cols : List (Nat × List Nat)) : List Path :=
  (if .seqScan ∈ ops then [.scan .seqScan t none] else []) ++ indexPaths ops t cols

/-- `_determine_base_access_paths` (postbound/opt/dynprog.py:197-239) -/
def basePaths (cost : Path → Rat) (ops : List ScanOp) (cols : Nat → List (Nat × List Nat)) :
    List Nat → Dict (Finset Nat) Path → Option (Dict (Finset Nat) Path)
  | [], dp => some dp
  | t :: ts, dp => (minBy cost (baseCandidates ops t (cols t))).bind fun p => basePaths cost ops cols ts (Dict.set dp {t} p)

/-- The operators that are considered for joins, in this order (postbound/opt/dynprog.py:396-423) -/
def consideredJoins (ops : List JoinOp) : List JoinOp := [.nlj, .hash, .merge].filter fun o => decide (o ∈ ops)

/-- The candidates for one split (postbound/opt/dynprog.py:380-423) -/
def splitCandidates (ops : List JoinOp) (dp : Dict (Finset Nat) Path) (s : Finset Nat) (outer : List Nat) : List Path :=
  if outer.isEmpty || outer.length == s.card then []
  else match Dict.get? dp outer.toFinset, Dict.get? dp (s \ outer.toFinset) with
    | some o, some i => (consideredJoins ops).map fun op => .join op o i
    | _, _ => []

/-- `_determine_cheapest_path` (postbound/opt/dynprog.py:354-435). `ord` is the iteration order of sets. -/
def cheapest (cost : Path → Rat) (ops : List JoinOp) (ord : Finset Nat → List Nat) (dp : Dict (Finset Nat) Path)
    (s : Finset Nat) : Option Path :=
  minBy cost ((Coll.powerset (ord s)).flatMap (splitCandidates ops dp s))

/-- One level (postbound/opt/dynprog.py:339-349). `conn` is `predicates.joins_tables`. -/
def levelPaths (cost : Path → Rat) (ops : List JoinOp) (ord : Finset Nat → List Nat) (conn : Finset Nat → Option Bool)
    (dp : Dict (Finset Nat) Path) : List (List Nat) → Option (Dict (Finset Nat) Path)
  | [] => some []
  | j :: js => (conn j.toFinset).bind fun c =>
    if c then (cheapest cost ops ord dp j.toFinset).bind fun p =>
      (levelPaths cost ops ord conn dp js).map fun r => (j.toFinset, p) :: r
    else levelPaths cost ops ord conn dp js

/-- The loop over the levels (postbound/opt/dynprog.py:331-350) -/
def buildLevels (cost : Path → Rat) (ops : List JoinOp) (ord : Finset Nat → List Nat) (conn : Finset Nat → Option Bool)
    (tables : List Nat) : List Nat → Dict (Finset Nat) Path → Option (Dict (Finset Nat) Path)
  | [], dp => some dp
  | k :: ks, dp => (levelPaths cost ops ord conn dp (Coll.combinations tables k)).bind fun r =>
    buildLevels cost ops ord conn tables ks (Dict.update dp r)

/-- `generate_execution_plan` (postbound/opt/dynprog.py:156-176, 306-352); `none` is an exception. `tables` is the iteration
order of the query's tables. -/
def generatePlan (cost : Path → Rat) (scanOps : List ScanOp) (cols : Nat → List (Nat × List Nat)) (joinOps : List JoinOp)
    (ord : Finset Nat → List Nat) (conn : Finset Nat → Option Bool) (tables : List Nat) : Option Path :=
  (basePaths cost scanOps cols tables []).bind fun dp =>
    (buildLevels cost joinOps ord conn tables (List.range' 2 (tables.length - 1)) dp).bind fun dp =>
      Dict.get? dp tables.toFinset

end PB.DynProg
