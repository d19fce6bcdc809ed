import Verif.Model.DynProg
import Verif.Model.Pred

/-! Model of the dynamic programming enumerator in the style of Postgres (postbound/opt/dynprog.py:438-1819) and of sort keys
(postbound/_qep.py:27-170).

Simplifications: no parallel workers (the default, so that there are no partial paths), no custom `add_path` hook, and a cost
model other than the native one of Postgres. Cardinalities, filter predicates and join conditions are functions of the plan and the
query and are left out. Costs are numbers or infinite, never NaN. -/

namespace PB.PgDynProg
open PB PB.Hints PB.Qal

/-- `SortKey` (postbound/_qep.py:104-110): the numbers stand for expressions. -/
structure SortKey where
  members : Finset Nat
  asc : Bool
deriving DecidableEq

/-- `SortKey.of` (postbound/_qep.py:52-73) -/
def SortKey.of (c : Nat) : SortKey := ⟨{c}, true⟩

/-- `SortKey.is_compatible_with` for another sort key (postbound/_qep.py:139-141) -/
def SortKey.compatible (a b : SortKey) : Bool :=
  if a.asc ≠ b.asc then false else decide ((a.members ∩ b.members).card > 0)

/-- `SortKey.is_compatible_with` for a column reference (postbound/_qep.py:136-137). The members are expressions, and a
column reference is not equal to any expression, in particular not to its column expression
(postbound/qal/_qal.py:763-764, postbound/_core.py `ColumnReference.__eq__`). -/
def SortKey.compatibleWithColumn (_a : SortKey) (_c : Nat) : Bool := false

/-- `SortKey.merge_with` (postbound/_qep.py:143-147); `none` is the `ValueError`. -/
def SortKey.mergeWith (a b : SortKey) : Option SortKey :=
  if a.asc ≠ b.asc then none else some ⟨a.members ∪ b.members, a.asc⟩

/-- The loop of `_sorting_subsumes` (postbound/opt/dynprog.py:1793-1803) -/
def subsumesLoop : List SortKey → List SortKey → Bool
  | [], _ => true
  | _ :: _, [] => true
  | k :: ks, o :: os => if !k.compatible o then false else subsumesLoop ks os

/-- `_sorting_subsumes` (postbound/opt/dynprog.py:1766-1803) -/
def sortingSubsumes (sorting other : List SortKey) : Bool :=
  if !sorting.isEmpty && other.isEmpty then true
  else if !other.isEmpty && sorting.isEmpty then false
  else if other.length > sorting.length then false
  else subsumesLoop sorting other

/-- `_same_sorting` (postbound/opt/dynprog.py:1805-1819); sort keys are never `None`. -/
def sameSorting (sorting other : List SortKey) : Bool :=
  if sorting.length ≠ other.length then false
  else (sorting.zip other).all fun p => p.1.compatible p.2

section addPath
variable {α : Type} (cost : α → Rat) (sort : α → List SortKey)

/-- `new_dominates` (postbound/opt/dynprog.py:764-769) -/
def dominates (new old : α) : Bool :=
  if sameSorting (sort new) (sort old) then decide (cost new < cost old) else decide (cost new ≤ 101 / 100 * cost old)

/-- The loop of `standard_add_path` (postbound/opt/dynprog.py:751-784) -/
def addLoop (new : α) : List α → List α
  | [] => [new]
  | old :: rest =>
    if !sortingSubsumes (sort new) (sort old) then old :: addLoop new rest
    else if dominates cost sort new old then addLoop new rest
    else old :: rest

/-- `standard_add_path` (postbound/opt/dynprog.py:725-789) -/
def standardAddPath (current : List α) (new : α) : List α :=
  if current.isEmpty then [new] else addLoop cost sort new current

end addPath

/-- `_add_path` (postbound/opt/dynprog.py:1181-1204); `none` is an infinite cost. -/
def addPath {α : Type} (cost : α → Option Rat) (sort : α → List SortKey) (current : List α) (new : α) : List α :=
  if (cost new).isNone then current else standardAddPath (fun p => (cost p).getD 0) sort current new

/-- `_set_cheapest` (postbound/opt/dynprog.py:1206-1213): the first path after the paths were sorted by their cost, which is the first
cheapest path; `none` is the `LogicError`. The order of the path list matters for later additions only if a path is added
afterwards, which does not happen. -/
def setCheapest {α : Type} (cost : α → Option Rat) (paths : List α) : Option α :=
  DynProg.minBy (fun p => (cost p).getD 0) paths

/-! ### Merge joins -/

/-- `_extract_join_columns` (postbound/opt/dynprog.py:1721-1752). The outer `none` is an exception, the inner `none` is
`(None, None)`. `simplify` returns a set of two pairs unchanged, so that the following unpacking yields pairs, which have no
attribute `table`. -/
def extractJoinColumns (partners : Finset (Col × Col)) : Option (Option (Col × Col)) :=
  if partners.card ≠ 2 then some none else none

/-- `_determine_join_keys` (postbound/opt/dynprog.py:1696-1719) for the result of `joins_between`; `none` is the `LogicError`. -/
def joinKeys {Q : Type} : Option (Expr Q) → Option (List (Expr Q))
  | none => none
  | some (.compound .and cs) => some cs
  | some e => some [e]

/-- `_sort_inner_outer` (postbound/opt/dynprog.py:952-1051): the merge joins of one pair of relations. `mk` creates the paths for a pair
of join columns (lines 986-1019); `none` is an exception. -/
def mergePaths {Q α : Type} (mk : Col × Col → List α) : List (Expr Q) → Option (List α)
  | [] => some []
  | k :: ks => k.joinPartners.bind fun ps => (extractJoinColumns ps).bind fun
    | none => mergePaths mk ks
    | some cs => (mergePaths mk ks).map fun r => mk cs ++ r

/-! ### The search -/

/-- Plans: scans, memoized and materialized subplans, and joins. -/
inductive Path where
  | scan (op : ScanOp) (table : Nat) (index : Option (Nat × Nat))
  | memo (key : Nat) (child : Path)
  | mat (child : Path)
  | join (op : JoinOp) (outer inner : Path)
deriving DecidableEq

/-- The sort keys of created paths (postbound/opt/dynprog.py:1260-1653); merge joins are never created. -/
def Path.sort : Path → List SortKey
  | .scan .idxScan _ (some (c, _)) => [SortKey.of c]
  | .scan .idxOnlyScan _ (some (c, _)) => [SortKey.of c]
  | _ => []

/-- `RelOptInfo` (postbound/opt/dynprog.py:438-478) -/
structure Rel where
  tables : Finset Nat
  paths : List Path
  cheapest : Option Path

/-- What the search uses: costs, supported operators, switches, indexes, and answers about the join predicates: whether
`joins_between` is not `None`, the cache keys (`none` is an exception), whether the attempt to create merge joins raises an
exception. -/
structure Env where
  cost : Path → Option Rat
  scanOps : List ScanOp
  joinOps : List JoinOp
  memoize : Bool
  materialize : Bool
  cols : Nat → List (Nat × List Nat)
  between : Finset Nat → Finset Nat → Bool
  memoKeys : Finset Nat → Finset Nat → Option (List Nat)
  mergeRaises : Finset Nat → Finset Nat → Bool

/-- The index scans for one column (postbound/opt/dynprog.py:1329-1355) -/
def indexScans (ops : List ScanOp) (t : Nat) (idxOnly : Bool) (c : Nat × List Nat) : List Path :=
  c.2.flatMap fun i =>
    (if .idxScan ∈ ops then [.scan .idxScan t (some (c.1, i))] else []) ++
    (if idxOnly then [.scan .idxOnlyScan t (some (c.1, i))] else [])

/-- The candidates for a base table (postbound/opt/dynprog.py:825-827, 1290-1415) -/
def baseCandidates (e : Env) (t : Nat) : List Path :=
  (if .seqScan ∈ e.scanOps then [.scan .seqScan t none] else []) ++
  (if !decide (.idxScan ∈ e.scanOps) && !decide (.idxOnlyScan ∈ e.scanOps) then []
   else (e.cols t).flatMap (indexScans e.scanOps t (decide (.idxOnlyScan ∈ e.scanOps) && decide ((e.cols t).length ≤ 1)))) ++
  (if decide (.bitmapScan ∈ e.scanOps) && !(e.cols t).isEmpty then [.scan .bitmapScan t none] else [])

/-- Base relations (postbound/opt/dynprog.py:791-830) -/
def baseRels (e : Env) : List Nat → Option (List Rel)
  | [] => some []
  | t :: ts =>
    let paths := (baseCandidates e t).foldl (addPath e.cost Path.sort) []
    (setCheapest e.cost paths).bind fun c => (baseRels e ts).map fun r => ⟨{t}, paths, some c⟩ :: r

/-- Nested-loop joins (postbound/opt/dynprog.py:1067-1117); `none` is an exception. -/
def nljPaths (e : Env) (outer inner : Rel) : Option (List Path) :=
  outer.cheapest.bind fun o => inner.cheapest.bind fun i =>
    (if e.memoize then e.memoKeys outer.tables inner.tables else some []).map fun keys =>
      [.join .nlj o i] ++ keys.map (fun k => .join .nlj o (.memo k i)) ++
      (if e.materialize then [.join .nlj o (.mat i)] else [])

/-- Hash joins (postbound/opt/dynprog.py:1165-1175) -/
def hashPaths (outer inner : Rel) : Option (List Path) :=
  outer.cheapest.bind fun o => inner.cheapest.bind fun i => some [.join .hash o i]

/-- `_add_paths_to_joinrel` (postbound/opt/dynprog.py:934-950): the candidates, in the order in which they are added. -/
def joinCandidates (e : Env) (outer inner : Rel) : Option (List Path) :=
  (if .nlj ∈ e.joinOps then nljPaths e outer inner else some []).bind fun n =>
    if decide (.merge ∈ e.joinOps) && e.mergeRaises outer.tables inner.tables then none
    else (if .hash ∈ e.joinOps then hashPaths outer inner else some []).map fun h => n ++ h

/-- `_build_join_rel` (postbound/opt/dynprog.py:910-932) followed by additions of paths to the relation. -/
def addToLevel (e : Env) (s : Finset Nat) (ps : List Path) : List Rel → List Rel
  | [] => [⟨s, ps.foldl (addPath e.cost Path.sort) [], none⟩]
  | r :: rs => if r.tables = s then { r with paths := ps.foldl (addPath e.cost Path.sort) r.paths } :: rs
    else r :: addToLevel e s ps rs

/-- One iteration of the loops over pairs of relations (postbound/opt/dynprog.py:869-884, 893-908) -/
def joinPair (e : Env) (level : List Rel) (p : Rel × Rel) : Option (List Rel) :=
  if (p.1.tables ∩ p.2.tables).card > 0 then some level
  else if !e.between p.1.tables p.2.tables then some level
  else (joinCandidates e p.1 p.2).bind fun a => (joinCandidates e p.2 p.1).map fun b =>
    addToLevel e (p.1.tables ∪ p.2.tables) (a ++ b) level

/-- All pairs of relations of two levels, in the order of two nested loops. -/
def relPairs (l l' : List Rel) : List (Rel × Rel) := l.flatMap fun r => l'.map fun r' => (r, r')

/-- The pairs for a level (postbound/opt/dynprog.py:865-892). `lv k` are the relations of level `k`. -/
def levelPairs (lv : Nat → List Rel) (k : Nat) : List (Rel × Rel) :=
  relPairs (lv (k - 1)) (lv 1) ++
  (List.range' 2 (k / 2 + 1 - 2)).flatMap fun outer => if k - outer < 2 then [] else relPairs (lv outer) (lv (k - outer))

/-- `_set_cheapest` for the relations of a level (postbound/opt/dynprog.py:845-847) -/
def setLevel (e : Env) : List Rel → Option (List Rel)
  | [] => some []
  | r :: rs => (setCheapest e.cost r.paths).bind fun c => (setLevel e rs).map fun l => { r with cheapest := some c } :: l

/-- `_join_search_one_level` and the following loop (postbound/opt/dynprog.py:843-847, 856-908) -/
def searchLevel (e : Env) (lv : Nat → List Rel) (k : Nat) : Option (List Rel) :=
  ((levelPairs lv k).foldlM (joinPair e) []).bind (setLevel e)

/-- The loop over the levels (postbound/opt/dynprog.py:842-847) -/
def searchLevels (e : Env) : List Nat → (Nat → List Rel) → Option (Nat → List Rel)
  | [], lv => some lv
  | k :: ks, lv => (searchLevel e lv k).bind fun rs => searchLevels e ks (fun j => if j = k then rs else lv j)

/-- `generate_execution_plan` (postbound/opt/dynprog.py:662-705, 832-854); `none` is an exception. -/
def generatePlan (e : Env) (tables : List Nat) : Option Path :=
  (baseRels e tables).bind fun base =>
    (searchLevels e (List.range' 2 (tables.length - 1)) (fun j => if j = 1 then base else [])).bind fun lv =>
      match lv tables.length with
      | [r] => r.cheapest
      | _ => none

end PB.PgDynProg
