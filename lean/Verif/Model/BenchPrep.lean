import Verif.Model.Clauses

/-! Model of the preparation of queries for benchmarks, of the export and sorting of benchmark results, and of the files that
are written while a benchmark is running (postbound/bench.py). -/

namespace PB.BenchPrep

open PB.Clauses

/-! ### Query preparation -/

/-- `QueryPreparation` (postbound/bench.py:173-250). -/
structure Prep where
  output : String
  projection : String
  prewarm : Bool
  stmts : List String
  deriving DecidableEq, Repr

/-- The output after the deprecated parameter `explain` (postbound/bench.py:210-219). -/
def outputExplain (output : String) (explain : Option Bool) : String :=
  match explain with
  | some true => "explain"
  | some false => output
  | none => output

/-- The output after the deprecated parameter `analyze` (postbound/bench.py:221-228). -/
def outputAnalyze (output : String) (analyze : Option Bool) : String :=
  match analyze with
  | some true => "analyze"
  | some false => output
  | none => output

/-- The projection after the deprecated parameter `count_star` (postbound/bench.py:230-239). -/
def projectionOf (projection : String) (countStar : Option Bool) : String :=
  match countStar with
  | some true => "count_star"
  | some false => projection
  | none => projection

/-- `QueryPreparation.__init__` (postbound/bench.py:199-250). Warnings are not modelled. -/
def Prep.new (projection output : String) (explain countStar analyze : Option Bool) (prewarm : Bool)
    (stmts : Option (List String)) : Prep :=
  let out := outputAnalyze (outputExplain output explain) analyze
  { output := out
    projection := projectionOf projection countStar
    prewarm := if out = "explain" && prewarm then false else prewarm
    stmts := stmts.getD [] }

/-- What happens at the database: `prewarm_tables` and `execute_query` (postbound/bench.py:298, 301). -/
inductive Event (T : Type) where
  | prewarm (tables : List T)
  | execute (stmt : String)
  deriving DecidableEq, Repr

/-- The exceptions: a projection that is not supported, a query that cannot be built, a statement that fails. -/
inductive Err where
  | projection
  | build
  | statement (stmt : String)
  deriving DecidableEq, Repr

variable {P T : Type} [DecidableEq P]

/-- The clauses that are inserted: `Select.star()`, `Select.count_star()`, `Explain.plan()` and `Explain.explain_analyze()`. -/
structure Inserted (P : Type) where
  star : P
  countStar : P
  plan : P
  analyze : P

/-- A result of `build_query`. -/
def built (q : Option (Query P)) : Except Err (Query P) :=
  match q with
  | some q => .ok q
  | none => .error .build

/-- The projection (postbound/bench.py:270-278). -/
def project (ins : Inserted P) (projection : String) (q : Query P) : Except Err (Query P) :=
  if projection = "none" then .ok q
  else if projection = "star" || projection = "*" then built (withClause q ⟨.select, ins.star⟩)
  else if projection = "count_star" || projection = "count(*)" then built (withClause q ⟨.select, ins.countStar⟩)
  else .error .projection

/-- The output (postbound/bench.py:280-286). There is no case for unknown outputs. -/
def setOutput (ins : Inserted P) (output : String) (q : Query P) : Except Err (Query P) :=
  if output = "default" then .ok q
  else if output = "explain" then built (withClause q ⟨.explain, ins.plan⟩)
  else if output = "analyze" || output = "explain_analyze" then built (withClause q ⟨.explain, ins.analyze⟩)
  else .ok q

/-- The preparatory statements (postbound/bench.py:300-301). `fails` are the statements that the database rejects. -/
def runStmts (fails : String → Bool) : List String → Except Err Unit × List (Event T)
  | [] => (.ok (), [])
  | s :: ss =>
    if fails s then (.error (.statement s), [.execute s])
    else
      let (r, es) := runStmts fails ss
      (r, .execute s :: es)

/-- A database: whether it supports prewarming, and which statements it rejects. -/
structure Db where
  prewarming : Bool
  fails : String → Bool

/-- Prewarming (postbound/bench.py:291-298). -/
def prewarmEvents (p : Prep) (db : Db) (tables : List T) : List (Event T) :=
  if p.prewarm && db.prewarming then [.prewarm tables] else []

/-- `prepare_query` (postbound/bench.py:252-303): the result and what happened at the database. `tables` is `query.tables()`. -/
def prepareQuery (ins : Inserted P) (tables : Query P → List T) (p : Prep) (q : Query P) (on : Option Db) :
    Except Err (Query P) × List (Event T) :=
  match project ins p.projection q with
  | .error e => (.error e, [])
  | .ok q1 =>
    match setOutput ins p.output q1 with
    | .error e => (.error e, [])
    | .ok q2 =>
      match on with
      | none => (.ok q2, [])
      | some db =>
        match runStmts db.fails p.stmts with
        | (.error e, es) => (.error e, prewarmEvents p db (tables q2) ++ es)
        | (.ok _, es) => (.ok q2, prewarmEvents p db (tables q2) ++ es)

/-! ### Export -/

/-- A value of a data frame: a missing value (`None`), a value that pandas writes as it is, or a list, tuple, dictionary or
object with a `__json__` method. -/
inductive Cell where
  | none
  | plain (v : String)
  | structured (v : String)
  | json (c : Cell)
  deriving DecidableEq, Repr

/-- `isinstance(value, (list, tuple, dict, Jsonizable))` (postbound/bench.py:1269). -/
def Cell.isStructured : Cell → Bool
  | .structured _ => true
  | _ => false

/-- `to_json` (postbound/util/jsonize.py:60-68). Simplification: all values can be encoded. The result is a text, which stands for
the value it was created from. -/
def toJson : Cell → Cell
  | .none => .none
  | c => .json c

/-- A data frame: its columns and its rows. -/
structure Frame where
  cols : List String
  rows : List (String → Cell)

/-- The columns that are converted: the decision is made for the first row (postbound/bench.py:1267-1272). -/
def converted (first : String → Cell) (cols : List String) (c : String) : Bool :=
  decide (c ∈ cols) && (first c).isStructured

/-- `prepare_export` (postbound/bench.py:1236-1274). -/
def prepareExport (f : Frame) : Frame :=
  match f.rows with
  | [] => f
  | first :: rest =>
    { cols := f.cols
      rows := (first :: rest).map fun r c => if converted first f.cols c then toJson (r c) else r c }

/-! ### Sorting -/

section
variable {V : Type}

/-- The parameter `by` of `DataFrame.sort_values`: a name, a tuple or a list of names. -/
inductive By where
  | name (c : String)
  | tuple (cs : List String)
  | list (cs : List String)
  deriving DecidableEq, Repr

/-- The columns to sort by: what is not a list is the name of a single column, a tuple as well. The function
`DataFrame.sort_values` of pandas (`if not isinstance(by, list): by = [by]`). `none` is a KeyError; columns have names that are
strings. -/
def sortColumns (cols : List String) : By → Option (List String)
  | .name c => if c ∈ cols then some [c] else none
  | .tuple _ => none
  | .list cs => if ∀ c ∈ cs, c ∈ cols then some cs else none

/-- `natsort.index_natsorted(series)` (postbound/bench.py:1303): the row numbers in the order of the values; equal values
stay in their order. `le` is the natural order of the values. -/
def indexSorted (le : V → V → Bool) (col : Nat → V) (n : Nat) : List Nat :=
  (List.range n).mergeSort fun i j => le (col i) (col j)

/-- `np.argsort` of a permutation: the position of each row number (postbound/bench.py:1303). -/
def rankOf (le : V → V → Bool) (col : Nat → V) (n : Nat) (i : Nat) : Nat := (indexSorted le col n).idxOf i

/-- The lexicographic order on the key columns (`lexsort_indexer` of pandas). -/
def lexLe : List (Nat → Nat) → Nat → Nat → Bool
  | [], _, _ => true
  | k :: ks, i, j => decide (k i < k j) || (decide (k i = k j) && lexLe ks i j)

/-- `sort_results` (postbound/bench.py:1277-1304): the row numbers of the result; `none` is a KeyError. The key function is
applied to each of the columns. -/
def sortResults (le : V → V → Bool) (cols : List String) (cell : Nat → String → V) (n : Nat) (by_ : By) :
    Option (List Nat) :=
  (sortColumns cols by_).map fun cs =>
    (List.range n).mergeSort (lexLe (cs.map fun c => rankOf le (fun i => cell i c) n))

end

/-! ### Progressive output -/

/-- The content of an output file: for CSV files whether the first line is the header, and the rows. -/
structure File (R : Type) where
  header : Bool
  rows : List R
  deriving DecidableEq, Repr

/-- The arguments of the writer as far as they matter: whether there is a key, whether `append=True`, and the `orient`. -/
structure Args where
  key : Bool := false
  append : Bool := false
  orient : Option String := none
  deriving DecidableEq, Repr

/-- The exceptions of writing. -/
inductive WriteErr where
  | missingKey
  | index
  deriving DecidableEq, Repr

variable {R : Type}

/-- `_write_csv` (postbound/bench.py:819-826). -/
def writeCsv (row : R) : Option (File R) → File R
  | some f => { f with rows := f.rows ++ [row] }
  | none => ⟨true, [row]⟩

/-- `_write_parquet` (postbound/bench.py:828-837). -/
def writeParquet (row : R) : Option (File R) → File R
  | some f => ⟨true, f.rows ++ [row]⟩
  | none => ⟨true, [row]⟩

/-- `_write_hdf` (postbound/bench.py:839-853). `DataFrame.to_hdf` replaces the object of the key unless `append=True`. -/
def writeHdf (a : Args) (row : R) (f : Option (File R)) : Except WriteErr (File R) :=
  if a.key then
    match f with
    | some f => .ok ⟨true, if a.append then f.rows ++ [row] else [row]⟩
    | none => .ok ⟨true, [row]⟩
  else .error .missingKey

/-- `_write_json` (postbound/bench.py:855-862). `DataFrame.to_json` rejects `index=False` unless `orient` is one of `split`,
`table`, `records` and `values`; its default is `columns`. Simplification: `read_json` restores the rows. -/
def writeJson (a : Args) (row : R) (f : Option (File R)) : Except WriteErr (File R) :=
  if a.orient.getD "columns" ∈ ["split", "table", "records", "values"] then
    match f with
    | some f => .ok ⟨true, f.rows ++ [row]⟩
    | none => .ok ⟨true, [row]⟩
  else .error .index

/-- `write_progressive` (postbound/bench.py:802-817) for a given suffix. There is no case for unknown suffixes. -/
def writeProgressive (suffix : String) (a : Args) (row : R) (f : Option (File R)) : Except WriteErr (Option (File R)) :=
  if suffix = ".csv" then .ok (some (writeCsv row f))
  else if suffix = ".parquet" then .ok (some (writeParquet row f))
  else if suffix ∈ [".hdf", ".hdf5", ".h5"] then
    match writeHdf a row f with
    | .ok f => .ok (some f)
    | .error e => .error e
  else if suffix = ".json" then
    match writeJson a row f with
    | .ok f => .ok (some f)
    | .error e => .error e
  else .ok f

/-- The rows of a benchmark, written one after another (postbound/bench.py:953-954); the first exception ends the benchmark. -/
def writeAll (suffix : String) (a : Args) : List R → Option (File R) → Except WriteErr (Option (File R))
  | [], f => .ok f
  | r :: rs, f =>
    match writeProgressive suffix a r f with
    | .ok f' => writeAll suffix a rs f'
    | .error e => .error e

end PB.BenchPrep
