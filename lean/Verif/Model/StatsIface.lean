import Mathlib.Data.List.Sort
import Mathlib.Data.Rat.Floor
import Mathlib.Data.List.Dedup
import Verif.Model.Dict
import Verif.Model.Stats

/-!
# The statistics interfaces

Models `DatabaseStatistics` (postbound/db/_db.py 1965-2992) and its subclasses for Postgres (postbound/postgres.py 1643-2055),
DuckDB (postbound/duckdb.py 385-455) and MySQL (postbound/mysql.py 409-453).  The database is its data: for each table the list of
its rows, values are rational numbers or NULL.  The answers of the database to the queries of the interface are computed from the
data as SQL defines them.  Tables and columns are numbers; virtual tables and unbound columns are left out.
-/

namespace PB.SI

/-- A value; `none` is NULL. -/
abbrev V := Option Rat

/-- A column is its table and its number. -/
abbrev Col := Nat × Nat

/-- The rows of each table. -/
abbrev Data := Nat → List (Nat → V)

/-- The values of a column, row by row. -/
def colValues (d : Data) (c : Col) : List V := (d c.1).map fun r => r c.2

/-! ### Queries and their answers -/

/-- The queries of the interface. -/
inductive Sql where
  /-- `SELECT COUNT(*) FROM t` (db/_db.py 2717) -/
  | countAll (t : Nat)
  /-- `SELECT COUNT(DISTINCT c) FROM t` (db/_db.py 2744-2746) -/
  | countDistinct (c : Col)
  /-- `SELECT MIN(c), MAX(c) FROM t` (db/_db.py 2773-2775) -/
  | minMax (c : Col)
  /-- `SELECT c, COUNT(*) AS n FROM t GROUP BY c ORDER BY n DESC, c [LIMIT k]` (db/_db.py 2813-2829) -/
  | mostCommon (c : Col) (limit : Option Nat)
  deriving DecidableEq

/-- Their results; single values and rows have been simplified (db/_db.py 257-286). -/
inductive Res where
  | count (n : Nat)
  | pair (lo hi : V)
  | groups (l : List (V × Nat))
  deriving DecidableEq

/-- The aggregates `MIN` and `MAX` ignore NULL and are NULL if there are no values. -/
def sqlMin : List Rat → V
  | [] => none
  | a :: l => some (l.foldl min a)
def sqlMax : List Rat → V
  | [] => none
  | a :: l => some (l.foldl max a)

/-- NULL is the last value in the order of `ORDER BY` (Postgres, DuckDB). -/
def valueLe : V → V → Bool
  | _, none => true
  | none, some _ => false
  | some a, some b => a ≤ b

/-- `ORDER BY n DESC, c` -/
def groupBefore (a b : V × Nat) : Prop := b.2 < a.2 ∨ (b.2 = a.2 ∧ valueLe a.1 b.1 = true)

instance (a b : V × Nat) : Decidable (groupBefore a b) := by unfold groupBefore; infer_instance

/-- `GROUP BY c` with the sizes of the groups; NULL forms a group. -/
def groups (l : List V) : List (V × Nat) := l.dedup.map fun v => (v, l.count v)

def answer (d : Data) : Sql → Res
  | .countAll t => .count (d t).length
  | .countDistinct c => .count ((colValues d c).filterMap id).dedup.length
  | .minMax c => .pair (sqlMin ((colValues d c).filterMap id)) (sqlMax ((colValues d c).filterMap id))
  | .mostCommon c limit =>
    let l := (groups (colValues d c)).insertionSort groupBefore
    .groups (match limit with | none => l | some k => l.take k)

/-! ### The query cache -/

abbrev Cache := Dict Sql Res

/-- `execute_query` with a flag for the cache (postgres.py 664-720, see `Model/QueryExec`). -/
def execute (d : Data) (cache : Cache) (q : Sql) (cacheEnabled : Bool) : Res × Cache :=
  if cacheEnabled then
    match Dict.get? cache q with
    | some r => (r, cache)
    | none => (answer d q, Dict.set cache q (answer d q))
  else (answer d q, cache)

/-- The attributes of the interface (db/_db.py 2019-2030); `cacheEnabled = None` uses the attribute of the database. -/
structure Conf where
  emulated : Bool := true
  fallback : Bool := true
  cacheEnabled : Option Bool := some true
  dbCacheEnabled : Bool := false

/-- `_determine_caching_behavior` (db/_db.py 2971-2991) followed by the decision of `execute_query`. -/
def caching (conf : Conf) (local_ : Option Bool) : Bool :=
  match (match local_ with | none => conf.cacheEnabled | some b => some b) with
  | none => conf.dbCacheEnabled
  | some b => b

/-! ### Emulated statistics -/

/-- `_calculate_total_rows` (db/_db.py 2697-2721). -/
def calcTotalRows (d : Data) (conf : Conf) (cache : Cache) (t : Nat) (flag : Option Bool) : Res × Cache :=
  execute d cache (.countAll t) (caching conf flag)

/-- `_calculate_distinct_values` (db/_db.py 2723-2750). -/
def calcDistinct (d : Data) (conf : Conf) (cache : Cache) (c : Col) (flag : Option Bool) : Res × Cache :=
  execute d cache (.countDistinct c) (caching conf flag)

/-- `_calculate_min_max_values` (db/_db.py 2752-2779). -/
def calcMinMax (d : Data) (conf : Conf) (cache : Cache) (c : Col) (flag : Option Bool) : Res × Cache :=
  execute d cache (.minMax c) (caching conf flag)

/-- The limit of `_calculate_most_common_values` (db/_db.py 2813-2829). -/
def mcvLimit : Option Int → Option Nat
  | none => none
  | some k => if k ≤ 0 then none else some k.toNat

/-- `_calculate_most_common_values` (db/_db.py 2781-2835). -/
def calcMcv (d : Data) (conf : Conf) (cache : Cache) (c : Col) (k : Option Int) (flag : Option Bool) : Res × Cache :=
  execute d cache (.mostCommon c (mcvLimit k)) (caching conf flag)

/-- Sorting the most common values compares NULL with a value (and raises `TypeError`) iff they are equally frequent
(db/_db.py 1621). -/
def sortRaises (l : List (V × Nat)) : Bool :=
  l.any fun a => a.1.isNone && l.any fun b => b.1.isSome && b.2 == a.2

/-- The order of `sort(key=lambda pair: (pair[1], pair[0]), reverse=True)` (db/_db.py 1621). -/
def mcvBefore (a b : V × Nat) : Prop := b.2 < a.2 ∨ (b.2 = a.2 ∧ valueLe b.1 a.1 = true)

instance (a b : V × Nat) : Decidable (mcvBefore a b) := by unfold mcvBefore; infer_instance

/-- `MostCommonValues(mcv_list)` (db/_db.py 1619-1628); `none` is the `TypeError`. -/
def mcvObject (l : List (V × Nat)) : Option (List (V × Nat)) :=
  if sortRaises l then none else some (l.insertionSort mcvBefore)

/-- `most_common_values(column, k=…, emulated=True, cache_enabled=…)` (db/_db.py 2342-2393): the entries of the list; `none` is
an exception. -/
def mostCommonValues (d : Data) (conf : Conf) (cache : Cache) (c : Col) (k : Option Int) (flag : Option Bool) :
    Option (List (V × Nat)) × Cache :=
  match calcMcv d conf cache c k flag with
  | (.groups l, cache) => (mcvObject l, cache)
  | (_, cache) => (none, cache)

/-- `MostCommonValues.frequency_of(value, bound_missing=True)` (db/_db.py 1675-1699) on the entries. -/
def frequencyBound (l : List (V × Nat)) (v : Rat) : Nat :=
  match l.find? fun e => e.1 == some v with
  | some e => e.2
  | none => (l.getLast?.map (·.2)).getD 0

/-- The number of rows that `_calculate_histogram` uses (db/_db.py 2845): the flag of the call is not passed on. -/
def histogramRows (d : Data) (conf : Conf) (cache : Cache) (c : Col) (_flag : Option Bool) : Res × Cache :=
  calcTotalRows d conf cache c.1 none

/-! ### Emulation or catalog -/

inductive System where
  | postgres | duckdb | mysql
  deriving DecidableEq

inductive Stat where
  | totalRows | distinct | minMax | mcv | histogram
  deriving DecidableEq

/-- The source of a statistic. -/
inductive Source where
  | query | catalog | unsupported
  deriving DecidableEq

/-- `emulated or (emulated is None and self.emulated)` (db/_db.py 2120, 2240, 2335, 2387, 2679). -/
def useEmulation (conf : Conf) (emulated : Option Bool) : Bool := emulated.getD conf.emulated

/-- The methods `_retrieve_…_from_stats` of the interfaces (postgres.py 1862-2037, duckdb.py 401-455, mysql.py 413-453). `found`:
the catalog has an entry (MySQL). The histogram of MySQL is not implemented. -/
def retrieve (sys : System) (fallback found : Bool) : Stat → Source
  | .totalRows => .catalog
  | .distinct =>
    match sys with
    | .postgres => .catalog
    | .duckdb => if fallback then .query else .unsupported
    | .mysql => if found || !fallback then .catalog else .query
  | .minMax => if fallback then .query else .unsupported
  | .mcv =>
    match sys with
    | .postgres => .catalog
    | _ => if fallback then .query else .unsupported
  | .histogram =>
    match sys with
    | .postgres => .catalog
    | .duckdb => if fallback then .query else .unsupported
    | .mysql => .unsupported

/-- The source of a statistic (db/_db.py 2085-2695). -/
def source (sys : System) (conf : Conf) (found : Bool) (stat : Stat) (emulated : Option Bool) : Source :=
  if useEmulation conf emulated then .query else retrieve sys conf.fallback found stat

/-- The abstract methods of `DatabaseStatistics` (db/_db.py 2872-2969). -/
def abstractMethods : List Stat := [.totalRows, .distinct, .minMax, .mcv, .histogram]

/-- The methods that the classes implement (postgres.py 1862-2037, duckdb.py 401-455, mysql.py 413-453). -/
def implemented : System → List Stat
  | .postgres => [.totalRows, .distinct, .minMax, .mcv, .histogram]
  | .duckdb => [.totalRows, .distinct, .minMax, .mcv, .histogram]
  | .mysql => [.totalRows, .distinct, .minMax, .mcv]

/-- Classes with abstract methods cannot be instantiated (Python's `abc`): the constructors of the database interfaces, which create
the interface (postgres.py 676, duckdb.py 74, mysql.py 154), raise `TypeError` then. -/
def constructible (sys : System) : Bool := abstractMethods.all fun m => (implemented sys).contains m

/-! ### The catalog of Postgres -/

/-- `pg_class.reltuples`, `pg_stats.n_distinct` and the `n_distinct` options of the columns. -/
structure Pg where
  reltuples : Nat → Rat
  nDistinct : Col → Option Rat
  override : Col → Nat

/-- Before the first `ANALYZE` (Postgres 14 and later). -/
def Pg.fresh : Pg := ⟨fun _ => -1, fun _ => none, fun _ => 0⟩

/-- `int(x)` -/
def pyInt (x : Rat) : Int := if 0 ≤ x then ⌊x⌋ else ⌈x⌉

/-- `_retrieve_total_rows_from_stats` (postgres.py 1862-1870). -/
def pgTotalRows (pg : Pg) (t : Nat) : Int := pyInt (pg.reltuples t)

/-- `_retrieve_distinct_values_from_stats` (postgres.py 1872-1904). The arithmetic of floats is exact here. -/
def pgDistinct (pg : Pg) (c : Col) : Option Int :=
  match pg.nDistinct c with
  | none => none
  | some x => if 0 ≤ x then some (pyInt x) else some (pyInt (-1 * (pgTotalRows pg c.1 : Rat) * x))

/-- `ANALYZE` of a list of columns as Postgres defines it: the number of rows is updated, and the number of distinct values is the
option of the column if it is set, else an estimate `est` (from a sample of the rows). -/
def analyze (d : Data) (est : Data → Col → Rat) (pg : Pg) (cols : List Col) : Pg :=
  { pg with
    reltuples := fun t => if cols.any (fun c => c.1 == t) then ((d t).length : Rat) else pg.reltuples t
    nDistinct := fun c => if cols.contains c then some (if pg.override c = 0 then est d c else (pg.override c : Rat))
      else pg.nDistinct c }

/-- The numbers of distinct values that are collected for `perfect_n_distinct` (postgres.py 1807-1820): emulated, with cache. -/
def collect (d : Data) (conf : Conf) : Cache → List Col → List (Col × Nat) × Cache
  | cache, [] => ([], cache)
  | cache, c :: cols =>
    match calcDistinct d conf cache c (some true) with
    | (.count n, cache) => let r := collect d conf cache cols; ((c, n) :: r.1, r.2)
    | (_, cache) => collect d conf cache cols

/-- `ALTER TABLE … ALTER COLUMN … SET (n_distinct = …)` for the collected numbers (postgres.py 1853-1860). -/
def setOptions (pg : Pg) : List (Col × Nat) → Pg
  | [] => pg
  | (c, n) :: rest => setOptions { pg with override := fun x => if x = c then n else pg.override x } rest

/-- `update_statistics(columns, perfect_n_distinct=…)` (postgres.py 1758-1860): analyze first, set the options afterwards. The
statistics targets of `perfect_mcv` are left out. -/
def updateStatistics (d : Data) (est : Data → Col → Rat) (conf : Conf) (cache : Cache) (pg : Pg) (cols : List Col)
    (perfect : Bool) : Pg × Cache :=
  if perfect then
    let r := collect d conf cache cols
    (setOptions (analyze d est pg cols) r.1, r.2)
  else (analyze d est pg cols, cache)

end PB.SI
