import Verif.Model.Ues
import Verif.Model.StatsIface

/-!
# The statistics of the UES optimizer

Models `StatsContainer.setup_for_query`, `MaxFrequencyStats`, the base table estimators and the wrapper for other cardinality estimators (postbound/opt/ues.py 121-160, 240-250, 313-365, 462-594). The database
is given by its data, as in `Model/StatsIface`. Queries are given by their tables, filters and join predicates.
-/

namespace PB.UesStats

open PB PB.JoinGraph PB.Ues

/-- A row of a base table. -/
abbrev DbRow := Nat → SI.V

/-- A query: its tables, the relation that each table refers to (several tables can be aliases of the same relation), the filters of each table (`none` is NULL), and the join predicates. -/
structure Query where
  tables : List Nat
  rel : Nat → Nat
  filters : Nat → List (DbRow → Option Bool)
  joins : Cond

/-- The rows that satisfy a `WHERE` clause. -/
def accepted (fs : List (DbRow → Option Bool)) (r : DbRow) : Bool := fs.all fun f => f r == some true

/-- `PreciseCardinalityEstimator.estimate_for` (postbound/opt/ues.py:524-542): the result of `SELECT COUNT(*) FROM table WHERE filters`. The query cache is left out. -/
def precise (d : SI.Data) (q : Query) (t : Nat) : Rat := ((d (q.rel t)).countP (accepted (q.filters t)) : Nat)

/-- `NativeCardinalityEstimator.estimate_for` (postbound/opt/ues.py:479-496); `est` are the estimates of the database for filtered tables. -/
def native (est : Nat → Rat) (d : SI.Data) (q : Query) (t : Nat) : Rat :=
  if (q.filters t).isEmpty then ((d (q.rel t)).length : Nat) else est t

/-- `_inflate_base_table_estimates` (postbound/opt/ues.py:240-250). -/
def inflateBase (est : Nat → Rat) (tables : List Nat) : Dict Nat Rat := tables.foldl (fun m t => m.set t (est t)) []

/-- `_uniform_frequency` (postbound/opt/ues.py:348-365); `none` is a `ZeroDivisionError`. -/
def uniform (rows distinct : Option Rat) : Option Rat :=
  if distinct.getD 1 = 0 then none else some (rows.getD 1 / distinct.getD 1)

/-- The frequency of a column (postbound/opt/ues.py:326-331), for the list of the most common value. Lists with more than one entry are not possible. -/
def frequency (top : List (SI.V × Rat)) (rows distinct : Option Rat) : Option Rat :=
  match top with
  | [] => uniform rows distinct
  | (_, f) :: _ => some f

/-- The columns of the join predicates (postbound/opt/ues.py:321-323); the order of the set is not relevant. -/
def joinColumns (joins : Cond) : List Col := (joins.flatMap fun j => [j.1, j.2]).dedup

/-- A count that the database has returned. -/
def asCount : SI.Res → Option Rat
  | .count n => some n
  | _ => none

/-- One column, with emulated statistics (postbound/opt/ues.py:326-331, 361-365). The cache is passed on. -/
def emulatedColumn (d : SI.Data) (conf : SI.Conf) (rel : Nat → Nat) (cache : SI.Cache) (c : Col) : Option Rat × SI.Cache :=
  let col : SI.Col := (rel c.tab, c.name)
  match SI.mostCommonValues d conf cache col (some 1) none with
  | (none, cache) => (none, cache)
  | (some [], cache) =>
    let rows := SI.calcTotalRows d conf cache (rel c.tab) none
    let distinct := SI.calcDistinct d conf rows.2 col none
    (frequency [] (asCount rows.1) (asCount distinct.1), distinct.2)
  | (some (e :: l), cache) => (frequency (((e :: l).map fun e => (e.1, (e.2 : Rat)))) none none, cache)

/-- `_inflate_attribute_frequencies` with emulated statistics (postbound/opt/ues.py:320-331). -/
def inflateEmulated (d : SI.Data) (conf : SI.Conf) (rel : Nat → Nat) : List Col → SI.Cache → Dict Col Rat → Option (Dict Col Rat) × SI.Cache
  | [], cache, m => (some m, cache)
  | c :: cs, cache, m =>
    match emulatedColumn d conf rel cache c with
    | (none, cache) => (none, cache)
    | (some f, cache) => inflateEmulated d conf rel cs cache (m.set c f)

/-- The statistics catalog of the database: most common values, rows and distinct values. -/
structure Catalog where
  mcv : SI.Col → List (SI.V × Rat)
  rows : Nat → Option Rat
  distinct : SI.Col → Option Rat

/-- `_inflate_attribute_frequencies` with statistics of the catalog (postbound/opt/ues.py:320-331). -/
def inflateCatalog (cat : Catalog) (rel : Nat → Nat) : List Col → Dict Col Rat → Option (Dict Col Rat)
  | [], m => some m
  | c :: cs, m =>
    match frequency ((cat.mcv (rel c.tab, c.name)).take 1) (cat.rows (rel c.tab)) (cat.distinct (rel c.tab, c.name)) with
    | none => none
    | some f => inflateCatalog cat rel cs (m.set c f)

/-- The statistics container (postbound/opt/ues.py:121-125). -/
structure Container where
  base : Dict Nat Rat
  bounds : Dict Nat Rat
  freq : Dict Col Rat
  deriving DecidableEq

/-- `setup_for_query` with emulated statistics (postbound/opt/ues.py:127-146): the old content is removed. -/
def setupEmulated (d : SI.Data) (conf : SI.Conf) (cache : SI.Cache) (est : Nat → Rat) (q : Query) (_old : Container) : Option Container × SI.Cache :=
  match inflateEmulated d conf q.rel (joinColumns q.joins) cache [] with
  | (none, cache) => (none, cache)
  | (some m, cache) => (some ⟨inflateBase est q.tables, [], m⟩, cache)

/-- `setup_for_query` with the statistics catalog (postbound/opt/ues.py:127-146). -/
def setupCatalog (cat : Catalog) (est : Nat → Rat) (q : Query) (_old : Container) : Option Container :=
  (inflateCatalog cat q.rel (joinColumns q.joins) []).map fun m => ⟨inflateBase est q.tables, [], m⟩

/-! ### Other estimators -/

/-- A cardinality estimator: its state, how it is prepared for a query, how it is cleaned up, and its estimates (which can fail). -/
structure Estimator (S Q : Type) where
  prepare : S → Q → S
  cleanup : S → S
  estimate : S → Q → Nat → Option Rat

/-- `_CardinalityEstimatorWrapper` (postbound/opt/ues.py:551-566): the state of the wrapped estimator and the current query. -/
structure Wrapper (S Q : Type) where
  state : S
  query : Option Q

variable {S Q : Type}

/-- `setup_for_query` (postbound/opt/ues.py:560-562). -/
def Wrapper.setup (e : Estimator S Q) (w : Wrapper S Q) (q : Q) : Wrapper S Q := ⟨e.prepare w.state q, some q⟩

/-- `estimate_for` (postbound/opt/ues.py:564-565). -/
def Wrapper.estimateFor (e : Estimator S Q) (w : Wrapper S Q) (t : Nat) : Option Rat :=
  match w.query with
  | none => none
  | some q => e.estimate w.state q t

/-- `estimate_total_rows` (postbound/opt/ues.py:567-586); `star t` is the query `SELECT * FROM t`. An exception leaves the state as it is. -/
def Wrapper.totalRows (e : Estimator S Q) (star : Nat → Q) (w : Wrapper S Q) (t : Nat) : Option Rat × Wrapper S Q :=
  let s := e.prepare (e.cleanup w.state) (star t)
  match e.estimate s (star t) t, w.query with
  | none, _ => (none, { w with state := s })
  | some _, none => (none, { w with state := e.cleanup s })
  | some c, some q => (some c, { w with state := e.prepare (e.cleanup s) q })

end PB.UesStats
