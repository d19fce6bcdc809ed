import Verif.Model.Cardinality
import Verif.Model.Dict
import Mathlib.Order.Defs.LinearOrder

/-!
# Data shifts

`WorkloadShifter` (postbound/postgres.py:4536-4996). The SQL statements that are executed are modelled by their effect on the rows of a table: rows are elements of an arbitrary type, `pk` is the value of
their primary key and `col` is the value of the column in question, `none` is NULL. Cascading deletes in other tables and VACUUM are not modelled.
-/

namespace PB.Shifter

/-- `_determine_row_cnt` (postbound/postgres.py:4945-4996), given the number of rows of the table; `none` is an error. The product is computed exactly. -/
def rowCount (nRows : Option Int) (rowPct : Option Rat) (total : Option Nat) : Option Int :=
  match nRows, rowPct with
  | none, none => none
  | some _, some _ => none
  | some n, none => if n > 0 then some n else none
  | none, some pct =>
    if 0 < pct ∧ pct < 1 then
      match total with
      | none => none
      | some t => some (roundHalfEven (pct * t))
    else none

variable {ρ κ α : Type}

/-- `DELETE FROM {table} WHERE EXISTS (SELECT 1 FROM selected WHERE cond)`. -/
def deleteExists {σ : Type} (rows : List ρ) (selected : List σ) (cond : σ → ρ → Bool) : List ρ :=
  rows.filter fun r => !(selected.any fun s => cond s r)

/-- The meaning of `sample_id = {col}` in `remove_random` (postbound/postgres.py:4598): names without a qualifier refer to the innermost table that has such a column. `s` is the key of the sample
and its random value, `r` is the row to be deleted. Keys that are compared with random values are converted by `rand`. -/
def sampleCond [DecidableEq κ] (pkName : String) (pk : ρ → κ) (s : κ × κ) (r : ρ) : Bool :=
  if pkName = "sample_id" then s.1 = s.1
  else if pkName = "_pb_rand_val" then s.1 = s.2
  else s.1 = pk r

/-- `remove_random` (postbound/postgres.py:4550-4603) for `cnt` rows. `order` are the rows in the order of their random values `rand`. The table has a primary key with a single column, otherwise there is an error. -/
def removeRandom [DecidableEq κ] (pkName : String) (pk : ρ → κ) (rand : ρ → κ) (order : List ρ) (cnt : Nat) (rows : List ρ) : List ρ :=
  deleteExists rows ((order.take cnt).map fun r => (pk r, rand r)) (sampleCond pkName pk)

/-- `null_placement`. -/
inductive Place
  | first | last
  deriving DecidableEq

/-- Whether NULL is the first value of an order: by default, NULL is larger than all other values (documentation of Postgres). -/
def nullsFirst (ascending : Bool) : Option Place → Bool
  | some .first => true
  | some .last => false
  | none => !ascending

/-- The strict order of values of an `ORDER BY` term. -/
def valueLt [LinearOrder α] (ascending nf : Bool) : Option α → Option α → Bool
  | none, none => false
  | none, some _ => nf
  | some _, none => !nf
  | some a, some b => if ascending then decide (a < b) else decide (b < a)

/-- `ORDER BY {order_col} {order_dir} {nulls}, {pk_col} ASC` (postbound/postgres.py:4667). -/
def rowLe [LinearOrder α] [LinearOrder κ] (pk : ρ → κ) (col : ρ → Option α) (ascending nf : Bool) (r s : ρ) : Bool :=
  valueLt ascending nf (col r) (col s) || (decide (col r = col s) && decide (pk r ≤ pk s))

/-- `remove_ordered` (postbound/postgres.py:4605-4682) for `cnt` rows. -/
def removeOrdered [LinearOrder α] [LinearOrder κ] (pk : ρ → κ) (col : ρ → Option α) (ascending : Bool) (place : Option Place) (cnt : Nat) (rows : List ρ) : List ρ :=
  deleteExists rows (((rows.mergeSort (rowLe pk col ascending (nullsFirst ascending place))).take cnt).map pk) (fun k r => decide (k = pk r))

/-- `remove_ordered` with all checks; `none` is an error. -/
def removeOrderedN [LinearOrder α] [LinearOrder κ] (pk : ρ → κ) (col : ρ → Option α) (ascending : Bool) (place : Option Place) (nRows : Option Int) (rowPct : Option Rat) (rows : List ρ) : Option (List ρ) :=
  (rowCount nRows rowPct (some rows.length)).map fun c => removeOrdered pk col ascending place c.toNat rows

/-! ## Marker tables -/

/-- A table of markers: the name of the marker column and its values. The column `marker_idx` does not matter. -/
structure Marker (α : Type) where
  column : String
  vals : List (Option α)

/-- A database: the rows of the target table and the marker tables. -/
structure Db (ρ α : Type) where
  rows : List ρ
  markers : Dict String (Marker α)

/-- The files of marker tables, by path. -/
abbrev Files (α : Type) := Dict String (List (Option α))

/-- The default name of the marker table (postbound/postgres.py:4723-4725, 4785-4787, 4841-4843, 4907-4909); `None` is formatted as "None". -/
def markerTable (target : Option String) (table : Option String) : String :=
  match table with
  | some t => t
  | none => target.getD "None" ++ "_delete_marker"

/-- The default name of the marker column (postbound/postgres.py:4726-4730, 4844-4848, 4910-4914). -/
def markerColumn (target : Option String) (targetColumn : String) (column : Option String) : String :=
  match column with
  | some c => c
  | none => target.getD "None" ++ "_" ++ targetColumn

/-- `CREATE TABLE IF NOT EXISTS`, `DELETE` and filling the marker column; `none` is an error, if the existing table has another column. -/
def fill (db : Db ρ α) (table column : String) (vals : List (Option α)) : Option (Db ρ α) :=
  match db.markers.get? table with
  | none => some { db with markers := db.markers.set table ⟨column, vals⟩ }
  | some m => if m.column = column then some { db with markers := db.markers.set table ⟨column, vals⟩ } else none

/-- The percentage of `TABLESAMPLE BERNOULLI` (postbound/postgres.py:4739). -/
def percentage (pct : Rat) : Int := roundHalfEven (pct * 100)

/-- `TABLESAMPLE BERNOULLI (p)`: each row is part of the sample with a probability of `p` percent. `coin` are the random numbers between 0 and 100 (exclusive). -/
def bernoulli (p : Int) (coin : ρ → Rat) (rows : List ρ) : List ρ := rows.filter fun r => decide (coin r < p)

/-- `generate_marker_table` (postbound/postgres.py:4684-4749). -/
def generate (col : ρ → Option α) (coin : ρ → Rat) (target : String) (pct : Rat) (targetColumn : String) (table column : Option String) (db : Db ρ α) : Option (Db ρ α) :=
  fill db (markerTable (some target) table) (markerColumn (some target) targetColumn column) ((bernoulli (percentage pct) coin db.rows).map col)

/-- `export_marker_table` (postbound/postgres.py:4751-4793). -/
def exportMarkers (target table outFile : Option String) (db : Db ρ α) (fs : Files α) : Option (Files α) :=
  if target = none ∧ table = none then none
  else
    match db.markers.get? (markerTable target table) with
    | none => none
    | some m => some (fs.set (outFile.getD (markerTable target table ++ ".csv")) m.vals)

/-- `import_marker_table` (postbound/postgres.py:4795-4874). Without an explicit type, the target table is required. -/
def importMarkers (target table : Option String) (targetColumn : String) (column type inFile : Option String) (fs : Files α) (db : Db ρ α) : Option (Db ρ α) :=
  if target = none ∧ table = none then none
  else if type = none ∧ target = none then none
  else
    match fs.get? (inFile.getD (markerTable target table ++ ".csv")) with
    | none => none
    | some vals => fill db (markerTable target table) (markerColumn target targetColumn column) vals

/-- `marker.column = target.column` in SQL: NULL is not equal to anything. -/
def sqlEq [DecidableEq α] : Option α → Option α → Bool
  | some a, some b => decide (a = b)
  | _, _ => false

/-- `remove_marked` (postbound/postgres.py:4876-4919). -/
def removeMarked [DecidableEq α] (col : ρ → Option α) (target : String) (targetColumn : String) (table column : Option String) (db : Db ρ α) : Option (Db ρ α) :=
  match db.markers.get? (markerTable (some target) table) with
  | none => none
  | some m =>
    if m.column = markerColumn (some target) targetColumn column then some { db with rows := deleteExists db.rows m.vals fun v r => sqlEq v (col r) }
    else none

end PB.Shifter
