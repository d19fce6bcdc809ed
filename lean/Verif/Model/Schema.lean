import Verif.Model.Dict
import Verif.Model.Nx

/-!
# Schema information

Models the schema interfaces (postbound/db/_db.py 726-1597, postbound/postgres.py 1339-1628, postbound/duckdb.py 237-382).
They answer their questions with SQL queries over the catalog of the database.  The catalog is modelled by its tables,
constraints and indexes; the views of the information schema are computed from it as the SQL standard (and Postgres)
defines them, and the queries are modelled as joins over these views.  There is one database, so the comparisons of
`table_catalog` with `current_database()` are always true and are left out.  The order of the rows of a result is the
order of the catalog.
-/

namespace PB.Schema

/-! ### The catalog -/

structure ColDef where
  name : String
  dtype : String
  nullable : Bool
  deriving DecidableEq, Repr

structure TabDef where
  schema : String
  name : String
  view : Bool
  cols : List ColDef
  deriving DecidableEq, Repr

inductive CKind where
  | primary | unique | foreign | check
  deriving DecidableEq, Repr

/-- A constraint; the `ref…` fields are used by foreign keys only. -/
structure Constr where
  kind : CKind
  name : String
  schema : String
  table : String
  cols : List String
  refSchema : String := ""
  refTable : String := ""
  refCols : List String := []
  deriving DecidableEq, Repr

structure Idx where
  name : String
  schema : String
  table : String
  cols : List String
  primary : Bool
  deriving DecidableEq, Repr

structure Catalog where
  /-- `current_schema()` -/
  cur : String
  tabs : List TabDef
  cons : List Constr
  idxs : List Idx

/-! ### The views of the information schema -/

/-- A row of `information_schema.table_constraints`. -/
structure TcRow where
  name : String
  schema : String
  table : String
  kind : CKind

/-- A row of `information_schema.key_column_usage` or `information_schema.constraint_column_usage`. -/
structure UsageRow where
  name : String
  /-- `constraint_schema` -/
  cschema : String
  /-- `table_schema` -/
  schema : String
  table : String
  col : String

/-- A row of `information_schema.columns`. -/
structure ColRow where
  schema : String
  table : String
  col : ColDef

def tc (cat : Catalog) : List TcRow := cat.cons.map fun c => ⟨c.name, c.schema, c.table, c.kind⟩

/-- The columns that are constrained by a key. -/
def kcu (cat : Catalog) : List UsageRow :=
  (cat.cons.filter fun c => c.kind != .check).flatMap fun c =>
    c.cols.map fun x => ⟨c.name, c.schema, c.schema, c.table, x⟩

/-- The columns that a constraint uses: for foreign keys these are the referenced columns. -/
def ccu (cat : Catalog) : List UsageRow :=
  cat.cons.flatMap fun c =>
    if c.kind = .foreign then c.refCols.map fun x => ⟨c.name, c.schema, c.refSchema, c.refTable, x⟩
    else c.cols.map fun x => ⟨c.name, c.schema, c.schema, c.table, x⟩

def columnRows (cat : Catalog) : List ColRow :=
  cat.tabs.flatMap fun t => t.cols.map fun c => ⟨t.schema, t.name, c⟩

/-! ### References -/

/-- A table reference; the empty schema means that there is none. -/
structure Tab where
  name : String
  schema : String := ""
  isVirtual : Bool := false
  deriving DecidableEq, Repr

/-- A bound column reference. -/
structure Col where
  name : String
  table : Tab
  deriving DecidableEq, Repr

/-! ### The generic interface (`DatabaseSchema`) -/

namespace Base

/-- The value that is compared with `table_schema`: the one of the reference or `current_schema()`
(db/_db.py 847-849 and others). -/
def schemaOf (cat : Catalog) (t : Tab) : String := if t.schema = "" then cat.cur else t.schema

/-- `tables` (db/_db.py 788-815). -/
def tables (cat : Catalog) : List Tab := (cat.tabs.filter fun t => t.schema == cat.cur).map fun t => ⟨t.name, "", false⟩

/-- `columns` (db/_db.py 817-865); `none` is the error for virtual tables. -/
def columns (cat : Catalog) (t : Tab) : Option (List Col) :=
  if t.isVirtual then none
  else some (((columnRows cat).filter fun r => r.table == t.name && r.schema == schemaOf cat t).map
    fun r => ⟨r.col.name, t⟩)

/-- `is_view` (db/_db.py 867-909): there is no condition on the schema, and the first row decides. -/
def isView (cat : Catalog) (t : Tab) : Option Bool :=
  if t.isVirtual then none
  else ((cat.tabs.filter fun r => r.name == t.name).head?).map (·.view)

/-- `lookup_column` (db/_db.py 911-954) for a column reference: an unbound reference has the table `none`. References are
compared with the (bound) columns of the candidates. -/
def lookupColumn (cat : Catalog) (name : String) (table : Option Tab) (candidates : List Tab) : Option Tab :=
  candidates.find? fun t =>
    match columns cat t with
    | some cols => cols.any fun c => c.name == name && some c.table == table
    | none => false

/-- The join of the constraints with the columns they use (db/_db.py 989-995, 1039-1045, 1114-1120, 1293-1299). -/
def tcCcu (cat : Catalog) : List (TcRow × UsageRow) :=
  (tc cat).flatMap fun t =>
    ((ccu cat).filter fun u => t.name == u.name && t.schema == u.schema && t.table == u.table).map fun u => (t, u)

/-- The join of the constraints with the columns they constrain (db/_db.py 1128-1134, 1307-1313). -/
def tcKcu (cat : Catalog) : List (TcRow × UsageRow) :=
  (tc cat).flatMap fun t =>
    ((kcu cat).filter fun u => t.name == u.name && t.schema == u.schema && t.table == u.table).map fun u => (t, u)

/-- `is_primary_key` (db/_db.py 956-1011). -/
def isPrimaryKey (cat : Catalog) (c : Col) : Bool :=
  (tcCcu cat).any fun (t, u) =>
    t.table == c.table.name && u.col == c.name && t.kind == .primary && t.schema == schemaOf cat c.table

/-- `primary_key_column` (db/_db.py 1013-1067); the outer `none` is the error for several columns. -/
def primaryKeyColumn (cat : Catalog) (tab : Tab) : Option (Option Col) :=
  let rows := (tcCcu cat).filter fun (t, _) =>
    t.table == tab.name && t.kind == .primary && t.schema == schemaOf cat tab
  match rows with
  | [] => some none
  | [(_, u)] => some (some ⟨u.col, tab⟩)
  | _ => none

/-- `has_secondary_index` (db/_db.py 1069-1156). -/
def hasSecondaryIndex (cat : Catalog) (c : Col) : Bool :=
  ((tcCcu cat).any fun (t, u) =>
    t.table == c.table.name && u.col == c.name && t.kind == .unique && t.schema == schemaOf cat c.table) ||
  ((tcKcu cat).any fun (t, u) =>
    t.table == c.table.name && u.col == c.name && t.kind == .foreign && t.schema == schemaOf cat c.table)

/-- `has_index` (db/_db.py 1224-1252). -/
def hasIndex (cat : Catalog) (c : Col) : Bool := isPrimaryKey cat c || hasSecondaryIndex cat c

/-- The rows of the query of `foreign_keys_on` (db/_db.py 1190-1209): schema, table and column that are referenced. -/
def fkRows (cat : Catalog) (c : Col) : List (String × String × String) :=
  (tc cat).flatMap fun t =>
    ((kcu cat).filter fun k => t.table == k.table && t.schema == k.schema && t.schema == k.cschema && t.name == k.name).flatMap
      fun k =>
        ((ccu cat).filter fun u => t.schema == u.cschema && t.name == u.name &&
            t.kind == .foreign && t.schema == schemaOf cat c.table && t.table == c.table.name && k.col == c.name).map
          fun u => (u.schema, u.table, u.col)

/-- `foreign_keys_on` (db/_db.py 1158-1222): the first two columns of the rows are used as table and column. -/
def foreignKeysOn (cat : Catalog) (c : Col) : List Col :=
  (fkRows cat c).map fun (r0, r1, _) => ⟨r1, ⟨r0, c.table.schema, false⟩⟩

/-- The row that `fetchone` returns for a column (db/_db.py 1371-1386, 1421-1436). -/
def columnRow (cat : Catalog) (c : Col) : Option ColRow :=
  (columnRows cat).find? fun r => r.table == c.table.name && r.col.name == c.name && r.schema == schemaOf cat c.table

/-- `datatype` (db/_db.py 1338-1389); `none` is a failed assertion. -/
def datatype (cat : Catalog) (c : Col) : Option String := (columnRow cat c).map (·.col.dtype)

/-- `is_nullable` (db/_db.py 1391-1439). -/
def isNullable (cat : Catalog) (c : Col) : Option Bool := (columnRow cat c).map (·.col.nullable)

end Base

/-! ### Postgres (`PostgresSchemaInterface`) -/

namespace Pg

/-- The schema of a reference (postgres.py 1428, 1492, 1523, 1541, 1574, 1606). -/
def schemaOf (t : Tab) : String := if t.schema = "" then "public" else t.schema

/-- The arguments of `tables` (postgres.py 1352-1354). -/
structure TablesArgs where
  includeSystem : Bool := false
  schema : String := "public"

/-- The query of `tables` (postgres.py 1358-1368).  System tables are recognised by the prefix `pg_`. -/
def fetchTables (cat : Catalog) (a : TablesArgs) : List Tab :=
  ((cat.tabs.filter fun t => t.schema == a.schema).map fun t => (⟨t.name, "", false⟩ : Tab)).filter
    fun t => a.includeSystem || !("pg_".isPrefixOf t.name)

/-- `tables` (postgres.py 1352-1370); the state is the attribute `_tables`. -/
def tables (cat : Catalog) (cache : List Tab) (a : TablesArgs) : List Tab × List Tab :=
  if cache.isEmpty then (fetchTables cat a, fetchTables cat a) else (cache, cache)

/-- `_fetch_columns` (postgres.py 1554-1581). -/
def fetchColumns (cat : Catalog) (t : Tab) : Option (List String) :=
  if t.isVirtual then none
  else some (((columnRows cat).filter fun r => r.table == t.name && r.schema == schemaOf t).map fun r => r.col.name)

/-- The loop of `lookup_column` (postgres.py 1389-1399); the outer `none` is an exception. -/
def lookupLoop (cat : Catalog) (column : String) : List Tab → Option (Option Tab)
  | [] => some none
  | t :: rest =>
    match fetchColumns cat t with
    | none => none
    | some cols => if cols.contains column || cols.contains column.toLower then some (some t) else lookupLoop cat column rest

/-- `lookup_column` without `expect_match` (postgres.py 1372-1399). More than five candidates are put into a set first;
`setOrder` is its order of iteration. -/
def lookupColumn (setOrder : List Tab → List Tab) (cat : Catalog) (column : String) (candidates : List Tab) :
    Option (Option Tab) :=
  lookupLoop cat column (if candidates.length > 5 then setOrder candidates else candidates)

/-- `_fetch_indexes` (postgres.py 1583-1622): a dictionary of the rows, one for each index and column. -/
def fetchIndexes (cat : Catalog) (t : Tab) : Dict String Bool :=
  Dict.ofList ((cat.idxs.filter fun i => i.table == t.name && i.schema == schemaOf t).flatMap fun i =>
    i.cols.map fun c => (c, i.primary))

/-- `is_primary_key` (postgres.py 1401-1407). -/
def isPrimaryKey (cat : Catalog) (c : Col) : Option Bool :=
  if c.table.isVirtual then none else some ((Dict.get? (fetchIndexes cat c.table) c.name).getD false)

/-- `has_secondary_index` (postgres.py 1409-1421). -/
def hasSecondaryIndex (cat : Catalog) (c : Col) : Option Bool :=
  if c.table.isVirtual then none else some (!(Dict.get? (fetchIndexes cat c.table) c.name).getD true)

/-- `indexes_on` (postgres.py 1423-1447). -/
def indexesOn (cat : Catalog) (c : Col) : Option (List String) :=
  if c.table.isVirtual then none
  else some ((cat.idxs.filter fun i => i.table == c.table.name && i.cols.contains c.name && i.schema == schemaOf c.table).map
    (·.name))

/-- `foreign_keys_on` (postgres.py 1487-1516). -/
def foreignKeysOn (cat : Catalog) (c : Col) : Option (List Col) :=
  if c.table.isVirtual then none
  else some ((kcu cat).flatMap fun k =>
    ((tc cat).filter fun t => k.name == t.name && k.schema == t.schema).flatMap fun t =>
      ((ccu cat).filter fun u => k.name == u.name && k.schema == u.schema &&
          k.table == c.table.name && k.col == c.name && k.schema == schemaOf c.table && t.kind == .foreign).map
        fun u => ⟨u.col, ⟨u.table, "", false⟩⟩)

/-- The row that `fetchone` returns for a column (postgres.py 1524-1532, 1542-1550). -/
def columnRow (cat : Catalog) (c : Col) : Option ColRow :=
  (columnRows cat).find? fun r => r.table == c.table.name && r.col.name == c.name && r.schema == schemaOf c.table

/-- `datatype` (postgres.py 1518-1534). -/
def datatype (cat : Catalog) (c : Col) : Option String :=
  if c.table.isVirtual then none else (columnRow cat c).map (·.col.dtype)

/-- `is_nullable` (postgres.py 1536-1552). -/
def isNullable (cat : Catalog) (c : Col) : Option Bool :=
  if c.table.isVirtual then none else (columnRow cat c).map (·.col.nullable)

end Pg

/-! ### DuckDB (`DuckDBSchema`) -/

namespace Duck

/-- `foreign_keys_on` (duckdb.py 338-382): constraints of exactly one column. -/
def foreignKeysOn (cat : Catalog) (c : Col) : List Col :=
  (cat.cons.filter fun k => k.schema == Base.schemaOf cat c.table && k.table == c.table.name &&
      k.cols == [c.name] && k.kind == .foreign).filterMap fun k =>
    match k.refCols with
    | [] => none
    | x :: _ => some ⟨x, ⟨k.refTable, c.table.schema, false⟩⟩

end Duck

/-! ### The schema graph and join equivalences -/

/-- What the interfaces of a database system provide. -/
structure Iface where
  tables : List Tab
  isView : Tab → Bool
  /-- `primary_key_column`; the outer `none` is the error for composite keys. -/
  primaryKey : Tab → Option (Option Col)
  columns : Tab → List Col
  foreignKeysOn : Col → List Col

/-- The edges of the schema graph with their annotation. -/
abbrev FkEdges := Dict (Tab × Tab) (List (Col × Col))

/-- One iteration of the inner loop of `as_graph` (db/_db.py 1471-1478). -/
def addFk (g : FkEdges) (col target : Col) : FkEdges :=
  match Dict.get? g (col.table, target.table) with
  | some fks => Dict.set g (col.table, target.table) (fks ++ [(col, target)])
  | none => Dict.set g (col.table, target.table) [(col, target)]

/-- The nodes after the edges have been added: missing endpoints become nodes, too. -/
def addEndpoints (nodes : List Tab) (g : FkEdges) : List Tab := (nodes ++ g.flatMap fun e => [e.1.1, e.1.2]).dedup

/-- `as_graph` (db/_db.py 1441-1480): the nodes and the annotated edges; `none` is an error of `primary_key_column`.  The columns
form a set; its order of iteration is the order of the tables here.  The annotations of the nodes are left out. -/
def asGraph (s : Iface) : Option (List Tab × FkEdges) :=
  let nodes := s.tables.filter fun t => !s.isView t
  if nodes.any (fun t => (s.primaryKey t).isNone) then none
  else
    let cols := (nodes.flatMap s.columns).dedup
    let g := cols.foldl (fun g c => (s.foreignKeysOn c).foldl (fun g t => addFk g c t) g) []
    some (addEndpoints nodes g, g)

/-- The graph of `join_equivalence_keys` and `join_equivalence_classes` (db/_db.py 1499-1503, 1522-1526). -/
def eqGraph (s : Iface) : Nx.Graph Col :=
  (s.tables.flatMap s.columns).foldl
    (fun g c => (s.foreignKeysOn c).foldl (fun g t => g.addEdge c t) g) Nx.Graph.empty

/-- `join_equivalence_classes` (db/_db.py 1512-1527). -/
def joinEquivalenceClasses (s : Iface) : Finset (Finset Col) := (eqGraph s).components

/-- `join_equivalence_keys` (db/_db.py 1482-1510): the class of a column; `none` if it is not in the dictionary. -/
def joinEquivalenceKeys (s : Iface) (c : Col) : Option (Finset Col) :=
  if c ∈ (eqGraph s).nodes then some ((eqGraph s).component c) else none

end PB.Schema
