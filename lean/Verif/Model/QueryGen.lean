import Verif.Model.Walk

/-!
# The random query generator

Models `generate_query` and its helpers (postbound/experiments/querygen.py).  Tables are numbers, a column is its table and its
position.  The random choices of one iteration of the main loop are a record of functions (`Choices`); what the functions of the
module `random` guarantee is stated in the properties.  The walk through the schema graph is the one of `Verif.Model.Walk`.
-/

namespace PB.QGen

abbrev Col := Nat × Nat

/-- Values of a column; `none` is NULL. -/
inductive Val where
  | null
  | num (n : Int)
  | txt (s : String)
  deriving DecidableEq, Repr

/-- The operators of generated filters (querygen.py 102-107). -/
inductive Op where
  | eq | ne | gt | lt
  deriving DecidableEq, Repr

/-- The predicates that occur in generated queries. -/
inductive Pd where
  | join (a b : Col)
  | filter (c : Col) (op : Op) (v : Val)
  | conj (parts : List Pd)
  deriving Repr

/-- The schema graph of `DatabaseSchema.as_graph` (db/_db.py 1441-1480): tables, their columns, and for each pair of tables the
foreign keys (foreign key column, referenced column) from the first to the second.  There is an edge iff the list is not
empty.  `key` tells the columns that are primary or foreign keys, `numeric` those whose type satisfies `_is_numeric`
(querygen.py 136-147). -/
structure Sch where
  nodes : List Nat
  cols : Nat → List Nat
  fks : Nat → Nat → List (Col × Col)
  key : Col → Bool
  numeric : Col → Bool

/-- The arguments of `generate_query` (querygen.py 150-161). `system` are the tables whose name starts with `pg_`. -/
structure Opts where
  ignore : List Nat := []
  minTables : Option Nat := none
  maxTables : Option Nat := none
  minFilters : Option Nat := none
  maxFilters : Option Nat := none
  filterKeyColumns : Bool := true
  numericFilters : Bool := false
  postgres : Bool := false
  system : Nat → Bool := fun _ => false

/-- `x or d` for numbers -/
def orElse (x : Option Nat) (d : Nat) : Nat :=
  match x with
  | none => d
  | some 0 => d
  | some n => n

/-- The random choices of one iteration. -/
structure Choices where
  /-- `random.randint(min_tables, max_tables)` (querygen.py 257) -/
  nTables : Nat → Nat → Nat
  /-- the choices of the random walk (querygen.py 261) -/
  walk : Nat → List Nat → Nat
  /-- `random.choice(candidate_keys)` for a pair of tables (querygen.py 67) -/
  key : Nat → Nat → List (Col × Col) → Col × Col
  /-- `random.randint(min_filters, current_max_filters)` (querygen.py 299) -/
  nFilters : Nat → Nat → Nat
  /-- `random.sample(available_columns, n_filters)` (querygen.py 302) -/
  sample : List Col → Nat → List Col
  /-- the result of the query for the distinct values, possibly on a sample of the rows (querygen.py 114-125) -/
  distinct : Col → List Val
  /-- `random.choice(candidate_values)` (querygen.py 130) -/
  value : Col → List Val → Val
  /-- `random.choice(candidate_operators)` (querygen.py 131) -/
  op : Col → Op

/-- The graph without the ignored tables (querygen.py 227-235). -/
def prune (s : Sch) (o : Opts) : Sch :=
  { s with nodes := (s.nodes.filter fun t => !o.ignore.contains t).filter fun t => !(o.postgres && o.system t) }

/-- `schema_graph.to_undirected()` (querygen.py 261). -/
def undirected (s : Sch) : Walk.Graph where
  nodes := s.nodes
  adj t := s.nodes.filter fun u => !(s.fks t u).isEmpty || !(s.fks u t).isEmpty

/-- The join predicate between two tables (querygen.py 60-70). -/
def pairPredicate (s : Sch) (key : Nat → Nat → List (Col × Col) → Col × Col) (t u : Nat) : Option Pd :=
  if !(s.fks t u).isEmpty then
    let k := key t u (s.fks t u)
    some (.join k.2 k.1)
  else if !(s.fks u t).isEmpty then
    let k := key t u (s.fks u t)
    some (.join k.2 k.1)
  else none

/-- The loops of `_generate_join_predicates` (querygen.py 54-70). -/
def joinPredicates (s : Sch) (key : Nat → Nat → List (Col × Col) → Col × Col) : List Nat → List Pd
  | [] => []
  | t :: rest => rest.filterMap (pairPredicate s key t) ++ joinPredicates s key rest

/-- `CompoundPredicate.create_and` (qal/_qal.py 3170-3197); `none` is the error for no predicates. -/
def createAnd : List Pd → Option Pd
  | [] => none
  | [p] => some p
  | ps => some (.conj ps)

/-- Is a value false in Python? -/
def falsy : Val → Bool
  | .null => true
  | .num n => n == 0
  | .txt s => s == ""

/-- `if not candidate_values` (querygen.py 126): the result of the query has been simplified, a single value is no list. -/
def noCandidates : List Val → Bool
  | [] => true
  | [v] => falsy v
  | _ => false

/-- `_generate_filter` (querygen.py 79-133). -/
def generateFilter (c : Choices) (col : Col) : Option Pd :=
  if noCandidates (c.distinct col) then none
  else some (.filter col (c.op col) (c.value col (c.distinct col)))

/-- The columns that can be filtered (querygen.py 266-285). -/
def availableColumns (s : Sch) (o : Opts) (tables : List Nat) : List Col :=
  let cols := (s.nodes.filter fun t => tables.contains t).flatMap fun t => (s.cols t).map fun i => (t, i)
  let cols := if o.filterKeyColumns then cols else cols.filter fun x => !s.key x
  if o.numericFilters then cols.filter s.numeric else cols

/-- One part of the `WHERE` clause (querygen.py 319-326): note that the last case appends the join predicates. -/
def whereParts (joins part : Option Pd) : List (Option Pd) :=
  match part with
  | none => []
  | some (.conj ps) => ps.map some
  | some _ => [joins]

/-- `Where(create_and(where_parts)) if where_parts else None` (querygen.py 328-330). `none` is the `ValueError` for a missing
predicate; missing predicates in longer lists do not arise. -/
def whereClause (parts : List (Option Pd)) : Option (Option Pd) :=
  if parts.isEmpty then some none
  else (parts.mapM id).bind fun ps => (createAnd ps).map some

structure Query where
  tables : List Nat
  predicate : Option Pd
  deriving Repr

inductive Outcome where
  /-- the iteration ends with `continue` -/
  | retry
  /-- an exception ends the generator -/
  | error
  | query (q : Query)

/-- The bounds on the tables (querygen.py 237-245); `none` is the `ValueError`. -/
def tableBounds (s : Sch) (o : Opts) : Option (Nat × Nat) :=
  let lo := orElse o.minTables 1
  let hi := min (orElse o.maxTables s.nodes.length) s.nodes.length
  if hi < lo then none else some (lo, hi)

/-- The bounds on the filters (querygen.py 247-251). -/
def filterBounds (s : Sch) (o : Opts) : Nat × Nat :=
  (orElse o.minFilters 0, orElse o.maxFilters (s.nodes.flatMap s.cols).length)

/-- The joins of a query (querygen.py 288-292); the outer `none` is the `ValueError` of `_generate_join_predicates`. -/
def joinPart (s : Sch) (c : Choices) (n : Nat) (tables : List Nat) : Option (Option Pd) :=
  if n > 1 then
    let ps := joinPredicates s c.key tables
    if ps.isEmpty then none else some (createAnd ps)
  else some none

/-- The filters of a query (querygen.py 301-315). -/
def filterPart (c : Choices) (n : Nat) (available : List Col) : Option Pd :=
  if n > 0 && !available.isEmpty then createAnd ((c.sample available n).filterMap (generateFilter c)) else none

/-- One iteration of the main loop (querygen.py 256-333) over the pruned graph. -/
def iteration (s : Sch) (o : Opts) (bounds : Nat × Nat) (c : Choices) : Outcome :=
  let n := c.nTables bounds.1 bounds.2
  let tables := (Walk.randomWalk (undirected s) c.walk none).take n
  let available := availableColumns s o tables
  match joinPart s c n tables with
  | none => .error
  | some joins =>
    let fb := filterBounds s o
    let hi := min fb.2 available.length
    if hi ≤ fb.1 then .retry
    else
      let filters := filterPart c (c.nFilters fb.1 hi) available
      match whereClause (whereParts joins joins ++ whereParts joins filters) with
      | none => .error
      | some p => .query ⟨tables, p⟩

/-- `next(generate_query(…))` (querygen.py 150-333) for at most `fuel` iterations; iteration `i` makes the choices `cs i`.
`none` if no query has been produced after that. -/
def run (s : Sch) (o : Opts) (bounds : Nat × Nat) (cs : Nat → Choices) : (fuel i : Nat) → Option Outcome
  | 0, _ => none
  | fuel + 1, i =>
    match iteration s o bounds (cs i) with
    | .retry => run s o bounds cs fuel (i + 1)
    | r => some r

/-- The first query of the generator. -/
def generate (s : Sch) (o : Opts) (cs : Nat → Choices) (fuel : Nat) : Option Outcome :=
  let s := prune s o
  match tableBounds s o with
  | none => some .error
  | some b => run s o b cs fuel 0

end PB.QGen
