import Verif.Model.Dict

/-!
# Connections and the database pool

`DatabasePool` (postbound/db/_db.py:3234-3370), `connect` and `_reconnect` of all systems (postbound/postgres.py:2953-3172, postbound/duckdb.py:922-970, postbound/mysql.py:706-731). Database objects are
modelled by a number (their identity), the system and the parameters they have been connected with. Connections can break at any time. A new connection and a reset of a connection always succeed.
-/

namespace PB.Connect

/-- The systems. -/
inductive Sys
  | postgres | duckdb | mysql
  deriving DecidableEq, Repr

/-- A database object: its identity, its system and its target (connect string or file). -/
structure Inst where
  id : Nat
  sys : Sys
  target : String
  deriving DecidableEq, Repr

/-- The pool, the identity of the next object and the objects whose connections are broken. -/
structure World where
  pool : Dict String Inst
  next : Nat
  broken : List Nat

/-- A fresh interpreter (postbound/db/_db.py:3268-3269). -/
def World.empty : World := ⟨[], 0, []⟩

/-- `f"{orig_name} - {instance_idx}"` (postbound/postgres.py:3169). -/
def suffixed (name : String) (k : Nat) : String := name ++ " - " ++ Nat.repr k

/-- The loop that searches for an unused name (postbound/postgres.py:3166-3170); `none` if there are more than `fuel` iterations. -/
def freeName (pool : Dict String Inst) (orig : String) : Nat → String → Nat → Option String
  | 0, cur, _ => if pool.has cur then none else some cur
  | fuel + 1, cur, k => if pool.has cur then freeName pool orig fuel (suffixed orig k) (k + 1) else some cur

/-- `register_database` (postbound/db/_db.py:3296-3308). -/
def register (w : World) (key : String) (i : Inst) : World := { w with pool := w.pool.set key i }

/-- `_reconnect` (postbound/postgres.py:2953-2975, postbound/duckdb.py:922-936): the pooled object has to belong to the system; broken connections are re-established. -/
def reconnect (w : World) (sys : Sys) (name : String) : Option (Inst × World) :=
  match w.pool.get? name with
  | none => none
  | some i => if i.sys = sys then some (i, { w with broken := w.broken.filter (· ≠ i.id) }) else none

/-- `connect` for Postgres (postbound/postgres.py:3021-3172), given the connect string; `none` is an error. -/
def pgConnect (w : World) (name : String) (target : Option String) (refresh priv : Bool) : Option (Inst × World) :=
  if w.pool.has name && !refresh then reconnect w .postgres name
  else
    match target with
    | none => none
    | some t =>
      if priv then some (⟨w.next, .postgres, t⟩, { w with next := w.next + 1 })
      else
        match freeName w.pool name (w.pool.length + 1) name 2 with
        | none => none
        | some n => some (⟨w.next, .postgres, t⟩, register { w with next := w.next + 1 } n ⟨w.next, .postgres, t⟩)

/-- `connect` for DuckDB (postbound/duckdb.py:939-970). -/
def duckConnect (w : World) (name : String) (file : String) (refresh priv : Bool) : Option (Inst × World) :=
  if w.pool.has name && !refresh then reconnect w .duckdb name
  else if priv then some (⟨w.next, .duckdb, file⟩, { w with next := w.next + 1 })
  else some (⟨w.next, .duckdb, file⟩, register { w with next := w.next + 1 } name ⟨w.next, .duckdb, file⟩)

/-- `connect` for MySQL (postbound/mysql.py:706-731). -/
def mysqlConnect (w : World) (name : String) (target : Option String) (priv : Bool) : Option (Inst × World) :=
  match target with
  | none => none
  | some t =>
    if priv then some (⟨w.next, .mysql, t⟩, { w with next := w.next + 1 })
    else some (⟨w.next, .mysql, t⟩, register { w with next := w.next + 1 } name ⟨w.next, .mysql, t⟩)

/-- `current_database` (postbound/db/_db.py:3271-3288). -/
def current (w : World) : Option Inst := if w.pool.length ≠ 1 then none else w.pool.values.head?

/-- `any_database` (postbound/db/_db.py:3290-3294). -/
def anyDb (w : World) : Option Inst := w.pool.values.head?

/-- `clear` (postbound/db/_db.py:3344-3346). -/
def clear (w : World) : World := { w with pool := [] }

/-! ## Connect strings -/

/-- A text. -/
abbrev Text := List Char

/-- `f"{param} = '{value}'"` (postbound/postgres.py:3017, 3148). -/
def renderOne (p : Text × Text) : Text := p.1 ++ [' ', '=', ' ', '\''] ++ p.2 ++ ['\'']

/-- `" ".join(parts)` (postbound/postgres.py:3018, 3149). -/
def render : List (Text × Text) → Text
  | [] => []
  | [p] => renderOne p
  | p :: q :: l => renderOne p ++ ' ' :: render (q :: l)

/-- The environment variables and their parameters, in order (postbound/postgres.py:3135-3142). -/
def envVars : List (String × String) :=
  [("PGDATABASE", "dbname"), ("PGHOST", "host"), ("PGPORT", "port"), ("PGUSER", "user"), ("PGPASSWORD", "password"), ("PGPASSFILE", "passfile")]

/-- The parameters of the environment (postbound/postgres.py:3143-3148). -/
def envParams (env : String → Option Text) : List (Text × Text) :=
  envVars.filterMap fun e =>
    match env e.1 with
    | none => none
    | some v => if v = [] then none else some (e.2.toList, v)

/-- The content of a file, as far as it is relevant. -/
inductive File
  /-- a text without an extension: its first line, without surrounding spaces -/
  | plain (line : Text)
  /-- a dictionary of parameters (JSON, TOML, INI with one section, YAML) -/
  | params (l : List (Text × Text))
  /-- another extension, or an INI file with several sections -/
  | unsupported

/-- `_read_connection_from_file` (postbound/postgres.py:2989-3018). -/
def readFile : File → Option Text
  | .plain t => some t
  | .params l => some (render l)
  | .unsupported => none

/-- The search for the connect string (postbound/postgres.py:3115-3155). `connectString` is the argument without surrounding spaces, `configFile` the content of the file, if the argument is given and
the file exists; `default` is the first line of the file .psycopg_connection, if it exists. -/
def resolve (connectString : Text) (configFile : Option (Option File)) (default : Option Text) (env : String → Option Text) : Option Text :=
  if connectString ≠ [] then some connectString
  else
    match configFile with
    | some none => none
    | some (some f) => readFile f
    | none =>
      match default with
      | some t => some t
      | none => if (env "PGDATABASE").getD [] ≠ [] then some (render (envParams env)) else none

/-! ### The parser of libpq

This is no code of /repo: connect strings as documented by libpq, restricted to quoted values and to
spaces as the only kind of white space. -/

/-- Skip spaces. -/
def skip : Text → Text
  | ' ' :: t => skip t
  | t => t

/-- The name of a parameter: until a space or an equals sign. -/
def scanKey : Text → Text × Text
  | [] => ([], [])
  | c :: t => if c = ' ' ∨ c = '=' then ([], c :: t) else let r := scanKey t; (c :: r.1, r.2)

/-- A quoted value: a backslash escapes the next character. -/
def scanQuoted : Text → Option (Text × Text)
  | [] => none
  | '\'' :: t => some ([], t)
  | '\\' :: c :: t => (scanQuoted t).map fun r => (c :: r.1, r.2)
  | c :: t => (scanQuoted t).map fun r => (c :: r.1, r.2)

/-- The parameters of a connect string; the fuel is the length of the text. -/
def parse : Nat → Text → Option (List (Text × Text))
  | 0, t => if skip t = [] then some [] else none
  | n + 1, t =>
    match skip t with
    | [] => some []
    | c :: cs =>
      let k := scanKey (c :: cs)
      if k.1 = [] then none
      else
        match skip k.2 with
        | '=' :: t2 =>
          match skip t2 with
          | '\'' :: t3 =>
            match scanQuoted t3 with
            | none => none
            | some (v, rest) => (parse n rest).map ((k.1, v) :: ·)
          | _ => none
        | _ => none

end PB.Connect
